import Verif.Spec.Hashes
import Verif.Spec.Others

/-!
Under the feature `parallel`: what a program says about some of its objects (those whose identity is in a set `Q`), or about some of
the cells of a number grid, compared with the program without the calls about the other ones.
-/

namespace Verif.ParGrid

open Grid

variable {T O I : Type} [DecidableEq I]

/-- The call is about an object of the set, or about no particular object. -/
def POp.about (ident : O → I) (Q : I → Bool) : POp O → Bool
  | .place o _ => Q (ident o)
  | .remove o => Q (ident o)
  | .removeAt o _ => Q (ident o)
  | _ => true

/-- The calls of a program that are about the objects of the set. -/
def pAbout (ident : O → I) (Q : I → Bool) (hist : List (POp O)) : List (POp O) := hist.filter (fun op => op.about ident Q)

/-- The closures of `apply_to_all_values` leave the objects their identities. -/
def POp.Keeps (ident : O → I) : POp O → Prop
  | .apply f _ => KeepsIdentity ident f
  | _ => True

/-- The call is `update`. -/
def POp.isUpdate : POp O → Bool
  | .update => true
  | _ => false

/-- The call is `remove_object`. -/
def POp.isRemove : POp O → Bool
  | .remove _ => true
  | _ => false

/-- The second grid says the same of the objects of the set as the first one: what they are and where they are. -/
structure OGrid.SamePlaces (ident : O → I) (Q : I → Bool) (g g' : OGrid O I) : Prop where
  get : ∀ o, Q (ident o) = true → g'.get ident o = g.get ident o
  location : ∀ o, Q (ident o) = true → g'.getLocation ident o = g.getLocation ident o
  locationUnbuffered : ∀ o, Q (ident o) = true → g'.getLocationUnbuffered ident o = g.getLocationUnbuffered ident o
  none : ∀ o, Q (ident o) = false → g'.getLocation ident o = some Option.none

/-- The bags of the second grid are those of the first one without the other objects. -/
structure OGrid.SameBags (ident : O → I) (Q : I → Bool) (g g' : OGrid O I) : Prop where
  objects : ∀ l, g'.getObjects l = (g.getObjects l).map (only (fun x => Q (ident x)))
  objectsUnbuffered : ∀ l, g'.getObjectsUnbuffered l = (g.getObjectsUnbuffered l).map (only (fun x => Q (ident x)))
  unbuffered : ∀ o a a', Q (ident o) = true → g.getUnbuffered ident o = some a → g'.getUnbuffered ident o = some a' → a' = a
  iter : g'.iterObjects = g.iterObjects.map (List.filter (fun e => Q (ident e.2)))

/-- The call is about a cell of the set, or about no particular cell. -/
def NOp.about (Q : Loc → Bool) : NOp T → Bool
  | .set _ l => Q l
  | _ => true

end Verif.ParGrid

namespace Verif.ParField2D

open Grid Torus ParGrid

variable {O I : Type} [DecidableEq I]

/-- The call is about an object of the set, or about no particular object. -/
def ROp.about (ident : O → I) (Q : I → Bool) : ROp O → Bool
  | .place o _ => Q (ident o)
  | _ => true

/-- The call is `update`. -/
def ROp.isUpdate : ROp O → Bool
  | .update => true
  | _ => false

/-- The second field says the same of the objects of the set as the first one: what they are and where they are. -/
structure PField.SamePlaces (ident : O → I) (Q : I → Bool) (f f' : PField O I) : Prop where
  get : ∀ o, Q (ident o) = true → f'.get ident o = f.get ident o
  location : ∀ o, Q (ident o) = true → f'.getLocation ident o = f.getLocation ident o
  locationUnbuffered : ∀ o, Q (ident o) = true → f'.getLocationUnbuffered ident o = f.getLocationUnbuffered ident o
  none : ∀ o, Q (ident o) = false → f'.getLocation ident o = some Option.none

/-- The bags of the second field and what it finds in them are those of the first one without the other objects; the searches of a
field without any object panic. -/
structure PField.SameBags (ident : O → I) (Q : I → Bool) (f f' : PField O I) : Prop where
  objects : ∀ p, f'.getObjects p = (f.getObjects p).map (List.filter (fun x => Q (ident x)))
  near : ∀ (locOf : O → Pos) (p : Pos) (dist : Rat), f'.numObjects ≠ 0 →
    f'.getNeighborsWithinDistance locOf p dist = (f.getNeighborsWithinDistance locOf p dist).map (List.filter (fun x => Q (ident x)))
  around : ∀ (p : Pos) (dist : Rat), f'.numObjects ≠ 0 →
    f'.getNeighborsWithinRelaxDistance p dist = (f.getNeighborsWithinRelaxDistance p dist).map (List.filter (fun x => Q (ident x)))

end Verif.ParField2D
