import Verif.Spec.ParOthers
import Verif.Spec.Reorder

/-!
Under the feature `parallel`: programs that differ in the order of calls about different objects.
-/

namespace Verif.ParGrid

open Grid

variable {O I : Type} [DecidableEq I]

/-- The object a call places or removes. -/
def POp.object : POp O → Option O
  | .place o _ => some o
  | .remove o => some o
  | .removeAt o _ => some o
  | _ => none

/-- Both calls place or remove an object, and the objects are different. -/
def POp.Independent (ident : O → I) (a b : POp O) : Prop := ∃ x y, a.object = some x ∧ b.object = some y ∧ ident x ≠ ident y

/-- The answers of two grids: the same up to the order of objects within a cell. -/
structure OGrid.SameAnswers (ident : O → I) (g g' : OGrid O I) : Prop where
  get : ∀ o, g'.get ident o = g.get ident o
  location : ∀ o, g'.getLocation ident o = g.getLocation ident o
  locationUnbuffered : ∀ o, g'.getLocationUnbuffered ident o = g.getLocationUnbuffered ident o
  unbuffered : ∀ o, g'.getUnbuffered ident o = g.getUnbuffered ident o
  objects : ∀ l, ∃ a a', g.getObjects l = some a ∧ g'.getObjects l = some a' ∧ SameBag a a'
  objectsUnbuffered : ∀ l, ∃ a a', g.getObjectsUnbuffered l = some a ∧ g'.getObjectsUnbuffered l = some a' ∧ SameBag a a'
  empty : g'.getEmptyBags = g.getEmptyBags
  random : ∀ draws, g'.getRandomEmptyBag draws = g.getRandomEmptyBag draws
  iter : ∃ a a', g.iterObjects = some a ∧ g'.iterObjects = some a' ∧ a.Perm a'

end Verif.ParGrid

namespace Verif.ParField2D

open Grid Torus ParGrid

variable {O I : Type} [DecidableEq I]

/-- Both calls place an object, and the objects are different. -/
def ROp.Independent (ident : O → I) (a b : ROp O) : Prop := ∃ x l y m, a = .place x l ∧ b = .place y m ∧ ident x ≠ ident y

/-- The answers of two fields: the same up to the order of objects within a square. -/
structure PField.SameAnswers (ident : O → I) (f f' : PField O I) : Prop where
  get : ∀ o, f'.get ident o = f.get ident o
  location : ∀ o, f'.getLocation ident o = f.getLocation ident o
  locationUnbuffered : ∀ o, f'.getLocationUnbuffered ident o = f.getLocationUnbuffered ident o
  unbuffered : ∀ o, f'.getUnbuffered ident o = f.getUnbuffered ident o
  objects : ∀ p, ∃ a a', f.getObjects p = some a ∧ f'.getObjects p = some a' ∧ a.Perm a'
  number : f'.numObjects = f.numObjects
  numberAt : ∀ p, f'.numObjectsAtLocation p = f.numObjectsAtLocation p
  near : ∀ (locOf : O → Pos) (p : Pos) (dist : Rat),
    Both List.Perm (f.getNeighborsWithinDistance locOf p dist) (f'.getNeighborsWithinDistance locOf p dist)
  around : ∀ (p : Pos) (dist : Rat),
    Both List.Perm (f.getNeighborsWithinRelaxDistance p dist) (f'.getNeighborsWithinRelaxDistance p dist)

end Verif.ParField2D
