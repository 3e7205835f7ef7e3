import Verif.Spec.Hashes
import Verif.Spec.Mirror

/-!
The two axes exchanged, under the feature `parallel`.
-/

namespace Verif.ParGrid

open Grid

variable {T O I : Type} [DecidableEq I]

/-- The call at the location with its coordinates exchanged. -/
def NOp.mirror : NOp T → NOp T
  | .set v l => .set v l.mirror
  | .update => .update
  | .lazyUpdate => .lazyUpdate
  | .apply f opt => .apply f opt

/-- The call at the location with its coordinates exchanged. -/
def POp.mirror : POp O → POp O
  | .place o l => .place o l.mirror
  | .remove o => .remove o
  | .removeAt o l => .removeAt o l.mirror
  | .update => .update
  | .lazyUpdate => .lazyUpdate
  | .apply f opt => .apply (fun l o => f l.mirror o) opt

/-- If it is a closure, it leaves the objects their identities. -/
def POp.KeepsIdentity (ident : O → I) : POp O → Prop
  | .apply f _ => ParGrid.KeepsIdentity ident f
  | _ => True

/-- The answers of a number grid and of the one with the axes exchanged. -/
structure NGrid.MirrorAnswers (g g' : NGrid T) : Prop where
  value : ∀ l, g'.getValue l.mirror = g.getValue l
  valueUnbuffered : ∀ l, g'.getValueUnbuffered l.mirror = g.getValueUnbuffered l

/-- The answers of an object grid and of the one with the axes exchanged. -/
structure OGrid.MirrorAnswers (ident : O → I) (g g' : OGrid O I) : Prop where
  get : ∀ o, g'.get ident o = g.get ident o
  location : ∀ o, g'.getLocation ident o = (g.getLocation ident o).map (Option.map Loc.mirror)
  locationUnbuffered : ∀ o, g'.getLocationUnbuffered ident o = (g.getLocationUnbuffered ident o).map (Option.map Loc.mirror)
  unbuffered : ∀ o, g'.getUnbuffered ident o = g.getUnbuffered ident o
  objects : ∀ l, g'.getObjects l.mirror = g.getObjects l
  objectsUnbuffered : ∀ l, g'.getObjectsUnbuffered l.mirror = g.getObjectsUnbuffered l
  empty : ∃ es es', g.getEmptyBags = some es ∧ g'.getEmptyBags = some es' ∧ es'.Perm (es.map Loc.mirror)
  iter : ∃ is is', g.iterObjects = some is ∧ g'.iterObjects = some is' ∧ is'.Perm (is.map (fun e => (e.1.mirror, e.2)))

end Verif.ParGrid

namespace Verif.ParField2D

open Grid Torus ParGrid

variable {O I : Type} [DecidableEq I]

/-- The call at the position with its coordinates exchanged. -/
def ROp.mirror : ROp O → ROp O
  | .place o l => .place o l.mirror
  | .update => .update
  | .lazyUpdate => .lazyUpdate

/-- The answers of a field and of the one with the axes exchanged; the neighbours may come in another order. -/
structure PField.MirrorAnswers (ident : O → I) (f f' : PField O I) : Prop where
  get : ∀ o, f'.get ident o = f.get ident o
  location : ∀ o, f'.getLocation ident o = (f.getLocation ident o).map (Option.map Pos.mirror)
  locationUnbuffered : ∀ o, f'.getLocationUnbuffered ident o = (f.getLocationUnbuffered ident o).map (Option.map Pos.mirror)
  unbuffered : ∀ o, f'.getUnbuffered ident o = f.getUnbuffered ident o
  objects : ∀ p, f'.getObjects p.mirror = f.getObjects p
  number : f'.numObjects = f.numObjects
  numberAt : ∀ p, f'.numObjectsAtLocation p.mirror = f.numObjectsAtLocation p
  near : ∀ (locOf : O → Pos) (p : Pos) (dist : Rat), Both List.Perm (f.getNeighborsWithinDistance locOf p dist)
    (f'.getNeighborsWithinDistance (fun o => (locOf o).mirror) p.mirror dist)
  around : ∀ (p : Pos) (dist : Rat), Both List.Perm (f.getNeighborsWithinRelaxDistance p dist)
    (f'.getNeighborsWithinRelaxDistance p.mirror dist)

end Verif.ParField2D
