import Verif.Model.Grid

/-!
Specification of the double-buffered grids. Two views: a pair of plain maps from locations (published and
current), and, for a program, what was written last (no state at all).
-/

namespace Verif.Grid

/-- The location is inside a `width` by `height` grid. -/
def InRange (width height : Int) (l : Loc) : Prop := 0 ≤ l.x ∧ l.x < width ∧ 0 ≤ l.y ∧ l.y < height

instance (w h : Int) (l : Loc) : Decidable (InRange w h l) := by unfold InRange; exact inferInstance

/-- Function update at one location. -/
def upd {α : Type} (f : Loc → α) (l : Loc) (a : α) : Loc → α := fun l' => if l' = l then a else f l'

/-- The calls of a program that change a number grid. -/
inductive NumOp (T : Type) where
  | set (v : T) (l : Loc)
  | remove (l : Loc)
  | update
  | lazyUpdate
  | apply (f : T → T) (o : GridOption)

/-- What was written to `l` since the last update; the newest call is first in the list. -/
def lastWritten {T : Type} : List (NumOp T) → Loc → Option T
  | [], _ => none
  | .set v l' :: h, l => if l = l' then some v else lastWritten h l
  | .remove l' :: h, l => if l = l' then none else lastWritten h l
  | .update :: _, _ => none
  | .lazyUpdate :: _, _ => none
  | .apply _ _ :: h, l => lastWritten h l

/-- What was written to `l` last before the most recent update; the newest call is first in the list. -/
def lastPublished {T : Type} : List (NumOp T) → Loc → Option T
  | [], _ => none
  | .update :: h, l => lastWritten h l
  | .lazyUpdate :: h, l => lastWritten h l
  | .set _ _ :: h, l => lastPublished h l
  | .remove _ :: h, l => lastPublished h l
  | .apply _ _ :: h, l => lastPublished h l

/-- The call is one of set, remove, update, lazy_update, at a location inside the grid. -/
def NumOp.InRange {T : Type} (w h : Int) : NumOp T → Prop
  | .set _ l => Grid.InRange w h l
  | .remove l => Grid.InRange w h l
  | _ => True

/-- The call is not `apply_to_all_values`. -/
def NumOp.Plain {T : Type} : NumOp T → Prop
  | .apply _ _ => False
  | _ => True

/-- `c` comes before `l` column by column. -/
def Before (c l : Loc) : Prop := c.x < l.x ∨ (c.x = l.x ∧ c.y < l.y)

/-- The answer `r` of a search for the cells satisfying `P`: none iff there is none, else the first one. -/
def FirstCell (w h : Int) (P : Loc → Prop) (r : Option Loc) : Prop :=
  (r = none ↔ ∀ l, InRange w h l → ¬ P l) ∧
  ∀ c, r = some c → InRange w h c ∧ P c ∧ ∀ l, InRange w h l → P l → l = c ∨ Before c l

end Verif.Grid
