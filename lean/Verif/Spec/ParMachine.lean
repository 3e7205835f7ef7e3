import Verif.Model.ParMachineField
import Verif.Spec.MachineAgents

/-!
Specification of the continuous field of the feature `parallel` on every `f32`. Programs are lists of calls, newest first; `cell` says which positions are shown together.
-/

namespace Verif.ParMachine

open Machine
open Torus (Pos)

variable {O I : Type} [DecidableEq I]

/-- The placements since the latest `lazy_update`, oldest first. -/
def placements : List (ROpF O) → List (O × PosF)
  | [] => []
  | .place o l :: h => placements h ++ [(o, l)]
  | .lazyUpdate :: _ => []
  | .update :: h => placements h

/-- The objects placed in the cell of `q`, oldest first. -/
def placedIn (cell : PosF → Int × Int) (ps : List (O × PosF)) (q : PosF) : List O := (ps.filter (fun p => decide (cell p.2 = cell q))).map Prod.fst

/-- What is published in the cell of `q`. -/
def publishedIn (cell : PosF → Int × Int) : List (ROpF O) → PosF → List O
  | [], _ => []
  | .place _ _ :: h, q => publishedIn cell h q
  | .lazyUpdate :: h, q => placedIn cell (placements h) q
  | .update :: h, q => if placedIn cell (placements h) q = [] then publishedIn cell h q else placedIn cell (placements h) q

/-- The latest placement of the object with this identity. -/
def latest (ident : O → I) (ps : List (O × PosF)) (i : I) : Option (O × PosF) := ps.reverse.find? (fun p => decide (ident p.1 = i))

/-- The published placement of the object with this identity. -/
def publishedOf (ident : O → I) : List (ROpF O) → I → Option (O × PosF)
  | [], _ => none
  | .place _ _ :: h, i => publishedOf ident h i
  | .lazyUpdate :: h, i => latest ident (placements h) i
  | .update :: h, i => (latest ident (placements h) i).or (publishedOf ident h i)

/-- The call is a placement at numbers in the field or a `lazy_update`. -/
def PlaceLazy (w h : Rat) : ROpF O → Prop
  | .place _ l => Inside w h l
  | .lazyUpdate => True
  | .update => False

/-- The same call on the field without the feature. -/
def toSeq : ROpF O → OpF O
  | .place o l => .place o l
  | .update => .update
  | .lazyUpdate => .lazyUpdate

/-- A field of the feature `parallel` shows a population: at every position the agents whose cell it is in. -/
def ShowsAll {B : Type} (rnd : Rat → Rat) (cell : Pos → Int × Int) (loc : B → PosF) (w h : Rat) (f : PFieldF B I) (pop : List B) : Prop :=
  ∀ x y : Rat, 0 ≤ x → x ≤ w → 0 ≤ y → y ≤ h → ∃ l, getObjects rnd f ⟨.fin x, .fin y⟩ = some l ∧
    l.Perm (pop.filter (fun b => decide (cell ⟨number (loc b).x, number (loc b).y⟩ = cell ⟨x, y⟩)))

/-- The capacity asked for by every search with this reach fits a vector, also if only one agent is published. -/
def Affordable (rnd : Rat → Rat) (size : Nat) (w h reach : Rat) : Prop :=
  size * ((rnd (w * h)).floor.toNat * (rnd (reach * reach)).floor.toNat) < 2 ^ 63 ∧ (rnd (w * h)).floor.toNat * (rnd (reach * reach)).floor.toNat < 2 ^ 64

end Verif.ParMachine
