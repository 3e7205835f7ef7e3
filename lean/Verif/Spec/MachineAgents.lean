import Verif.Model.MachineFlockers
import Verif.Spec.Single
import Verif.Spec.Arranged

/-!
Specification of simulations in a field with machine floats.
-/

namespace Verif.Machine

open Torus (Pos)
open DenseI32 (Mode)

/-- A position that is a pair of numbers in the field. -/
def Inside (w h : Rat) (p : PosF) : Prop := ∃ x y : Rat, p = ⟨.fin x, .fin y⟩ ∧ 0 ≤ x ∧ x ≤ w ∧ 0 ≤ y ∧ y ≤ h

/-- The numbers in a position; 0 for what is none. -/
def number : F → Rat
  | .fin q => q
  | _ => 0

/-- What an agent sees: the answer of a field into which exactly these agents were placed, each at its position, and published. -/
def answer {B : Type} [DecidableEq B] (rnd root : Rat → Rat) (m : Mode) (w h d : Rat) (t : Bool) (loc : B → PosF) (reach : B → F) (pop : List B) (b : B) : List B :=
  (((new rnd m (.fin w) (.fin h) (.fin d) t : Option (FieldF B)).bind
      (fun f => run rnd m f (.lazyUpdate :: (pop.map (fun b => .place b (loc b))).reverse))).bind
    (fun f => getNeighborsWithinDistance rnd root m f loc (loc b) (reach b))).getD []

/-- A field shows a population: at every position the agents whose cell it is in. -/
def ShowsAll {B : Type} [DecidableEq B] (rnd : Rat → Rat) (m : Mode) (cell : Pos → Int × Int) (loc : B → PosF) (w h : Rat) (f : FieldF B) (pop : List B) : Prop :=
  ∀ x y : Rat, 0 ≤ x → x ≤ w → 0 ≤ y → y ≤ h → ∃ l, getObjects rnd m f ⟨.fin x, .fin y⟩ = some l ∧
    l.Perm (pop.filter (fun b => decide (cell ⟨number (loc b).x, number (loc b).y⟩ = cell ⟨x, y⟩)))

/-- A draw of `rng.gen::<f32>()`, a multiple of 2^-24 below 1, twice; not both 1/2. -/
def Draw (r : Rat × Rat) : Prop :=
  ∃ k l : Nat, k < 2 ^ 24 ∧ l < 2 ^ 24 ∧ r = ((k : Rat) / 2 ^ 24, (l : Rat) / 2 ^ 24) ∧ ¬ (k = 2 ^ 23 ∧ l = 2 ^ 23)

/-- A bird in the world: its position is a pair of singles in the world, its last move a pair of singles up to 32. -/
def GoodBird (w h : Rat) (b : BirdF) : Prop :=
  ∃ x y u v : Rat, b.pos = ⟨.fin x, .fin y⟩ ∧ b.lastD = ⟨.fin u, .fin v⟩ ∧ 0 ≤ x ∧ x ≤ w ∧ 0 ≤ y ∧ y ≤ h ∧ |u| ≤ 32 ∧ |v| ≤ 32 ∧
    Single.IsF32 x ∧ Single.IsF32 y ∧ Single.IsF32 u ∧ Single.IsF32 v

end Verif.Machine
