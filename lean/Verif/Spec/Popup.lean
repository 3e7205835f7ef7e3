import Verif.Model.Popup

/-!
What is assumed of the layout of `tui`, and what a centred piece is.
-/

namespace Verif.Popup

/-- The pieces of an area that starts at `start + before / 100` and has `length` cells in all: every piece starts where the exact
pieces before it end and has its share, both rounded down. -/
def shares (start length : Nat) : Nat → List Nat → List (Nat × Nat)
  | _, [] => []
  | before, p :: ps => (start + before * length / 100, p * length / 100) :: shares start length (before + p) ps

/-- What `tui` does when the percentages are consistent: if they add up to 100, the pieces have exactly their shares, rounded down.
The products must fit in 16 bits. (Nothing is assumed of percentages that do not add up to 100.) -/
def ByShares (split : Split) : Prop :=
  ∀ start length ps, ps.sum = 100 → (∀ p ∈ ps, p * length < 65536) →
    ∃ pieces, split start length ps = some pieces ∧
      pieces.take (ps.length - 1) = (shares start length 0 ps).take (ps.length - 1)

/-- A piece `[s, s + l)` is within `[start, start + length)`, and the space after it is at most two cells more than the space before
it, never less. -/
def Centred (s l start length : Nat) : Prop :=
  start ≤ s ∧ s + l ≤ start + length ∧ s - start ≤ start + length - (s + l) ∧ start + length - (s + l) ≤ s - start + 2

end Verif.Popup
