import Verif.Spec.Field2D

/-!
Specification of C241: being neighbours is mutual.
-/

namespace Verif.Field2D

open Torus

variable {O : Type} [BEq O]

/-- `search` finds `b` where `a` is exactly if it finds `a` where `b` is; both searches come to an end. -/
def Mutual (search : Pos → Option (List O)) (locOf : O → Pos) (a b : O) : Prop :=
  ∃ r r', search (locOf a) = some r ∧ search (locOf b) = some r' ∧ (b ∈ r ↔ a ∈ r')

/-- A position of the field off its upper borders. -/
def OffBorder (w h : Rat) (p : Pos) : Prop := 0 ≤ p.x ∧ p.x < w ∧ 0 ≤ p.y ∧ p.y < h

/-- A corner of the `d` by `d` square of `p` (cut at the borders) is within `r` of `q`. -/
def CornerWithin (tor : Bool) (w h d : Rat) (p q : Pos) (r : Rat) : Prop :=
  ∃ c : Pos, (c.x = (p.x / d).floor * d ∨ c.x = min ((p.x / d).floor * d + d) w) ∧
    (c.y = (p.y / d).floor * d ∨ c.y = min ((p.y / d).floor * d + d) h) ∧ Within tor w h c q r

end Verif.Field2D
