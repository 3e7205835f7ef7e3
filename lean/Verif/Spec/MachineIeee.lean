import Verif.Model.Machine

/-! What the operations on `f32` are meant to be, apart from the way they are written down in Model/Machine. -/

namespace Verif.Machine

/-- A rational number stands for the value up to `1 / B`; for an infinity all numbers beyond `B` do. -/
def Close (B : Rat) : F → Rat → Prop
  | .nan, _ => False
  | .inf false, x => B ≤ x
  | .inf true, x => x ≤ -B
  | .fin q, x => |x - q| ≤ 1 / B

/-- `c` is the limit of `f` at the arguments `a` and `b`. -/
def Limit (f : Rat → Rat → Rat) (a b c : F) : Prop := ∀ B, 0 < B → ∃ B', 0 < B' ∧ ∀ x y, Close B' a x → Close B' b y → Close B c (f x y)

/-- `c` is the limit of `f` at the argument `a`. -/
def Limit1 (f : Rat → Rat) (a c : F) : Prop := ∀ B, 0 < B → ∃ B', 0 < B' ∧ ∀ x, Close B' a x → Close B c (f x)

/-- An infinity takes part. -/
def Infinite (a b : F) : Prop := a ≠ .nan ∧ b ≠ .nan ∧ ((∃ s, a = .inf s) ∨ ∃ s, b = .inf s)

/-- The result where an infinity takes part: the limit, and NaN where there is none. -/
def Extends (f : Rat → Rat → Rat) (op : F → F → F) : Prop :=
  ∀ a b, Infinite a b → (op a b ≠ .nan ∧ Limit f a b (op a b)) ∨ (op a b = .nan ∧ ∀ c, ¬ Limit f a b c)

end Verif.Machine
