import Verif.Model.Fl

/-!
What the containers require of the keys they are given (the contracts of `Ord`, `Eq` and `Hash` in Rust's standard library), and the order
in which agents should run.
-/

namespace Verif.Keys

/-- The contract of `Ord` with `Eq`, for the values that satisfy `ok`. -/
structure OrdLaws {P : Type} (ok : P → Prop) (cmp : P → P → Ordering) (eq : P → P → Bool) : Prop where
  refl : ∀ a, ok a → cmp a a = .eq
  swap : ∀ a b, ok a → ok b → cmp b a = (cmp a b).swap
  trans : ∀ a b c, ok a → ok b → ok c → cmp a b ≠ .lt → cmp b c ≠ .lt → cmp a c ≠ .lt
  eq_iff : ∀ a b, ok a → ok b → (cmp a b = .eq ↔ eq a b = true)

/-- The contract of `Eq`. -/
structure EqLaws {P : Type} (ok : P → Prop) (eq : P → P → Bool) : Prop where
  refl : ∀ a, ok a → eq a a = true
  symm : ∀ a b, ok a → ok b → eq a b = true → eq b a = true
  trans : ∀ a b c, ok a → ok b → ok c → eq a b = true → eq b c = true → eq a c = true

/-- The contract of `Hash` with `Eq`. -/
def HashLaw {P H : Type} (eq : P → P → Bool) (hash : P → H) : Prop := ∀ a b, eq a b = true → hash a = hash b

/-- The order of numbers, without NaN. -/
def before : Fl → Fl → Prop
  | .ninf, .fin _ => True
  | .ninf, .pinf => True
  | .fin a, .fin b => a < b
  | .fin _, .pinf => True
  | _, _ => False

end Verif.Keys
