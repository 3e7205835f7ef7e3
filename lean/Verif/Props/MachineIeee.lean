import Verif.Lemmas.MachineIeee

/-!
The arithmetic of `f32` on which C181–C187 and C192–C194 rest is that of IEEE 754 and of the Rust reference, apart from the zero with a
sign.
-/

namespace Verif.Machine

/-- C181, the operations: where an infinity takes part the result is the limit, or NaN where there is none; a number divided by zero
is taken from the right; between numbers the result is the nearest single, or an infinity beyond the largest; a NaN goes through. -/
theorem C181_arithmetic_partial {rnd : Rat → Rat} (hr : Single.Rounding rnd) (root : Rat → Rat) :
    Extends (· + ·) (add rnd) ∧ Extends (· - ·) (sub rnd) ∧ Extends (· * ·) (mul rnd) ∧
    (∀ a b, Infinite a b → b ≠ .fin 0 →
      (div rnd a b ≠ .nan ∧ Limit (· / ·) a b (div rnd a b)) ∨ (div rnd a b = .nan ∧ ∀ c, ¬ Limit (· / ·) a b c)) ∧
    (∀ a, a ≠ .nan → (a = .fin 0 ∧ div rnd a (.fin 0) = .nan) ∨
      (a ≠ .fin 0 ∧ ∀ B, 0 < B → ∃ B', 0 < B' ∧ ∀ x y, Close B' a x → Close B' (.fin 0) y → 0 < y →
        Close B (div rnd a (.fin 0)) (x / y))) ∧
    (∀ a, a ≠ .nan → Limit1 (fun x => -x) a (neg a) ∧ Limit1 (fun x => |x|) a (abs a)) ∧
    (∀ q : Rat, (|q| < (2 ^ 24 - 1 / 2) * 2 ^ 104 → ∃ r, ofRat rnd q = .fin r ∧ Single.IsF32 r ∧ |r| ≤ (2 ^ 24 - 1) * 2 ^ 104 ∧
        ∀ y, Single.IsF32 y → |r - q| ≤ |y - q|) ∧
      ((2 ^ 24 - 1 / 2) * 2 ^ 104 < q → ofRat rnd q = .inf false) ∧ (q < -((2 ^ 24 - 1 / 2) * 2 ^ 104) → ofRat rnd q = .inf true)) ∧
    (∀ p q : Rat, add rnd (.fin p) (.fin q) = ofRat rnd (p + q) ∧ sub rnd (.fin p) (.fin q) = ofRat rnd (p - q) ∧
      mul rnd (.fin p) (.fin q) = ofRat rnd (p * q) ∧ (q ≠ 0 → div rnd (.fin p) (.fin q) = ofRat rnd (p / q))) ∧
    (∀ a, add rnd .nan a = .nan ∧ add rnd a .nan = .nan ∧ sub rnd .nan a = .nan ∧ sub rnd a .nan = .nan ∧
      mul rnd .nan a = .nan ∧ mul rnd a .nan = .nan ∧ div rnd .nan a = .nan ∧ div rnd a .nan = .nan ∧ rem .nan a = .nan ∧
      rem a .nan = .nan ∧ sqrt root .nan = .nan ∧ abs .nan = .nan ∧ floor .nan = .nan ∧ ceil .nan = .nan) :=
  ⟨ieee_add rnd, ieee_sub rnd, ieee_mul rnd, ieee_div rnd, ieee_div_zero rnd, fun a h => ⟨(ieee_neg a h).1, ieee_abs a h⟩,
    ieee_ofRat hr, ieee_finite rnd, ieee_nan rnd root⟩

/-- C181, comparisons and conversions: `<` means that all numbers close enough to the one are below all numbers close enough to the
other, nothing is comparable to NaN; casts truncate towards zero and saturate, NaN becomes 0. -/
theorem C181_conversions_partial :
    (∀ a b, lt a b = true ↔ a ≠ .nan ∧ b ≠ .nan ∧ ∃ B, 0 < B ∧ ∀ x y, Close B a x → Close B b y → x < y) ∧
    (∀ a b, le a b = true ↔ a ≠ .nan ∧ b ≠ .nan ∧ (a = b ∨ lt a b = true)) ∧
    (∀ a b, (a = .nan → min a b = b) ∧ (b = .nan → min a b = a) ∧
      (a ≠ .nan → b ≠ .nan → (min a b = a ∨ min a b = b) ∧ le (min a b) a = true ∧ le (min a b) b = true)) ∧
    (∀ (q : Rat) (s : Bool), (∃ n : Int, floor (.fin q) = .fin n ∧ (n : Rat) ≤ q ∧ q < n + 1) ∧
      (∃ n : Int, ceil (.fin q) = .fin n ∧ (n : Rat) - 1 < q ∧ q ≤ n) ∧ floor (.inf s) = .inf s ∧ ceil (.inf s) = .inf s) ∧
    (toI32 .nan = 0 ∧ toI32 (.inf false) = 2147483647 ∧ toI32 (.inf true) = -2147483648 ∧
      ∀ q : Rat, (2147483647 ≤ q → toI32 (.fin q) = 2147483647) ∧ (q ≤ -2147483648 → toI32 (.fin q) = -2147483648) ∧
        (0 ≤ q → q < 2147483648 → (toI32 (.fin q) : Rat) ≤ q ∧ q < toI32 (.fin q) + 1) ∧
        (q ≤ 0 → -2147483649 < q → q ≤ toI32 (.fin q) ∧ (toI32 (.fin q) : Rat) - 1 < q)) ∧
    (toUsize .nan = 0 ∧ toUsize (.inf false) = 18446744073709551615 ∧ toUsize (.inf true) = 0 ∧
      ∀ q : Rat, (18446744073709551615 ≤ q → toUsize (.fin q) = 18446744073709551615) ∧ (q ≤ 0 → toUsize (.fin q) = 0) ∧
        (0 ≤ q → q < 18446744073709551616 → (toUsize (.fin q) : Rat) ≤ q ∧ q < toUsize (.fin q) + 1)) ∧
    (∀ p q : Rat, q ≠ 0 → ∀ (s : Bool) (a : F),
      (∃ (r : Rat) (n : Int), rem (.fin p) (.fin q) = .fin r ∧ p = q * n + r ∧ |r| < |q| ∧ (0 ≤ p → 0 ≤ r) ∧ (p ≤ 0 → r ≤ 0)) ∧
      rem (.fin p) (.fin 0) = .nan ∧ rem (.fin p) (.inf s) = .fin p ∧ rem (.inf s) a = .nan) :=
  ⟨ieee_lt, ieee_le, ieee_min, ieee_whole, ieee_toI32, ieee_toUsize, ieee_rem⟩

/-- The rounding of the hardware is one of these; half of the largest single added to it twice is infinite. -/
example : Single.Rounding Single.single ∧ add Single.single (.fin largest) (.fin (2 ^ 127)) = .inf false ∧
    add Single.single (.fin largest) (.inf true) = .inf true ∧ toI32 (.fin (-5 / 2)) = -2 :=
  ⟨Single.rounding_single, by decide +kernel, by decide +kernel, by decide +kernel⟩

end Verif.Machine
