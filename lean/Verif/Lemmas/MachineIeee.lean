import Mathlib.Tactic.Linarith
import Mathlib.Tactic.Positivity
import Mathlib.Tactic.FieldSimp
import Mathlib.Tactic.ByContra
import Verif.Lemmas.Machine
import Verif.Spec.MachineIeee

/-! Model/Machine computes what Spec/MachineIeee asks for. -/

namespace Verif.Machine

/-- The sign of an infinity. -/
def sgn (s : Bool) : Rat := if s then -1 else 1

theorem sgn_sq (s : Bool) : sgn s * sgn s = 1 := by cases s <;> norm_num [sgn]

theorem sgn_ne (s t : Bool) : sgn (s != t) = sgn s * sgn t := by cases s <;> cases t <;> norm_num [sgn]

theorem sgn_not (s : Bool) : sgn (!s) = -sgn s := by cases s <;> norm_num [sgn]

theorem sgn_abs (s : Bool) : |sgn s| = 1 := by cases s <;> norm_num [sgn]

theorem sgn_cases (s : Bool) : sgn s = 1 ∨ sgn s = -1 := by cases s <;> simp [sgn]

theorem close_inf {B : Rat} {s : Bool} {x : Rat} : Close B (.inf s) x ↔ B ≤ sgn s * x := by
  cases s
  · simp [Close, sgn]
  · simp only [Close, sgn, if_true]; constructor <;> intro h <;> linarith

theorem sgn_decide {q : Rat} (h : q ≠ 0) : sgn (decide (q < 0)) * q = |q| := by
  by_cases hq : q < 0
  · rw [abs_of_neg hq]; simp [sgn, hq]
  · rw [abs_of_nonneg (not_lt.1 hq)]; simp [sgn, hq]

/-- No value is a limit of a function that takes a fixed value and arbitrarily large ones. -/
theorem no_limit {f : Rat → Rat → Rat} {a b : F} (k : Rat) (h : ∀ B', 0 < B' → (∃ x y, Close B' a x ∧ Close B' b y ∧ f x y = k))
    (h' : ∀ B' T, 0 < B' → (∃ x y, Close B' a x ∧ Close B' b y ∧ T ≤ f x y)) (c : F) : ¬ Limit f a b c := by
  intro hl
  obtain ⟨B', h0, hB⟩ := hl (|k| + 1) (by positivity)
  obtain ⟨x, y, hx, hy, hk⟩ := h B' h0
  have h1 := hB x y hx hy
  rw [hk] at h1
  cases c with
  | nan => exact h1
  | inf s =>
    rw [close_inf] at h1
    have : sgn s * k ≤ |k| := by
      have := le_abs_self (sgn s * k)
      rwa [abs_mul, sgn_abs, one_mul] at this
    linarith
  | fin q =>
    obtain ⟨x, y, hx, hy, hT⟩ := h' B' (q + 2) h0
    have h2 := hB x y hx hy
    have h3 : f x y - q ≤ 1 / (|k| + 1) := (le_abs_self _).trans h2
    have h4 : 1 / (|k| + 1) ≤ 1 := by rw [div_le_one (by positivity)]; linarith [abs_nonneg k]
    linarith

theorem limit_comm {f : Rat → Rat → Rat} (hf : ∀ x y, f x y = f y x) {a b c : F} (h : Limit f a b c) : Limit f b a c := by
  intro B hB
  obtain ⟨B', h0, hB'⟩ := h B hB
  exact ⟨B', h0, fun x y hx hy => by rw [hf]; exact hB' y x hy hx⟩

/-! ### Sums -/

theorem limit_add_fin (s : Bool) (q : Rat) : Limit (· + ·) (.inf s) (.fin q) (.inf s) := by
  intro B hB
  have hq := abs_nonneg q
  refine ⟨B + |q| + 1, by positivity, fun x y hx hy => ?_⟩
  rw [close_inf] at hx ⊢
  have hy : |y - q| ≤ 1 / (B + |q| + 1) := hy
  have h1 : 1 / (B + |q| + 1) ≤ 1 := by rw [div_le_one (by positivity)]; linarith
  have h2 : |sgn s * y| ≤ |q| + 1 := by
    rw [abs_mul, sgn_abs, one_mul]
    have := abs_sub_abs_le_abs_sub y q
    linarith
  have h3 := (abs_le.1 h2).1
  show B ≤ sgn s * (x + y)
  rw [mul_add]
  linarith

/-- `a + b` where an infinity takes part. -/
theorem ieee_add (rnd : Rat → Rat) : Extends (· + ·) (add rnd) := by
  intro a b h
  match a, b, h with
  | .nan, _, h => exact absurd rfl h.1
  | .inf _, .nan, h => exact absurd rfl h.2.1
  | .fin _, .nan, h => exact absurd rfl h.2.1
  | .fin p, .fin q, h => obtain ⟨_, _, ⟨s, hs⟩ | ⟨s, hs⟩⟩ := h <;> simp at hs
  | .inf s, .fin q, _ => exact Or.inl ⟨by simp [add], limit_add_fin s q⟩
  | .fin p, .inf s, _ => exact Or.inl ⟨by simp [add], limit_comm (fun x y => add_comm x y) (limit_add_fin s p)⟩
  | .inf s, .inf t, _ =>
    by_cases hst : s = t
    · subst hst
      refine Or.inl ⟨by simp [add], fun B hB => ⟨B, hB, fun x y hx hy => ?_⟩⟩
      rw [show add rnd (.inf s) (.inf s) = .inf s by simp [add], close_inf]
      rw [close_inf] at hx hy
      show B ≤ sgn s * (x + y)
      rw [mul_add]; linarith
    · refine Or.inr ⟨by simp [add, hst], no_limit 0 (fun B' h0 => ?_) (fun B' T h0 => ?_)⟩
      · refine ⟨sgn s * B', sgn t * B', ?_, ?_, ?_⟩
        · rw [close_inf, ← mul_assoc, sgn_sq, one_mul]
        · rw [close_inf, ← mul_assoc, sgn_sq, one_mul]
        · have : t = !s := by cases s <;> cases t <;> simp_all
          rw [this, sgn_not]; show sgn s * B' + -sgn s * B' = 0; ring
      · have hT := le_abs_self T
        cases s <;> cases t <;> simp only [not_true_eq_false, reduceCtorEq, not_false_eq_true] at hst
        · exact ⟨B' + |T|, -B', by simp [Close], by simp [Close], by show T ≤ B' + |T| + -B'; linarith⟩
        · exact ⟨-B', B' + |T|, by simp [Close], by simp [Close], by show T ≤ -B' + (B' + |T|); linarith⟩

/-- `-a`. -/
theorem ieee_neg (a : F) (h : a ≠ .nan) : Limit1 (fun x => -x) a (neg a) ∧ neg .nan = .nan := by
  refine ⟨fun B hB => ⟨B, hB, fun x hx => ?_⟩, rfl⟩
  cases a with
  | nan => exact absurd rfl h
  | inf s =>
    rw [close_inf] at hx
    show Close B (.inf (!s)) (-x)
    rw [close_inf, sgn_not]; linarith
  | fin q =>
    have hx : |x - q| ≤ 1 / B := hx
    show |-x - -q| ≤ 1 / B
    rwa [show -x - -q = -(x - q) by ring, abs_neg]

/-- `a - b` where an infinity takes part. -/
theorem ieee_sub (rnd : Rat → Rat) : Extends (· - ·) (sub rnd) := by
  intro a b h
  have hneg : ∀ B x, Close B b x ↔ Close B (neg b) (-x) := by
    intro B x
    cases b with
    | nan => exact Iff.rfl
    | inf s => rw [show neg (.inf s) = .inf (!s) from rfl, close_inf, close_inf, sgn_not]; constructor <;> intro h <;> linarith
    | fin q => show |x - q| ≤ 1 / B ↔ |-x - -q| ≤ 1 / B; rw [show -x - -q = -(x - q) by ring, abs_neg]
  have hl : ∀ c, Limit (· - ·) a b c ↔ Limit (· + ·) a (neg b) c := by
    intro c
    constructor
    · intro h B hB
      obtain ⟨B', h0, h1⟩ := h B hB
      refine ⟨B', h0, fun x y hx hy => ?_⟩
      have := h1 x (-y) hx ((hneg _ _).2 (by rwa [neg_neg]))
      simpa using this
    · intro h B hB
      obtain ⟨B', h0, h1⟩ := h B hB
      refine ⟨B', h0, fun x y hx hy => ?_⟩
      have := h1 x (-y) hx ((hneg _ _).1 hy)
      show Close B c (x - y)
      rwa [sub_eq_add_neg]
  have hi : Infinite a (neg b) := by
    obtain ⟨h1, h2, h3⟩ := h
    refine ⟨h1, by cases b <;> simp_all [neg], ?_⟩
    rcases h3 with h3 | ⟨s, hs⟩
    · exact Or.inl h3
    · exact Or.inr ⟨!s, by rw [hs]; rfl⟩
  rcases ieee_add rnd a (neg b) hi with ⟨h1, h2⟩ | ⟨h1, h2⟩
  · exact Or.inl ⟨h1, (hl _).2 h2⟩
  · exact Or.inr ⟨h1, fun c hc => h2 c ((hl c).1 hc)⟩

/-! ### Products -/

theorem limit_mul_fin (s : Bool) {q : Rat} (hq : q ≠ 0) : Limit (· * ·) (.inf s) (.fin q) (.inf (s != decide (q < 0))) := by
  intro B hB
  have hq' := abs_pos.2 hq
  refine ⟨2 * (B + 1) / |q|, by positivity, fun x y hx hy => ?_⟩
  rw [close_inf] at hx ⊢
  have hy : |y - q| ≤ 1 / (2 * (B + 1) / |q|) := hy
  generalize hg : decide (q < 0) = g at *
  have hs : sgn g * q = |q| := by rw [← hg]; exact sgn_decide hq
  have h1 : 1 / (2 * (B + 1) / |q|) ≤ |q| / 2 := by
    rw [one_div_div, div_le_div_iff₀ (by positivity) (by norm_num)]; nlinarith
  have h2 : |q| / 2 ≤ sgn g * y := by
    have h3 : |sgn g * (y - q)| ≤ |q| / 2 := by rw [abs_mul, sgn_abs, one_mul]; linarith
    have h4 := (abs_le.1 h3).1
    rw [mul_sub, hs] at h4
    linarith
  show B ≤ sgn (s != g) * (x * y)
  rw [sgn_ne, show sgn s * sgn g * (x * y) = (sgn s * x) * (sgn g * y) by ring]
  have h5 : 0 < 2 * (B + 1) / |q| := by positivity
  calc B ≤ B + 1 := by linarith
    _ = 2 * (B + 1) / |q| * (|q| / 2) := by field_simp
    _ ≤ (sgn s * x) * (sgn g * y) := mul_le_mul hx h2 (by positivity) (by linarith)

theorem no_limit_mul_zero (s : Bool) (c : F) : ¬ Limit (· * ·) (.inf s) (.fin 0) c := by
  refine no_limit 0 (fun B' h0 => ⟨sgn s * B', 0, ?_, ?_, by simp⟩) (fun B' T h0 => ⟨sgn s * (B' * (1 + |T|)), sgn s * (1 / B'), ?_, ?_, ?_⟩) c
  · rw [close_inf, ← mul_assoc, sgn_sq, one_mul]
  · show |(0 : Rat) - 0| ≤ 1 / B'
    simp; exact h0.le
  · rw [close_inf, ← mul_assoc, sgn_sq, one_mul]
    nlinarith [abs_nonneg T]
  · show |sgn s * (1 / B') - 0| ≤ 1 / B'
    rw [sub_zero, abs_mul, sgn_abs, one_mul, abs_of_pos (by positivity)]
  · have : sgn s * (B' * (1 + |T|)) * (sgn s * (1 / B')) = 1 + |T| := by
      rw [show sgn s * (B' * (1 + |T|)) * (sgn s * (1 / B')) = (sgn s * sgn s) * (B' * (1 / B')) * (1 + |T|) by ring, sgn_sq, mul_one_div_cancel h0.ne']
      ring
    show T ≤ sgn s * (B' * (1 + |T|)) * (sgn s * (1 / B'))
    rw [this]
    linarith [le_abs_self T]

/-- `a * b` where an infinity takes part. -/
theorem ieee_mul (rnd : Rat → Rat) : Extends (· * ·) (mul rnd) := by
  intro a b h
  match a, b, h with
  | .nan, _, h => exact absurd rfl h.1
  | .inf _, .nan, h => exact absurd rfl h.2.1
  | .fin _, .nan, h => exact absurd rfl h.2.1
  | .fin p, .fin q, h => obtain ⟨_, _, ⟨s, hs⟩ | ⟨s, hs⟩⟩ := h <;> simp at hs
  | .inf s, .fin q, _ =>
    by_cases hq : q = 0
    · subst hq; exact Or.inr ⟨by simp [mul], no_limit_mul_zero s⟩
    · have : mul rnd (.inf s) (.fin q) = .inf (s != decide (q < 0)) := by simp only [mul]; rw [if_neg hq]
      rw [this]; exact Or.inl ⟨by simp, limit_mul_fin s hq⟩
  | .fin q, .inf s, _ =>
    by_cases hq : q = 0
    · subst hq; exact Or.inr ⟨by simp [mul], fun c hc => no_limit_mul_zero s c (limit_comm (fun x y => mul_comm x y) hc)⟩
    · have : mul rnd (.fin q) (.inf s) = .inf (s != decide (q < 0)) := by simp only [mul]; rw [if_neg hq]
      rw [this]; exact Or.inl ⟨by simp, limit_comm (fun x y => mul_comm x y) (limit_mul_fin s hq)⟩
  | .inf s, .inf t, _ =>
    refine Or.inl ⟨by simp [mul], fun B hB => ⟨B + 1, by linarith, fun x y hx hy => ?_⟩⟩
    rw [close_inf] at hx hy
    show Close B (.inf (s != t)) (x * y)
    rw [close_inf, sgn_ne, show sgn s * sgn t * (x * y) = (sgn s * x) * (sgn t * y) by ring]
    nlinarith

/-! ### Quotients -/

/-- `a / b` where an infinity takes part and `b` is not 0. -/
theorem ieee_div (rnd : Rat → Rat) (a b : F) (h : Infinite a b) (hb : b ≠ .fin 0) :
    (div rnd a b ≠ .nan ∧ Limit (· / ·) a b (div rnd a b)) ∨ (div rnd a b = .nan ∧ ∀ c, ¬ Limit (· / ·) a b c) := by
  match a, b, h with
  | .nan, _, h => exact absurd rfl h.1
  | .inf _, .nan, h => exact absurd rfl h.2.1
  | .fin _, .nan, h => exact absurd rfl h.2.1
  | .fin p, .fin q, h => obtain ⟨_, _, ⟨s, hs⟩ | ⟨s, hs⟩⟩ := h <;> simp at hs
  | .inf s, .fin q, _ =>
    have hq : q ≠ 0 := fun hc => hb (by rw [hc])
    refine Or.inl ⟨by simp [div], fun B hB => ?_⟩
    have hq' := abs_pos.2 hq
    have hdef : div rnd (.inf s) (.fin q) = .inf (s != decide (q < 0)) := rfl
    rw [hdef]
    generalize hg : decide (q < 0) = g
    have hs : sgn g * q = |q| := by rw [← hg]; exact sgn_decide hq
    refine ⟨(B + 1) * (2 * |q|) + 2 / |q|, by positivity, fun x y hx hy => ?_⟩
    generalize hB' : (B + 1) * (2 * |q|) + 2 / |q| = B' at *
    have h0 : 0 < B' := by rw [← hB']; positivity
    have hB1 : (B + 1) * (2 * |q|) ≤ B' := by rw [← hB']; linarith [show 0 < 2 / |q| by positivity]
    have hB2 : 2 / |q| ≤ B' := by rw [← hB']; linarith [show 0 < (B + 1) * (2 * |q|) by positivity]
    rw [close_inf] at hx ⊢
    have hy : |y - q| ≤ 1 / B' := hy
    have h1 : 1 / B' ≤ |q| / 2 := by
      rw [div_le_iff₀ h0]
      have := mul_le_mul_of_nonneg_left hB2 (show (0 : Rat) ≤ |q| / 2 by positivity)
      have h2 : |q| / 2 * (2 / |q|) = 1 := by field_simp
      linarith
    have h3 : |sgn g * y - (|q|)| ≤ |q| / 2 := by
      rw [← hs, ← mul_sub, abs_mul, sgn_abs, one_mul]
      rw [hs]; linarith
    obtain ⟨h4, h5⟩ := abs_le.1 h3
    have hpos : 0 < sgn g * y := by linarith
    show B ≤ sgn (s != g) * (x / y)
    have hy0 : y ≠ 0 := by rintro rfl; simp at hpos
    have hrw : sgn (s != g) * (x / y) = (sgn s * x) / (sgn g * y) := by
      rw [sgn_ne]
      have hgg : sgn g ≠ 0 := by rcases sgn_cases g with h | h <;> rw [h] <;> norm_num
      have : sgn g = 1 / sgn g := by rw [eq_div_iff hgg]; exact sgn_sq g
      rw [mul_div_mul_comm, show sgn s / sgn g = sgn s * (1 / sgn g) by ring, ← this]
    rw [hrw, le_div_iff₀ hpos]
    have : B * (sgn g * y) ≤ B * (2 * |q|) := mul_le_mul_of_nonneg_left (by linarith) hB.le
    nlinarith
  | .fin p, .inf s, _ =>
    refine Or.inl ⟨by simp [div], fun B hB => ?_⟩
    have hp := abs_nonneg p
    refine ⟨B * (|p| + 1) + 1, by positivity, fun x y hx hy => ?_⟩
    generalize hB' : B * (|p| + 1) + 1 = B' at *
    have h1 : 1 ≤ B' := by rw [← hB']; nlinarith
    rw [close_inf] at hy
    have hx : |x - p| ≤ 1 / B' := hx
    have h2 : 1 / B' ≤ 1 := by rw [div_le_one (by linarith)]; exact h1
    have h3 : |x| ≤ |p| + 1 := by
      have := abs_sub_abs_le_abs_sub x p
      linarith
    have h4 : B' ≤ |y| := by
      have := le_abs_self (sgn s * y)
      rw [abs_mul, sgn_abs, one_mul] at this
      linarith
    show |x / y - 0| ≤ 1 / B
    rw [sub_zero, abs_div, div_le_div_iff₀ (by linarith) hB]
    nlinarith
  | .inf s, .inf t, _ =>
    refine Or.inr ⟨rfl, fun c hc => ?_⟩
    have hone : ∀ B', 0 < B' → ∀ T, 1 ≤ T → Close B' (.inf s) (sgn s * (B' * T)) := fun B' h0 T hT => by
      rw [close_inf, ← mul_assoc, sgn_sq, one_mul]; nlinarith
    have htwo : ∀ B', 0 < B' → Close B' (.inf t) (sgn t * B') := fun B' h0 => by
      rw [close_inf, ← mul_assoc, sgn_sq, one_mul]
    have hval : ∀ B', 0 < B' → ∀ T, sgn s * (B' * T) / (sgn t * B') = sgn s * sgn t * T := fun B' h0 T => by
      have htt : sgn t ≠ 0 := by rcases sgn_cases t with h | h <;> rw [h] <;> norm_num
      rw [div_eq_iff (mul_ne_zero htt h0.ne')]
      have := sgn_sq t
      calc sgn s * (B' * T) = (sgn t * sgn t) * (sgn s * (B' * T)) := by rw [this, one_mul]
        _ = sgn s * sgn t * T * (sgn t * B') := by ring
    -- ratios of any size occur
    obtain ⟨B', h0, h1⟩ := hc 2 (by norm_num)
    have h2 := h1 _ _ (hone B' h0 1 le_rfl) (htwo B' h0)
    have h2 : Close 2 c (sgn s * sgn t * 1) := by rw [← hval B' h0 1]; exact h2
    cases c with
    | nan => exact h2
    | inf r =>
      rw [close_inf] at h2
      have : sgn r * (sgn s * sgn t * 1) ≤ 1 := by
        have := le_abs_self (sgn r * (sgn s * sgn t * 1))
        rw [abs_mul, abs_mul, abs_mul, sgn_abs, sgn_abs, sgn_abs] at this
        simpa using this
      linarith
    | fin q =>
      have h3 := h1 _ _ (hone B' h0 (|q| + 2) (by linarith [abs_nonneg q])) (htwo B' h0)
      have h3 : |sgn s * sgn t * (|q| + 2) - q| ≤ 1 / 2 := by rw [← hval B' h0 (|q| + 2)]; exact h3
      have h4 := abs_sub_abs_le_abs_sub (sgn s * sgn t * (|q| + 2)) q
      rw [abs_mul, abs_mul, sgn_abs, sgn_abs, abs_of_pos (show 0 < |q| + 2 by positivity)] at h4
      linarith

/-- `a / 0`: the limit from above, and NaN for `0 / 0`. -/
theorem ieee_div_zero (rnd : Rat → Rat) (a : F) (ha : a ≠ .nan) :
    (a = .fin 0 ∧ div rnd a (.fin 0) = .nan) ∨
    (a ≠ .fin 0 ∧ ∀ B, 0 < B → ∃ B', 0 < B' ∧ ∀ x y, Close B' a x → Close B' (.fin 0) y → 0 < y → Close B (div rnd a (.fin 0)) (x / y)) := by
  have hsmall : ∀ B' y : Rat, Close B' (.fin 0) y → y ≤ 1 / B' := fun B' y h => by
    have h : |y - 0| ≤ 1 / B' := h
    rw [sub_zero] at h
    exact (le_abs_self y).trans h
  cases a with
  | nan => exact absurd rfl ha
  | inf s =>
    refine Or.inr ⟨by simp, fun B hB => ⟨B + 1, by linarith, fun x y hx hy h0 => ?_⟩⟩
    have hdef : div rnd (.inf s) (.fin 0) = .inf s := by simp [div]
    rw [hdef, close_inf]
    rw [close_inf] at hx
    have h1 := hsmall _ _ hy
    have h2 : 1 / (B + 1) ≤ 1 := by rw [div_le_one (by linarith)]; linarith
    rw [← mul_div_assoc, le_div_iff₀ h0]
    nlinarith
  | fin p =>
    by_cases hp : p = 0
    · subst hp; exact Or.inl ⟨rfl, by simp [div]⟩
    · refine Or.inr ⟨by simpa using hp, fun B hB => ?_⟩
      have hp' := abs_pos.2 hp
      have hdef : div rnd (.fin p) (.fin 0) = .inf (decide (p < 0)) := by simp [div, hp]
      rw [hdef]
      generalize hg : decide (p < 0) = g
      have hs : sgn g * p = |p| := by rw [← hg]; exact sgn_decide hp
      refine ⟨2 * (B + 1) / |p|, by positivity, fun x y hx hy h0 => ?_⟩
      have h1 := hsmall _ _ hy
      have hx : |x - p| ≤ 1 / (2 * (B + 1) / |p|) := hx
      rw [one_div_div] at h1 hx
      have h2 : |p| / (2 * (B + 1)) ≤ |p| / 2 := by
        rw [div_le_div_iff₀ (by positivity) (by norm_num)]; nlinarith
      have h3 : |sgn g * (x - p)| ≤ |p| / 2 := by rw [abs_mul, sgn_abs, one_mul]; linarith
      have h4 := (abs_le.1 h3).1
      rw [mul_sub, hs] at h4
      rw [close_inf, ← mul_div_assoc, le_div_iff₀ h0]
      have h5 : B * y ≤ B * (|p| / (2 * (B + 1))) := mul_le_mul_of_nonneg_left h1 hB.le
      have h6 : B * (|p| / (2 * (B + 1))) ≤ |p| / 2 := by
        rw [← mul_div_assoc, div_le_div_iff₀ (by positivity) (by norm_num)]; nlinarith
      linarith

/-! ### Finite results -/

/-- The exact result is rounded; from half a unit beyond the largest `f32` on it is infinite. -/
theorem ieee_ofRat {rnd : Rat → Rat} (hr : Single.Rounding rnd) (q : Rat) :
    (|q| < (2 ^ 24 - 1 / 2) * 2 ^ 104 → ∃ r, ofRat rnd q = .fin r ∧ Single.IsF32 r ∧ |r| ≤ (2 ^ 24 - 1) * 2 ^ 104 ∧ ∀ y, Single.IsF32 y → |r - q| ≤ |y - q|) ∧
    ((2 ^ 24 - 1 / 2) * 2 ^ 104 < q → ofRat rnd q = .inf false) ∧ (q < -((2 ^ 24 - 1 / 2) * 2 ^ 104) → ofRat rnd q = .inf true) := by
  have hl : Single.IsF32 largest := ⟨2 ^ 24 - 1, 104, by norm_num, by norm_num, by norm_num [largest]⟩
  have ht : Single.IsF32 (2 ^ 128) := ⟨2 ^ 24, 104, by norm_num, by norm_num, by norm_num⟩
  have up : ∀ x : Rat, (2 ^ 24 - 1 / 2) * 2 ^ 104 < x → largest < rnd x := by
    intro x hx
    by_contra hc
    have hc := not_lt.1 hc
    by_cases hx2 : x ≤ 2 ^ 128
    · have h1 := hr.nearest x (2 ^ 128) ht
      rw [abs_of_nonneg (show (0 : Rat) ≤ 2 ^ 128 - x by linarith)] at h1
      have h2 := (abs_le.1 h1).1
      norm_num [largest] at hc hx h2 ⊢
      linarith
    · have h1 := hr.mono (2 ^ 128) x (by linarith)
      rw [hr.keeps ht] at h1
      norm_num [largest] at hc h1
      linarith
  have mid : ∀ x : Rat, x < (2 ^ 24 - 1 / 2) * 2 ^ 104 → rnd x ≤ largest := by
    intro x hx
    by_cases hx2 : x ≤ largest
    · have h1 := hr.mono x largest hx2
      rwa [hr.keeps hl] at h1
    · have hx2 := not_le.1 hx2
      by_contra hc
      have hc := not_le.1 hc
      have h1 := hr.nearest x largest hl
      rw [abs_of_neg (show largest - x < 0 by linarith)] at h1
      have h2 := (abs_le.1 h1).2
      -- then the next `f32` above the largest would be nearer than half the gap
      have h3 : largest / 2 ^ 24 ≤ rnd x - largest := by
        have h4 := Single.gap (hr.lands x) hl (by have : (0 : Rat) < largest := by norm_num [largest]
                                                  linarith) hc
        have : largest / 2 ^ 24 ≤ rnd x / 2 ^ 24 := by
          apply div_le_div_of_nonneg_right hc.le; norm_num
        linarith
      have h5 : (2 : Rat) ^ 128 ≤ rnd x := by
        by_contra h6
        have h6 := not_le.1 h6
        have h7 := Single.gap ht (hr.lands x) (by norm_num) h6
        norm_num [largest] at h3 h7 hc
        linarith
      norm_num [largest] at h2 h5 hx
      linarith
  have hL : (0 : Rat) ≤ largest := by norm_num [largest]
  refine ⟨fun h => ?_, fun h => ?_, fun h => ?_⟩
  · obtain ⟨h1, h2⟩ := abs_lt.1 h
    have h3 := mid q h2
    have h4 : -largest ≤ rnd q := by
      have := mid (-q) (by linarith)
      rw [hr.odd] at this
      linarith
    refine ⟨rnd q, ?_, hr.lands q, abs_le.2 ⟨by simpa [largest] using h4, by simpa [largest] using h3⟩, hr.nearest q⟩
    unfold ofRat
    rw [if_neg (by linarith), if_neg (by linarith)]
  · unfold ofRat; rw [if_pos (up q h)]
  · have h1 := up (-q) (by linarith)
    rw [hr.odd] at h1
    unfold ofRat
    rw [if_neg (by linarith), if_pos (by linarith)]

theorem ieee_finite (rnd : Rat → Rat) (p q : Rat) : add rnd (.fin p) (.fin q) = ofRat rnd (p + q) ∧ sub rnd (.fin p) (.fin q) = ofRat rnd (p - q) ∧
    mul rnd (.fin p) (.fin q) = ofRat rnd (p * q) ∧ (q ≠ 0 → div rnd (.fin p) (.fin q) = ofRat rnd (p / q)) :=
  ⟨rfl, by rw [sub_eq_add_neg]; rfl, rfl, fun h => by simp [div, h]⟩

/-- A NaN goes through. -/
theorem ieee_nan (rnd : Rat → Rat) (root : Rat → Rat) (a : F) : add rnd .nan a = .nan ∧ add rnd a .nan = .nan ∧ sub rnd .nan a = .nan ∧ sub rnd a .nan = .nan ∧
    mul rnd .nan a = .nan ∧ mul rnd a .nan = .nan ∧ div rnd .nan a = .nan ∧ div rnd a .nan = .nan ∧ rem .nan a = .nan ∧ rem a .nan = .nan ∧
    sqrt root .nan = .nan ∧ abs .nan = .nan ∧ floor .nan = .nan ∧ ceil .nan = .nan := by
  cases a <;> exact ⟨rfl, rfl, rfl, rfl, rfl, rfl, rfl, rfl, rfl, rfl, rfl, rfl, rfl, rfl⟩

/-! ### Comparisons -/

/-- `a < b`: numbers for `a` lie below numbers for `b`. -/
theorem ieee_lt (a b : F) : lt a b = true ↔ a ≠ .nan ∧ b ≠ .nan ∧ ∃ B, 0 < B ∧ ∀ x y, Close B a x → Close B b y → x < y := by
  match a, b with
  | .nan, b => simp [lt]
  | .inf s, .nan => simp [lt]
  | .fin p, .nan => simp [lt]
  | .fin p, .fin q =>
    simp only [lt, decide_eq_true_eq, ne_eq, reduceCtorEq, not_false_eq_true, true_and]
    constructor
    · intro h
      refine ⟨4 / (q - p), div_pos (by norm_num) (by linarith), fun x y hx hy => ?_⟩
      have hx : |x - p| ≤ 1 / (4 / (q - p)) := hx
      have hy : |y - q| ≤ 1 / (4 / (q - p)) := hy
      rw [one_div_div] at hx hy
      have h1 := (abs_le.1 hx).2
      have h2 := (abs_le.1 hy).1
      linarith
    · rintro ⟨B, hB, h⟩
      exact h p q (by show |p - p| ≤ 1 / B; simp; exact hB.le) (by show |q - q| ≤ 1 / B; simp; exact hB.le)
  | .inf true, .fin q =>
    simp only [lt, ne_eq, reduceCtorEq, not_false_eq_true, true_and, true_iff]
    refine ⟨|q| + 2, by positivity, fun x y hx hy => ?_⟩
    have hx : x ≤ -(|q| + 2) := hx
    have hy : |y - q| ≤ 1 / (|q| + 2) := hy
    have h1 : 1 / (|q| + 2) ≤ 1 := by rw [div_le_one (by positivity)]; linarith [abs_nonneg q]
    have h2 := (abs_le.1 hy).1
    linarith [neg_abs_le q]
  | .inf false, .fin q =>
    simp only [lt, ne_eq, reduceCtorEq, not_false_eq_true, true_and, Bool.false_eq_true, false_iff]
    rintro ⟨B, hB, h⟩
    have := h (B + |q|) q (by show B ≤ B + |q|; linarith [abs_nonneg q]) (by show |q - q| ≤ 1 / B; simp; exact hB.le)
    linarith [le_abs_self q]
  | .fin p, .inf false =>
    simp only [lt, ne_eq, reduceCtorEq, not_false_eq_true, true_and, Bool.not_false, true_iff]
    refine ⟨|p| + 2, by positivity, fun x y hx hy => ?_⟩
    have hy : |p| + 2 ≤ y := hy
    have hx : |x - p| ≤ 1 / (|p| + 2) := hx
    have h1 : 1 / (|p| + 2) ≤ 1 := by rw [div_le_one (by positivity)]; linarith [abs_nonneg p]
    have h2 := (abs_le.1 hx).2
    linarith [le_abs_self p]
  | .fin p, .inf true =>
    simp only [lt, ne_eq, reduceCtorEq, not_false_eq_true, true_and, Bool.not_true, Bool.false_eq_true, false_iff]
    rintro ⟨B, hB, h⟩
    have := h p (-B - |p|) (by show |p - p| ≤ 1 / B; simp; exact hB.le) (by show -B - |p| ≤ -B; linarith [abs_nonneg p])
    linarith [neg_abs_le p]
  | .inf true, .inf false =>
    simp only [lt, ne_eq, reduceCtorEq, not_false_eq_true, true_and, Bool.not_false, Bool.and_self, true_iff]
    exact ⟨1, one_pos, fun x y hx hy => by have hx : x ≤ -1 := hx; have hy : 1 ≤ y := hy; linarith⟩
  | .inf true, .inf true =>
    simp only [lt, ne_eq, reduceCtorEq, not_false_eq_true, true_and, Bool.not_true, Bool.and_false, Bool.false_eq_true, false_iff]
    rintro ⟨B, hB, h⟩
    exact lt_irrefl _ (h (-B) (-B) (le_refl (-B)) (le_refl (-B)))
  | .inf false, .inf false =>
    simp only [lt, ne_eq, reduceCtorEq, not_false_eq_true, true_and, Bool.false_and, Bool.false_eq_true, false_iff]
    rintro ⟨B, hB, h⟩
    exact lt_irrefl _ (h B B (le_refl B) (le_refl B))
  | .inf false, .inf true =>
    simp only [lt, ne_eq, reduceCtorEq, not_false_eq_true, true_and, Bool.false_and, Bool.false_eq_true, false_iff]
    rintro ⟨B, hB, h⟩
    have := h B (-B) (le_refl B) (le_refl (-B))
    linarith

/-- `a <= b`: equal or below. -/
theorem ieee_le (a b : F) : le a b = true ↔ a ≠ .nan ∧ b ≠ .nan ∧ (a = b ∨ lt a b = true) := by
  match a, b with
  | .nan, _ => simp [le]
  | .inf _, .nan => simp [le]
  | .fin _, .nan => simp [le]
  | .fin p, .fin q => simp [le, lt, le_iff_eq_or_lt]
  | .inf true, .fin q | .inf false, .fin q | .fin q, .inf true | .fin q, .inf false => simp [le, lt]
  | .inf true, .inf true | .inf true, .inf false | .inf false, .inf true | .inf false, .inf false => simp [le, lt]

/-! ### One argument -/

theorem ieee_abs (a : F) (h : a ≠ .nan) : Limit1 (fun x => |x|) a (abs a) := by
  intro B hB
  refine ⟨B, hB, fun x hx => ?_⟩
  cases a with
  | nan => exact absurd rfl h
  | inf s =>
    rw [close_inf] at hx
    show B ≤ |x|
    have := le_abs_self (sgn s * x)
    rw [abs_mul, sgn_abs, one_mul] at this
    linarith
  | fin q => exact (abs_abs_sub_abs_le x q).trans hx

theorem ieee_whole (q : Rat) (s : Bool) : (∃ n : Int, floor (.fin q) = .fin n ∧ (n : Rat) ≤ q ∧ q < n + 1) ∧ (∃ n : Int, ceil (.fin q) = .fin n ∧ (n : Rat) - 1 < q ∧ q ≤ n) ∧
    floor (.inf s) = .inf s ∧ ceil (.inf s) = .inf s :=
  ⟨⟨q.floor, rfl, Rat.floor_le _, sub_lt_iff_lt_add.1 Rat.lt_floor⟩, ⟨q.ceil, rfl, by have := Rat.ceil_lt (x := q); linarith, Rat.le_ceil⟩, rfl, rfl⟩

/-- The smaller one; of a NaN and a number the number. -/
theorem ieee_min (a b : F) : (a = .nan → min a b = b) ∧ (b = .nan → min a b = a) ∧
    (a ≠ .nan → b ≠ .nan → (min a b = a ∨ min a b = b) ∧ le (min a b) a = true ∧ le (min a b) b = true) := by
  have self : ∀ c : F, c ≠ .nan → le c c = true := fun c hc => (ieee_le c c).2 ⟨hc, hc, Or.inl rfl⟩
  refine ⟨fun h => by rw [h]; rfl, fun h => by rw [h]; cases a <;> rfl, fun ha hb => ?_⟩
  have hmin : min a b = if lt b a then b else a := by
    cases a <;> cases b <;> first | exact absurd rfl ha | exact absurd rfl hb | rfl
  rw [hmin]
  by_cases h : lt b a = true
  · rw [if_pos h]
    exact ⟨Or.inr rfl, (ieee_le b a).2 ⟨hb, ha, Or.inr h⟩, self b hb⟩
  · rw [if_neg h]
    refine ⟨Or.inl rfl, self a ha, ?_⟩
    match a, b with
    | .nan, _ => exact absurd rfl ha
    | .inf _, .nan => exact absurd rfl hb
    | .fin _, .nan => exact absurd rfl hb
    | .fin p, .fin q => simpa [lt, le] using h
    | .inf true, .fin q | .inf false, .fin q | .fin q, .inf true | .fin q, .inf false => simp [le, lt] at *
    | .inf true, .inf true | .inf true, .inf false | .inf false, .inf true | .inf false, .inf false => simp [le, lt] at *

/-! ### Casts -/

/-- `as i32`: towards 0, the nearest end of the range beyond it, 0 for NaN. -/
theorem ieee_toI32 : toI32 .nan = 0 ∧ toI32 (.inf false) = 2147483647 ∧ toI32 (.inf true) = -2147483648 ∧
    ∀ q : Rat, (2147483647 ≤ q → toI32 (.fin q) = 2147483647) ∧ (q ≤ -2147483648 → toI32 (.fin q) = -2147483648) ∧
      (0 ≤ q → q < 2147483648 → (toI32 (.fin q) : Rat) ≤ q ∧ q < toI32 (.fin q) + 1) ∧
      (q ≤ 0 → -2147483649 < q → q ≤ toI32 (.fin q) ∧ (toI32 (.fin q) : Rat) - 1 < q) := by
  refine ⟨rfl, by decide, by decide, fun q => ⟨fun h => ?_, fun h => ?_, fun h h' => ?_, fun h h' => ?_⟩⟩
  · have h1 : (2147483647 : Int) ≤ q.floor := Rat.le_floor_iff.2 (by exact_mod_cast h)
    simp only [toI32]
    rw [if_pos (by linarith), min_eq_right (by omega), max_eq_right (by norm_num)]
    norm_num
  · have h1 : q.ceil ≤ (-2147483648 : Int) := Rat.ceil_le_iff.2 (by exact_mod_cast h)
    simp only [toI32]
    rw [if_neg (by linarith), min_eq_left (by omega), max_eq_left (by omega)]
    norm_num
  · have h1 : (0 : Int) ≤ q.floor := Rat.le_floor_iff.2 (by exact_mod_cast h)
    have h2 : q.floor < (2147483648 : Int) := Rat.floor_lt_iff.2 (by exact_mod_cast h')
    have h3 : toI32 (.fin q) = q.floor := by
      simp only [toI32]
      rw [if_pos h, min_eq_left (by omega), max_eq_right (by omega)]
    rw [h3]
    exact ⟨Rat.floor_le _, sub_lt_iff_lt_add.1 Rat.lt_floor⟩
  · have h1 : q.ceil ≤ (0 : Int) := Rat.ceil_le_iff.2 (by exact_mod_cast h)
    have h2 : (-2147483649 : Int) < q.ceil := Rat.lt_ceil_iff.2 (by exact_mod_cast h')
    have h3 : toI32 (.fin q) = q.ceil := by
      simp only [toI32]
      by_cases hq : q = 0
      · subst hq; decide +kernel
      · rw [if_neg (fun hc => hq (le_antisymm h hc)), min_eq_left (by omega), max_eq_right (by omega)]
    rw [h3]
    exact ⟨Rat.le_ceil, by have := Rat.ceil_lt (x := q); linarith⟩

/-- `as usize` on a machine with 64 bits. -/
theorem ieee_toUsize : toUsize .nan = 0 ∧ toUsize (.inf false) = 18446744073709551615 ∧ toUsize (.inf true) = 0 ∧
    ∀ q : Rat, (18446744073709551615 ≤ q → toUsize (.fin q) = 18446744073709551615) ∧ (q ≤ 0 → toUsize (.fin q) = 0) ∧
      (0 ≤ q → q < 18446744073709551616 → (toUsize (.fin q) : Rat) ≤ q ∧ q < toUsize (.fin q) + 1) := by
  refine ⟨rfl, by decide, by decide, fun q => ⟨fun h => ?_, fun h => ?_, fun h h' => ?_⟩⟩
  · have h1 : (18446744073709551615 : Int) ≤ q.floor := Rat.le_floor_iff.2 (by exact_mod_cast h)
    simp only [toUsize]
    omega
  · have h1 : q.floor < (1 : Int) := Rat.floor_lt_iff.2 (by norm_num; linarith)
    simp only [toUsize]
    omega
  · have h1 : (0 : Int) ≤ q.floor := Rat.le_floor_iff.2 (by exact_mod_cast h)
    have h2 : q.floor < (18446744073709551616 : Int) := Rat.floor_lt_iff.2 (by exact_mod_cast h')
    have h3 : ((toUsize (.fin q) : Nat) : Int) = q.floor := by simp only [toUsize]; omega
    have h4 : ((toUsize (.fin q) : Nat) : Rat) = q.floor := by exact_mod_cast h3
    rw [h4]
    exact ⟨Rat.floor_le _, sub_lt_iff_lt_add.1 Rat.lt_floor⟩

/-- `a % b`: the remainder of the division truncated towards 0. -/
theorem ieee_rem (p q : Rat) (hq : q ≠ 0) (s : Bool) (a : F) : (∃ (r : Rat) (n : Int), rem (.fin p) (.fin q) = .fin r ∧ p = q * n + r ∧ |r| < |q| ∧ (0 ≤ p → 0 ≤ r) ∧ (p ≤ 0 → r ≤ 0)) ∧
    rem (.fin p) (.fin 0) = .nan ∧ rem (.fin p) (.inf s) = .fin p ∧ rem (.inf s) a = .nan := by
  refine ⟨?_, by simp [rem], rfl, by cases a <;> rfl⟩
  have hrem : rem (.fin p) (.fin q) = .fin (Torus.fmod p q) := by simp [rem, hq]
  have hpq : p = q * (p / q) := by field_simp
  have hq' := abs_pos.2 hq
  unfold Torus.fmod at hrem
  by_cases h : 0 ≤ p / q
  · rw [if_pos h] at hrem
    have h1 := Rat.floor_le (p / q)
    have h2 := Rat.lt_floor (x := p / q)
    have h3 : (0 : Rat) ≤ ((p / q).floor : Int) := by exact_mod_cast Rat.le_floor_iff.2 (by simpa using h)
    generalize (p / q).floor = f at *
    generalize p / q = t at *
    have hr : p - q * (f : Rat) = q * (t - f) := by rw [hpq]; ring
    refine ⟨_, f, hrem, by ring, ?_, fun hp => ?_, fun hp => ?_⟩
    · rw [hr, abs_mul, abs_of_nonneg (show 0 ≤ t - f by linarith)]; nlinarith
    · rw [hr]
      rcases lt_or_gt_of_ne hq with hn | hn
      · have : t = 0 := by nlinarith
        have : (f : Rat) = 0 := by linarith
        nlinarith
      · exact mul_nonneg hn.le (by linarith)
    · rw [hr]
      rcases lt_or_gt_of_ne hq with hn | hn
      · nlinarith
      · have : t = 0 := by nlinarith
        have : (f : Rat) = 0 := by linarith
        nlinarith
  · rw [if_neg h] at hrem
    have h := not_le.1 h
    have h1 := Rat.le_ceil (x := p / q)
    have h2 := Rat.ceil_lt (x := p / q)
    generalize (p / q).ceil = f at *
    generalize p / q = t at *
    have hr : p - q * (f : Rat) = q * (t - f) := by rw [hpq]; ring
    refine ⟨_, f, hrem, by ring, ?_, fun hp => ?_, fun hp => ?_⟩
    · rw [hr, abs_mul, abs_of_nonpos (show t - f ≤ 0 by linarith)]; nlinarith
    · rw [hr]
      rcases lt_or_gt_of_ne hq with hn | hn
      · nlinarith
      · exfalso; nlinarith
    · rw [hr]
      rcases lt_or_gt_of_ne hq with hn | hn
      · exfalso; nlinarith
      · nlinarith

end Verif.Machine
