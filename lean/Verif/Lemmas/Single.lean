import Verif.Spec.Single
import Mathlib.Data.Nat.Sqrt
import Mathlib.Tactic.Linarith
import Mathlib.Tactic.Positivity
import Mathlib.Tactic.Ring
import Mathlib.Tactic.NormNum
import Mathlib.Tactic.FieldSimp

/-!
`single` is a rounding.
-/

namespace Verif.Single

theorem floor_eq (x : Rat) : x.floor = ⌊x⌋ := rfl

theorem roundEven_cases (x : Rat) : roundEven x = ⌊x⌋ ∧ x - ⌊x⌋ ≤ 1 / 2 ∨ roundEven x = ⌊x⌋ + 1 ∧ 1 / 2 ≤ x - ⌊x⌋ := by
  unfold roundEven
  rw [floor_eq]
  split
  · left; exact ⟨rfl, by linarith⟩
  · split
    · right; exact ⟨rfl, by linarith⟩
    · split
      · left; exact ⟨rfl, by linarith⟩
      · right; exact ⟨rfl, by linarith⟩

theorem roundEven_near (x : Rat) : |(roundEven x : Rat) - x| ≤ 1 / 2 := by
  have h1 := Int.floor_le x
  have h2 := Int.lt_floor_add_one x
  rw [abs_le]
  rcases roundEven_cases x with ⟨h, h'⟩ | ⟨h, h'⟩
  · rw [h]; constructor <;> linarith
  · rw [h]; push_cast; constructor <;> linarith

theorem roundEven_int (n : Int) : roundEven (n : Rat) = n := by
  unfold roundEven
  rw [floor_eq, Int.floor_intCast]
  simp

theorem roundEven_mono {x y : Rat} (h : x ≤ y) : roundEven x ≤ roundEven y := by
  have hf := Int.floor_le_floor h
  rcases lt_or_eq_of_le hf with hlt | heq
  · have a : roundEven x ≤ ⌊x⌋ + 1 := by
      rcases roundEven_cases x with ⟨h, _⟩ | ⟨h, _⟩ <;> omega
    have b : ⌊y⌋ ≤ roundEven y := by
      rcases roundEven_cases y with ⟨h, _⟩ | ⟨h, _⟩ <;> omega
    omega
  · unfold roundEven
    rw [floor_eq, floor_eq, ← heq]
    split
    · split
      · exact le_refl _
      · split
        · omega
        · split <;> omega
    · split
      · rw [if_neg (show ¬ 2 * (y - ⌊x⌋) < 1 by linarith), if_pos (show 1 < 2 * (y - ⌊x⌋) by linarith)]
      · rw [if_neg (show ¬ 2 * (y - ⌊x⌋) < 1 by linarith)]
        split <;> split <;> omega

theorem two_zpow_pos (k : Int) : (0 : Rat) < (2 : Rat) ^ k := zpow_pos (by norm_num) k

/-- The mantissa is below 2^24. -/
theorem mantissa_lt (x : Rat) : x / (2 : Rat) ^ lastBit x < 2 ^ 24 := by
  rw [div_lt_iff₀ (two_zpow_pos _)]
  have h1 : x < (2 : Rat) ^ (Int.log 2 x + 1) := by
    have := Int.lt_zpow_succ_log_self (b := 2) (by norm_num) x
    exact_mod_cast this
  have h2 : (2 : Rat) ^ (Int.log 2 x + 1) ≤ (2 : Rat) ^ ((24 : Int) + lastBit x) :=
    zpow_le_zpow_right₀ (by norm_num) (by unfold lastBit; have := le_max_left (Int.log 2 x - 23) (-149); omega)
  rw [zpow_add₀ (by norm_num) 24 (lastBit x)] at h2
  calc x < _ := h1
    _ ≤ _ := h2
    _ = _ := by norm_num

/-- Unless the number is subnormal the mantissa is at least 2^23. -/
theorem mantissa_ge {x : Rat} (hx : 0 < x) (h : lastBit x ≠ -149) : 2 ^ 23 ≤ x / (2 : Rat) ^ lastBit x := by
  rw [le_div_iff₀ (two_zpow_pos _)]
  have h0 : lastBit x = Int.log 2 x - 23 := by unfold lastBit at *; omega
  have h1 : (2 : Rat) ^ (Int.log 2 x) ≤ x := by
    have := Int.zpow_log_le_self (b := 2) (by norm_num) hx
    exact_mod_cast this
  have h2 : (2 : Rat) ^ (Int.log 2 x) = (2 : Rat) ^ ((23 : Int) + lastBit x) := by rw [h0]; congr 1; omega
  rw [zpow_add₀ (by norm_num)] at h2
  calc (2 : Rat) ^ 23 * 2 ^ lastBit x = _ := by norm_num
    _ = _ := h2.symm
    _ ≤ x := h1

theorem lastBit_ge (x : Rat) : -149 ≤ lastBit x := le_max_right _ _

theorem lastBit_mono {x y : Rat} (hx : 0 < x) (h : x ≤ y) : lastBit x ≤ lastBit y := by
  unfold lastBit
  have := Int.log_mono_right (b := 2) hx h
  omega

theorem single_pos {x : Rat} (hx : 0 < x) : single x = roundEven (x / (2 : Rat) ^ lastBit x) * (2 : Rat) ^ lastBit x := if_pos hx

theorem single_odd (x : Rat) : single (-x) = -single x := by
  unfold single
  rcases lt_trichotomy x 0 with h | h | h
  · rw [if_pos (show 0 < -x by linarith), if_neg (show ¬ 0 < x by linarith), if_pos h, neg_neg]
  · subst h; simp
  · rw [if_neg (show ¬ 0 < -x by linarith), if_pos (show -x < 0 by linarith), if_pos h, neg_neg]

theorem single_zero : single 0 = 0 := by simp [single]

theorem single_nonneg {x : Rat} (hx : 0 ≤ x) : 0 ≤ single x := by
  rcases lt_or_eq_of_le hx with h | h
  · rw [single_pos h]
    have : (0 : Int) ≤ roundEven (x / (2 : Rat) ^ lastBit x) := by
      have := roundEven_mono (show ((0 : Int) : Rat) ≤ x / (2 : Rat) ^ lastBit x by push_cast; exact div_nonneg hx (two_zpow_pos _).le)
      rwa [roundEven_int] at this
    exact mul_nonneg (by exact_mod_cast this) (two_zpow_pos _).le
  · rw [← h, single_zero]

theorem single_mono_pos {x y : Rat} (hx : 0 < x) (h : x ≤ y) : single x ≤ single y := by
  have hy := lt_of_lt_of_le hx h
  rw [single_pos hx, single_pos hy]
  rcases lt_or_eq_of_le (lastBit_mono hx h) with hlt | heq
  · have h1 : roundEven (x / (2 : Rat) ^ lastBit x) ≤ 2 ^ 24 := by
      have := roundEven_mono (show x / (2 : Rat) ^ lastBit x ≤ (((2 ^ 24 : Int)) : Rat) by push_cast; exact (mantissa_lt x).le)
      rwa [roundEven_int] at this
    have h2 : 2 ^ 23 ≤ roundEven (y / (2 : Rat) ^ lastBit y) := by
      have := roundEven_mono (show (((2 ^ 23 : Int)) : Rat) ≤ y / (2 : Rat) ^ lastBit y by
        push_cast; exact mantissa_ge hy (by have := lastBit_ge x; omega))
      rwa [roundEven_int] at this
    have h1' : (roundEven (x / (2 : Rat) ^ lastBit x) : Rat) ≤ 2 ^ 24 := by exact_mod_cast h1
    have h2' : (2 : Rat) ^ 23 ≤ (roundEven (y / (2 : Rat) ^ lastBit y) : Rat) := by exact_mod_cast h2
    have h3 : (2 : Rat) ^ (1 + lastBit x) ≤ (2 : Rat) ^ lastBit y := zpow_le_zpow_right₀ (by norm_num) (by omega)
    rw [zpow_add₀ (by norm_num), zpow_one] at h3
    calc _ ≤ (2 : Rat) ^ 24 * 2 ^ lastBit x := mul_le_mul_of_nonneg_right h1' (two_zpow_pos _).le
      _ = 2 ^ 23 * (2 * 2 ^ lastBit x) := by ring
      _ ≤ 2 ^ 23 * 2 ^ lastBit y := mul_le_mul_of_nonneg_left h3 (by positivity)
      _ ≤ _ := mul_le_mul_of_nonneg_right h2' (two_zpow_pos _).le
  · rw [← heq]
    refine mul_le_mul_of_nonneg_right ?_ (two_zpow_pos _).le
    exact_mod_cast roundEven_mono (div_le_div_of_nonneg_right h (two_zpow_pos _).le)

theorem single_mono {x y : Rat} (h : x ≤ y) : single x ≤ single y := by
  rcases lt_or_ge 0 x with hx | hx
  · exact single_mono_pos hx h
  · rcases lt_or_ge y 0 with hy | hy
    · have := single_mono_pos (show 0 < -y by linarith) (show -y ≤ -x by linarith)
      rw [single_odd, single_odd] at this
      linarith
    · have h1 : single x ≤ 0 := by
        have := single_nonneg (show 0 ≤ -x by linarith)
        rw [single_odd] at this
        linarith
      exact le_trans h1 (single_nonneg hy)

theorem isF32_neg {x : Rat} (h : IsF32 x) : IsF32 (-x) := by
  obtain ⟨m, e, h1, h2, h3⟩ := h
  exact ⟨-m, e, by rwa [abs_neg], h2, by rw [h3]; push_cast; ring⟩

theorem isF32_zero : IsF32 0 := ⟨0, 0, by norm_num, by norm_num, by norm_num⟩

theorem single_lands (x : Rat) : IsF32 (single x) := by
  have pos : ∀ y : Rat, 0 < y → IsF32 (single y) := by
    intro y hy
    rw [single_pos hy]
    refine ⟨roundEven (y / (2 : Rat) ^ lastBit y), lastBit y, ?_, lastBit_ge y, rfl⟩
    have h1 := roundEven_mono (show y / (2 : Rat) ^ lastBit y ≤ (((2 ^ 24 : Int)) : Rat) by push_cast; exact (mantissa_lt y).le)
    have h2 := roundEven_mono (show ((0 : Int) : Rat) ≤ y / (2 : Rat) ^ lastBit y by push_cast; exact div_nonneg hy.le (two_zpow_pos _).le)
    rw [roundEven_int] at h1 h2
    rw [abs_of_nonneg h2]
    exact h1
  rcases lt_trichotomy x 0 with h | h | h
  · have := pos (-x) (by linarith)
    rw [single_odd] at this
    have := isF32_neg this
    rwa [neg_neg] at this
  · rw [h, single_zero]; exact isF32_zero
  · exact pos x h

/-- A mantissa of exactly 2^24 can be halved. -/
theorem isF32_strict {x : Rat} (h : IsF32 x) : ∃ m e : Int, |m| < 2 ^ 24 ∧ -149 ≤ e ∧ x = m * (2 : Rat) ^ e := by
  obtain ⟨m, e, h1, h2, h3⟩ := h
  rcases lt_or_eq_of_le h1 with h | h
  · exact ⟨m, e, h, h2, h3⟩
  · have hz : (2 : Rat) ^ (e + 1) = 2 ^ e * 2 := by rw [zpow_add₀ (by norm_num), zpow_one]
    rcases abs_eq (by norm_num) |>.mp h with hm | hm
    · exact ⟨2 ^ 23, e + 1, by norm_num, by omega, by rw [h3, hm, hz]; push_cast; ring⟩
    · exact ⟨-2 ^ 23, e + 1, by norm_num, by omega, by rw [h3, hm, hz]; push_cast; ring⟩

theorem single_keeps (x : Rat) (hx : IsF32 x) : single x = x := by
  have pos : ∀ y : Rat, 0 < y → IsF32 y → single y = y := by
    intro y hy hf
    obtain ⟨m, e, h1, h2, h3⟩ := isF32_strict hf
    have hle : lastBit y ≤ e := by
      unfold lastBit
      have hlog : Int.log 2 y < 24 + e := by
        have hlt : y < (2 : Rat) ^ (24 + e) := by
          rw [zpow_add₀ (by norm_num), h3]
          refine mul_lt_mul_of_pos_right ?_ (two_zpow_pos _)
          have := lt_of_le_of_lt (le_abs_self m) h1
          have : (m : Rat) < ((2 ^ 24 : Int) : Rat) := by exact_mod_cast this
          calc (m : Rat) < _ := this
            _ = _ := by norm_num
        by_contra hc
        have h4 : (2 : Rat) ^ (24 + e) ≤ (2 : Rat) ^ Int.log 2 y := zpow_le_zpow_right₀ (by norm_num) (by omega)
        have h5 : (2 : Rat) ^ (Int.log 2 y) ≤ y := by
          have := Int.zpow_log_le_self (b := 2) (by norm_num) hy
          exact_mod_cast this
        linarith
      omega
    obtain ⟨j, hj⟩ := Int.eq_ofNat_of_zero_le (show 0 ≤ e - lastBit y by omega)
    have hd : y / (2 : Rat) ^ lastBit y = ((m * 2 ^ j : Int) : Rat) := by
      have h5 : (2 : Rat) ^ e = 2 ^ j * 2 ^ lastBit y := by
        rw [show e = (j : Int) + lastBit y by omega, zpow_add₀ (by norm_num), zpow_natCast]
      rw [div_eq_iff (two_zpow_pos _).ne']
      push_cast
      rw [mul_assoc, ← h5, ← h3]
    rw [single_pos hy, hd, roundEven_int, ← hd]
    field_simp
  rcases lt_trichotomy x 0 with h | h | h
  · have := pos (-x) (by linarith) (isF32_neg hx)
    rw [single_odd] at this
    linarith
  · rw [h, single_zero]
  · exact pos x h hx

theorem single_near (x : Rat) : |single x - x| ≤ |x| / 2 ^ 24 + 1 / 2 ^ 150 := by
  have pos : ∀ y : Rat, 0 < y → |single y - y| ≤ |y| / 2 ^ 24 + 1 / 2 ^ 150 := by
    intro y hy
    have hz := two_zpow_pos (lastBit y)
    have h1 : single y - y = ((roundEven (y / (2 : Rat) ^ lastBit y) : Rat) - y / 2 ^ lastBit y) * 2 ^ lastBit y := by
      rw [single_pos hy]
      field_simp
    have h2 : |single y - y| ≤ 1 / 2 * 2 ^ lastBit y := by
      rw [h1, abs_mul, abs_of_pos hz]
      exact mul_le_mul_of_nonneg_right (roundEven_near _) hz.le
    have h3 : 0 ≤ |y| / 2 ^ 24 := by positivity
    by_cases h : lastBit y = -149
    · rw [h] at h2
      have : (1 / 2 : Rat) * 2 ^ (-149 : Int) = 1 / 2 ^ 150 := by norm_num
      rw [this] at h2
      linarith
    · have h4 := mantissa_ge hy h
      rw [le_div_iff₀ hz] at h4
      have h5 : (0 : Rat) ≤ 1 / 2 ^ 150 := by positivity
      have h6 : (1 / 2 : Rat) * 2 ^ lastBit y ≤ |y| / 2 ^ 24 := by
        rw [abs_of_pos hy, le_div_iff₀ (by positivity)]
        linarith
      linarith
  rcases lt_trichotomy x 0 with h | h | h
  · have := pos (-x) (by linarith)
    rw [single_odd, abs_neg] at this
    rw [← abs_neg, show -(single x - x) = -single x - -x by ring]
    exact this
  · rw [h, single_zero]; simp
  · exact pos x h

theorem roundEven_nearest (x : Rat) (n : Int) : |(roundEven x : Rat) - x| ≤ |(n : Rat) - x| := by
  have h1 := Int.floor_le x
  have h2 := Int.lt_floor_add_one x
  rcases le_or_gt n ⌊x⌋ with hn | hn
  · have hn' : (n : Rat) ≤ ⌊x⌋ := by exact_mod_cast hn
    rw [abs_of_nonpos (show (n : Rat) - x ≤ 0 by linarith), abs_le]
    rcases roundEven_cases x with ⟨h, h'⟩ | ⟨h, h'⟩
    · rw [h]; constructor <;> linarith
    · rw [h]; push_cast; constructor <;> linarith
  · have hn' : ((⌊x⌋ + 1 : Int) : Rat) ≤ n := by exact_mod_cast hn
    push_cast at hn'
    rw [abs_of_nonneg (show 0 ≤ (n : Rat) - x by linarith), abs_le]
    rcases roundEven_cases x with ⟨h, h'⟩ | ⟨h, h'⟩
    · rw [h]; constructor <;> linarith
    · rw [h]; push_cast; constructor <;> linarith

theorem single_nearest_multiple {x : Rat} (hx : 0 < x) (n : Int) : |single x - x| ≤ |(n : Rat) * 2 ^ lastBit x - x| := by
  have hz := two_zpow_pos (lastBit x)
  have h1 : single x - x = ((roundEven (x / (2 : Rat) ^ lastBit x) : Rat) - x / 2 ^ lastBit x) * 2 ^ lastBit x := by
    rw [single_pos hx]
    field_simp
  have h2 : (n : Rat) * 2 ^ lastBit x - x = ((n : Rat) - x / 2 ^ lastBit x) * 2 ^ lastBit x := by
    field_simp
  rw [h1, h2, abs_mul, abs_mul]
  exact mul_le_mul_of_nonneg_right (roundEven_nearest _ _) (abs_nonneg _)

theorem single_nearest (x y : Rat) (hy : IsF32 y) : |single x - x| ≤ |y - x| := by
  have pos : ∀ x y : Rat, 0 < x → IsF32 y → |single x - x| ≤ |y - x| := by
    intro x y hx hy
    obtain ⟨m, e, h1, h2, h3⟩ := isF32_strict hy
    rcases le_or_gt (lastBit x) e with hle | hlt
    · obtain ⟨j, hj⟩ := Int.eq_ofNat_of_zero_le (show 0 ≤ e - lastBit x by omega)
      have h5 : (2 : Rat) ^ e = 2 ^ j * 2 ^ lastBit x := by
        rw [show e = (j : Int) + lastBit x by omega, zpow_add₀ (by norm_num), zpow_natCast]
      have h6 : y = ((m * 2 ^ j : Int) : Rat) * 2 ^ lastBit x := by
        push_cast; rw [mul_assoc, ← h5, ← h3]
      rw [h6]
      exact single_nearest_multiple hx _
    · have h4 := mantissa_ge hx (by omega)
      rw [le_div_iff₀ (two_zpow_pos _)] at h4
      have h5 : (2 : Rat) ^ (1 + e) ≤ (2 : Rat) ^ lastBit x := zpow_le_zpow_right₀ (by norm_num) (by omega)
      rw [zpow_add₀ (by norm_num), zpow_one] at h5
      have hm : (m : Rat) ≤ 2 ^ 24 := by
        have := lt_of_le_of_lt (le_abs_self m) h1
        have h7 : (m : Rat) < ((2 ^ 24 : Int) : Rat) := by exact_mod_cast this
        push_cast at h7
        exact h7.le
      have h6 : y ≤ 2 ^ 23 * 2 ^ lastBit x := by
        calc y = m * 2 ^ e := h3
          _ ≤ 2 ^ 24 * 2 ^ e := mul_le_mul_of_nonneg_right hm (two_zpow_pos _).le
          _ = 2 ^ 23 * (2 * 2 ^ e) := by ring
          _ ≤ _ := mul_le_mul_of_nonneg_left h5 (by positivity)
      have h7 := single_nearest_multiple hx (2 ^ 23)
      rw [show (((2 : Int) ^ 23 : Int) : Rat) = 2 ^ 23 by norm_num] at h7
      rw [abs_of_nonpos (show (2 : Rat) ^ 23 * 2 ^ lastBit x - x ≤ 0 by linarith)] at h7
      rw [abs_of_nonpos (show y - x ≤ 0 by linarith)]
      linarith
  rcases lt_trichotomy x 0 with h | h | h
  · have := pos (-x) (-y) (by linarith) (isF32_neg hy)
    rw [single_odd] at this
    rw [← abs_neg, ← abs_neg (y - x), show -(single x - x) = -single x - -x by ring, show -(y - x) = -y - -x by ring]
    exact this
  · rw [h, single_zero]; simp
  · exact pos x y h hy

/-- Rounding to nearest even, as the hardware does it, is a rounding. -/
theorem rounding_single : Rounding single where
  mono _ _ := single_mono
  odd := single_odd
  lands := single_lands
  nearest := single_nearest
  near := single_near

theorem roundRoot_cases {q : Rat} (hq : 0 ≤ q) : ∃ n : Nat, (n : Rat) * n ≤ q ∧ q < (n + 1) * (n + 1) ∧
    (roundRoot q = n ∨ roundRoot q = n + 1 ∧ (n : Rat) * n < q) := by
  refine ⟨Nat.sqrt q.floor.toNat, ?_, ?_, ?_⟩
  · have h1 := Nat.sqrt_le q.floor.toNat
    have h2 := Rat.floor_le (a := q)
    have h3 : (0 : Int) ≤ q.floor := Rat.le_floor_iff.2 (by simpa using hq)
    have h4 : (q.floor.toNat : Int) = q.floor := Int.toNat_of_nonneg h3
    have h5 : ((q.floor.toNat : Nat) : Rat) = (q.floor : Rat) := by exact_mod_cast congrArg (Int.cast : Int → Rat) h4
    have h6 : ((Nat.sqrt q.floor.toNat * Nat.sqrt q.floor.toNat : Nat) : Rat) ≤ (q.floor.toNat : Nat) := by exact_mod_cast h1
    push_cast at h6
    linarith
  · have h1 := Nat.lt_succ_sqrt q.floor.toNat
    have h3 : (0 : Int) ≤ q.floor := Rat.le_floor_iff.2 (by simpa using hq)
    have h4 : (q.floor.toNat : Int) = q.floor := Int.toNat_of_nonneg h3
    have h7 : q.floor < (((Nat.sqrt q.floor.toNat + 1) * (Nat.sqrt q.floor.toNat + 1) : Nat) : Int) := by
      rw [← h4]; exact_mod_cast h1
    rw [Rat.floor_lt_iff] at h7
    push_cast at h7
    exact h7
  · unfold roundRoot
    generalize Nat.sqrt q.floor.toNat = n
    have hn : (0 : Rat) ≤ n := by positivity
    split
    · left; rfl
    · rename_i h
      have : (n : Rat) * n < q := by linarith
      split
      · right; exact ⟨rfl, this⟩
      · split
        · left; rfl
        · right; exact ⟨rfl, this⟩

/-- Unless it is subnormal the square root has 24 significant bits. -/
theorem rootBit_ge {s : Rat} (hs : 0 < s) (h : rootBit s ≠ -149) : (2 ^ 23 * (2 : Rat) ^ rootBit s) * (2 ^ 23 * (2 : Rat) ^ rootBit s) ≤ s := by
  have h0 : rootBit s = Int.log 2 s / 2 - 23 := by unfold rootBit at *; omega
  have h1 : (2 : Rat) ^ (Int.log 2 s) ≤ s := by
    have := Int.zpow_log_le_self (b := 2) (by norm_num) hs
    exact_mod_cast this
  have h2 : (2 : Rat) ^ ((23 + rootBit s) + (23 + rootBit s)) ≤ (2 : Rat) ^ (Int.log 2 s) :=
    zpow_le_zpow_right₀ (by norm_num) (by omega)
  rw [zpow_add₀ (by norm_num), zpow_add₀ (by norm_num)] at h2
  calc _ = (2 : Rat) ^ (23 : Int) * 2 ^ rootBit s * (2 ^ (23 : Int) * 2 ^ rootBit s) := by norm_cast
    _ ≤ _ := h2
    _ ≤ s := h1

/-- The square root, correctly rounded, is a rounded square root. -/
theorem root_root : Root root := by
  have main : ∀ s y, 0 < s → IsF32 y → 0 ≤ y → (y * y ≤ s → y ≤ root s) ∧ (s ≤ y * y → root s ≤ y) := by
    intro s y hs hy hy0
    have hz := two_zpow_pos (rootBit s)
    have hzz : 0 < (2 : Rat) ^ rootBit s * 2 ^ rootBit s := mul_pos hz hz
    obtain ⟨n, h1, h2, h3⟩ := roundRoot_cases (show 0 ≤ s / ((2 : Rat) ^ rootBit s * 2 ^ rootBit s) by positivity)
    have hroot : root s = roundRoot (s / ((2 : Rat) ^ rootBit s * 2 ^ rootBit s)) * (2 : Rat) ^ rootBit s := by
      unfold root; rw [if_neg (by linarith)]
    rw [hroot]
    obtain ⟨m, e, hm, he, hye⟩ := isF32_strict hy
    have hge : n ≤ roundRoot (s / ((2 : Rat) ^ rootBit s * 2 ^ rootBit s)) := by rcases h3 with h | h <;> omega
    have hge' : (n : Rat) ≤ (roundRoot (s / ((2 : Rat) ^ rootBit s * 2 ^ rootBit s)) : Nat) := by exact_mod_cast hge
    rcases le_or_gt (rootBit s) e with hle | hlt
    · obtain ⟨j, hj⟩ := Int.eq_ofNat_of_zero_le (show 0 ≤ e - rootBit s by omega)
      have h5 : (2 : Rat) ^ e = 2 ^ j * 2 ^ rootBit s := by
        rw [show e = (j : Int) + rootBit s by omega, zpow_add₀ (by norm_num), zpow_natCast]
      have hm0 : 0 ≤ m := by
        by_contra hc
        have : (m : Rat) ≤ -1 := by exact_mod_cast (by omega : m ≤ -1)
        have := two_zpow_pos e
        nlinarith
      obtain ⟨N, hN⟩ := Int.eq_ofNat_of_zero_le (show 0 ≤ m * 2 ^ j by positivity)
      have hy2 : y = (N : Rat) * 2 ^ rootBit s := by
        have : ((m * 2 ^ j : Int) : Rat) = (N : Rat) := by rw [hN]; norm_cast
        rw [← this, hye, h5]; push_cast; ring
      have hyy : y * y = N * N * ((2 : Rat) ^ rootBit s * 2 ^ rootBit s) := by rw [hy2]; ring
      constructor
      · intro hle'
        rw [hyy, ← le_div_iff₀ hzz] at hle'
        have hNn : N ≤ n := by
          by_contra hc
          have : (n : Rat) + 1 ≤ N := by exact_mod_cast (by omega : n + 1 ≤ N)
          nlinarith
        rw [hy2]
        refine mul_le_mul_of_nonneg_right ?_ hz.le
        exact_mod_cast le_trans hNn hge
      · intro hle'
        rw [hyy, ← div_le_iff₀ hzz] at hle'
        rw [hy2]
        refine mul_le_mul_of_nonneg_right ?_ hz.le
        rcases h3 with h | ⟨h, hlt⟩
        · rw [h]
          by_contra hc
          have hc' := lt_of_not_ge hc
          have : (0 : Rat) ≤ N := by positivity
          nlinarith
        · rw [h]
          have : n < N := by
            by_contra hc
            have : (N : Rat) ≤ n := by exact_mod_cast (by omega : N ≤ n)
            have : (0 : Rat) ≤ N := by positivity
            nlinarith
          exact_mod_cast this
    · have hbig := rootBit_ge hs (by omega)
      have h5 : (2 : Rat) ^ (1 + e) ≤ (2 : Rat) ^ rootBit s := zpow_le_zpow_right₀ (by norm_num) (by omega)
      rw [zpow_add₀ (by norm_num), zpow_one] at h5
      have hm' : (m : Rat) < 2 ^ 24 := by
        have := lt_of_le_of_lt (le_abs_self m) hm
        have h7 : (m : Rat) < ((2 ^ 24 : Int) : Rat) := by exact_mod_cast this
        push_cast at h7
        exact h7
      have h6 : y < 2 ^ 23 * 2 ^ rootBit s := by
        calc y = m * 2 ^ e := hye
          _ < 2 ^ 24 * 2 ^ e := mul_lt_mul_of_pos_right hm' (two_zpow_pos _)
          _ = 2 ^ 23 * (2 * 2 ^ e) := by ring
          _ ≤ _ := mul_le_mul_of_nonneg_left h5 (by positivity)
      constructor
      · intro _
        have hn : (2 : Nat) ^ 23 ≤ n := by
          by_contra hc
          have h8 : (n : Rat) + 1 ≤ 2 ^ 23 := by exact_mod_cast (by omega : n + 1 ≤ 2 ^ 23)
          have h9 : (2 : Rat) ^ 23 * 2 ^ 23 ≤ s / ((2 : Rat) ^ rootBit s * 2 ^ rootBit s) := by
            rw [le_div_iff₀ hzz]
            calc _ = (2 ^ 23 * (2 : Rat) ^ rootBit s) * (2 ^ 23 * (2 : Rat) ^ rootBit s) := by ring
              _ ≤ s := hbig
          have : (0 : Rat) ≤ n := by positivity
          nlinarith
        have hn' : (2 : Rat) ^ 23 ≤ n := by exact_mod_cast hn
        have := mul_le_mul_of_nonneg_right (le_trans hn' hge') hz.le
        linarith
      · intro hc
        exfalso
        nlinarith
  constructor
  · intro s y hs hy hy0 h
    rcases lt_or_eq_of_le hs with h0 | h0
    · exact (main s y h0 hy hy0).1 h
    · rw [← h0] at h ⊢
      have : y = 0 := by nlinarith
      rw [this]; simp [root]
  · intro s y hs hy hy0 h
    rcases lt_or_eq_of_le hs with h0 | h0
    · exact (main s y h0 hy hy0).2 h
    · rw [← h0]; simpa [root] using hy0

/-- Singles are not changed. -/
theorem Rounding.keeps {rnd : Rat → Rat} (h : Rounding rnd) {x : Rat} (hx : IsF32 x) : rnd x = x := by
  have := h.nearest x x hx
  rw [sub_self, abs_zero] at this
  have := abs_nonpos_iff.1 this
  linarith

theorem Rounding.zero {rnd : Rat → Rat} (h : Rounding rnd) : rnd 0 = 0 := h.keeps isF32_zero

theorem Rounding.nonneg {rnd : Rat → Rat} (h : Rounding rnd) {x : Rat} (hx : 0 ≤ x) : 0 ≤ rnd x := by
  have := h.mono 0 x hx
  rwa [h.zero] at this

/-- The next single below `x` is at least `x / 2^24` away. -/
theorem gap {x y : Rat} (hx : IsF32 x) (hy : IsF32 y) (h0 : 0 < x) (h : y < x) : x / 2 ^ 24 ≤ x - y := by
  obtain ⟨m, e, hm, _, hxe⟩ := hx
  obtain ⟨n, f, hn, _, hyf⟩ := hy
  have hm' : (m : Rat) ≤ 2 ^ 24 := by
    have h7 : (m : Rat) ≤ ((2 ^ 24 : Int) : Rat) := by exact_mod_cast le_trans (le_abs_self m) hm
    push_cast at h7
    exact h7
  have hn' : (n : Rat) ≤ 2 ^ 24 := by
    have h7 : (n : Rat) ≤ ((2 ^ 24 : Int) : Rat) := by exact_mod_cast le_trans (le_abs_self n) hn
    push_cast at h7
    exact h7
  have he := two_zpow_pos e
  have hf := two_zpow_pos f
  have hpos : (0 : Rat) < 2 ^ 24 := by positivity
  rw [div_le_iff₀ hpos]
  rcases le_or_gt e f with hle | hlt
  · obtain ⟨j, hj⟩ := Int.eq_ofNat_of_zero_le (show 0 ≤ f - e by omega)
    have h5 : (2 : Rat) ^ f = 2 ^ j * 2 ^ e := by
      rw [show f = (j : Int) + e by omega, zpow_add₀ (by norm_num), zpow_natCast]
    have hy' : y = ((n * 2 ^ j : Int) : Rat) * 2 ^ e := by push_cast; rw [mul_assoc, ← h5, ← hyf]
    have hint : n * 2 ^ j + 1 ≤ m := by
      rw [hxe, hy'] at h
      have := lt_of_mul_lt_mul_right h he.le
      exact_mod_cast this
    have hint' : ((n * 2 ^ j : Int) : Rat) + 1 ≤ m := by exact_mod_cast hint
    rw [hy', hxe]
    nlinarith
  · obtain ⟨j, hj⟩ := Int.eq_ofNat_of_zero_le (show 0 ≤ e - f by omega)
    have h5 : (2 : Rat) ^ e = 2 ^ j * 2 ^ f := by
      rw [show e = (j : Int) + f by omega, zpow_add₀ (by norm_num), zpow_natCast]
    have hx' : x = ((m * 2 ^ j : Int) : Rat) * 2 ^ f := by push_cast; rw [mul_assoc, ← h5, ← hxe]
    by_cases hs : x ≤ 2 ^ 24 * 2 ^ f
    · have hint : n + 1 ≤ m * 2 ^ j := by
        rw [hx', hyf] at h
        have := lt_of_mul_lt_mul_right h hf.le
        exact_mod_cast this
      have hint' : (n : Rat) + 1 ≤ ((m * 2 ^ j : Int) : Rat) := by exact_mod_cast hint
      have : 2 ^ f ≤ x - y := by rw [hx', hyf]; nlinarith
      nlinarith
    · have hs' := lt_of_not_ge hs
      have hy2 : y ≤ 2 ^ 24 * 2 ^ f := by rw [hyf]; exact mul_le_mul_of_nonneg_right hn' hf.le
      rcases le_or_gt j 24 with hj24 | hj24
      · have hsplit : (2 : Rat) ^ 24 * 2 ^ f = ((2 ^ (24 - j) : Int) : Rat) * 2 ^ e := by
          rw [h5]; push_cast; rw [← mul_assoc, ← pow_add]; congr 2; omega
        have hint : (2 : Int) ^ (24 - j) + 1 ≤ m := by
          rw [hxe, hsplit] at hs'
          have := lt_of_mul_lt_mul_right hs' he.le
          exact_mod_cast this
        have hint' : ((2 ^ (24 - j) : Int) : Rat) + 1 ≤ m := by exact_mod_cast hint
        have : 2 ^ e ≤ x - y := by rw [hsplit] at hy2; rw [hxe] at *; nlinarith
        rw [hxe] at *
        nlinarith
      · have h2 : (2 : Rat) ^ 25 * 2 ^ f ≤ 2 ^ e := by
          rw [h5]
          exact mul_le_mul_of_nonneg_right (pow_le_pow_right₀ (by norm_num) (by omega)) hf.le
        have hm1 : (1 : Rat) ≤ m := by
          have : 0 < m := by
            by_contra hc
            have : (m : Rat) ≤ 0 := by exact_mod_cast (not_lt.1 hc)
            rw [hxe] at h0
            nlinarith
          exact_mod_cast this
        have : 2 ^ e ≤ x := by rw [hxe]; nlinarith
        nlinarith

end Verif.Single
