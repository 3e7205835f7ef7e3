import Verif.Lemmas.Single

/-!
`single` and `root` round as IEEE 754 prescribes.
-/

namespace Verif.Single

/-- A single is a multiple of the last bit of `x`, or below every number of its size. -/
theorem on_grid {x y : Rat} (hx : 0 < x) (hy : IsF32 y) : (∃ n : Int, y = n * (2 : Rat) ^ lastBit x) ∨ (y ≤ 2 ^ 23 * 2 ^ lastBit x ∧ 2 ^ 23 * 2 ^ lastBit x ≤ x) := by
  obtain ⟨m, e, h1, h2, h3⟩ := isF32_strict hy
  rcases le_or_gt (lastBit x) e with hle | hlt
  · left
    obtain ⟨j, hj⟩ := Int.eq_ofNat_of_zero_le (show 0 ≤ e - lastBit x by omega)
    have h5 : (2 : Rat) ^ e = 2 ^ j * 2 ^ lastBit x := by
      rw [show e = (j : Int) + lastBit x by omega, zpow_add₀ (by norm_num), zpow_natCast]
    exact ⟨m * 2 ^ j, by push_cast; rw [mul_assoc, ← h5, ← h3]⟩
  · right
    have h4 := mantissa_ge hx (by omega)
    rw [le_div_iff₀ (two_zpow_pos _)] at h4
    have h5 : (2 : Rat) ^ (1 + e) ≤ (2 : Rat) ^ lastBit x := zpow_le_zpow_right₀ (by norm_num) (by omega)
    rw [zpow_add₀ (by norm_num), zpow_one] at h5
    have hm : (m : Rat) ≤ 2 ^ 24 := by
      have := lt_of_le_of_lt (le_abs_self m) h1
      have h7 : (m : Rat) < ((2 ^ 24 : Int) : Rat) := by exact_mod_cast this
      push_cast at h7
      exact h7.le
    refine ⟨?_, h4⟩
    calc y = m * 2 ^ e := h3
      _ ≤ 2 ^ 24 * 2 ^ e := mul_le_mul_of_nonneg_right hm (two_zpow_pos _).le
      _ = 2 ^ 23 * (2 * 2 ^ e) := by ring
      _ ≤ _ := mul_le_mul_of_nonneg_left h5 (by positivity)

/-- At a tie the even neighbour is taken. -/
theorem roundEven_even {x : Rat} (h : x - ⌊x⌋ = 1 / 2) : ∃ k : Int, roundEven x = 2 * k := by
  unfold roundEven
  rw [floor_eq, if_neg (by linarith), if_neg (by linarith)]
  split
  · exact ⟨⌊x⌋ / 2, by omega⟩
  · exact ⟨(⌊x⌋ + 1) / 2, by omega⟩

/-- Two multiples of the last bit at the same distance. -/
theorem tie_multiple {x : Rat} {n : Int} (hx : 0 < x) (hne : (n : Rat) * 2 ^ lastBit x ≠ single x)
    (h : |(n : Rat) * 2 ^ lastBit x - x| = |single x - x|) : ∃ m : Int, single x = 2 * m * ((n : Rat) * 2 ^ lastBit x - single x) := by
  have hz := two_zpow_pos (lastBit x)
  rw [single_pos hx] at *
  have e1 : ∀ k : Rat, k * 2 ^ lastBit x - x = (k - x / 2 ^ lastBit x) * 2 ^ lastBit x := by intro k; field_simp
  rw [e1, e1, abs_mul, abs_mul, abs_of_pos hz] at h
  have h' := mul_right_cancel₀ hz.ne' h
  generalize x / (2 : Rat) ^ lastBit x = q at *
  have hn : n ≠ roundEven q := by intro hc; exact hne (by rw [hc])
  have h1 := Int.floor_le q
  have h2 := Int.lt_floor_add_one q
  have hr := roundEven_near q
  rw [← h'] at hr
  have hr' := abs_le.1 hr
  -- the two are neighbours
  have hnb : (n = ⌊q⌋ ∧ roundEven q = ⌊q⌋ + 1 ∨ n = ⌊q⌋ + 1 ∧ roundEven q = ⌊q⌋) ∧ q - ⌊q⌋ = 1 / 2 := by
    have b1 : ⌊q⌋ ≤ n := by
      by_contra hc
      have : (n : Rat) + 1 ≤ ⌊q⌋ := by exact_mod_cast (by omega : n + 1 ≤ ⌊q⌋)
      linarith [hr'.1]
    have b2 : n ≤ ⌊q⌋ + 1 := by
      by_contra hc
      have : (⌊q⌋ : Rat) + 1 + 1 ≤ n := by exact_mod_cast (by omega : ⌊q⌋ + 1 + 1 ≤ n)
      linarith [hr'.2]
    rcases roundEven_cases q with ⟨c, c'⟩ | ⟨c, c'⟩
    · have : n = ⌊q⌋ + 1 := by omega
      refine ⟨Or.inr ⟨this, c⟩, ?_⟩
      rw [this, c] at h'
      push_cast at h'
      rw [abs_of_nonneg (by linarith), abs_of_nonpos (by linarith)] at h'
      linarith
    · have : n = ⌊q⌋ := by omega
      refine ⟨Or.inl ⟨this, c⟩, ?_⟩
      rw [this, c] at h'
      push_cast at h'
      rw [abs_of_nonpos (by linarith), abs_of_nonneg (by linarith)] at h'
      linarith
  obtain ⟨hnb, htie⟩ := hnb
  obtain ⟨k, hk⟩ := roundEven_even htie
  rcases hnb with ⟨a, b⟩ | ⟨a, b⟩
  · refine ⟨-k, ?_⟩
    have : (n : Rat) = (roundEven q : Rat) - 1 := by rw [a, b]; push_cast; ring
    rw [this, hk]; push_cast; ring
  · refine ⟨k, ?_⟩
    have : (n : Rat) = (roundEven q : Rat) + 1 := by rw [a, b]; push_cast; ring
    rw [this, hk]; push_cast; ring

theorem single_even (x y : Rat) (hy : IsF32 y) (hne : y ≠ single x) (h : |y - x| = |single x - x|) : ∃ m : Int, single x = 2 * m * (y - single x) := by
  have pos : ∀ x y : Rat, 0 < x → IsF32 y → y ≠ single x → |y - x| = |single x - x| → ∃ m : Int, single x = 2 * m * (y - single x) := by
    intro x y hx hy hne h
    rcases on_grid hx hy with ⟨n, rfl⟩ | ⟨h1, h2⟩
    · exact tie_multiple hx hne h
    · have h3 := single_nearest_multiple hx (2 ^ 23)
      rw [show (((2 : Int) ^ 23 : Int) : Rat) = 2 ^ 23 by norm_num, ← h, abs_of_nonpos (show y - x ≤ 0 by linarith),
        abs_of_nonpos (show (2 : Rat) ^ 23 * 2 ^ lastBit x - x ≤ 0 by linarith)] at h3
      have : y = ((2 ^ 23 : Int) : Rat) * 2 ^ lastBit x := by push_cast; linarith
      rw [this] at hne h ⊢
      exact tie_multiple hx hne h
  rcases lt_trichotomy x 0 with hx | hx | hx
  · obtain ⟨m, hm⟩ := pos (-x) (-y) (by linarith) (isF32_neg hy) (by rw [single_odd]; intro hc; exact hne (by linarith))
      (by rw [single_odd, ← abs_neg, show -(-y - -x) = y - x by ring, h, ← abs_neg]; congr 1; ring)
    rw [single_odd] at hm
    exact ⟨m, by linarith⟩
  · exfalso
    rw [hx, single_zero] at h hne
    simp only [sub_zero, abs_zero, abs_eq_zero] at h
    exact hne h
  · exact pos x y hx hy hne h

/-- A single that is not negative is a multiple of the last bit of the root, or smaller than every root of that size. -/
theorem on_root_grid {s y : Rat} (hs : 0 < s) (hy : IsF32 y) (hy0 : 0 ≤ y) : (∃ N : Nat, y = N * (2 : Rat) ^ rootBit s) ∨
    (y < 2 ^ 23 * 2 ^ rootBit s ∧ (2 ^ 23 * (2 : Rat) ^ rootBit s) * (2 ^ 23 * (2 : Rat) ^ rootBit s) ≤ s) := by
  obtain ⟨m, e, hm, he, hye⟩ := isF32_strict hy
  rcases le_or_gt (rootBit s) e with hle | hlt
  · left
    obtain ⟨j, hj⟩ := Int.eq_ofNat_of_zero_le (show 0 ≤ e - rootBit s by omega)
    have h5 : (2 : Rat) ^ e = 2 ^ j * 2 ^ rootBit s := by
      rw [show e = (j : Int) + rootBit s by omega, zpow_add₀ (by norm_num), zpow_natCast]
    have hm0 : 0 ≤ m := by
      by_contra hc
      have : (m : Rat) ≤ -1 := by exact_mod_cast (by omega : m ≤ -1)
      have := two_zpow_pos e
      nlinarith
    obtain ⟨N, hN⟩ := Int.eq_ofNat_of_zero_le (show 0 ≤ m * 2 ^ j by positivity)
    refine ⟨N, ?_⟩
    have : ((m * 2 ^ j : Int) : Rat) = (N : Rat) := by rw [hN]; norm_cast
    rw [← this, hye, h5]; push_cast; ring
  · right
    have hbig := rootBit_ge hs (by omega)
    have h5 : (2 : Rat) ^ (1 + e) ≤ (2 : Rat) ^ rootBit s := zpow_le_zpow_right₀ (by norm_num) (by omega)
    rw [zpow_add₀ (by norm_num), zpow_one] at h5
    have hm' : (m : Rat) < 2 ^ 24 := by
      have := lt_of_le_of_lt (le_abs_self m) hm
      have h7 : (m : Rat) < ((2 ^ 24 : Int) : Rat) := by exact_mod_cast this
      push_cast at h7
      exact h7
    refine ⟨?_, hbig⟩
    calc y = m * 2 ^ e := hye
      _ < 2 ^ 24 * 2 ^ e := mul_lt_mul_of_pos_right hm' (two_zpow_pos _)
      _ = 2 ^ 23 * (2 * 2 ^ e) := by ring
      _ ≤ _ := mul_le_mul_of_nonneg_left h5 (by positivity)

theorem roundRoot_half {q : Rat} (hq : 0 ≤ q) : ∃ n : Nat, (n : Rat) * n ≤ q ∧ q < (n + 1) * (n + 1) ∧
    (roundRoot q = n ∧ q ≤ (n + 1 / 2) * (n + 1 / 2) ∨ roundRoot q = n + 1 ∧ ((n : Rat) + 1 / 2) * (n + 1 / 2) ≤ q) := by
  have hfl : Rat.floor q = ⌊q⌋ := rfl
  refine ⟨Nat.sqrt q.floor.toNat, ?_, ?_, ?_⟩
  · have h1 := Nat.sqrt_le q.floor.toNat
    have h2 := Rat.floor_le (a := q)
    have h3 : (0 : Int) ≤ q.floor := Rat.le_floor_iff.2 (by simpa using hq)
    have h5 : ((q.floor.toNat : Nat) : Rat) = (q.floor : Rat) := by exact_mod_cast congrArg (Int.cast : Int → Rat) (Int.toNat_of_nonneg h3)
    have h6 : ((Nat.sqrt q.floor.toNat * Nat.sqrt q.floor.toNat : Nat) : Rat) ≤ (q.floor.toNat : Nat) := by exact_mod_cast h1
    push_cast at h6
    linarith
  · have h1 := Nat.lt_succ_sqrt q.floor.toNat
    have h3 : (0 : Int) ≤ q.floor := Rat.le_floor_iff.2 (by simpa using hq)
    have h7 : q.floor < (((Nat.sqrt q.floor.toNat + 1) * (Nat.sqrt q.floor.toNat + 1) : Nat) : Int) := by
      rw [← Int.toNat_of_nonneg h3]; exact_mod_cast h1
    rw [Rat.floor_lt_iff] at h7
    push_cast at h7
    exact h7
  · unfold roundRoot
    generalize Nat.sqrt q.floor.toNat = n
    split
    · left; exact ⟨rfl, by linarith⟩
    · split
      · right; exact ⟨rfl, by linarith⟩
      · split
        · left; exact ⟨rfl, by linarith⟩
        · right; exact ⟨rfl, by linarith⟩

theorem root_nearest (s y : Rat) (hs : 0 ≤ s) (hy : IsF32 y) (hy0 : 0 ≤ y) :
    (y < root s → (y + root s) / 2 * ((y + root s) / 2) ≤ s) ∧ (root s < y → s ≤ (y + root s) / 2 * ((y + root s) / 2)) := by
  rcases lt_or_eq_of_le hs with hs | hs
  · have hz := two_zpow_pos (rootBit s)
    have hzz : 0 < (2 : Rat) ^ rootBit s * 2 ^ rootBit s := mul_pos hz hz
    obtain ⟨n, h1, h2, h3⟩ := roundRoot_half (show 0 ≤ s / ((2 : Rat) ^ rootBit s * 2 ^ rootBit s) by positivity)
    have hroot : root s = roundRoot (s / ((2 : Rat) ^ rootBit s * 2 ^ rootBit s)) * (2 : Rat) ^ rootBit s := by
      unfold root; rw [if_neg (by linarith)]
    have hgrid := on_root_grid hs hy hy0
    have hn0 : (0 : Rat) ≤ n := by positivity
    have hlow : (2 ^ 23 * (2 : Rat) ^ rootBit s) * (2 ^ 23 * (2 : Rat) ^ rootBit s) ≤ s → (2 : Rat) ^ 23 ≤ n := by
      intro hb
      have hn : (2 : Nat) ^ 23 ≤ n := by
        by_contra hc
        have h8 : (n : Rat) + 1 ≤ 2 ^ 23 := by exact_mod_cast (by omega : n + 1 ≤ 2 ^ 23)
        have h9 : (2 : Rat) ^ 23 * 2 ^ 23 ≤ s / ((2 : Rat) ^ rootBit s * 2 ^ rootBit s) := by
          rw [le_div_iff₀ hzz]
          calc _ = (2 ^ 23 * (2 : Rat) ^ rootBit s) * (2 ^ 23 * (2 : Rat) ^ rootBit s) := by ring
            _ ≤ s := hb
        nlinarith
      exact_mod_cast hn
    have hss : s = s / ((2 : Rat) ^ rootBit s * 2 ^ rootBit s) * ((2 : Rat) ^ rootBit s * 2 ^ rootBit s) := by field_simp
    generalize s / ((2 : Rat) ^ rootBit s * 2 ^ rootBit s) = q at *
    generalize (2 : Rat) ^ rootBit s = z at *
    have sq : ∀ a b : Rat, 0 ≤ a → a ≤ b * z → 0 ≤ b → b * b ≤ q → a * a ≤ s := by
      intro a b ha hab hb hbq
      have := mul_self_le_mul_self ha hab
      have h9 := mul_le_mul_of_nonneg_right hbq hzz.le
      rw [hss]
      linarith [show b * z * (b * z) = b * b * (z * z) by ring]
    have sq' : ∀ a b : Rat, 0 ≤ b → b * z ≤ a → q ≤ b * b → s ≤ a * a := by
      intro a b hb hab hbq
      have := mul_self_le_mul_self (mul_nonneg hb hz.le) hab
      have h9 := mul_le_mul_of_nonneg_right hbq hzz.le
      rw [hss]
      linarith [show b * z * (b * z) = b * b * (z * z) by ring]
    rcases h3 with ⟨c, c'⟩ | ⟨c, c'⟩
    · rw [hroot, c]
      constructor
      · intro hlt
        exact sq _ n (by positivity) (by linarith) hn0 h1
      · intro hgt
        have : (n + 1) * z ≤ y := by
          rcases hgrid with ⟨N, rfl⟩ | ⟨a, b⟩
          · have := lt_of_mul_lt_mul_right hgt hz.le
            have : n < N := by exact_mod_cast this
            have : (n : Rat) + 1 ≤ N := by exact_mod_cast this
            exact mul_le_mul_of_nonneg_right this hz.le
          · exfalso
            have := mul_le_mul_of_nonneg_right (hlow b) hz.le
            linarith
        exact sq' _ (n + 1 / 2) (by positivity) (by linarith) c'
    · rw [hroot, c]
      push_cast
      constructor
      · intro hlt
        have : y ≤ n * z := by
          rcases hgrid with ⟨N, rfl⟩ | ⟨a, b⟩
          · have := lt_of_mul_lt_mul_right hlt hz.le
            have : N < n + 1 := by exact_mod_cast this
            have : (N : Rat) ≤ n := by exact_mod_cast Nat.lt_succ_iff.1 this
            exact mul_le_mul_of_nonneg_right this hz.le
          · have := mul_le_mul_of_nonneg_right (hlow b) hz.le
            linarith
        exact sq _ (n + 1 / 2) (by positivity) (by linarith) (by positivity) c'
      · intro hgt
        exact sq' _ (n + 1) (by positivity) (by linarith) h2.le
  · rw [← hs]
    have : root 0 = 0 := by simp [root]
    rw [this]
    exact ⟨fun h => absurd hy0 (not_le.2 h), fun _ => by positivity⟩

/-- The rounded root is a single. -/
theorem root_lands (s : Rat) : IsF32 (root s) := by
  rcases le_or_gt s 0 with hs | hs
  · have : root s = 0 := by unfold root; rw [if_pos hs]
    rw [this]
    exact ⟨0, 0, by norm_num, by norm_num, by norm_num⟩
  · have hz := two_zpow_pos (rootBit s)
    have hb : -149 ≤ rootBit s := le_max_right _ _
    have hroot : root s = roundRoot (s / ((2 : Rat) ^ rootBit s * 2 ^ rootBit s)) * (2 : Rat) ^ rootBit s := by
      unfold root; rw [if_neg (by linarith)]
    have hy : IsF32 (2 ^ 24 * (2 : Rat) ^ rootBit s) := ⟨2 ^ 24, rootBit s, by norm_num, hb, by norm_num⟩
    have hle : root s ≤ 2 ^ 24 * (2 : Rat) ^ rootBit s := by
      refine root_root.above s _ hs.le hy (by positivity) ?_
      have h1 : s < (2 : Rat) ^ (Int.log 2 s + 1) := by
        have := Int.lt_zpow_succ_log_self (b := 2) (by norm_num) s
        exact_mod_cast this
      have h2 : (2 : Rat) ^ (Int.log 2 s + 1) ≤ (2 : Rat) ^ ((24 + rootBit s) + (24 + rootBit s)) := by
        refine zpow_le_zpow_right₀ (by norm_num) ?_
        have : Int.log 2 s / 2 - 23 ≤ rootBit s := le_max_left _ _
        omega
      rw [zpow_add₀ (by norm_num : (2 : Rat) ≠ 0) (24 + rootBit s) (24 + rootBit s), zpow_add₀ (by norm_num : (2 : Rat) ≠ 0) 24 (rootBit s)] at h2
      have h3 : (2 : Rat) ^ (24 : Int) * 2 ^ rootBit s * (2 ^ (24 : Int) * 2 ^ rootBit s) = 2 ^ 24 * (2 : Rat) ^ rootBit s * (2 ^ 24 * (2 : Rat) ^ rootBit s) := by norm_cast
      linarith
    rw [hroot] at hle ⊢
    have hle' := le_of_mul_le_mul_right hle hz
    refine ⟨roundRoot (s / ((2 : Rat) ^ rootBit s * 2 ^ rootBit s)), rootBit s, ?_, hb, by push_cast; rfl⟩
    rw [abs_of_nonneg (by positivity)]
    exact_mod_cast hle'

/-- The roundings of the model are those of IEEE 754. -/
theorem ieee : Ieee single root := ⟨rounding_single, single_even, root_root, root_lands, root_nearest⟩

-- a tie: 2^24 + 1 lies half way between 2^24 and 2^24 + 2 and goes to the even significand
example : single (2 ^ 24 + 1) = 2 ^ 24 ∧ single (2 ^ 24 + 3) = 2 ^ 24 + 4 ∧ |(2 ^ 24 + 2 : Rat) - (2 ^ 24 + 1)| = |single (2 ^ 24 + 1) - (2 ^ 24 + 1)| := by decide +kernel

end Verif.Single
