import Verif.Lemmas.MachineSchedule
import Verif.Lemmas.SingleIeee

/-! Where adding 1 to a single does nothing. -/

namespace Verif.MachineSchedule

open Machine (F ofRat largest)
open Single (single Rounding IsF32)

/-- From 2^(24 + k) on all singles are multiples of 2^(k + 1). -/
theorem coarse {q : Rat} (h : IsF32 q) (k : Nat) (hq : 2 ^ (24 + k) ≤ |q|) : ∃ m : Int, q = m * 2 ^ (k + 1) := by
  obtain ⟨m, e, hm, _, rfl⟩ := h
  have hm' : |(m : Rat)| ≤ 2 ^ 24 := by exact_mod_cast hm
  have hpos : (0 : Rat) < 2 ^ e := Single.two_zpow_pos e
  rw [abs_mul, abs_of_pos hpos] at hq
  by_cases he : (k : Int) + 1 ≤ e
  · obtain ⟨n, hn⟩ := Int.eq_ofNat_of_zero_le (show 0 ≤ e - (k + 1) by omega)
    refine ⟨m * 2 ^ n, ?_⟩
    rw [show e = ((n + (k + 1) : Nat) : Int) by push_cast; omega, zpow_natCast, pow_add]
    push_cast
    ring
  · have h1 : (2 : Rat) ^ e ≤ 2 ^ (k : Int) := zpow_le_zpow_right₀ (by norm_num) (by omega)
    rw [zpow_natCast] at h1
    have h2 : (0 : Rat) < 2 ^ k := by positivity
    have h3 : |(m : Rat)| * 2 ^ e ≤ 2 ^ 24 * 2 ^ k := mul_le_mul hm' h1 hpos.le (by positivity)
    have h4 : |(m : Rat)| * 2 ^ e = 2 ^ 24 * 2 ^ k := le_antisymm h3 (by rw [← pow_add]; exact hq)
    rcases abs_choice (m : Rat) with h5 | h5 <;> rw [h5] at h4
    · exact ⟨2 ^ 23, by rw [h4, pow_succ]; push_cast; ring⟩
    · exact ⟨-2 ^ 23, by
        rw [show (2 : Rat) ^ (k + 1) = 2 ^ k * 2 from pow_succ _ _]; push_cast
        linarith [h4, show -(m : Rat) * 2 ^ e = -((m : Rat) * 2 ^ e) by ring]⟩

theorem even_isF32 {m : Int} (h : |m| ≤ 2 ^ 24) : IsF32 (m * 2) := ⟨m, 1, h, by omega, by norm_num⟩

/-- Adding 1 gives a value from `q` to `q + 2`. -/
theorem advance_between {rnd : Rat → Rat} (hr : Rounding rnd) {q : Rat} (h : IsF32 q) : q ≤ rnd (q + 1) ∧ rnd (q + 1) ≤ q + 2 := by
  have := hr.nearest (q + 1) q h
  rw [show q - (q + 1) = -1 by ring, abs_neg, abs_one] at this
  have := abs_le.1 this
  constructor <;> linarith [this.1, this.2]

/-- Beyond 2^24, except at -2^24 itself, adding 1 adds 0 or 2. -/
theorem advance_coarse {rnd : Rat → Rat} (hr : Rounding rnd) {q : Rat} (h : IsF32 q) (hq : 2 ^ 24 ≤ |q|) (hne : q ≠ -2 ^ 24) :
    rnd (q + 1) = q ∨ rnd (q + 1) = q + 2 := by
  obtain ⟨h1, h2⟩ := advance_between hr h
  obtain ⟨m, hm⟩ := coarse h 0 (by simpa using hq)
  rw [show (2 : Rat) ^ (0 + 1) = 2 by norm_num] at hm
  have hs : 2 ^ 24 ≤ |rnd (q + 1)| := by
    rcases abs_choice q with h3 | h3 <;> rw [h3] at hq
    · exact (hq.trans h1).trans (le_abs_self _)
    · have h4 : q ≤ -2 ^ 24 - 2 := by
        rw [hm] at hq hne ⊢
        have h5 : (m : Rat) ≤ -2 ^ 23 := by linarith
        have h6 : m ≤ -2 ^ 23 := by exact_mod_cast h5
        have h7 : m ≠ -2 ^ 23 := by
          rintro rfl
          apply hne
          norm_num
        have h8 : m ≤ -2 ^ 23 - 1 := by omega
        have h9 : (m : Rat) ≤ -2 ^ 23 - 1 := by exact_mod_cast h8
        linarith
      exact le_trans (by linarith) (neg_le_abs _)
  obtain ⟨n, hn⟩ := coarse (hr.lands (q + 1)) 0 (by simpa using hs)
  rw [show (2 : Rat) ^ (0 + 1) = 2 by norm_num] at hn
  rw [hn, hm] at h1 h2
  have h3 : m ≤ n := by
    have : (m : Rat) ≤ n := by linarith
    exact_mod_cast this
  have h4 : n ≤ m + 1 := by
    have : (n : Rat) ≤ m + 1 := by linarith
    exact_mod_cast this
  rw [hn]
  have h5 : n = m ∨ n = m + 1 := by omega
  rcases h5 with h5 | h5
  · left; rw [hm, h5]
  · right; rw [hm, h5]; push_cast; ring

/-- Every turn that changes the time at all adds a half at least. -/
theorem advance_or {rnd : Rat → Rat} (hr : Rounding rnd) {q : Rat} (h : IsF32 q) : rnd (q + 1) = q ∨ q + 1 / 2 ≤ rnd (q + 1) := by
  by_cases hq : 2 ^ 24 ≤ |q| ∧ q ≠ -2 ^ 24
  · rcases advance_coarse hr h hq.1 hq.2 with h1 | h1
    · exact Or.inl h1
    · right; rw [h1]; linarith
  · right
    have hlow : -2 ^ 24 ≤ q := by
      by_cases he : q = -2 ^ 24
      · rw [he]
      · have : ¬ 2 ^ 24 ≤ |q| := fun hc => hq ⟨hc, he⟩
        have := (abs_lt.1 (not_le.1 this)).1
        linarith
    by_cases hup : q + 1 ≤ 2 ^ 24
    · exact advance_half hr hlow hup
    · have hlt : q < 2 ^ 24 := by
        by_cases he : q = -2 ^ 24
        · rw [he]; norm_num
        · exact (abs_lt.1 (not_le.1 (fun hc => hq ⟨hc, he⟩))).2
      have hf : IsF32 ((2 : Rat) ^ 24) := ⟨2 ^ 24, 0, by norm_num, by omega, by norm_num⟩
      have := Single.gap hf h (by norm_num) hlt
      rw [div_self (by norm_num)] at this
      linarith

/-- Rounding to nearest even: adding 1 does nothing exactly at the multiples of 4 from 2^24 on and below -2^24. -/
theorem stuck_iff {q : Rat} (h : IsF32 q) : single (q + 1) = q ↔ 2 ^ 24 ≤ |q| ∧ q ≠ -2 ^ 24 ∧ ∃ m : Int, q = m * 4 := by
  have hr := Single.rounding_single
  constructor
  · intro hs
    have h0 : 2 ^ 24 ≤ |q| ∧ q ≠ -2 ^ 24 := by
      by_contra hc
      have hlow : -2 ^ 24 ≤ q := by
        by_cases he : q = -2 ^ 24
        · rw [he]
        · have := (abs_lt.1 (not_le.1 (fun hc' => hc ⟨hc', he⟩))).1
          linarith
      have hlt : q < 2 ^ 24 := by
        by_cases he : q = -2 ^ 24
        · rw [he]; norm_num
        · exact (abs_lt.1 (not_le.1 (fun hc' => hc ⟨hc', he⟩))).2
      by_cases hup : q + 1 ≤ 2 ^ 24
      · have := advance_half hr hlow hup
        rw [hs] at this
        linarith
      · have hf : IsF32 ((2 : Rat) ^ 24) := ⟨2 ^ 24, 0, by norm_num, by omega, by norm_num⟩
        have := Single.gap hf h (by norm_num) hlt
        rw [div_self (by norm_num)] at this
        linarith
    refine ⟨h0.1, h0.2, ?_⟩
    obtain ⟨m, hm⟩ := coarse h 0 (by simpa using h0.1)
    rw [show (2 : Rat) ^ (0 + 1) = 2 by norm_num] at hm
    by_cases hbig : 2 ^ 25 ≤ |q|
    · obtain ⟨n, hn⟩ := coarse h 1 (by simpa using hbig)
      exact ⟨n, by rw [hn]; norm_num⟩
    · have hy : IsF32 (q + 2) := by
        rw [hm, show (m : Rat) * 2 + 2 = ((m + 1 : Int) : Rat) * 2 by push_cast; ring]
        apply even_isF32
        rw [hm] at hbig
        have h1 : |(m : Rat) * 2| < 2 ^ 25 := not_le.1 hbig
        have h2 := abs_lt.1 h1
        have h3 : (-2 ^ 24 : Rat) < m := by linarith [h2.1]
        have h4 : (m : Rat) < 2 ^ 24 := by linarith [h2.2]
        have h5 : -2 ^ 24 < m := by exact_mod_cast h3
        have h6 : m < 2 ^ 24 := by exact_mod_cast h4
        exact abs_le.2 ⟨by omega, by omega⟩
      obtain ⟨n, hn⟩ := Single.single_even (q + 1) (q + 2) hy (by rw [hs]; linarith) (by rw [hs]; norm_num)
      rw [hs] at hn
      exact ⟨n, by rw [hn]; ring⟩
  · rintro ⟨h1, h2, m, hm⟩
    rcases advance_coarse hr h h1 h2 with h3 | h3
    · exact h3
    · exfalso
      obtain ⟨n, hn⟩ := Single.single_even (q + 1) q h (by rw [h3]; linarith) (by rw [h3]; norm_num)
      rw [h3, hm] at hn
      have h4 : (2 : Rat) * m + 1 = -2 * n := by linarith
      have h5 : 2 * m + 1 = -2 * n := by exact_mod_cast h4
      omega

end Verif.MachineSchedule
