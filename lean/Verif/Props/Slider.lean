import Verif.Model.Slider
import Verif.Lemmas.Single

/-!
Property C205: the slider keeps the speed.
-/

namespace Verif.Slider

open Verif.Single

theorem double_near {x : Rat} (hx : 0 < x) : |double x - x| ≤ x / 2 ^ 53 := by
  unfold double
  rw [if_pos hx]
  have hp : (0 : Rat) < (2 : Rat) ^ (Int.log 2 x - 52) := two_zpow_pos _
  have h1 := roundEven_near (x / (2 : Rat) ^ (Int.log 2 x - 52))
  have h2 : ((2 : Nat) : Rat) ^ Int.log 2 x ≤ x := Int.zpow_log_le_self (by norm_num) hx
  have h3 : (2 : Rat) ^ (Int.log 2 x - 52) = (2 : Rat) ^ Int.log 2 x / 2 ^ 52 := by
    rw [zpow_sub₀ (by norm_num)]; rfl
  have h4 : (2 : Rat) ^ (Int.log 2 x - 52) ≤ x / 2 ^ 52 := by
    rw [h3]; push_cast at h2; exact div_le_div_of_nonneg_right h2 (by norm_num)
  have h5 : (roundEven (x / (2 : Rat) ^ (Int.log 2 x - 52)) : Rat) * (2 : Rat) ^ (Int.log 2 x - 52) - x =
      ((roundEven (x / (2 : Rat) ^ (Int.log 2 x - 52)) : Rat) - x / (2 : Rat) ^ (Int.log 2 x - 52)) *
        (2 : Rat) ^ (Int.log 2 x - 52) := by
    rw [sub_mul, div_mul_cancel₀ _ (ne_of_gt hp)]
  rw [h5, abs_mul, abs_of_pos hp]
  calc _ ≤ 1 / 2 * (2 : Rat) ^ (Int.log 2 x - 52) := by
        exact mul_le_mul_of_nonneg_right h1 (le_of_lt hp)
    _ ≤ 1 / 2 * (x / 2 ^ 52) := by exact mul_le_mul_of_nonneg_left h4 (by norm_num)
    _ = x / 2 ^ 53 := by ring

theorem double_zero : double 0 = 0 := by simp [double]

/-- Within one part in 2^53, as bounds. -/
theorem double_bounds {x : Rat} (hx : 0 < x) : x * (1 - 1 / 2 ^ 53) ≤ double x ∧ double x ≤ x * (1 + 1 / 2 ^ 53) := by
  have h := abs_le.1 (double_near hx)
  constructor
  · have := h.1; nlinarith
  · have := h.2; nlinarith

theorem asSecs_bounds {t : Nat} (ht : 0 < t) :
    (t : Rat) / 10 ^ 9 * (1 - 1 / 2 ^ 53) ^ 2 ≤ asSecs t ∧ asSecs t ≤ (t : Rat) / 10 ^ 9 * (1 + 1 / 2 ^ 53) ^ 2 := by
  have hsum : (t : Rat) / 10 ^ 9 = ((t / 10 ^ 9 : Nat) : Rat) + ((t % 10 ^ 9 : Nat) : Rat) / 10 ^ 9 := by
    have : (t : Rat) = ((10 ^ 9 * (t / 10 ^ 9) + t % 10 ^ 9 : Nat) : Rat) := by rw [Nat.div_add_mod]
    rw [this]; push_cast; ring
  have hs : (0 : Rat) ≤ ((t / 10 ^ 9 : Nat) : Rat) := Nat.cast_nonneg _
  have hn : (0 : Rat) ≤ ((t % 10 ^ 9 : Nat) : Rat) / 10 ^ 9 := div_nonneg (Nat.cast_nonneg _) (by norm_num)
  have hpos : (0 : Rat) < (t : Rat) / 10 ^ 9 := div_pos (by exact_mod_cast ht) (by norm_num)
  have hinner : ((t % 10 ^ 9 : Nat) : Rat) / 10 ^ 9 * (1 - 1 / 2 ^ 53) ≤ double (((t % 10 ^ 9 : Nat) : Rat) / 10 ^ 9) ∧
      double (((t % 10 ^ 9 : Nat) : Rat) / 10 ^ 9) ≤ ((t % 10 ^ 9 : Nat) : Rat) / 10 ^ 9 * (1 + 1 / 2 ^ 53) := by
    rcases hn.lt_or_eq with h | h
    · exact double_bounds h
    · rw [← h, double_zero]; simp
  unfold asSecs
  have hin : 0 < ((t / 10 ^ 9 : Nat) : Rat) + double (((t % 10 ^ 9 : Nat) : Rat) / 10 ^ 9) := by
    have := hinner.1
    rw [hsum] at hpos
    nlinarith
  obtain ⟨b1, b2⟩ := double_bounds hin
  constructor
  · refine le_trans ?_ b1
    rw [hsum]
    have := hinner.1
    nlinarith
  · refine le_trans b2 ?_
    rw [hsum]
    have := hinner.2
    nlinarith

theorem low_bounds : (1 : Rat) / 10 ≤ low ∧ low ≤ 1 / 10 * (1 + 1 / 2 ^ 53) := by
  constructor
  · have : low = 3602879701896397 / 36028797018963968 := by
      unfold low double
      rw [if_pos (by norm_num)]
      have hl : Int.log 2 (1 / 10 : Rat) = -4 := by decide +kernel
      rw [hl]
      have hr : roundEven ((1 / 10 : Rat) / (2 : Rat) ^ ((-4 : Int) - 52)) = 7205759403792794 := by decide +kernel
      rw [hr]
      norm_num
    rw [this]
    norm_num
  · exact (double_bounds (by norm_num)).2

/-- The exact rate, moved into the range by rounding only. -/
theorem shown_bounds {t : Nat} (h1 : 4 * 10 ^ 6 ≤ t) (h2 : t ≤ 10 ^ 10) :
    (10 : Rat) ^ 9 / t * (1 - 1 / 2 ^ 50) ≤ shown t ∧ shown t ≤ (10 : Rat) ^ 9 / t * (1 + 1 / 2 ^ 50) := by
  have ht : 0 < t := by omega
  have htq : (0 : Rat) < t := by exact_mod_cast ht
  obtain ⟨a1, a2⟩ := asSecs_bounds ht
  have hpos : 0 < asSecs t := lt_of_lt_of_le (by positivity) a1
  obtain ⟨d1, d2⟩ := double_bounds (x := 1 / asSecs t) (by positivity)
  have r1 : (10 : Rat) ^ 9 / t / (1 + 1 / 2 ^ 53) ^ 2 ≤ 1 / asSecs t := by
    rw [le_div_iff₀ hpos]
    calc _ ≤ (10 : Rat) ^ 9 / t / (1 + 1 / 2 ^ 53) ^ 2 * ((t : Rat) / 10 ^ 9 * (1 + 1 / 2 ^ 53) ^ 2) :=
          mul_le_mul_of_nonneg_left a2 (by positivity)
      _ = 1 := by field_simp
  have r2 : 1 / asSecs t ≤ (10 : Rat) ^ 9 / t / (1 - 1 / 2 ^ 53) ^ 2 := by
    rw [div_le_iff₀ hpos]
    calc (1 : Rat) = (10 : Rat) ^ 9 / t / (1 - 1 / 2 ^ 53) ^ 2 * ((t : Rat) / 10 ^ 9 * (1 - 1 / 2 ^ 53) ^ 2) := by
          have : (1 - 1 / 2 ^ 53 : Rat) ≠ 0 := by norm_num
          field_simp
      _ ≤ _ := mul_le_mul_of_nonneg_left a1 (by positivity)
  have hr : (0 : Rat) < (10 : Rat) ^ 9 / t := by positivity
  have e1 : (10 : Rat) ^ 9 / t * (1 - 1 / 2 ^ 50) ≤ double (1 / asSecs t) := by
    refine le_trans ?_ d1
    refine le_trans ?_ (mul_le_mul_of_nonneg_right r1 (show (0 : Rat) ≤ 1 - 1 / 2 ^ 53 by norm_num))
    calc (10 : Rat) ^ 9 / t * (1 - 1 / 2 ^ 50) ≤ (10 : Rat) ^ 9 / t * (1 / (1 + 1 / 2 ^ 53) ^ 2 * (1 - 1 / 2 ^ 53)) :=
          mul_le_mul_of_nonneg_left (by norm_num) (le_of_lt hr)
      _ = _ := by ring
  have e2 : double (1 / asSecs t) ≤ (10 : Rat) ^ 9 / t * (1 + 1 / 2 ^ 50) := by
    refine le_trans d2 ?_
    refine le_trans (mul_le_mul_of_nonneg_right r2 (show (0 : Rat) ≤ 1 + 1 / 2 ^ 53 by norm_num)) ?_
    calc _ = (10 : Rat) ^ 9 / t * (1 / (1 - 1 / 2 ^ 53) ^ 2 * (1 + 1 / 2 ^ 53)) := by ring
      _ ≤ _ := mul_le_mul_of_nonneg_left (by norm_num) (le_of_lt hr)
  have hlo : (1 : Rat) / 10 ≤ (10 : Rat) ^ 9 / t := by
    rw [le_div_iff₀ htq]
    have : (t : Rat) ≤ 10 ^ 10 := by exact_mod_cast h2
    linarith
  have hhi : (10 : Rat) ^ 9 / t ≤ 250 := by
    rw [div_le_iff₀ htq]
    have : (4 * 10 ^ 6 : Rat) ≤ t := by exact_mod_cast h1
    linarith
  have hl := low_bounds
  unfold shown clamp
  split
  · rename_i h
    refine ⟨le_trans e1 (le_of_lt h), le_trans hl.2 ?_⟩
    exact mul_le_mul hlo (by norm_num) (by norm_num) (le_of_lt hr)
  · split
    · rename_i h
      refine ⟨?_, le_trans (le_of_lt h) e2⟩
      calc _ ≤ 250 * (1 - 1 / 2 ^ 50 : Rat) := mul_le_mul_of_nonneg_right hhi (by norm_num)
        _ ≤ 250 := by norm_num
    · exact ⟨e1, e2⟩

theorem roundEven_eq {x : Rat} {n : Int} (h : |x - n| < 1 / 2) : roundEven x = n := by
  have h1 := roundEven_near x
  have h2 : |(roundEven x : Rat) - n| < 1 := by
    calc |(roundEven x : Rat) - n| = |((roundEven x : Rat) - x) + (x - n)| := by ring_nf
      _ ≤ _ := abs_add_le _ _
      _ < 1 := by linarith
  have h3 : |roundEven x - n| < 1 := by exact_mod_cast h2
  have := abs_lt.1 h3
  omega

/-- **C205**: a frame in which the slider is not moved leaves the time between two steps as it is, to the nanosecond, for every
time in its range. -/
theorem C205_keeps {t : Nat} (h1 : 4 * 10 ^ 6 ≤ t) (h2 : t ≤ 10 ^ 10) : frame none t = some t := by
  have htq : (0 : Rat) < t := by exact_mod_cast (by omega : 0 < t)
  have htu : (t : Rat) ≤ 10 ^ 10 := by exact_mod_cast h2
  obtain ⟨a1, a2⟩ := shown_bounds h1 h2
  have hpos : 0 < shown t := lt_of_lt_of_le (by
    have : (0 : Rat) < 1 - 1 / 2 ^ 50 := by norm_num
    positivity) a1
  obtain ⟨d1, d2⟩ := double_bounds (x := 1 / shown t) (by positivity)
  have r1 : (t : Rat) / 10 ^ 9 / (1 + 1 / 2 ^ 50) ≤ 1 / shown t := by
    rw [le_div_iff₀ hpos]
    calc _ ≤ (t : Rat) / 10 ^ 9 / (1 + 1 / 2 ^ 50) * ((10 : Rat) ^ 9 / t * (1 + 1 / 2 ^ 50)) :=
          mul_le_mul_of_nonneg_left a2 (by positivity)
      _ = 1 := by field_simp
  have r2 : 1 / shown t ≤ (t : Rat) / 10 ^ 9 / (1 - 1 / 2 ^ 50) := by
    rw [div_le_iff₀ hpos]
    have hne : (1 - 1 / 2 ^ 50 : Rat) ≠ 0 := by norm_num
    have hp : (0 : Rat) < 1 - 1 / 2 ^ 50 := by norm_num
    calc (1 : Rat) = (t : Rat) / 10 ^ 9 / (1 - 1 / 2 ^ 50) * ((10 : Rat) ^ 9 / t * (1 - 1 / 2 ^ 50)) := by field_simp
      _ ≤ _ := mul_le_mul_of_nonneg_left a1 (by positivity)
  have e : |double (1 / shown t) * 10 ^ 9 - ((t : Int) : Rat)| < 1 / 2 := by
    rw [abs_lt]
    push_cast
    constructor
    · have h3 : (t : Rat) * (1 - 1 / 2 ^ 40) ≤ double (1 / shown t) * 10 ^ 9 := by
        calc (t : Rat) * (1 - 1 / 2 ^ 40) ≤ (t : Rat) * (1 / (1 + 1 / 2 ^ 50) * (1 - 1 / 2 ^ 53)) :=
              mul_le_mul_of_nonneg_left (by norm_num) (le_of_lt htq)
          _ = (t : Rat) / 10 ^ 9 / (1 + 1 / 2 ^ 50) * (1 - 1 / 2 ^ 53) * 10 ^ 9 := by ring
          _ ≤ 1 / shown t * (1 - 1 / 2 ^ 53) * 10 ^ 9 := by
              exact mul_le_mul_of_nonneg_right (mul_le_mul_of_nonneg_right r1 (by norm_num)) (by norm_num)
          _ ≤ _ := mul_le_mul_of_nonneg_right d1 (by norm_num)
      linarith
    · have h3 : double (1 / shown t) * 10 ^ 9 ≤ (t : Rat) * (1 + 1 / 2 ^ 40) := by
        calc double (1 / shown t) * 10 ^ 9 ≤ 1 / shown t * (1 + 1 / 2 ^ 53) * 10 ^ 9 :=
              mul_le_mul_of_nonneg_right d2 (by norm_num)
          _ ≤ (t : Rat) / 10 ^ 9 / (1 - 1 / 2 ^ 50) * (1 + 1 / 2 ^ 53) * 10 ^ 9 := by
              exact mul_le_mul_of_nonneg_right (mul_le_mul_of_nonneg_right r2 (by norm_num)) (by norm_num)
          _ = (t : Rat) * (1 / (1 - 1 / 2 ^ 50) * (1 + 1 / 2 ^ 53)) := by ring
          _ ≤ _ := mul_le_mul_of_nonneg_left (by norm_num) (le_of_lt htq)
      linarith
  show set (shown t) = some t
  unfold set
  rw [roundEven_eq e, if_pos (by omega)]
  rfl

/-- C205: the slider may be moved to any place; the time between two steps is then in its range, and the period differs from the one
asked for by less than a nanosecond. -/
theorem C205_moves (v : Rat) (t : Nat) : ∃ t', frame (some v) t = some t' ∧ 4 * 10 ^ 6 ≤ t' ∧ t' ≤ 10 ^ 10 ∧
    |(t' : Rat) - 10 ^ 9 / clamp v| < 1 := by
  obtain ⟨l1, l2⟩ := low_bounds
  have hc : (1 : Rat) / 10 ≤ clamp v ∧ clamp v ≤ 250 := by
    unfold clamp
    split
    · exact ⟨l1, le_trans l2 (by norm_num)⟩
    · split
      · exact ⟨by norm_num, le_refl _⟩
      · rename_i h1 h2
        exact ⟨le_trans l1 (not_lt.1 h1), not_lt.1 h2⟩
  obtain ⟨c1, c2⟩ := hc
  have hpos : 0 < clamp v := lt_of_lt_of_le (by norm_num) c1
  have i1 : 1 / clamp v ≤ 10 := by rw [div_le_iff₀ hpos]; linarith
  have i2 : 1 / 250 ≤ 1 / clamp v := by
    rw [div_le_div_iff₀ (by norm_num) hpos]; linarith
  have ipos : 0 < 1 / clamp v := by positivity
  obtain ⟨d1, d2⟩ := double_bounds ipos
  have hn := abs_le.1 (roundEven_near (double (1 / clamp v) * 10 ^ 9))
  have u1 : (roundEven (double (1 / clamp v) * 10 ^ 9) : Rat) < 10 ^ 10 + 1 := by nlinarith [hn.2]
  have u2 : (4 * 10 ^ 6 - 1 : Rat) < (roundEven (double (1 / clamp v) * 10 ^ 9) : Rat) := by nlinarith [hn.1]
  have v1 : roundEven (double (1 / clamp v) * 10 ^ 9) < 10 ^ 10 + 1 := by exact_mod_cast u1
  have v2 : (4 * 10 ^ 6 - 1 : Int) < roundEven (double (1 / clamp v) * 10 ^ 9) := by exact_mod_cast u2
  refine ⟨(roundEven (double (1 / clamp v) * 10 ^ 9)).toNat, ?_, by omega, by omega, ?_⟩
  · show set (clamp v) = _
    unfold set
    rw [if_pos (by omega)]
  · have hcast : (((roundEven (double (1 / clamp v) * 10 ^ 9)).toNat : Nat) : Rat) =
        (roundEven (double (1 / clamp v) * 10 ^ 9) : Rat) := by
      have : (((roundEven (double (1 / clamp v) * 10 ^ 9)).toNat : Nat) : Int) = roundEven (double (1 / clamp v) * 10 ^ 9) :=
        Int.toNat_of_nonneg (by omega)
      exact_mod_cast this
    rw [hcast]
    have e0 : (10 : Rat) ^ 9 / clamp v = 1 / clamp v * 10 ^ 9 := by ring
    rw [e0, abs_lt]
    constructor
    · nlinarith [hn.1]
    · nlinarith [hn.2]

/-- C205: over any number of frames the period is the one last asked for, or the first; and no frame panics. -/
theorem C205_frames (ms : List (Option Rat)) {t : Nat} (h1 : 4 * 10 ^ 6 ≤ t) (h2 : t ≤ 10 ^ 10) :
    ∃ t', frames ms t = some t' ∧
      match (ms.filterMap id).getLast? with
      | none => t' = t
      | some v => |(t' : Rat) - 10 ^ 9 / clamp v| < 1 := by
  induction ms generalizing t with
  | nil => exact ⟨t, rfl, rfl⟩
  | cons m ms ih =>
    cases m with
    | none =>
      obtain ⟨t', e1, e2⟩ := ih h1 h2
      refine ⟨t', ?_, by simpa using e2⟩
      rw [frames, C205_keeps h1 h2]
      exact e1
    | some v =>
      obtain ⟨t1, f1, f2, f3, f4⟩ := C205_moves v t
      obtain ⟨t', e1, e2⟩ := ih f2 f3
      refine ⟨t', by rw [frames, f1]; exact e1, ?_⟩
      rw [show (some v :: ms).filterMap id = v :: ms.filterMap id from rfl]
      cases hl : (ms.filterMap id).getLast? with
      | none =>
        rw [hl] at e2
        dsimp only at e2
        rw [List.getLast?_eq_none_iff.1 hl, e2]
        exact f4
      | some w =>
        rw [hl] at e2
        rw [List.getLast?_cons, hl]
        exact e2

/-- 64 steps per second, the default of Bevy, for four frames; then 100 and three more. -/
example : frames [none, none, none, none] 15625000 = some 15625000 ∧
    frames [none, some 100, none, none, none] 15625000 = some 10000000 := by decide +kernel

end Verif.Slider
