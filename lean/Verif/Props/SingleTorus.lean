import Verif.Model.SingleField
import Verif.Lemmas.SingleIeee
import Verif.Lemmas.Field2D

/-! C171, C172: wrap-around arithmetic of the continuous fields in single precision. -/

namespace Verif.Single

open Torus

/-- The remainder of two singles is a single, so `%` is exact. -/
theorem fmod_isF32 {val dim : Rat} (hv : IsF32 val) (hd : IsF32 dim) (h0 : 0 < dim) : IsF32 (fmod val dim) := by
  obtain ⟨⟨k, hk⟩, h1, h2, h3⟩ := fmod_spec (val := val) h0
  have hsmall : |fmod val dim| ≤ |val| := by
    rw [fmod]
    split
    · rename_i hq
      have hv0 : 0 ≤ val := by
        rcases le_or_gt 0 val with h | h
        · exact h
        · have := div_neg_of_neg_of_pos h h0; linarith
      have hf : (0 : Int) ≤ (val / dim).floor := Rat.le_floor_iff.2 (by simpa using hq)
      have hf' : (0 : Rat) ≤ ((val / dim).floor : Int) := by exact_mod_cast hf
      have hle : dim * ((val / dim).floor : Int) ≤ val := by
        have := Rat.floor_le (a := val / dim)
        rw [le_div_iff₀ h0] at this
        linarith
      rw [abs_of_nonneg (by linarith), abs_of_nonneg hv0]
      nlinarith
    · rename_i hq
      have hv0 : val ≤ 0 := by
        rcases le_or_gt val 0 with h | h
        · exact h
        · have := div_pos h h0; linarith
      have hf : (val / dim).ceil ≤ 0 := Rat.ceil_le_iff.2 (by push_cast; linarith)
      have hf' : (((val / dim).ceil : Int) : Rat) ≤ 0 := by exact_mod_cast hf
      have hle : val ≤ dim * ((val / dim).ceil : Int) := by
        have := Rat.le_ceil (x := val / dim)
        rw [div_le_iff₀ h0] at this
        linarith
      rw [abs_of_nonpos (by linarith), abs_of_nonpos hv0]
      nlinarith
  obtain ⟨m, e, hm, he, hve⟩ := hv
  obtain ⟨n, f, hn, hf, hdf⟩ := hd
  have bound : ∀ (N : Int) (g : Int) (b : Int), |fmod val dim| ≤ |(b : Rat)| * 2 ^ g → |b| ≤ 2 ^ 24 → fmod val dim = N * (2 : Rat) ^ g → |N| ≤ 2 ^ 24 := by
    intro N g b h4 h5 h6
    rw [h6, abs_mul, abs_of_pos (two_zpow_pos g)] at h4
    have := le_of_mul_le_mul_right h4 (two_zpow_pos g)
    have : |N| ≤ |b| := by exact_mod_cast this
    exact le_trans this h5
  rcases le_or_gt e f with hle | hlt
  · obtain ⟨j, hj⟩ := Int.eq_ofNat_of_zero_le (show 0 ≤ f - e by omega)
    have h5 : (2 : Rat) ^ f = 2 ^ j * 2 ^ e := by
      rw [show f = (j : Int) + e by omega, zpow_add₀ (by norm_num), zpow_natCast]
    have h6 : fmod val dim = ((m + k * (n * 2 ^ j) : Int) : Rat) * 2 ^ e := by
      rw [hk, hve, hdf, h5]; push_cast; ring
    refine ⟨m + k * (n * 2 ^ j), e, bound _ e m ?_ hm h6, he, h6⟩
    rw [← abs_of_pos (two_zpow_pos e), ← abs_mul, ← hve]
    exact hsmall
  · obtain ⟨j, hj⟩ := Int.eq_ofNat_of_zero_le (show 0 ≤ e - f by omega)
    have h5 : (2 : Rat) ^ e = 2 ^ j * 2 ^ f := by
      rw [show e = (j : Int) + f by omega, zpow_add₀ (by norm_num), zpow_natCast]
    have h6 : fmod val dim = ((m * 2 ^ j + k * n : Int) : Rat) * 2 ^ f := by
      rw [hk, hve, hdf, h5]; push_cast; ring
    refine ⟨m * 2 ^ j + k * n, f, bound _ f n ?_ hn h6, hf, h6⟩
    rw [← abs_of_pos (two_zpow_pos f), ← abs_mul, ← hdf, abs_of_pos h0, abs_le]
    exact ⟨h1.le, h2.le⟩

/-- The code computes the exact representative, correctly rounded. -/
theorem transform_eq {rnd : Rat → Rat} (hr : Rounding rnd) {val dim : Rat} (hv : IsF32 val) (hd : IsF32 dim) (h0 : 0 < dim) :
    transform rnd val dim = rnd (toroidalTransform val dim) := by
  unfold transform toroidalTransform
  split
  · exact (hr.keeps hv).symm
  · split
    · rfl
    · exact (hr.keeps (fmod_isF32 hv hd h0)).symm

/-- The error bound of a rounding in `[0, b]`. -/
theorem Rounding.near_le {rnd : Rat → Rat} (hr : Rounding rnd) {x b : Rat} (h : |x| ≤ b) : |rnd x - x| ≤ b / 2 ^ 24 + 1 / 2 ^ 150 := by
  have := hr.near x
  have h2 : |x| / 2 ^ 24 ≤ b / 2 ^ 24 := div_le_div_of_nonneg_right h (by positivity)
  linarith

theorem transform_range {rnd : Rat → Rat} (hr : Rounding rnd) {val dim : Rat} (hv : IsF32 val) (hd : IsF32 dim) (h0 : 0 < dim) :
    0 ≤ transform rnd val dim ∧ transform rnd val dim ≤ dim := by
  rw [transform_eq hr hv hd h0]
  obtain ⟨h1, h2⟩ := toroidalTransform_range (val := val) h0
  refine ⟨hr.nonneg h1, ?_⟩
  have := hr.mono _ _ h2.le
  rwa [hr.keeps hd] at this

theorem transform_near {rnd : Rat → Rat} (hr : Rounding rnd) {val dim : Rat} (hv : IsF32 val) (hd : IsF32 dim) (h0 : 0 < dim) :
    |transform rnd val dim - toroidalTransform val dim| ≤ dim / 2 ^ 24 + 1 / 2 ^ 150 := by
  rw [transform_eq hr hv hd h0]
  obtain ⟨h1, h2⟩ := toroidalTransform_range (val := val) h0
  exact hr.near_le (by rw [abs_of_nonneg h1]; exact h2.le)

/-- **C171 (partial).** In single precision `toroidal_transform` gives a single between 0 and `dim`, **both included**, within a relative rounding error of the
representative of its argument in `[0, dim)`. Missing: that it is below `dim`, which is false. -/
theorem C171_rounded_partial (rnd : Rat → Rat) (hr : Rounding rnd) (val dim : Rat) (hv : IsF32 val) (hd : IsF32 dim) (h0 : 0 < dim) :
    IsF32 (transform rnd val dim) ∧ 0 ≤ transform rnd val dim ∧ transform rnd val dim ≤ dim ∧
      ∃ k : Int, 0 ≤ val + k * dim ∧ val + k * dim < dim ∧ |transform rnd val dim - (val + k * dim)| ≤ dim / 2 ^ 24 + 1 / 2 ^ 150 := by
  obtain ⟨h1, h2⟩ := transform_range hr hv hd h0
  obtain ⟨k, hk⟩ := toroidalTransform_cong (val := val) h0
  obtain ⟨h3, h4⟩ := toroidalTransform_range (val := val) h0
  refine ⟨?_, h1, h2, k, ?_, ?_, ?_⟩
  · rw [transform_eq hr hv hd h0]; exact hr.lands _
  · rw [← hk]; exact h3
  · rw [← hk]; exact h4
  · rw [← hk]; exact transform_near hr hv hd h0

/-- **C171 (partial).** On values that are not negative nothing is rounded: the result is the representative in `[0, dim)`. -/
theorem C171_nonnegative_partial (rnd : Rat → Rat) (val dim : Rat) (hv : 0 ≤ val) (h0 : 0 < dim) :
    0 ≤ transform rnd val dim ∧ transform rnd val dim < dim ∧ ∃ k : Int, transform rnd val dim = val + k * dim := by
  have h : transform rnd val dim = toroidalTransform val dim := by
    unfold transform toroidalTransform
    rw [if_neg (show ¬ fmod val dim < 0 from not_lt.2 ((fmod_spec h0).2.2.2 hv)), if_neg (show ¬ fmod val dim < 0 from not_lt.2 ((fmod_spec h0).2.2.2 hv))]
  rw [h]
  exact ⟨(toroidalTransform_range h0).1, (toroidalTransform_range h0).2, toroidalTransform_cong h0⟩

/-- **C171** is false of the code, on **every** torus: all slightly negative values are sent to `dim` itself, which is outside `[0, dim)`. -/
theorem C171_lands_on_dim_partial (rnd : Rat → Rat) (hr : Rounding rnd) (val dim : Rat) (hd : IsF32 dim) (h0 : 0 < dim) (hneg : val < 0)
    (hsmall : -(dim / 2 ^ 26) ≤ val) : transform rnd val dim = dim := by
  have hlt : dim / 2 ^ 26 < dim := div_lt_self h0 (by norm_num)
  have hf : fmod val dim = val := by
    unfold fmod
    have hq : val / dim < 0 := div_neg_of_neg_of_pos hneg h0
    rw [if_neg (by linarith)]
    have : (val / dim).ceil = 0 := by
      rw [Rat.ceil_eq_neg_floor_neg, neg_eq_zero]
      have h1 : (0 : Int) ≤ (-(val / dim)).floor := Rat.le_floor_iff.2 (by push_cast; linarith)
      have h2 : (-(val / dim)).floor < 1 := by
        rw [Rat.floor_lt_iff, ← neg_div, div_lt_iff₀ h0]
        push_cast
        linarith
      omega
    rw [this]; simp
  unfold transform
  rw [if_neg (by intro hc; linarith [hc.1]), hf, if_pos hneg]
  have hup : rnd (val + dim) ≤ dim := by
    have := hr.mono (val + dim) dim (by linarith)
    rwa [hr.keeps hd] at this
  rcases lt_or_eq_of_le hup with hc | hc
  · have hg := gap hd (hr.lands (val + dim)) h0 hc
    have hn := hr.nearest (val + dim) dim hd
    rw [show dim - (val + dim) = -val by ring, abs_of_nonneg (show 0 ≤ -val by linarith)] at hn
    have hn' := (abs_le.1 hn).1
    have e24 : dim / 2 ^ 24 = 4 * (dim / 2 ^ 26) := by ring
    linarith
  · exact hc

/-- The statement of C171 as a user would expect it. -/
theorem C171_below_dim_negation_partial : ¬ ∀ val dim : Rat, IsF32 val → IsF32 dim → 0 < dim → transform single val dim < dim := by
  intro h
  have hd : IsF32 10 := ⟨10, 0, by norm_num, by norm_num, by norm_num⟩
  have := h (-1 / 2 ^ 30) 10 ⟨-1, -30, by norm_num, by norm_num, by norm_num⟩ hd (by norm_num)
  rw [C171_lands_on_dim_partial single rounding_single (-1 / 2 ^ 30) 10 hd (by norm_num) (by norm_num) (by norm_num)] at this
  exact lt_irrefl _ this

/-! ### C172 -/

/-- The theorems below hold for every rounding to nearest. Those of the hardware are: `single` and `root` round as IEEE 754 prescribes, ties to even. -/
theorem C172_ieee_rounding : Ieee single root := ieee

theorem apart_antisymm {rnd : Rat → Rat} (hr : Rounding rnd) (a b dim : Rat) : apart rnd b a dim = -apart rnd a b dim := by
  unfold apart
  rw [← hr.odd]; congr 1; ring

theorem isF32_double {x : Rat} (h : IsF32 x) : IsF32 (x * 2) := by
  obtain ⟨m, e, h1, h2, h3⟩ := h
  exact ⟨m, e + 1, h1, by omega, by rw [h3, zpow_add₀ (by norm_num), zpow_one]; ring⟩

/-- **C172.** In single precision swapping the arguments of `toroidal_distance` changes the sign, also at the half-way tie. -/
theorem C172_antisymmetric (rnd : Rat → Rat) (hr : Rounding rnd) (a b dim : Rat) (h0 : 0 < dim) :
    toroidalDist rnd b a dim = -toroidalDist rnd a b dim := by
  have e1 : rnd (b - a) = -rnd (a - b) := by rw [← hr.odd]; congr 1; ring
  have e2 := apart_antisymm hr a b dim
  have e3 : rnd (-apart rnd a b dim * 2) = -rnd (apart rnd a b dim * 2) := by rw [← hr.odd]; congr 1; ring
  have e4 : rnd (-apart rnd a b dim - dim) = -rnd (apart rnd a b dim + dim) := by rw [← hr.odd]; congr 1; ring
  have e5 : rnd (-apart rnd a b dim + dim) = -rnd (apart rnd a b dim - dim) := by rw [← hr.odd]; congr 1; ring
  unfold toroidalDist
  rw [e1, e2, e3, e4, e5]
  by_cases h : -rnd (dim / 2) ≤ rnd (a - b) ∧ rnd (a - b) ≤ rnd (dim / 2)
  · rw [if_pos h, if_pos ⟨by linarith [h.2], by linarith [h.1]⟩]
  · rw [if_neg h, if_neg (fun hc => h ⟨by linarith [hc.2], by linarith [hc.1]⟩)]
    split_ifs <;> linarith

theorem apart_range {rnd : Rat → Rat} (hr : Rounding rnd) {a b dim : Rat} (ha : IsF32 a) (hb : IsF32 b) (hd : IsF32 dim) (h0 : 0 < dim) :
    -dim ≤ apart rnd a b dim ∧ apart rnd a b dim ≤ dim := by
  obtain ⟨a1, a2⟩ := transform_range hr ha hd h0
  obtain ⟨b1, b2⟩ := transform_range hr hb hd h0
  have h1 := hr.mono (transform rnd a dim - transform rnd b dim) dim (by linarith)
  have h2 := hr.mono (-dim) (transform rnd a dim - transform rnd b dim) (by linarith)
  rw [hr.keeps hd] at h1
  rw [hr.keeps (isF32_neg hd)] at h2
  exact ⟨h2, h1⟩

theorem apart_double {rnd : Rat → Rat} (hr : Rounding rnd) (a b dim : Rat) : rnd (apart rnd a b dim * 2) = apart rnd a b dim * 2 :=
  hr.keeps (isF32_double (hr.lands _))

theorem dist_bound {rnd : Rat → Rat} (hr : Rounding rnd) {a b dim : Rat} (ha : IsF32 a) (hb : IsF32 b) (hd : IsF32 dim)
    (hd2 : IsF32 (dim / 2)) (h0 : 0 < dim) : -(dim / 2) ≤ toroidalDist rnd a b dim ∧ toroidalDist rnd a b dim ≤ dim / 2 := by
  obtain ⟨a1, a2⟩ := apart_range hr ha hb hd h0
  unfold toroidalDist
  rw [hr.keeps hd2, apart_double hr]
  by_cases h : -(dim / 2) ≤ rnd (a - b) ∧ rnd (a - b) ≤ dim / 2
  · rw [if_pos h]; exact h
  · rw [if_neg h]
    split_ifs with h1 h2
    · have u := hr.mono (-(dim / 2)) (apart rnd a b dim - dim) (by linarith)
      have v := hr.mono (apart rnd a b dim - dim) (dim / 2) (by linarith)
      rw [hr.keeps (isF32_neg hd2)] at u
      rw [hr.keeps hd2] at v
      exact ⟨u, v⟩
    · have u := hr.mono (-(dim / 2)) (apart rnd a b dim + dim) (by linarith)
      have v := hr.mono (apart rnd a b dim + dim) (dim / 2) (by linarith)
      rw [hr.keeps (isF32_neg hd2)] at u
      rw [hr.keeps hd2] at v
      exact ⟨u, v⟩
    · exact ⟨by linarith, by linarith⟩

theorem apart_near {rnd : Rat → Rat} (hr : Rounding rnd) {a b dim : Rat} (ha : IsF32 a) (hb : IsF32 b) (hd : IsF32 dim) (h0 : 0 < dim) :
    |apart rnd a b dim - (toroidalTransform a dim - toroidalTransform b dim)| ≤ 3 * (dim / 2 ^ 24 + 1 / 2 ^ 150) := by
  obtain ⟨a1, a2⟩ := transform_range hr ha hd h0
  obtain ⟨b1, b2⟩ := transform_range hr hb hd h0
  have h1 := hr.near_le (x := transform rnd a dim - transform rnd b dim) (b := dim) (by rw [abs_le]; constructor <;> linarith)
  have h2 := transform_near hr ha hd h0
  have h3 := transform_near hr hb hd h0
  unfold apart
  rw [abs_le] at *
  constructor <;> linarith [h1.1, h1.2, h2.1, h2.2, h3.1, h3.2]

/-- Up to four roundings the result differs from `a - b` by a whole number of turns. -/
theorem dist_near {rnd : Rat → Rat} (hr : Rounding rnd) {a b dim : Rat} (ha : IsF32 a) (hb : IsF32 b) (hd : IsF32 dim)
    (hd2 : IsF32 (dim / 2)) (h0 : 0 < dim) :
    ∃ k : Int, |toroidalDist rnd a b dim - (a - b + k * dim)| ≤ 4 * (dim / 2 ^ 24 + 1 / 2 ^ 150) := by
  obtain ⟨a1, a2⟩ := apart_range hr ha hb hd h0
  obtain ⟨k, hk⟩ := (toroidalTransform_cong (val := a) h0).sub (toroidalTransform_cong (val := b) h0)
  have hn := apart_near hr ha hb hd h0
  rw [hk] at hn
  have hdn : (0 : Rat) ≤ dim / 2 ^ 24 := by positivity
  have hη : (0 : Rat) ≤ 1 / 2 ^ 150 := by positivity
  unfold toroidalDist
  rw [hr.keeps hd2, apart_double hr]
  by_cases h : -(dim / 2) ≤ rnd (a - b) ∧ rnd (a - b) ≤ dim / 2
  · refine ⟨0, ?_⟩
    rw [if_pos h]
    have hne := hr.near (a - b)
    have hab : |a - b| ≤ dim / 2 + (|a - b| / 2 ^ 24 + 1 / 2 ^ 150) := by
      have := abs_le.2 h
      calc |a - b| = |rnd (a - b) - (rnd (a - b) - (a - b))| := by congr 1; ring
        _ ≤ |rnd (a - b)| + |rnd (a - b) - (a - b)| := abs_sub _ _
        _ ≤ _ := by linarith
    have h24 : |a - b| / 2 ^ 24 ≤ |a - b| / 4 := div_le_div_of_nonneg_left (abs_nonneg _) (by norm_num) (by norm_num)
    have hab2 : |a - b| ≤ dim + 2 / 2 ^ 150 := by
      have : (2 : Rat) / 2 ^ 150 = 1 / 2 ^ 150 + 1 / 2 ^ 150 := by ring
      linarith
    have h5 : |a - b| / 2 ^ 24 ≤ dim / 2 ^ 24 + 1 / 2 ^ 150 := by
      calc |a - b| / 2 ^ 24 ≤ (dim + 2 / 2 ^ 150) / 2 ^ 24 := div_le_div_of_nonneg_right hab2 (by positivity)
        _ ≤ _ := by rw [add_div]; norm_num
    push_cast
    rw [zero_mul, add_zero]
    linarith
  · rw [if_neg h]
    split_ifs with h1 h2
    · refine ⟨k - 1, ?_⟩
      have hl := hr.near_le (x := apart rnd a b dim - dim) (b := dim) (by rw [abs_le]; constructor <;> linarith)
      push_cast
      rw [abs_le] at *
      constructor <;> linarith [hl.1, hl.2, hn.1, hn.2]
    · refine ⟨k + 1, ?_⟩
      have hl := hr.near_le (x := apart rnd a b dim + dim) (b := dim) (by rw [abs_le]; constructor <;> linarith)
      push_cast
      rw [abs_le] at *
      constructor <;> linarith [hl.1, hl.2, hn.1, hn.2]
    · refine ⟨k, ?_⟩
      linarith

/-- **C172.** In single precision `toroidal_distance` is at most half a turn, and within a relative rounding error of a difference of representatives. -/
theorem C172_half_turn (rnd : Rat → Rat) (hr : Rounding rnd) (a b dim : Rat) (ha : IsF32 a) (hb : IsF32 b) (hd : IsF32 dim)
    (hd2 : IsF32 (dim / 2)) (h0 : 0 < dim) :
    |toroidalDist rnd a b dim| ≤ dim / 2 ∧
      ∃ k : Int, |toroidalDist rnd a b dim - (a - b + k * dim)| ≤ 4 * (dim / 2 ^ 24 + 1 / 2 ^ 150) :=
  ⟨abs_le.2 (dist_bound hr ha hb hd hd2 h0), dist_near hr ha hb hd hd2 h0⟩

/-- Two congruent values, one at most half a turn and the other within `e` of a value of at most half a turn: the lengths differ by at most `e`. -/
theorem length_near {dim t c r e : Rat} (h0 : 0 < dim) (ht : |t| ≤ dim / 2) (hc : Cong dim c t) (hr : |r| ≤ dim / 2) (he : |r - c| ≤ e)
    (hs : e < dim / 2) : |(|r| - |t|)| ≤ e := by
  obtain ⟨k, hk⟩ := hc
  have hc1 : |c| ≤ dim / 2 + e := by
    calc |c| = |r - (r - c)| := by congr 1; ring
      _ ≤ |r| + |r - c| := abs_sub _ _
      _ ≤ _ := by linarith
  rcases lt_trichotomy k 0 with hn | hn | hn
  · have hk1 : (k : Rat) ≤ -1 := by exact_mod_cast (by omega : k ≤ -1)
    have hct : c ≤ t - dim := by rw [hk]; nlinarith
    rw [abs_le] at *
    rw [abs_of_nonneg (show 0 ≤ t by linarith [hc1.1]), abs_of_nonpos (show r ≤ 0 by linarith [he.2])]
    constructor <;> linarith [hc1.1, he.1, he.2, ht.2, hr.1]
  · rw [hn] at hk
    have : c = t := by rw [hk]; simp
    rw [← this]
    exact le_trans (abs_abs_sub_abs_le_abs_sub r c) he
  · have hk1 : (1 : Rat) ≤ k := by exact_mod_cast (by omega : 1 ≤ k)
    have hct : t + dim ≤ c := by rw [hk]; nlinarith
    rw [abs_le] at *
    rw [abs_of_nonpos (show t ≤ 0 by linarith [hc1.2]), abs_of_nonneg (show 0 ≤ r by linarith [he.1])]
    constructor <;> linarith [hc1.2, he.1, he.2, ht.1, hr.2]

/-- **C172.** In single precision the length of `toroidal_distance` differs from the length of the shortest way around the torus by at most four roundings. -/
theorem C172_shortest_way (rnd : Rat → Rat) (hr : Rounding rnd) (a b dim : Rat) (ha : IsF32 a) (hb : IsF32 b) (hd : IsF32 dim)
    (hd2 : IsF32 (dim / 2)) (h0 : 0 < dim) :
    (∀ k : Int, |toroidalDist rnd a b dim| ≤ |a - b + k * dim| + 4 * (dim / 2 ^ 24 + 1 / 2 ^ 150)) ∧
      ∃ k : Int, |a - b + k * dim| ≤ |toroidalDist rnd a b dim| + 4 * (dim / 2 ^ 24 + 1 / 2 ^ 150) := by
  obtain ⟨h1, k, hk⟩ := C172_half_turn rnd hr a b dim ha hb hd hd2 h0
  refine ⟨?_, k, ?_⟩
  · intro j
    by_cases hbig : dim / 2 ≤ |a - b + j * dim|
    · have : (0 : Rat) ≤ 4 * (dim / 2 ^ 24 + 1 / 2 ^ 150) := by positivity
      linarith
    · by_cases hs : 4 * (dim / 2 ^ 24 + 1 / 2 ^ 150) < dim / 2
      · have := length_near (t := a - b + j * dim) h0 (le_of_lt (lt_of_not_ge hbig)) ⟨k - j, by push_cast; ring⟩ h1 hk hs
        have := (abs_le.1 this).2
        linarith
      · have := abs_nonneg (a - b + j * dim)
        linarith
  · calc |a - b + k * dim| = |toroidalDist rnd a b dim - (toroidalDist rnd a b dim - (a - b + k * dim))| := by congr 1; ring
      _ ≤ |toroidalDist rnd a b dim| + |toroidalDist rnd a b dim - (a - b + k * dim)| := abs_sub _ _
      _ ≤ _ := by linarith

/-- Singles, a torus of width 10 and its half meet the hypotheses; the distance of 0.1 and 9.9 as singles is computed across the border, a little off 0.2. -/
example : IsF32 10 ∧ IsF32 (10 / 2) ∧ IsF32 (single (1 / 10)) ∧ toroidalDist single (single (1 / 10)) (single (99 / 10)) 10 = 52429 / 262144 ∧
    toroidalDist single (single (99 / 10)) (single (1 / 10)) 10 = -52429 / 262144 ∧ transform single (single (-1 / 10)) 10 = 5190451 / 524288 ∧
    transform single (-1 / 2 ^ 30) 10 = 10 ∧ transform single (-1 / 2 ^ 20) 10 = 10485759 / 1048576 := by
  refine ⟨⟨10, 0, by norm_num, by norm_num, by norm_num⟩, ⟨5, 0, by norm_num, by norm_num, by norm_num⟩, rounding_single.lands _, ?_⟩
  decide +kernel

end Verif.Single
