import Mathlib.Probability.Distributions.Gaussian.Real
import Mathlib.Probability.CDF
import Mathlib.MeasureTheory.Integral.IntegralEqImproper

/-! The expectation of the positive part of a normal variable. -/

namespace Verif.Improvement

open MeasureTheory ProbabilityTheory Set Filter
open scoped NNReal ENNReal Topology

local notation "φ" => gaussianPDFReal 0 1


theorem pdf_std (x : ℝ) : φ x = (√(2 * Real.pi))⁻¹ * Real.exp (-x ^ 2 / 2) := by
  simp [gaussianPDFReal]

theorem hasDerivAt_pdf (x : ℝ) : HasDerivAt (fun x => -φ x) (x * φ x) x := by
  have h1 : HasDerivAt (fun x : ℝ => -x ^ 2 / 2) (-x) x := by
    refine (((hasDerivAt_pow 2 x).neg).div_const 2).congr_deriv ?_
    norm_num
    ring
  have h2 := ((h1.exp).const_mul (√(2 * Real.pi))⁻¹).neg
  have : (fun x => -φ x) = fun x => -((√(2 * Real.pi))⁻¹ * Real.exp (-x ^ 2 / 2)) := by
    funext y; rw [pdf_std]
  rw [this, pdf_std]
  refine h2.congr_deriv ?_
  ring

theorem tendsto_pdf : Tendsto (fun x => -φ x) atTop (𝓝 0) := by
  have h1 : Tendsto (fun x : ℝ => -x ^ 2 / 2) atTop atBot := by
    have : Tendsto (fun x : ℝ => x ^ 2 / 2) atTop atTop :=
      (tendsto_pow_atTop (by norm_num)).atTop_div_const (by norm_num)
    have := tendsto_neg_atTop_atBot.comp this
    refine this.congr (fun x => ?_)
    simp [neg_div]
  have h2 := ((Real.tendsto_exp_atBot.comp h1).const_mul (√(2 * Real.pi))⁻¹).neg
  simp only [mul_zero, neg_zero] at h2
  refine h2.congr (fun x => ?_)
  simp [pdf_std]

theorem integrable_id_std : Integrable (fun x : ℝ => x) (gaussianReal 0 1) := by
  have := memLp_id_gaussianReal (μ := 0) (v := 1) 1
  rw [ENNReal.coe_one, memLp_one_iff_integrable] at this
  exact this

theorem integrable_mul_pdf : Integrable (fun x : ℝ => x * φ x) := by
  have h := integrable_id_std
  rw [gaussianReal_of_var_ne_zero 0 (by norm_num : (1 : ℝ≥0) ≠ 0),
    integrable_withDensity_iff (measurable_gaussianPDF 0 1) (by simp [gaussianPDF_lt_top])] at h
  simpa [toReal_gaussianPDF] using h

theorem first_moment (c : ℝ) : ∫ x in Ioi c, x ∂(gaussianReal 0 1) = φ c := by
  have h := integral_Ioi_of_hasDerivAt_of_tendsto' (f := fun x => -φ x) (f' := fun x => x * φ x) (a := c) (m := 0)
    (fun x _ => hasDerivAt_pdf x) integrable_mul_pdf.integrableOn tendsto_pdf
  rw [gaussianReal_of_var_ne_zero 0 (by norm_num : (1 : ℝ≥0) ≠ 0),
    setIntegral_withDensity_eq_setIntegral_toReal_smul (measurable_gaussianPDF 0 1) (by simp [gaussianPDF_lt_top]) _
      measurableSet_Ioi]
  simp only [toReal_gaussianPDF, smul_eq_mul]
  simp only [mul_comm] at h ⊢
  rw [h]
  simp

theorem tail (c : ℝ) : (gaussianReal 0 1).real (Ioi c) = cdf (gaussianReal 0 1) (-c) := by
  have hmap : (gaussianReal 0 1).map (fun x => -x) = gaussianReal 0 1 := by
    rw [gaussianReal_map_neg, neg_zero]
  rw [cdf_eq_real]
  have h1 : (gaussianReal 0 1).real (Iic (-c)) = (gaussianReal 0 1).real (Ici c) := by
    conv_lhs => rw [← hmap]
    rw [map_measureReal_apply measurable_neg measurableSet_Iic]
    congr 1
    ext x
    simp
  rw [h1]
  have := nullSingletonClass_gaussianReal (μ := 0) (v := 1) (by norm_num)
  exact measureReal_congr Ioi_ae_eq_Ici

theorem std_map (μ σ : ℝ) (v : ℝ≥0) (hv : (v : ℝ) = σ ^ 2) :
    (gaussianReal 0 1).map (fun x => σ * x + μ) = gaussianReal μ v := by
  have h1 := gaussianReal_map_const_mul (μ := 0) (v := 1) σ
  have h2 := gaussianReal_map_add_const (μ := σ * 0) (v := NNReal.mk (σ ^ 2) (sq_nonneg σ) * 1) μ
  rw [← h1, Measure.map_map (measurable_add_const μ) (measurable_const_mul σ)] at h2
  have e : gaussianReal μ v = gaussianReal (σ * 0 + μ) (NNReal.mk (σ ^ 2) (sq_nonneg σ) * 1) := by
    congr 1
    · ring
    · apply NNReal.coe_injective
      rw [hv]
      simp
  rw [e]
  exact h2

theorem expected (μ b σ : ℝ) (hσ : 0 < σ) (v : ℝ≥0) (hv : (v : ℝ) = σ ^ 2) :
    ∫ y, max (y - b) 0 ∂(gaussianReal μ v) =
      (μ - b) * cdf (gaussianReal 0 1) ((μ - b) / σ) + σ * φ ((μ - b) / σ) := by
  have hmap := std_map μ σ v hv
  rw [← hmap, integral_map (by fun_prop) (by fun_prop)]
  have hind : (fun x => max (σ * x + μ - b) 0) =
      (Ioi ((b - μ) / σ)).indicator (fun x => σ * x + (μ - b)) := by
    funext x
    by_cases h : (b - μ) / σ < x
    · rw [indicator_of_mem (show x ∈ Ioi _ from h), max_eq_left]
      · ring
      · have := (div_lt_iff₀ hσ).1 h
        nlinarith
    · rw [indicator_of_notMem (show x ∉ Ioi _ from h), max_eq_right]
      have := (le_div_iff₀ hσ).1 (not_lt.1 h)
      nlinarith
  rw [hind, integral_indicator measurableSet_Ioi,
    integral_add ((integrable_id_std.const_mul σ).integrableOn) (integrable_const _),
    integral_const_mul, first_moment, setIntegral_const, tail]
  have e1 : -((b - μ) / σ) = (μ - b) / σ := by ring
  have e2 : φ ((b - μ) / σ) = φ ((μ - b) / σ) := by
    rw [pdf_std, pdf_std, ← e1]
    simp
  rw [e1, e2, smul_eq_mul]
  ring

theorem expected_pos (μ b : ℝ) {v : ℝ≥0} (hv : v ≠ 0) : 0 < ∫ y, max (y - b) 0 ∂(gaussianReal μ v) := by
  have hint : Integrable (fun y : ℝ => max (y - b) 0) (gaussianReal μ v) := by
    have h : Integrable (fun y : ℝ => y) (gaussianReal μ v) := by
      have := memLp_id_gaussianReal (μ := μ) (v := v) 1
      rw [ENNReal.coe_one, memLp_one_iff_integrable] at this
      exact this
    exact (h.sub (integrable_const b)).pos_part
  have hnn : 0 ≤ (fun y : ℝ => max (y - b) 0) := fun y => le_max_right _ _
  rw [integral_pos_iff_support_of_nonneg hnn hint]
  have hs : Function.support (fun y : ℝ => max (y - b) 0) = Ioi b := by
    ext y
    simp only [Function.mem_support, mem_Ioi, ne_eq]
    constructor
    · intro h
      by_contra hy
      exact h (max_eq_right (by linarith [not_lt.1 hy]))
    · intro h h0
      have := le_max_left (y - b) 0
      linarith
  rw [hs]
  by_contra h
  have h0 : gaussianReal μ v (Ioi b) = 0 := by simpa using h
  have := gaussianReal_absolutelyContinuous' μ hv h0
  simp at this

/-! ### More of the mean or of the variance -/

/-- The positive part of a normal variable with mean `δ` and standard deviation `σ`. -/
noncomputable def part (δ σ : ℝ) : ℝ := ∫ z, max (σ * z + δ) 0 ∂(gaussianReal 0 1)

theorem expected_part (μ b σ : ℝ) (v : ℝ≥0) (hv : (v : ℝ) = σ ^ 2) :
    ∫ y, max (y - b) 0 ∂(gaussianReal μ v) = part (μ - b) σ := by
  unfold part
  rw [← std_map μ σ v hv, integral_map (by fun_prop) (by fun_prop)]
  congr 1
  funext z
  rw [add_sub_assoc]

theorem integrable_part (δ σ : ℝ) : Integrable (fun z : ℝ => max (σ * z + δ) 0) (gaussianReal 0 1) :=
  ((integrable_id_std.const_mul σ).add (integrable_const δ)).pos_part

theorem part_neg (δ σ : ℝ) : ∫ z, max (-σ * z + δ) 0 ∂(gaussianReal 0 1) = part δ σ := by
  have hmap : (gaussianReal 0 1).map (fun x => -x) = gaussianReal 0 1 := by
    rw [gaussianReal_map_neg, neg_zero]
  unfold part
  conv_rhs => rw [← hmap]
  rw [integral_map (by fun_prop) (by fun_prop)]
  congr 1
  funext z
  congr 1
  ring

theorem integral_gap {f g : ℝ → ℝ} (hf : Integrable f (gaussianReal 0 1)) (hg : Integrable g (gaussianReal 0 1))
    (hle : ∀ z, f z ≤ g z) (c : ℝ) (hlt : ∀ z, c < z → f z < g z) :
    ∫ z, f z ∂(gaussianReal 0 1) < ∫ z, g z ∂(gaussianReal 0 1) := by
  have hpos : 0 < ∫ z, (g z - f z) ∂(gaussianReal 0 1) := by
    rw [integral_pos_iff_support_of_nonneg (fun z => sub_nonneg.2 (hle z)) (hg.sub hf)]
    by_contra h
    have h0 : gaussianReal 0 1 (Ioi c) = 0 := by
      refine measure_mono_null ?_ (by simpa using h : gaussianReal 0 1 (Function.support fun z => g z - f z) = 0)
      intro z hz
      exact (sub_pos.2 (hlt z hz)).ne'
    have := gaussianReal_absolutelyContinuous' 0 (by norm_num : (1 : ℝ≥0) ≠ 0) h0
    simp at this
  rw [integral_sub hg hf] at hpos
  linarith

theorem part_mean {δ δ' σ : ℝ} (hσ : 0 < σ) (h : δ < δ') : part δ σ < part δ' σ := by
  refine integral_gap (integrable_part δ σ) (integrable_part δ' σ) (fun z => max_le_max (by linarith) le_rfl) (-δ' / σ) ?_
  intro z hz
  have h1 : 0 < σ * z + δ' := by
    have := (div_lt_iff₀ hσ).1 hz
    nlinarith
  exact lt_of_lt_of_le (max_lt (by linarith) h1) (le_max_left _ _)

theorem part_sd {δ σ σ' : ℝ} (hσ : 0 < σ) (h : σ < σ') : part δ σ < part δ σ' := by
  have hneg : ∀ s : ℝ, Integrable (fun z : ℝ => max (-s * z + δ) 0) (gaussianReal 0 1) := fun s => integrable_part δ (-s)
  have two : ∀ s : ℝ, ∫ z, (max (s * z + δ) 0 + max (-s * z + δ) 0) ∂(gaussianReal 0 1) = 2 * part δ s := by
    intro s
    rw [integral_add (integrable_part δ s) (hneg s), part_neg]
    unfold part
    ring
  have hpt : ∀ t t' : ℝ, |t| ≤ |t'| → max (t + δ) 0 + max (-t + δ) 0 ≤ max (t' + δ) 0 + max (-t' + δ) 0 := by
    intro t t' htt
    rcases abs_cases t with ⟨h1, h2⟩ | ⟨h1, h2⟩ <;> rcases abs_cases t' with ⟨h3, h4⟩ | ⟨h3, h4⟩ <;>
      rcases max_cases (t + δ) 0 with ⟨h5, h6⟩ | ⟨h5, h6⟩ <;> rcases max_cases (-t + δ) 0 with ⟨h7, h8⟩ | ⟨h7, h8⟩ <;>
      rcases max_cases (t' + δ) 0 with ⟨h9, h10⟩ | ⟨h9, h10⟩ <;>
      rcases max_cases (-t' + δ) 0 with ⟨h11, h12⟩ | ⟨h11, h12⟩ <;> linarith
  have key := integral_gap (f := fun z => max (σ * z + δ) 0 + max (-σ * z + δ) 0)
    (g := fun z => max (σ' * z + δ) 0 + max (-σ' * z + δ) 0)
    ((integrable_part δ σ).add (hneg σ)) ((integrable_part δ σ').add (hneg σ')) ?_ (|δ| / σ') ?_
  · rw [two, two] at key
    linarith
  · intro z
    have := hpt (σ * z) (σ' * z) (by
      rw [abs_mul, abs_mul, abs_of_pos hσ, abs_of_pos (hσ.trans h)]
      exact mul_le_mul_of_nonneg_right h.le (abs_nonneg z))
    simpa [neg_mul] using this
  · intro z hz
    have hσ' : 0 < σ' := hσ.trans h
    have h1 : |δ| < σ' * z := by
      have := (div_lt_iff₀ hσ').1 hz
      linarith
    have hz0 : 0 < z := by
      have h0 : 0 < σ' * z := lt_of_le_of_lt (abs_nonneg δ) h1
      exact (mul_pos_iff_of_pos_left hσ').1 h0
    have h2 : σ * z < σ' * z := mul_lt_mul_of_pos_right h hz0
    have h3 : 0 < σ * z := mul_pos hσ hz0
    have h4 := abs_le.1 (le_refl |δ|)
    simp only [neg_mul]
    rcases max_cases (σ * z + δ) 0 with ⟨h5, h6⟩ | ⟨h5, h6⟩ <;> rcases max_cases (-(σ * z) + δ) 0 with ⟨h7, h8⟩ | ⟨h7, h8⟩ <;>
      rcases max_cases (σ' * z + δ) 0 with ⟨h9, h10⟩ | ⟨h9, h10⟩ <;>
      rcases max_cases (-(σ' * z) + δ) 0 with ⟨h11, h12⟩ | ⟨h11, h12⟩ <;> linarith

end Verif.Improvement
