import Verif.Spec.Improvement
import Verif.Lemmas.Improvement

/-! The bayesian search evaluates the sample with the highest expected improvement (C237). -/

namespace Verif.Improvement

open MeasureTheory ProbabilityTheory
open scoped NNReal

variable {X : Type}

theorem maxFrom_eq (l : List ℝ) : ∀ (low b : ℝ), low ≤ b → (b ∈ l ∨ b = low) → (∀ m ∈ l, m ≤ b) → maxFrom low l = b := by
  induction l with
  | nil =>
    intro low b _ h _
    rw [maxFrom]
    rcases h with h | h
    · simp at h
    · exact h.symm
  | cons m ms ih =>
    intro low b hlow hb hle
    rw [maxFrom]
    by_cases h : m > low
    · rw [if_pos h]
      refine ih m b (hle m List.mem_cons_self) ?_ (fun y hy => hle y (List.mem_cons_of_mem _ hy))
      rcases hb with hb | hb
      · rcases List.mem_cons.1 hb with hb | hb
        · exact Or.inr hb
        · exact Or.inl hb
      · have := hle m List.mem_cons_self
        rw [hb] at this
        exact absurd this (not_le.2 h)
    · rw [if_neg h]
      refine ih low b hlow ?_ (fun y hy => hle y (List.mem_cons_of_mem _ hy))
      rcases hb with hb | hb
      · rcases List.mem_cons.1 hb with hb | hb
        · exact Or.inr (le_antisymm (hb ▸ not_lt.1 h) hlow)
        · exact Or.inl hb
      · exact Or.inr hb

theorem maxFrom_best {p : Predict X} (hs : Standard p) {xInit : List X} {best : ℝ} (hb : IsBest p xInit best) :
    maxFrom p.low (xInit.map p.mean) = best := by
  obtain ⟨⟨x, hx, rfl⟩, hle⟩ := hb
  refine maxFrom_eq _ _ _ (hs.low x).le (Or.inl (List.mem_map.2 ⟨x, hx, rfl⟩)) ?_
  intro m hm
  obtain ⟨y, hy, rfl⟩ := List.mem_map.1 hm
  exact hle y hy

/-- **C237, the formula.** Where the predicted variance is positive, the number computed is the mean of the improvement over the
largest predicted mean, and it is positive. -/
theorem C237_formula_partial (p : Predict X) (hs : Standard p) (xInit : List X) (best : ℝ) (hb : IsBest p xInit best) (x : X)
    (hv : 0 < p.var x) :
    expectedImprovement p xInit x = some (improvement p best x) ∧ 0 < improvement p best x := by
  have hsq : 0 < √(p.var x) := Real.sqrt_pos.2 hv
  refine ⟨?_, expected_pos _ _ (by simpa using hv)⟩
  unfold expectedImprovement improvement
  rw [if_neg (not_lt.2 hv.le), if_neg hsq.ne', maxFrom_best hs hb,
    expected (p.mean x) best (√(p.var x)) hsq (p.var x).toNNReal
      (by rw [Real.coe_toNNReal _ hv.le, Real.sq_sqrt hv.le]), hs.cdf, hs.pdf]

/-- **C237, without variance.** Where the predicted variance is 0 the number is 0. That is the mean of the improvement exactly if the
predicted mean is at most the best, as it is at every point evaluated before. -/
theorem C237_no_variance_partial (p : Predict X) (xInit : List X) (best : ℝ) (x : X) (hv : p.var x = 0) :
    expectedImprovement p xInit x = some 0 ∧ (improvement p best x = 0 ↔ p.mean x ≤ best) ∧
      (IsBest p xInit best → x ∈ xInit → improvement p best x = 0) := by
  have hi : improvement p best x = max (p.mean x - best) 0 := by
    unfold improvement
    rw [hv, Real.toNNReal_zero, gaussianReal_zero_var, integral_dirac]
  have h2 : improvement p best x = 0 ↔ p.mean x ≤ best := by
    rw [hi, max_eq_right_iff, sub_nonpos]
  refine ⟨?_, h2, fun hb hx => h2.2 (hb.2 x hx)⟩
  unfold expectedImprovement
  rw [if_neg (by rw [hv]; exact lt_irrefl 0), if_pos (by rw [hv, Real.sqrt_zero])]

/-! ### The choice -/

theorem bestIndex_spec (score : X → ℝ) : ∀ (after before : List X) (x : X) (mid : List X),
    FirstBest score (before ++ x :: mid) x → before.length < (before ++ x :: mid).length →
    (∀ y ∈ before, score y < score x) → (∀ y ∈ mid, score y ≤ score x) →
    ∃ y, ((before ++ x :: mid) ++ after)[bestIndex (after.map (fun y => some (score y))) (before ++ x :: mid).length
        (score x, before.length)]? = some y ∧ FirstBest score ((before ++ x :: mid) ++ after) y := by
  intro after
  induction after with
  | nil =>
    intro before x mid h _ _ _
    refine ⟨x, ?_, by rw [List.append_nil]; exact h⟩
    rw [List.map_nil, bestIndex, List.append_nil]
    simp
  | cons z zs ih =>
    intro before x mid _ _ hlt hle
    rw [List.map_cons, bestIndex]
    by_cases hz : score z > score x
    · rw [if_pos hz]
      have hall : ∀ y ∈ before ++ x :: mid, score y < score z := by
        intro y hy
        rcases List.mem_append.1 hy with hy | hy
        · exact lt_trans (hlt y hy) hz
        · rcases List.mem_cons.1 hy with rfl | hy
          · exact hz
          · exact lt_of_le_of_lt (hle y hy) hz
      have := ih (before ++ x :: mid) z [] ⟨_, _, rfl, hall, by simp⟩ (by simp) hall (by simp)
      simp only [List.length_append, List.length_cons, List.length_nil, List.append_assoc, List.cons_append,
        List.nil_append, Nat.zero_add] at this ⊢
      exact this
    · rw [if_neg hz]
      have hle' : ∀ y ∈ mid ++ [z], score y ≤ score x := by
        intro y hy
        rcases List.mem_append.1 hy with hy | hy
        · exact hle y hy
        · rw [List.mem_singleton.1 hy]
          exact not_lt.1 hz
      have := ih before x (mid ++ [z]) ⟨before, mid ++ [z], rfl, hlt, hle'⟩ (by simp) hlt hle'
      simp only [List.length_append, List.length_cons, List.length_nil, List.append_assoc, List.cons_append,
        List.nil_append, Nat.zero_add] at this ⊢
      exact this

/-- **C237, the choice.** If no predicted variance is negative, and where it is 0 the predicted mean is at most the best: the sample
chosen is the first of those with the highest expected improvement. -/
theorem C237_choice_partial (p : Predict X) (hs : Standard p) (xInit : List X) (best : ℝ) (hb : IsBest p xInit best)
    (samples : List X) (hne : samples ≠ []) (hv : ∀ x ∈ samples, 0 < p.var x ∨ (p.var x = 0 ∧ p.mean x ≤ best)) :
    ∃ x, acquisition p xInit samples = some x ∧ FirstBest (improvement p best) samples x := by
  have hscore : ∀ x ∈ samples, expectedImprovement p xInit x = some (improvement p best x) ∧ 0 ≤ improvement p best x := by
    intro x hx
    rcases hv x hx with h | ⟨h, hm⟩
    · exact ⟨(C237_formula_partial p hs xInit best hb x h).1, (C237_formula_partial p hs xInit best hb x h).2.le⟩
    · obtain ⟨h1, h2, _⟩ := C237_no_variance_partial p xInit best x h
      rw [h2.2 hm]
      exact ⟨h1, le_refl 0⟩
  match samples, hne with
  | x :: t, _ =>
    unfold acquisition
    have hmap : (x :: t).map (expectedImprovement p xInit) = (x :: t).map (fun y => some (improvement p best y)) :=
      List.map_congr_left (fun y hy => (hscore y hy).1)
    rw [hmap, List.map_cons, bestIndex,
      if_pos (lt_of_lt_of_le hs.neg (hscore x List.mem_cons_self).2)]
    exact bestIndex_spec (improvement p best) t [] x [] ⟨[], [], rfl, by simp, by simp⟩ (by simp) (by simp) (by simp)

/-- **C237.** So while a sample has positive variance the search does not go to a point of variance 0, such as one it has evaluated
already. -/
theorem C237_new_point_partial (p : Predict X) (hs : Standard p) (xInit : List X) (best : ℝ) (hb : IsBest p xInit best)
    (samples : List X) (hv : ∀ x ∈ samples, 0 < p.var x ∨ (p.var x = 0 ∧ p.mean x ≤ best)) (z : X) (hz : z ∈ samples)
    (hzv : 0 < p.var z) : ∃ x, acquisition p xInit samples = some x ∧ x ∈ samples ∧ 0 < p.var x := by
  obtain ⟨x, h1, before, after, h2, h3, h4⟩ := C237_choice_partial p hs xInit best hb samples (List.ne_nil_of_mem hz) hv
  have hx : x ∈ samples := by rw [h2]; simp
  refine ⟨x, h1, hx, ?_⟩
  have hpos := (C237_formula_partial p hs xInit best hb z hzv).2
  have hge : improvement p best z ≤ improvement p best x := by
    rw [h2] at hz
    rcases List.mem_append.1 hz with hz | hz
    · exact (h3 z hz).le
    · rcases List.mem_cons.1 hz with rfl | hz
      · exact le_refl _
      · exact h4 z hz
  rcases hv x hx with h | ⟨h, hm⟩
  · exact h
  · rw [(C237_no_variance_partial p xInit best x h).2.1.2 hm] at hge
    linarith

/-- **C237, what is preferred.** A higher predicted mean raises the expected improvement, and so does a higher variance. -/
theorem C237_prefers_partial (p : Predict X) (best : ℝ) (x y : X) (hx : 0 < p.var x) (hm : p.mean x ≤ p.mean y)
    (hv : p.var x ≤ p.var y) (hlt : p.mean x < p.mean y ∨ p.var x < p.var y) :
    improvement p best x < improvement p best y := by
  have hy : 0 < p.var y := lt_of_lt_of_le hx hv
  have e : ∀ z, 0 < p.var z → improvement p best z = part (p.mean z - best) (√(p.var z)) := by
    intro z hz
    exact expected_part _ _ _ _ (by rw [Real.coe_toNNReal _ hz.le, Real.sq_sqrt hz.le])
  rw [e x hx, e y hy]
  have hsx : 0 < √(p.var x) := Real.sqrt_pos.2 hx
  have hsy : 0 < √(p.var y) := Real.sqrt_pos.2 hy
  rcases hv.lt_or_eq with h | h
  · have h1 : part (p.mean x - best) (√(p.var x)) < part (p.mean x - best) (√(p.var y)) :=
      part_sd hsx (Real.sqrt_lt_sqrt hx.le h)
    rcases hm.lt_or_eq with h2 | h2
    · exact h1.trans (part_mean hsy (by linarith))
    · rw [← h2]
      exact h1
  · rw [← h]
    rcases hlt with h2 | h2
    · exact part_mean hsx (by linarith)
    · exact absurd h2 (by rw [h]; exact lt_irrefl _)

/-- **C237.** So no other sample is at least as good as the one chosen in mean and in variance, and better in one of them. -/
theorem C237_undominated_partial (p : Predict X) (hs : Standard p) (xInit : List X) (best : ℝ) (hb : IsBest p xInit best)
    (samples : List X) (hv : ∀ x ∈ samples, 0 < p.var x) (hne : samples ≠ []) :
    ∃ x, acquisition p xInit samples = some x ∧ x ∈ samples ∧ ∀ y ∈ samples,
      ¬ (p.mean x ≤ p.mean y ∧ p.var x ≤ p.var y ∧ (p.mean x < p.mean y ∨ p.var x < p.var y)) := by
  obtain ⟨x, h1, before, after, h2, h3, h4⟩ :=
    C237_choice_partial p hs xInit best hb samples hne (fun x hx => Or.inl (hv x hx))
  have hx : x ∈ samples := by rw [h2]; simp
  refine ⟨x, h1, hx, ?_⟩
  rintro y hy ⟨a, b, c⟩
  have hlt := C237_prefers_partial p best x y (hv x hx) a b c
  have hle : improvement p best y ≤ improvement p best x := by
    rw [h2] at hy
    rcases List.mem_append.1 hy with hy | hy
    · exact (h3 y hy).le
    · rcases List.mem_cons.1 hy with rfl | hy
      · exact le_refl _
      · exact h4 y hy
  linarith

/-- Two samples with the same mean and the variances 1 and 4. -/
example : improvement (⟨fun _ => 0, fun x => if x = 0 then 1 else 4, fun _ => 0, fun _ => 0, -1⟩ : Predict Nat) 3 0 <
    improvement (⟨fun _ => 0, fun x => if x = 0 then 1 else 4, fun _ => 0, fun _ => 0, -1⟩ : Predict Nat) 3 1 :=
  C237_prefers_partial _ _ _ _ (by norm_num) (le_refl _) (by norm_num) (Or.inr (by norm_num))

/-! ### Where it is false -/

/-- Predictions for the points 0, 1 and 2: the point 0 was evaluated, its mean is 0; at 1 the mean is 5 without variance, at 2 it is
0 with variance 1. -/
noncomputable def sure : Predict Nat :=
  ⟨fun x => if x = 1 then 5 else 0, fun x => if x = 2 then 1 else 0, cdf (gaussianReal 0 1), gaussianPDFReal 0 1, -10⟩

theorem standard_sure : Standard sure := by
  refine ⟨rfl, rfl, fun x => ?_, by norm_num [sure]⟩
  by_cases h : x = 1 <;> simp [sure, h]; norm_num

theorem best_sure : IsBest sure [0] 0 := by
  refine ⟨⟨0, by simp, by simp [sure]⟩, ?_⟩
  intro x hx
  rw [List.mem_singleton.1 hx]
  simp [sure]

/-- **C237, false as stated**: a sample that is predicted to be better by 5 for sure gets the score 0, and the search goes to one
whose expected improvement is less than 1. -/
theorem C237_sure_negation_partial :
    acquisition sure [0] [1, 2] = some 2 ∧ improvement sure 0 1 = 5 ∧ improvement sure 0 2 < 1 := by
  have h1 : expectedImprovement sure [0] 1 = some 0 := (C237_no_variance_partial sure [0] 0 1 (by simp [sure])).1
  obtain ⟨h2, h3⟩ := C237_formula_partial sure standard_sure [0] 0 best_sure 2 (by simp [sure])
  have h4 : improvement sure 0 2 = gaussianPDFReal 0 1 0 := by
    have := expected 0 0 1 one_pos 1 (by simp)
    unfold improvement
    simp only [sure]
    simpa using this
  refine ⟨?_, ?_, ?_⟩
  · unfold acquisition
    rw [List.map_cons, List.map_cons, List.map_nil, h1, h2]
    have : (0 : ℝ) > sure.low := standard_sure.neg
    simp only [bestIndex, if_pos this]
    rw [if_pos h3]
    rfl
  · unfold improvement
    have hv : sure.var 1 = 0 := by simp [sure]
    rw [hv, Real.toNNReal_zero, gaussianReal_zero_var, integral_dirac]
    simp [sure]
  · rw [h4, pdf_std]
    have hpi := Real.two_le_pi
    have : (1 : ℝ) < √(2 * Real.pi) := by
      rw [Real.lt_sqrt (by norm_num)]
      linarith
    simpa using inv_lt_one_of_one_lt₀ this

/-- **C237, false of negative variances** (the root is not a number; a rounded prediction may give them): such a sample has no score and is
passed over, and if there is no other the first sample is taken, whatever it is. -/
theorem C237_no_number_partial (p : Predict X) (xInit samples : List X) (hv : ∀ x ∈ samples, p.var x < 0) :
    acquisition p xInit samples = samples.head? := by
  have h : ∀ (l : List X) (i : Nat) (m : ℝ × Nat), (∀ x ∈ l, p.var x < 0) →
      bestIndex (l.map (expectedImprovement p xInit)) i m = m.2 := by
    intro l
    induction l with
    | nil => intro i m _; rfl
    | cons x t ih =>
      intro i m hl
      have hx : expectedImprovement p xInit x = none := by
        unfold expectedImprovement
        rw [if_pos (hl x List.mem_cons_self)]
      rw [List.map_cons, hx, bestIndex]
      exact ih _ _ (fun y hy => hl y (List.mem_cons_of_mem _ hy))
  unfold acquisition
  rw [h samples 0 _ hv]
  cases samples <;> rfl

/-- The hypotheses of `C237_choice_partial` and `C237_new_point_partial` hold of the samples 2 and 0 of `sure`. -/
example : acquisition sure [0] [0, 2] = some 2 := by
  obtain ⟨x, h1, h2, h3⟩ := C237_new_point_partial sure standard_sure [0] 0 best_sure [0, 2]
    (by
      intro x hx
      rcases List.mem_cons.1 hx with rfl | hx
      · exact Or.inr (by simp [sure])
      · rw [List.mem_singleton.1 hx]
        exact Or.inl (by simp [sure]))
    2 (by simp) (by simp [sure])
  rcases List.mem_cons.1 h2 with rfl | h2
  · simp [sure] at h3
  · rw [h1, List.mem_singleton.1 h2]

end Verif.Improvement
