import Verif.Lemmas.Search
import Mathlib.Tactic.NormNum

/-!
Properties of the random search (C65, C96), the bayesian search (C66, C95), `gen_param!` (C67), `load_csv!` and `write_csv` (C97,
C98).
-/

namespace Verif.Search

open SearchSpec

variable {S X : Type}

/-! ### C65 -/

/-- C65: for every generator, evaluation, initial state, number of iterations, target and batch size the search does not panic
and returns the first candidate of smallest cost among all evaluated ones (or the initial state and `f32::MAX` if none costs less
than that). In each iteration the samples are generated from the best state so far. It makes `nIter` iterations or stops as
soon as the best cost is at most the target, and not earlier. -/
theorem C65_search (gen : Nat → Nat → S → S) (eval : Nat → Nat → S → S × Fl) (init : S) (nIter : Nat) (target : Fl)
    (batchSize : Nat) :
    ∃ (best : S × Fl) (batches : List (List (S × Fl))),
      randomSearch gen eval init nIter target batchSize = some (best, batches) ∧
      IsFirstMin (init, Fl.maxF32) batches.flatten best ∧ batches.length ≤ nIter ∧
      (∀ m l, batches[m]? = some l → ∃ b, IsFirstMin (init, Fl.maxF32) (batches.take m).flatten b ∧
        l = (List.range batchSize).map (fun j => eval m j (gen m j b.1))) ∧
      (batches.length = nIter ∨ best.2.le target = true) ∧
      (∀ m, 0 < m → m < batches.length → ∀ b, IsFirstMin (init, Fl.maxF32) (batches.take m).flatten b →
        b.2.le target = false) := by
  obtain ⟨best, bs, h1, h2, h3, h4, h5, h6⟩ := iterate_spec gen eval batchSize target (init, Fl.maxF32) nIter 0 [] _
    (isFirstMin_nil _)
  refine ⟨best, bs, h1, h2, h3, ?_, h5, h6⟩
  intro m l hl
  obtain ⟨b, g1, g2⟩ := h4 m l hl
  rw [Nat.zero_add] at g2
  exact ⟨b, g1, g2⟩

/-- C65: the comparisons are those of numbers; those with not a number are false. -/
theorem C65_comparisons (a b : Fl) :
    (a.lt b = true ↔ ∃ x y, value a = some x ∧ value b = some y ∧ x < y) ∧
      (a.le b = true ↔ ∃ x y, value a = some x ∧ value b = some y ∧ x ≤ y) := by
  cases a <;> cases b <;> simp [Fl.lt, Fl.le, value]
  exact WithBot.coe_lt_coe.2 (WithTop.coe_lt_top _)

/-- C65: the best of a sequence of candidates is unique, so the theorem above determines the result. -/
theorem C65_unique {init b1 b2 : S × Fl} {l : List (S × Fl)} (h1 : IsFirstMin init l b1) (h2 : IsFirstMin init l b2) : b1 = b2 :=
  isFirstMin_unique h1 h2

/-- C65: the best never gets worse: after more candidates it is the same or costs less. -/
theorem C65_monotone {init b1 b2 : S × Fl} {l more : List (S × Fl)} (h1 : IsFirstMin init l b1)
    (h2 : IsFirstMin init (l ++ more) b2) : b2 = b1 ∨ b2.2.lt b1.2 = true := by
  obtain ⟨b, _, _, hb⟩ := newBest_spec more b1
  rw [isFirstMin_unique h2 (isFirstMin_append h1 hb)]
  rcases hb with ⟨rfl, _⟩ | ⟨_, _, h, _⟩
  · exact Or.inl rfl
  · exact Or.inr h

/-- C65: the state returned is one of the samples exactly if one of them costs less than `f32::MAX` (negative infinity does, not a
number and positive infinity do not). -/
theorem C65_sample {init best : S} {c : Fl} {l : List (S × Fl)} (h : IsFirstMin (init, Fl.maxF32) l (best, c)) :
    ((best, c) ∈ l ∧ (c = .ninf ∨ ∃ q : Rat, c = .fin q ∧ q < 340282346638528859811704183484516925440)) ∨
      (best = init ∧ c = .fin 340282346638528859811704183484516925440 ∧
        ∀ e ∈ l, e.2 = .nan ∨ e.2 = .pinf ∨ ∃ q : Rat, e.2 = .fin q ∧ 340282346638528859811704183484516925440 ≤ q) := by
  have hmax : Fl.maxF32 = .fin 340282346638528859811704183484516925440 := by unfold Fl.maxF32; norm_num
  rw [hmax] at h
  rcases h with ⟨h1, h2⟩ | ⟨k, h1, h2, _⟩
  · injection h1 with h1 h3
    refine Or.inr ⟨h1, h3, fun e he => ?_⟩
    have h4 := h2 e he
    cases hc : e.2 with
    | nan => exact Or.inl rfl
    | pinf => exact Or.inr (Or.inl rfl)
    | ninf => rw [hc] at h4; cases h4
    | fin q =>
      rw [hc] at h4
      exact Or.inr (Or.inr ⟨q, rfl, not_lt.1 (of_decide_eq_false h4)⟩)
  · refine Or.inl ⟨List.mem_of_getElem? h1, ?_⟩
    cases hc : c with
    | nan => rw [hc] at h2; cases h2
    | pinf => rw [hc] at h2; cases h2
    | ninf => exact Or.inl rfl
    | fin q =>
      rw [hc] at h2
      exact Or.inr ⟨q, rfl, of_decide_eq_true h2⟩

/-- Three iterations with two samples each; the second reaches the target. The not-a-number of the first is never chosen. -/
example : randomSearch (S := Int) (fun i j s => s + i + 2 * j)
    (fun i j s => (s, if i = 0 ∧ j = 0 then .nan else .fin (10 - s))) 5 3 (.fin 1) 2 =
    some ((10, .fin 0), [[(5, .nan), (7, .fin 3)], [(8, .fin 2), (10, .fin 0)]]) := by
  decide +kernel

/-! ### C96 -/

/-- C96. Full statement: the cost of a sample is the mean of the costs of `reps` runs that start with that sample, and the state
returned is the sample. What holds: the runs are chained, each starting with the state the previous one left, and the state kept is the
one left by the last run. Missing: see `C96_negation_partial`. -/
theorem C96_evaluation_partial (run : S → S) (cost : S → Fl) (add : Fl → Fl → Fl) (over : Fl → Nat → Fl) (reps : Nat) (s : S) :
    evalSample run cost add over reps s =
      (run^[reps] s, over (((List.range reps).map (fun k => cost (run^[k + 1] s))).foldl add (.fin 0)) reps) := by
  unfold evalSample
  rw [evalLoop_spec]

/-- C96: if a run of a state that was run already does the same again (`init` sets everything up anew), the cost is the sum
of `reps` times the cost of the run of the sample, divided by `reps`. -/
theorem C96_reset_partial (run : S → S) (cost : S → Fl) (add : Fl → Fl → Fl) (over : Fl → Nat → Fl) (reps : Nat) (s : S)
    (h : run (run s) = run s) :
    (evalSample run cost add over reps s).2 = over ((List.replicate reps (cost (run s))).foldl add (.fin 0)) reps := by
  have hk : ∀ k, run^[k + 1] s = run s := by
    intro k
    induction k with
    | zero => rfl
    | succ k ih => rw [Function.iterate_succ_apply', ih, h]
  have hm : (List.range reps).map (fun k => cost (run^[k + 1] s)) = List.replicate reps (cost (run s)) := by
    rw [List.map_congr_left (fun k _ => by rw [hk k]), List.map_const', List.length_range]
  rw [C96_evaluation_partial, hm]

/-- C96, false as stated: a model that counts its runs. The cost of sample 0 is the mean of 1 and 2, not 1, and the state kept is 2. -/
theorem C96_negation_partial :
    evalSample (S := Nat) (fun s => s + 1) (fun s => .fin s) (fun a b => match a, b with
        | .fin x, .fin y => .fin (x + y)
        | _, _ => .nan)
      (fun a r => match a with
        | .fin x => .fin (x / r)
        | _ => .nan) 2 0 = (2, .fin (3 / 2)) := by
  decide +kernel

/-! ### C66 -/

/-- C66. Full statement: the search returns the point and value of the first evaluated point of largest value, and each new point
has maximal expected improvement. Proved for objectives that are above `f64::MIN` at some evaluated point: `points` are the points
evaluated, first the given ones, then one per iteration, chosen by the acquisition function. Missing: see `C66_negation_partial`. -/
theorem C66_search_partial (objective : Nat → X → Fl) (gen : Nat → List X → List X) (score : List (X × Fl) → X → Fl)
    {xInit : List X} (hx : xInit ≠ []) (hg : ∀ i xs, gen i xs ≠ []) (nIter : Nat) :
    ∃ (best : X × Fl) (points : List (X × Fl)), bayesianSearch objective gen score xInit nIter = some (best, points) ∧
      points.length = xInit.length + nIter ∧
      (∀ m x, xInit[m]? = some x → points[m]? = some (x, objective m x)) ∧
      (∀ m e, points[xInit.length + m]? = some e →
        acquisition (score (points.take (xInit.length + m))) (gen m ((points.take (xInit.length + m)).map Prod.fst)) = some e.1 ∧
        e.2 = objective (xInit.length + m) e.1) ∧
      ((∃ e ∈ points, Fl.minF64.lt e.2 = true) → IsFirstMax points best) ∧
      ((∀ e ∈ points, Fl.minF64.lt e.2 = false) → ∃ x, xInit[0]? = some x ∧ best = (x, Fl.minF64)) := by
  have hlen : (evalInit objective xInit).length = xInit.length := by
    unfold evalInit
    rw [List.length_map, List.length_zipIdx]
  obtain ⟨x0, hx0⟩ : ∃ x, xInit[0]? = some x := by
    cases xInit with
    | nil => exact absurd rfl hx
    | cons x xs => exact ⟨x, rfl⟩
  have hget : ∀ (m : Nat) x, xInit[m]? = some x → (evalInit objective xInit)[m]? = some (x, objective m x) := by
    intro m x hm
    unfold evalInit
    rw [List.getElem?_map, List.getElem?_zipIdx, hm, Nat.zero_add]
    rfl
  have hstart : ∃ b, xInit[(maxLoop ((evalInit objective xInit).map Prod.snd) 0 (Fl.minF64, 0)).2]? = some b ∧
      Keeps x0 (evalInit objective xInit) (b, (maxLoop ((evalInit objective xInit).map Prod.snd) 0 (Fl.minF64, 0)).1) := by
    by_cases h : ∃ e ∈ evalInit objective xInit, Fl.minF64.lt e.2 = true
    · obtain ⟨best, h1, h2, h3, h4⟩ := maxLoop_pairs h
      have hb : xInit[(maxLoop ((evalInit objective xInit).map Prod.snd) 0 (Fl.minF64, 0)).2]? = some best.1 := by
        have hi := (List.getElem?_eq_some_iff.1 h1).1
        rw [hlen] at hi
        have := hget _ _ (List.getElem?_eq_getElem hi)
        rw [h1] at this
        injection this with this
        rw [List.getElem?_eq_getElem hi, this]
      refine ⟨best.1, hb, Or.inr ?_⟩
      rw [h2]
      exact ⟨h3, h4⟩
    · have h' : ∀ e ∈ evalInit objective xInit, Fl.minF64.lt e.2 = false := by
        intro e he
        exact eq_false_of_ne_true (fun hc => h ⟨e, he, hc⟩)
      have hm := maxLoop_none (l := (evalInit objective xInit).map Prod.snd) (by
        intro y hy
        obtain ⟨e, he, rfl⟩ := List.mem_map.1 hy
        exact h' e he)
      rw [hm]
      exact ⟨x0, hx0, Or.inl ⟨rfl, h'⟩⟩
  obtain ⟨b, hb, hk⟩ := hstart
  obtain ⟨best, more, h1, h2, h3, h4⟩ := bayesLoop_spec objective gen score hg x0 nIter 0 _ _ hk
  refine ⟨best, evalInit objective xInit ++ more, ?_, ?_, ?_, ?_, ?_, ?_⟩
  · unfold bayesianSearch
    rw [hb]
    exact h1
  · rw [List.length_append, hlen, h3]
  · intro m x hm
    rw [List.getElem?_append_left (by rw [hlen]; exact (List.getElem?_eq_some_iff.1 hm).1)]
    exact hget m x hm
  · intro m e he
    rw [List.getElem?_append_right (by omega), hlen, Nat.add_sub_cancel_left] at he
    have := h4 m e he
    rw [Nat.zero_add, hlen] at this
    rw [List.take_append, hlen, Nat.add_sub_cancel_left, List.take_of_length_le (by omega)]
    exact this
  · rintro ⟨e, he, hlt⟩
    rcases h2 with ⟨_, h2⟩ | ⟨_, h2⟩
    · rw [h2 e he] at hlt
      cases hlt
    · exact h2
  · intro hall
    rcases h2 with ⟨h2, _⟩ | ⟨h2, k, hk, _⟩
    · exact ⟨x0, hx0, h2⟩
    · rw [hall best (List.mem_of_getElem? hk)] at h2
      cases h2

/-- C66, false as stated: an objective that is −∞ everywhere (a way to mark forbidden points). The value returned is the
value of no point. -/
theorem C66_negation_partial :
    ∃ best points, bayesianSearch (X := Nat) (fun _ _ => .ninf) (fun i _ => [i]) (fun _ _ => .fin 0) [7] 1 = some (best, points) ∧
      ∀ e ∈ points, e.2 ≠ best.2 :=
  ⟨(7, Fl.minF64), [(7, .ninf), (0, .ninf)], by decide +kernel, by decide +kernel⟩

/-- C66: without initial points the search panics. -/
theorem C66_no_points_negation_partial (objective : Nat → X → Fl) (gen : Nat → List X → List X)
    (score : List (X × Fl) → X → Fl) (nIter : Nat) : bayesianSearch objective gen score [] nIter = none := rfl

/-- C66: if a sample scores above `f64::MIN`, the acquisition picks the first sample of maximal score. -/
theorem C66_acquisition_partial (score : X → Fl) (samples : List X) (h : ∃ x ∈ samples, Fl.minF64.lt (score x) = true) :
    ∃ x, acquisition score samples = some x ∧ IsFirstMax (samples.map (fun x => (x, score x))) (x, score x) := by
  obtain ⟨best, h1, _, _, h4⟩ := maxLoop_pairs (l := samples.map (fun x => (x, score x))) (by
    obtain ⟨x, hx, hlt⟩ := h
    exact ⟨(x, score x), List.mem_map_of_mem hx, hlt⟩)
  rw [List.map_map, show (Prod.snd ∘ fun x => (x, score x)) = score from rfl, List.getElem?_map] at h1
  obtain ⟨x, hx, rfl⟩ := Option.map_eq_some_iff.1 h1
  exact ⟨x, hx, h4⟩

/-- C66, false as stated in another way: with scores −∞ and `f64::MIN` the sample of score −∞ is picked. -/
theorem C66_acquisition_negation_partial :
    acquisition (X := Bool) (fun b => if b then Fl.minF64 else .ninf) [false, true] = some false ∧
      Fl.ninf.lt Fl.minF64 = true := by
  decide +kernel

/-- C66: the score of a sample with some variance is the formula for the improvement over the largest prediction for the evaluated
points; without variance it is 0. -/
theorem C66_improvement_partial (mean sd : X → Fl) (formula : Fl → Fl → Fl → Fl) (points : List X) (x : X)
    (h : ∃ p ∈ points, Fl.minF64.lt (mean p) = true) :
    (sd x = .fin 0 → expectedImprovement mean sd formula points x = .fin 0) ∧
    (sd x ≠ .fin 0 → ∃ p ∈ points, (∀ q ∈ points, (mean p).lt (mean q) = false) ∧
      expectedImprovement mean sd formula points x = formula (mean x) (mean p) (sd x)) := by
  refine ⟨fun h0 => if_pos h0, fun h0 => ?_⟩
  unfold expectedImprovement
  rw [if_neg h0]
  rcases maxLoop_spec (points.map mean) 0 (Fl.minF64, 0) with ⟨_, h2⟩ | ⟨k, y, h1, h2, _, h4, _⟩
  · obtain ⟨p, hp, hlt⟩ := h
    rw [h2 _ (List.mem_map_of_mem hp)] at hlt
    cases hlt
  · obtain ⟨p, hp, rfl⟩ := List.mem_map.1 (List.mem_of_getElem? h1)
    exact ⟨p, hp, fun q hq => h4 _ (List.mem_map_of_mem hq), by rw [h2]⟩

/-- Two initial points, two iterations with three samples each. -/
example : bayesianSearch (X := Int) (fun _ x => .fin (-(x * x : Int))) (fun i _ => [i + 3, (i : Int) - 1, 4])
    (fun hist x => .fin (-(x * x : Int) + (hist.length : Int))) [5, -2] 2 =
    some ((0, .fin 0), [(5, .fin (-25)), (-2, .fin (-4)), (-1, .fin (-1)), (0, .fin 0)]) := by
  decide +kernel

/-! ### C95 -/

/-- C95: `batchSize` points with `params` coordinates in `[-scale, scale]`, for every rounding that is monotone and keeps `scale`,
`-scale` (they are floats). -/
theorem C95_samples (u : Nat → Nat → Rat) (hu : ∀ i j, -1 ≤ u i j ∧ u i j ≤ 1) (rnd : Rat → Rat) (hm : ∀ a b, a ≤ b → rnd a ≤ rnd b)
    (batchSize : Nat) {scale : Rat} (h0 : 0 ≤ scale) (hs : rnd scale = scale) (hs' : rnd (-scale) = -scale) (params : Nat) :
    (generateSamples u rnd batchSize scale params).length = batchSize ∧
    ∀ p ∈ generateSamples u rnd batchSize scale params, p.length = params ∧ ∀ c ∈ p, -scale ≤ c ∧ c ≤ scale := by
  unfold generateSamples
  refine ⟨by rw [List.length_map, List.length_range], ?_⟩
  intro p hp
  obtain ⟨i, _, rfl⟩ := List.mem_map.1 hp
  refine ⟨by rw [List.length_map, List.length_range], ?_⟩
  intro c hc
  obtain ⟨j, _, rfl⟩ := List.mem_map.1 hc
  have h1 := hm (-scale) (u i j * scale) (by nlinarith [(hu i j).1])
  have h2 := hm (u i j * scale) scale (by nlinarith [(hu i j).2])
  rw [hs'] at h1
  rw [hs] at h2
  exact ⟨h1, h2⟩

example : generateSamples (fun i j => if i = j then 1 else -1 / 2) id 3 10 2 = [[10, -5], [-5, 10], [-5, -5]] := by
  decide +kernel

/-! ### C67 -/

/-- C67. Full statement: `max(n, 1)` values in the half-open range between the bounds (or `[min, min + 1)`). Proved for integer types
if `n ≥ 1` and equal bounds are not the largest value of the type. Missing: see the negations. -/
theorem C67_int_partial (u : Nat → Nat) {top min max : Int} {n : Nat} (h : min ≠ max ∨ max < top) :
    ∃ l, genParamInt u top min max n = some l ∧ l.length = n ∧
      ∀ v ∈ l, (min ≠ max → (if min < max then min else max) ≤ v ∧ v < (if min < max then max else min)) ∧
        (min = max → v = min) := by
  have key : ∃ a b, boundsInt top min max = some (a, b) ∧ a < b ∧
      (min ≠ max → a = (if min < max then min else max) ∧ b = (if min < max then max else min)) ∧
      (min = max → a = min ∧ b = min + 1) := by
    unfold boundsInt
    by_cases h1 : min > max
    · rw [if_pos h1]
      refine ⟨max, min, rfl, h1, fun _ => ?_, fun h2 => by omega⟩
      rw [if_neg (by omega), if_neg (by omega)]
      exact ⟨rfl, rfl⟩
    · rw [if_neg h1]
      by_cases h2 : min = max
      · rw [if_pos h2, if_pos (by omega)]
        exact ⟨min, max + 1, rfl, by omega, fun h3 => absurd h2 h3, fun _ => ⟨rfl, by rw [h2]⟩⟩
      · rw [if_neg h2]
        refine ⟨min, max, rfl, by omega, fun _ => ?_, fun h3 => absurd h3 h2⟩
        rw [if_pos (by omega), if_pos (by omega)]
        exact ⟨rfl, rfl⟩
  obtain ⟨a, b, hab, hlt, h1, h2⟩ := key
  unfold genParamInt
  rw [hab]
  refine ⟨_, rfl, by rw [List.length_map, List.length_range], ?_⟩
  intro v hv
  obtain ⟨i, _, rfl⟩ := List.mem_map.1 hv
  dsimp only
  have g1 : 0 ≤ (u i : Int) % (b - a) := Int.emod_nonneg _ (by omega)
  have g2 : (u i : Int) % (b - a) < b - a := Int.emod_lt_of_pos _ (by omega)
  refine ⟨fun hne => ?_, fun he => ?_⟩
  · obtain ⟨ha, hb⟩ := h1 hne
    rw [← ha, ← hb]
    omega
  · obtain ⟨ha, hb⟩ := h2 he
    omega

/-- C67: the same for float types, whenever the distribution can be made: the values are those of the distribution on the range
given by the bounds. -/
theorem C67_float_partial (rnd : Rat → Rat) (finite : Rat → Bool) {pick : Nat → Rat → Rat → Rat}
    (hp : ∀ i lo hi, lo < hi → lo ≤ pick i lo hi ∧ pick i lo hi < hi) {min max : Rat} {n : Nat} {l : List Rat}
    (h : genParamFloat rnd finite pick min max n = some l) :
    l.length = n ∧ ∀ v ∈ l, (min < max → min ≤ v ∧ v < max) ∧ (max < min → max ≤ v ∧ v < min) ∧
      (min = max → min ≤ v ∧ v < rnd (min + 1)) := by
  obtain ⟨b, hb, rfl⟩ := Option.map_eq_some_iff.1 h
  refine ⟨by rw [List.length_map, List.length_range], ?_⟩
  intro v hv
  obtain ⟨i, _, rfl⟩ := List.mem_map.1 hv
  unfold boundsFloat at hb
  split at hb
  · rename_i h1
    split at hb
    · injection hb with hb
      subst hb
      exact ⟨fun h => absurd h (not_lt.2 (le_of_lt h1)), fun _ => hp i max min h1, fun h => absurd h1 (by rw [h]; exact lt_irrefl _)⟩
    · cases hb
  · rename_i h1
    split at hb
    · rename_i h2
      split at hb
      · rename_i h3
        injection hb with hb
        subst hb
        refine ⟨fun h => absurd h (by rw [h2]; exact lt_irrefl _), fun h => absurd h (by rw [h2]; exact lt_irrefl _), fun _ => ?_⟩
        have := hp i min (rnd (max + 1)) h3
        rw [h2] at this ⊢
        exact this
      · cases hb
    · rename_i h2
      split at hb
      · injection hb with hb
        subst hb
        have h3 : min < max := lt_of_le_of_ne (not_lt.1 h1) h2
        exact ⟨fun _ => hp i min max h3, fun h => absurd h h1, fun h => absurd h h2⟩
      · cases hb

/-- C67, float types: exactly when `gen_param!` panics: the width of the range is not finite, or the bounds are equal and
adding 1 does not change them. -/
theorem C67_float_panics_partial (rnd : Rat → Rat) (finite : Rat → Bool) (pick : Nat → Rat → Rat → Rat) (min max : Rat)
    (n : Nat) : genParamFloat rnd finite pick min max n = none ↔
      (min < max ∧ finite (max - min) = false) ∨ (max < min ∧ finite (min - max) = false) ∨
      (min = max ∧ rnd (max + 1) ≤ max) := by
  unfold genParamFloat boundsFloat
  rw [Option.map_eq_none_iff]
  rcases lt_trichotomy min max with h | h | h
  · rw [if_neg (not_lt.2 h.le), if_neg h.ne]
    cases hf : finite (max - min) <;> simp [h, h.ne, h.le, not_lt.2 h.le]
  · subst h
    rw [if_neg (lt_irrefl _), if_pos rfl]
    by_cases hr : min < rnd (min + 1)
    · simp [hr]
    · simp [hr, not_lt.1 hr]
  · rw [if_pos h]
    cases hf : finite (min - max) <;> simp [h, h.ne', not_lt.2 h.le]

/-- C67, false as stated: `n = 0` gives no value, whatever the bounds. -/
theorem C67_zero_negation_partial (u : Nat → Nat) {top min max : Int} (h : min ≠ max ∨ max < top) :
    genParamInt u top min max 0 = some [] := by
  obtain ⟨l, h1, h2, _⟩ := C67_int_partial u (n := 0) h
  rw [h1, List.eq_nil_of_length_eq_zero h2]

/-- C67, false as stated: both bounds the largest value of the type (255 for `u8`) overflow. -/
theorem C67_overflow_negation_partial (u : Nat → Nat) (top : Int) (n : Nat) : genParamInt u top top top n = none := by
  unfold genParamInt boundsInt
  rw [if_neg (by omega), if_pos rfl, if_neg (by omega)]
  rfl

/-- C67, false as stated: equal float bounds so large that adding 1 does not change them. -/
theorem C67_rounding_negation_partial {rnd : Rat → Rat} (finite : Rat → Bool) (pick : Nat → Rat → Rat → Rat) {b : Rat}
    (h : rnd (b + 1) = b) (n : Nat) : genParamFloat rnd finite pick b b n = none := by
  unfold genParamFloat boundsFloat
  rw [if_neg (lt_irrefl _), if_pos rfl, if_neg (by rw [h]; exact lt_irrefl _)]
  rfl

example : genParamInt (fun i => 7 * i + 12) 255 20 10 4 = some [12, 19, 16, 13] := by decide
example : genParamInt (fun i => 7 * i + 12) 255 10 10 3 = some [10, 10, 10] := by decide

/-! ### C97 -/

/-- C97. Full statement: `load_csv!(file, x: T, ..)` returns for each field asked for the values of the column with that name.
What holds: it returns the columns by position, for every file whose records have the width of the header and whose entries
parse. Missing: the names are not looked at, see `C97_negation_partial`. -/
theorem C97_position_partial {V : Type} {header : List String} {records : List (List String)}
    {fields : List (String × (String → Option V))}
    (h : ∀ r ∈ records, r.length = header.length ∧ ∀ (j : Nat) f, fields[j]? = some f → ∃ v, (r[j]?).bind f.2 = some v) :
    ∃ cols, loadCsv header records fields = some cols ∧ cols.length = fields.length ∧
      ∀ (j : Nat) f, fields[j]? = some f → ∃ c, cols[j]? = some c ∧ c.map some = records.map (fun r => (r[j]?).bind f.2) := by
  have hps : ∀ (j : Nat) p, (fields.map Prod.snd)[j]? = some p → ∃ f, fields[j]? = some f ∧ f.2 = p := by
    intro j p hp
    rw [List.getElem?_map] at hp
    exact Option.map_eq_some_iff.1 hp
  obtain ⟨rows, r1, r2, r3⟩ := rows_exist (fields.map Prod.snd) records (by
    intro r hr
    refine parseRecord_some r _ 0 ?_
    intro j p hp
    obtain ⟨f, hf, rfl⟩ := hps j p hp
    rw [Nat.zero_add]
    exact (h r hr).2 j f hf)
  obtain ⟨cols, c1, c2, c3⟩ := readRecords_spec header.length (fields.map Prod.snd) records (fields.map (fun _ => [])) (by simp)
    (fun r hr => (h r hr).1) rows r1 r2
  refine ⟨cols, c1, by rw [c2, List.length_map], ?_⟩
  intro j f hf
  refine ⟨_, c3 j [] (by rw [List.getElem?_map, hf]; rfl), ?_⟩
  rw [List.nil_append]
  exact r3 j f.2 (by rw [List.getElem?_map, hf]; rfl)

/-- C97: a record of another width, or an entry that does not parse, is a panic. -/
theorem C97_panic_partial {V : Type} {header : List String} {records : List (List String)}
    {fields : List (String × (String → Option V))} {r : List String} (hr : r ∈ records)
    (h : r.length ≠ header.length ∨ ∃ (j : Nat) (f : String × (String → Option V)), fields[j]? = some f ∧ (r[j]?).bind f.2 = none) :
    loadCsv header records fields = none := by
  refine readRecords_none _ _ _ _ ⟨r, hr, ?_⟩
  rcases h with h | ⟨j, f, hf, hn⟩
  · exact Or.inl h
  · refine Or.inr ?_
    rw [← Option.not_isSome_iff_eq_none]
    intro hs
    obtain ⟨vs, hvs⟩ := Option.isSome_iff_exists.1 hs
    obtain ⟨h1, h2⟩ := (parseRecord_spec r _ 0 vs).1 hvs
    have hj : j < vs.length := by
      rw [h1, List.length_map]
      exact (List.getElem?_eq_some_iff.1 hf).1
    have := h2 j f.2 vs[j] (by rw [List.getElem?_map, hf]; rfl) (List.getElem?_eq_getElem hj)
    rw [Nat.zero_add, hn] at this
    cases this

/-- C97, false as stated: the file has the columns `y, x`, the fields `x, y` are asked for, and they come out exchanged. -/
theorem C97_negation_partial :
    loadCsv ["y", "x"] [["1", "2"], ["3", "4"]] [("x", some), ("y", some)] = some [["1", "3"], ["2", "4"]] := by
  decide

/-- A parser of digits. -/
def digit (s : String) : Option Nat := ["0", "1", "2", "3", "4"].findIdx? (· == s)

example : loadCsv ["x", "y"] [["1", "2"], ["3", "z"]] [("x", digit), ("y", digit)] = none := by
  decide +kernel

/-! ### C98 -/

/-- C98: what `write_csv` wrote `load_csv!` reads back, column by column and in the order of the rows, for all rows of the width of
the header and parsers that understand the written values (`value j a` is field `j` of row `a`). -/
theorem C98_roundtrip {A V : Type} {names : List String} {toStrings : A → List String} {rows : List A}
    (hw : ∀ a ∈ rows, (toStrings a).length = names.length) {parsers : List (String → Option V)}
    (hl : parsers.length = names.length) {value : Nat → A → V}
    (hv : ∀ a ∈ rows, ∀ (j : Nat) p s, parsers[j]? = some p → (toStrings a)[j]? = some s → p s = some (value j a)) :
    ∃ written, writeCsv names toStrings rows = some written ∧
      ∃ cols, loadCsv names written (names.zip parsers) = some cols ∧ cols.length = names.length ∧
        ∀ j < names.length, cols[j]? = some (rows.map (value j)) := by
  have hwr : writeCsv names toStrings rows = some (rows.map toStrings) := by
    clear hv
    induction rows with
    | nil => rfl
    | cons a as ih =>
      rw [writeCsv, if_pos (hw a List.mem_cons_self), ih (fun a ha => hw a (List.mem_cons_of_mem _ ha))]
      rfl
  refine ⟨_, hwr, ?_⟩
  have hz : (names.zip parsers).length = names.length := by rw [List.length_zip]; omega
  have hfield : ∀ (j : Nat) f, (names.zip parsers)[j]? = some f → parsers[j]? = some f.2 := by
    intro j f hf
    rw [List.getElem?_zip_eq_some] at hf
    exact hf.2
  have hval : ∀ a ∈ rows, ∀ (j : Nat) f, (names.zip parsers)[j]? = some f →
      ((toStrings a)[j]?).bind f.2 = some (value j a) := by
    intro a ha j f hf
    have hj : j < (toStrings a).length := by
      rw [hw a ha, ← hz]
      exact (List.getElem?_eq_some_iff.1 hf).1
    rw [List.getElem?_eq_getElem hj]
    exact hv a ha j f.2 _ (hfield j f hf) (List.getElem?_eq_getElem hj)
  obtain ⟨cols, h1, h2, h3⟩ := C97_position_partial (header := names) (records := rows.map toStrings)
    (fields := names.zip parsers) (by
      intro r hr
      obtain ⟨a, ha, rfl⟩ := List.mem_map.1 hr
      exact ⟨hw a ha, fun j f hf => ⟨_, hval a ha j f hf⟩⟩)
  refine ⟨cols, h1, by rw [h2, hz], ?_⟩
  intro j hj
  have hj' : j < (names.zip parsers).length := by omega
  obtain ⟨c, hc, he⟩ := h3 j _ (List.getElem?_eq_getElem hj')
  rw [hc]
  congr 1
  rw [List.map_map, List.map_congr_left (g := some ∘ value j) (f := (fun r => (r[j]?).bind ((names.zip parsers)[j]).2) ∘ toStrings) (fun a ha => hval a ha j _ (List.getElem?_eq_getElem hj')),
    ← List.map_map] at he
  exact (List.map_inj_right (fun _ _ h => Option.some.inj h)).1 he

example : writeCsv ["a", "b"] (fun p : Nat × Nat => [toString p.1, toString p.2]) [(1, 2), (3, 4)] = some [["1", "2"], ["3", "4"]] ∧
    loadCsv ["a", "b"] [["1", "2"], ["3", "4"]] [("a", digit), ("b", digit)] = some [[1, 3], [2, 4]] := by
  decide +kernel

end Verif.Search
