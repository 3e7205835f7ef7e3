import Verif.Lemmas.GeneticAws

/-!
Properties of the cloud genetic search: C64, C93, C94.
-/

namespace Verif.GeneticAws

variable {I : Type}

/-- C64: for every population, number of functions (at least one) and repetitions, each function gets a list, and the lists one after
the other are the population repeated `reps` times; their lengths differ by at most one. -/
theorem C64_workload (pop : List I) (reps : Nat) {numFunc : Nat} (hf : 0 < numFunc) :
    ∃ lists, workload pop reps numFunc = some lists ∧ lists.length = numFunc ∧
      lists.flatten = (List.replicate reps pop).flatten ∧
      ∀ l ∈ lists, l.length = pop.length * reps / numFunc ∨ l.length = pop.length * reps / numFunc + 1 :=
  workload_spec pop reps hf

/-- C64: so each individual is in the lists `reps` times as often as in the population. -/
theorem C64_count [DecidableEq I] (pop : List I) (reps : Nat) {numFunc : Nat} (hf : 0 < numFunc) {lists : List (List I)}
    (h : workload pop reps numFunc = some lists) (x : I) : lists.flatten.count x = reps * pop.count x := by
  obtain ⟨lists', h1, _, h2, h5⟩ := workload_spec pop reps hf
  rw [h1] at h
  injection h with h
  rw [← h, h2]
  clear h h1 h2 h5
  induction reps with
  | zero => simp
  | succ r ih => rw [List.replicate_succ, List.flatten_cons, List.count_append, ih]; ring

/-- Five individuals, three functions, two repetitions: ten runs. -/
example : workload ["a", "b", "c", "d", "e"] 2 3 =
    some [["a", "b", "c", "d"], ["e", "a", "b"], ["c", "d", "e"]] := by decide

/-- Seven functions for ten runs. -/
example : workload ["a", "b", "c", "d", "e"] 2 7 =
    some [["a", "b"], ["c", "d"], ["e", "a"], ["b"], ["c"], ["d"], ["e"]] := by decide

/-! ### C94 -/

/-- C94. Full statement: with any number of functions the generation is evaluated and the selection gets the fitness of every run.
Proved if there are no more functions than runs, for every order of arrival: there is a row for each individual of the repeated
population, with a fitness computed for this individual. Missing: more functions than runs, see `C94_negation_partial`. -/
theorem C94_rows_partial (fit : Nat → Nat → I → Rat) {arrive : List (Option (List (Row I))) → List (Option (List (Row I)))}
    (ha : ∀ l, (arrive l).Perm l) (desired : Rat) (pop : List I) {reps numFunc : Nat} (hf : 0 < numFunc)
    (hn : numFunc ≤ pop.length * reps) (g : Nat) (best : Rat × Option I) :
    ∃ rows best' flag, generation fit arrive desired pop reps numFunc g best = some (rows, best', flag) ∧
      (rows.map (fun r => r.individual)).Perm (List.replicate reps pop).flatten ∧
      (∀ r ∈ rows, r.generation = g ∧ ∃ i j, r.fitness = fit i j r.individual) ∧
      (flag = true ↔ ∃ r ∈ rows, desired ≤ r.fitness) := by
  obtain ⟨lists, h1, _, h3, h4⟩ := workload_spec pop reps hf
  have hne : ∀ l ∈ lists, l ≠ [] := by
    rintro l hl rfl
    have := h4 [] hl
    have hpos : 0 < pop.length * reps / numFunc := Nat.div_pos hn hf
    simp only [List.length_nil] at this
    omega
  obtain ⟨rss, m1, m2, m3⟩ := messages_eq fit g lists 0 hne
  have hp : (arrive (rss.map some)).Perm (rss.map some) := ha _
  obtain ⟨rss', hrp, hre⟩ : ∃ rss' : List (List (Row I)), rss'.Perm rss ∧ arrive (rss.map some) = rss'.map some := by
    refine ⟨(arrive (rss.map some)).filterMap id, ?_, ?_⟩
    · have := hp.filterMap id
      rwa [List.filterMap_map, show (id ∘ some : List (Row I) → Option (List (Row I))) = some from rfl,
        List.filterMap_some] at this
    · have hall : ∀ m ∈ arrive (rss.map some), ∃ r, m = some r := by
        intro m hm
        obtain ⟨r, _, rfl⟩ := List.mem_map.1 (hp.mem_iff.1 hm)
        exact ⟨r, rfl⟩
      generalize arrive (rss.map some) = l at hall
      induction l with
      | nil => rfl
      | cons m l ih =>
        obtain ⟨r, rfl⟩ := hall m List.mem_cons_self
        show some r :: l = some r :: List.map some (List.filterMap id l)
        rw [← ih (fun m hm => hall m (List.mem_cons_of_mem _ hm))]
  refine ⟨rss'.flatten, updateBest best (bestGen rss'.flatten), rss'.flatten.any (fun r => decide (r.fitness ≥ desired)),
    ?_, ?_, ?_, ?_⟩
  · unfold generation
    rw [h1]
    dsimp only
    rw [m1, hre, parse_some]
    rfl
  · rw [← h3, ← m2, List.map_flatten]
    exact (hrp.map _).flatten
  · intro r hr
    exact m3 r ((hrp.flatten).mem_iff.1 hr)
  · rw [List.any_eq_true]
    simp only [decide_eq_true_eq, ge_iff_le]

/-- C94, false as stated: with more functions than runs some function gets no individual, its message cannot be parsed, and the
search panics. -/
theorem C94_negation_partial (fit : Nat → Nat → I → Rat) {arrive : List (Option (List (Row I))) → List (Option (List (Row I)))}
    (ha : ∀ l, (arrive l).Perm l) (desired : Rat) (pop : List I) {reps numFunc : Nat} (hn : pop.length * reps < numFunc) (g : Nat)
    (best : Rat × Option I) : generation fit arrive desired pop reps numFunc g best = none := by
  obtain ⟨lists, h1, h2, h3, _⟩ := workload_spec pop reps (numFunc := numFunc) (by omega)
  have hz : [] ∈ lists := by
    by_contra hz
    have hall : ∀ l ∈ lists, 1 ≤ l.length := by
      intro l hl
      exact List.length_pos_of_ne_nil (fun h => hz (h ▸ hl))
    have hle : ∀ (ls : List (List I)), (∀ l ∈ ls, 1 ≤ l.length) → ls.length ≤ ls.flatten.length := by
      intro ls
      induction ls with
      | nil => intro _; simp
      | cons l ls ih =>
        intro h
        have h1 := h l List.mem_cons_self
        have h2 := ih (fun l hl => h l (List.mem_cons_of_mem _ hl))
        rw [List.length_cons, List.flatten_cons, List.length_append]
        omega
    have h5 := hle lists hall
    have h6 : ((List.replicate reps pop).flatten).length = pop.length * reps := by
      rw [List.length_flatten, List.map_replicate]
      clear * -
      induction reps with
      | zero => simp
      | succ r ih => rw [List.replicate_succ, List.sum_cons, ih]; ring
    rw [h3, h6] at h5
    omega
  unfold generation
  rw [h1]
  dsimp only
  rw [parse_none ((ha _).mem_iff.2 (messages_none fit g lists 0 hz))]
  rfl

/-! ### C93 -/

theorem updateBest_spec (rows : List (Row I)) (best : Rat × Option I) (h0 : 0 ≤ best.1) :
    best.1 ≤ (updateBest best (bestGen rows)).1 ∧ (∀ r ∈ rows, r.fitness ≤ (updateBest best (bestGen rows)).1) ∧
    (updateBest best (bestGen rows) = best ∨
      ∃ r ∈ rows, updateBest best (bestGen rows) = (r.fitness, some r.individual)) := by
  obtain ⟨_, h2, h3⟩ := bestFold rows (0, none)
  unfold updateBest
  by_cases h : (bestGen rows).1 > best.1
  · rw [if_pos h]
    refine ⟨le_of_lt h, h2, ?_⟩
    rcases h3 with h3 | h3
    · exfalso
      rw [show bestGen rows = (0, none) from h3] at h
      exact absurd h (not_lt.2 h0)
    · exact Or.inr h3
  · rw [if_neg h]
    exact ⟨le_refl _, fun r hr => le_trans (h2 r hr) (not_lt.1 h), Or.inl rfl⟩

theorem generation_best {fit : Nat → Nat → I → Rat} {arrive : List (Option (List (Row I))) → List (Option (List (Row I)))}
    {desired : Rat} {pop : List I} {reps numFunc g : Nat} {best best' : Rat × Option I} {rows : List (Row I)} {flag : Bool}
    (h : generation fit arrive desired pop reps numFunc g best = some (rows, best', flag)) :
    best' = updateBest best (bestGen rows) := by
  unfold generation at h
  split at h
  · exact absurd h (by simp)
  · obtain ⟨rows', _, he⟩ := Option.map_eq_some_iff.1 h
    injection he with h1 h2
    injection h2 with h2 h3
    rw [← h2, h1]

/-- C93. Full statement: the best fitness and individual reported are those of an individual that was evaluated and that no
evaluated individual beats. Proved for a generation: the new best is at least as good as the old one and all rows, and is the old
one or a row. It starts with fitness 0 and the empty string, so it is right as soon as one fitness is positive. Missing: fitnesses
that are not positive, see `C93_negation_partial`. -/
theorem C93_best_partial {fit : Nat → Nat → I → Rat}
    {arrive : List (Option (List (Row I))) → List (Option (List (Row I)))} {desired : Rat} {pop : List I} {reps numFunc g : Nat}
    {best best' : Rat × Option I} {rows : List (Row I)} {flag : Bool}
    (h : generation fit arrive desired pop reps numFunc g best = some (rows, best', flag)) (h0 : 0 ≤ best.1) :
    best.1 ≤ best'.1 ∧ (∀ r ∈ rows, r.fitness ≤ best'.1) ∧
      (best' = best ∨ ∃ r ∈ rows, best' = (r.fitness, some r.individual)) := by
  rw [generation_best h]
  exact updateBest_spec rows best h0

/-- C93, false as stated: if no fitness is positive the report stays at fitness 0 and no individual. -/
theorem C93_negation_partial {fit : Nat → Nat → I → Rat}
    {arrive : List (Option (List (Row I))) → List (Option (List (Row I)))} {desired : Rat} {pop : List I} {reps numFunc g : Nat}
    {best' : Rat × Option I} {rows : List (Row I)} {flag : Bool}
    (h : generation fit arrive desired pop reps numFunc g (0, none) = some (rows, best', flag))
    (hneg : ∀ r ∈ rows, r.fitness ≤ 0) : best' = (0, none) := by
  obtain ⟨_, h2, h3⟩ := C93_best_partial h (le_refl _)
  rcases h3 with h3 | ⟨r, hr, h3⟩
  · exact h3
  · rw [generation_best h]
    obtain ⟨_, _, h4⟩ := bestFold rows (0, none)
    unfold updateBest
    rcases h4 with h4 | ⟨r', hr', h4⟩
    · rw [show bestGen rows = (0, none) from h4]; rfl
    · rw [if_neg]
      rw [show bestGen rows = _ from h4]
      exact not_lt.2 (hneg r' hr')

/-- The search with fitnesses −1 and −2 reports 0. -/
example : generation (fun _ _ x => -(x : Rat)) id 9 [(1 : Rat), 2] 1 1 1 (0, none) =
    some ([⟨1, 0, -1, 1⟩, ⟨1, 1, -2, 2⟩], (0, none), false) := by
  decide +kernel

example : updateBest (0, none) (bestGen [⟨1, 0, -1, "a"⟩, ⟨1, 1, -2, "b"⟩]) = (0, none) ∧
    updateBest (0, none) (bestGen [⟨1, 0, 1, "a"⟩, ⟨1, 1, 2, "b"⟩, ⟨1, 2, 2, "c"⟩]) = (2, some "b") := by
  decide +kernel

/-- A generation of three individuals on two functions, the second answering first. -/
example : generation (fun _ _ x => (x : Rat)) List.reverse 9 [(5 : Rat), 6, 7] 1 2 1 (0, none) =
    some ([⟨1, 0, 7, 7⟩, ⟨1, 0, 5, 5⟩, ⟨1, 1, 6, 6⟩], (7, some 7), false) := by
  decide +kernel

end Verif.GeneticAws
