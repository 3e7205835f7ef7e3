import Verif.Lemmas.Genetic

/-!
Properties of the genetic searches: C62.
-/

namespace Verif.Genetic

variable {I F : Type}

/-- C62, sequential: the rows are those of one or more generations, each evaluated up to the first good individual and followed by
its offspring, none but the last with a good individual, at most `limit` of them. The reported best belongs to one of the rows
(individual, fitness and generation), and no row beats it; if `cmp` says "at least as good" it is at least as good as all rows.
The search stopped at the limit, at a good individual, or because the selection left at most one. -/
theorem C62_sequential {cb : Callbacks I F} {init : List I} {limit fuel : Nat} {rows : List (Row I F)} {b : Best I F}
    (h : gaSequential cb init limit fuel = .finished rows b) :
    ∃ gens, gens ≠ [] ∧ rows = gens.flatten ∧ Evolves cb (upTo (Good cb)) 1 init gens ∧
      (limit ≠ 0 → gens.length ≤ limit) ∧ Stops cb 1 limit 0 gens ∧
      (∃ r ∈ rows, r.fitness = b.fitness ∧ r.individual = b.individual ∧ r.generation = b.generation) ∧
      (StrictWeak cb.cmp → ∀ r ∈ rows, cb.cmp r.fitness b.fitness = false) ∧
      (Total cb.cmp → ∀ r ∈ rows, cb.cmp b.fitness r.fitness = true) := by
  obtain ⟨gens, h1, h2, h3, h4, h5⟩ :=
    loop_spec (evaluatesSeq cb) 1 limit fuel ⟨0, init, [], none⟩ rows b rfl (fun _ => Nat.zero_le _) h
  dsimp only at h1 h2 h3 h5
  refine ⟨gens, ?_, by simpa using h1, h2, by simpa using h3, h5, h4.2, h4.1.strict, h4.1.total⟩
  rintro rfl
  obtain ⟨r, hr, _⟩ := h4.2
  rw [h1] at hr
  simp at hr

/-- C62, parallel: the same with whole generations, and the search goes on with one individual. -/
theorem C62_parallel {cb : Callbacks I F} {init : List I} {limit fuel : Nat} {rows : List (Row I F)} {b : Best I F}
    (h : gaParallel cb init limit fuel = .finished rows b) :
    ∃ gens, gens ≠ [] ∧ rows = gens.flatten ∧ Evolves cb id 1 init gens ∧
      (limit ≠ 0 → gens.length ≤ limit) ∧ Stops cb 0 limit 0 gens ∧
      (∃ r ∈ rows, r.fitness = b.fitness ∧ r.individual = b.individual ∧ r.generation = b.generation) ∧
      (StrictWeak cb.cmp → ∀ r ∈ rows, cb.cmp r.fitness b.fitness = false) ∧
      (Total cb.cmp → ∀ r ∈ rows, cb.cmp b.fitness r.fitness = true) := by
  obtain ⟨gens, h1, h2, h3, h4, h5⟩ :=
    loop_spec (evaluatesPar cb) 0 limit fuel ⟨0, init, [], none⟩ rows b rfl (fun _ => Nat.zero_le _) h
  dsimp only at h1 h2 h3 h5
  refine ⟨gens, ?_, by simpa using h1, h2, by simpa using h3, h5, h4.2, h4.1.strict, h4.1.total⟩
  rintro rfl
  obtain ⟨r, hr, _⟩ := h4.2
  rw [h1] at hr
  simp at hr

/-- C62: with a limit both searches end (in a result or a panic). -/
theorem C62_ends (cb : Callbacks I F) (init : List I) {limit fuel : Nat} (h0 : limit ≠ 0) (hf : limit < fuel) (s : State I F) :
    gaSequential cb init limit fuel ≠ .running s ∧ gaParallel cb init limit fuel ≠ .running s :=
  ⟨loop_ends 1 h0 fuel ⟨0, init, [], none⟩ (Nat.zero_le _) (by simpa using hf) s,
    loop_ends 0 h0 fuel ⟨0, init, [], none⟩ (Nat.zero_le _) (by simpa using hf) s⟩

/-- C62: they do not panic if the first population is not empty and the crossover never returns an empty population (from more
than one individual, or more than none). -/
theorem C62_no_panic (cb : Callbacks I F) {init : List I} (hi : init ≠ []) (limit fuel : Nat) :
    ((∀ g l, 1 < l.length → cb.cross g l ≠ []) → gaSequential cb init limit fuel ≠ .panic) ∧
    ((∀ g l, 0 < l.length → cb.cross g l ≠ []) → gaParallel cb init limit fuel ≠ .panic) :=
  ⟨fun hc => loop_no_panic (evaluatesSeq cb) 1 limit hc fuel ⟨0, init, [], none⟩ hi (fun _ => by omega) (fun _ => rfl),
    fun hc => loop_no_panic (evaluatesPar cb) 0 limit hc fuel ⟨0, init, [], none⟩ hi (fun _ => by omega) (fun _ => rfl)⟩

/-- An empty first population panics. -/
theorem C62_empty_panics (cb : Callbacks I F) (limit fuel : Nat) :
    gaSequential cb [] limit (fuel + 1) = .panic ∧ gaParallel cb [] limit (fuel + 1) = .panic := by
  constructor
  · show loop _ _ _ _ _ _ = _
    rw [loop, round]
    by_cases h : limit ≠ 0 ∧ (0 : Nat) = limit
    · omega
    · rw [if_neg h]; rfl
  · show loop _ _ _ _ _ _ = _
    rw [loop, round]
    by_cases h : limit ≠ 0 ∧ (0 : Nat) = limit
    · omega
    · rw [if_neg h]; rfl

/-- A search for a large number: the fitness is the number, the selection drops the last, the mutation adds the index. -/
def climb : Callbacks Nat Nat where
  fitness _ _ x := x
  select _ l := l.dropLast
  cross _ l := l.reverse
  mutate _ k x := x + k
  cmp a b := a > b
  desired := 9

example : StrictWeak climb.cmp := by
  constructor
  · intro a; simp [climb]
  · intro a b c; simp only [climb, decide_eq_true_eq]; omega
  · intro a b c; simp only [climb, decide_eq_true_eq]; omega

/-- It ends with a good individual in the fourth generation, of which the sequential search evaluates only one. -/
example : (match gaSequential climb [7, 9, 3, 1, 5] 10 20 with
    | .finished rows b => some (rows.map (fun r => (r.generation, r.index, r.individual)), b.generation, b.individual)
    | _ => none) = some ([(1, 0, 7), (1, 1, 9), (1, 2, 3), (1, 3, 1), (1, 4, 5), (2, 0, 1), (2, 1, 4), (2, 2, 11)], 2, 11) := by
  decide

example : (match gaParallel climb [7, 9, 3, 1, 5] 10 20 with
    | .finished rows b => some (rows.map (fun r => (r.generation, r.index, r.individual)), b.generation, b.individual)
    | _ => none) =
      some ([(1, 0, 7), (1, 1, 9), (1, 2, 3), (1, 3, 1), (1, 4, 5), (2, 0, 1), (2, 1, 4), (2, 2, 11), (2, 3, 10)], 2, 11) := by
  decide

/-- The limit is reached. -/
example : (match gaParallel climb [3, 1, 2] 2 20 with
    | .finished rows b => some (rows.map (fun r => (r.generation, r.index, r.individual)), b.generation, b.individual)
    | _ => none) = some ([(1, 0, 3), (1, 1, 1), (1, 2, 2), (2, 0, 1), (2, 1, 4)], 2, 4) := by
  decide

end Verif.Genetic
