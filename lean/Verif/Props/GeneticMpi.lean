import Verif.Lemmas.GeneticMpi

/-!
Properties of the distributed genetic search: C63, C91, C92.
-/

namespace Verif.GeneticMpi

open Verif.Genetic

variable {I F : Type}

/-! ### C63 -/

/-- C63, the blocks: for every number of processes the population is cut into one block per process, one after the other, whose
sizes differ by at most one. -/
theorem C63_split (pop : List I) {procs : Nat} (hp : 0 < procs) :
    ∃ blocks, deal (sizes (pop.length / procs) (pop.length % procs) procs) pop = some blocks ∧ blocks.length = procs ∧
      blocks.flatten = pop ∧ ∀ b ∈ blocks, b.length = pop.length / procs ∨ b.length = pop.length / procs + 1 := by
  have hmod : pop.length % procs ≤ procs := Nat.le_of_lt (Nat.mod_lt _ hp)
  obtain ⟨blocks, h1, h2, h3⟩ := deal_eq (sizes (pop.length / procs) (pop.length % procs) procs)
    pop (by rw [sizes_sum _ hmod]; exact Nat.div_add_mod _ _)
  refine ⟨blocks, h1, ?_, h3, ?_⟩
  · have := congrArg List.length h2
    rwa [List.length_map, sizes_length] at this
  · intro b hb
    have : b.length ∈ sizes (pop.length / procs) (pop.length % procs) procs := by
      rw [← h2]; exact List.mem_map.2 ⟨b, hb, rfl⟩
    rw [sizes_eq _ _ _ hmod] at this
    rcases List.mem_append.1 this with h | h
    · exact Or.inr (List.eq_of_mem_replicate h)
    · exact Or.inl (List.eq_of_mem_replicate h)

/-- C63, the rows: what the root gathers in a generation are the rows of the population in order, each with its index in the whole
population and its own fitness. -/
theorem C63_rows (cb : Callbacks I F) {procs : Nat} (hp : 0 < procs) {s : State I F} (hb : s.bests.length = procs)
    {rows : List (Row F)} {bests : List (F × I)} {flag : Bool} (h : generation cb procs s = some (rows, bests, flag)) :
    rows = s.population.zipIdx.map (fun p => ⟨s.generation + 1, p.2, cb.fitness (s.generation + 1) p.2 p.1⟩) ∧
    (flag = true ↔ ∃ r ∈ rows, cb.cmp r.fitness cb.desired = true) := by
  obtain ⟨blocks, _, _, _, h4⟩ := generation_spec cb hp s hb
  rw [h4] at h
  obtain ⟨bs, _, h5⟩ := Option.map_eq_some_iff.1 h
  injection h5 with h5 h6
  injection h6 with _ h7
  subst h5
  refine ⟨?_, ?_⟩
  · unfold fullRows
    rw [List.map_map]
    rfl
  · rw [← h7, List.any_eq_true]
    constructor
    · rintro ⟨r, hr, hg⟩
      exact ⟨forget r, List.mem_map.2 ⟨r, hr, rfl⟩, hg⟩
    · rintro ⟨r, hr, hg⟩
      obtain ⟨r', hr', rfl⟩ := List.mem_map.1 hr
      exact ⟨r', hr', hg⟩

/-- C63, the selection. Full statement: the selection always receives each individual with its own fitness of this generation.
Proved if the earlier generations together have `(generation - 1) * population_size` rows, so in the first generation and as long as
the population keeps its size. Missing: other sizes, see `C63_shrink_negation_partial` and `C63_grow_negation_partial`. -/
theorem C63_pairs_partial (cb : Callbacks I F) (old : List (Row F)) (g : Nat) (pop : List I)
    (hold : old.length = g * pop.length) :
    pairs (old ++ pop.zipIdx.map (fun p => ⟨g + 1, p.2, cb.fitness (g + 1) p.2 p.1⟩)) (g + 1) pop.length 0 pop =
      some (pop.zipIdx.map (fun p => (p.1, cb.fitness (g + 1) p.2 p.1))) := by
  have := pairs_rows cb old g pop hold
  unfold fullRows at this
  rw [List.map_map, List.map_map] at this
  exact this

variable [DecidableEq F]

/-- C63, C91, C92, the whole search. If there are at least as many individuals as processes, selection and crossover keep the size
of the population (and the selection leaves more than one) and no fitness is the dummy value, the distributed search ends when the
search on one computer does, with the same rows and the same best fitness and generation; the individual printed at the end is the
best of all. -/
theorem C63_search_partial {cb : Callbacks I F} {dummy : F} {init : List I} {procs : Nat} (hp : 0 < procs)
    (hn : procs ≤ init.length) (hd : ∀ g k x, cb.fitness g k x ≠ dummy)
    (hsize : ∀ g l, l.length = init.length →
      1 < (cb.select g l).length ∧ (cb.cross g ((cb.select g l).map Prod.fst)).length = init.length)
    {limit fuel : Nat} {rows : List (Genetic.Row I F)} {b : Best I F}
    (h : gaParallel cb init limit fuel = .finished rows b) :
    ∃ row f x, gaMpi cb dummy init limit procs fuel =
        .finished (rows.map forget) (b.fitness, b.generation) row (some (f, x)) ∧ IsBest cb.cmp rows f x := by
  obtain ⟨⟨f, x⟩, h1, h2⟩ := loop_sim hp hn hd hsize limit (Nat.zero_le 1) fuel _ _ (rel_init cb dummy procs init) rows b h
  exact ⟨_, f, x, h1, h2.2, h2.1.strict, h2.1.total⟩

/-! ### Concrete searches -/

/-- Minimisation: the fitness of an individual is its value plus ten times the generation; the selection and the crossover are
given. -/
def toy (select : List (Nat × Nat) → List (Nat × Nat)) (cross : List Nat → List Nat) : Callbacks Nat Nat where
  fitness g _ x := x + 10 * g
  select _ l := select l
  cross _ l := cross l
  mutate _ _ x := x
  cmp a b := a < b
  desired := 0

/-- C63, false as stated: after a selection that drops one of three individuals, the second selection receives the fitnesses of
the third individual of the first generation and the first of the second: 13 and 21 instead of 21 and 22. -/
theorem C63_shrink_negation_partial :
    (match round (toy List.dropLast id) 1000 5 2 ⟨0, [1, 2, 3], [], [none, none], none, ⟨0, 0, 1000⟩, none⟩ with
    | .next s =>
      (match generation (toy List.dropLast id) 2 s with
      | some (rows, _, _) => pairs (s.rows ++ rows) (s.generation + 1) s.population.length 0 s.population
      | none => none)
    | _ => none) = some [(1, 13), (2, 21)] ∧
    fullRows (toy List.dropLast id) 2 [1, 2] = [⟨2, 0, 21, 1⟩, ⟨2, 1, 22, 2⟩] := by
  decide

/-- C63, false as stated: if the crossover adds an individual, the second generation panics. -/
theorem C63_grow_negation_partial :
    (match gaMpi (toy id (fun l => l ++ [4])) 1000 [1, 2, 3] 5 2 9 with | .panic => true | _ => false) = true ∧
    (match gaParallel (toy id (fun l => l ++ [4])) [1, 2, 3] 5 9 with
      | .finished rows _ => rows.length | _ => 0) = 25 := by
  decide

/-- A search whose fitnesses are odd numbers. -/
def odd : Callbacks Nat Nat := { toy id List.reverse with fitness := fun g _ x => 2 * (x + 10 * g) + 1 }

/-- The hypotheses of `C63_search_partial` and `C91_row_partial` hold for it, on two processes. -/
example : (∀ g k x, odd.fitness g k x ≠ 1000) ∧
    (∀ g l, l.length = [1, 2, 3].length → 1 < (odd.select g l).length ∧
      (odd.cross g ((odd.select g l).map Prod.fst)).length = [1, 2, 3].length) ∧ StrictWeak odd.cmp ∧
    (match gaParallel odd [1, 2, 3] 2 9, gaMpi odd 1000 [1, 2, 3] 2 2 9 with
      | .finished rows _, .finished rows' _ row _ => (rows.map forget = rows' : Bool) && (row = ⟨1, 0, 23⟩ : Bool)
      | _, _ => false) = true := by
  refine ⟨?_, ?_, ?_, by decide⟩
  · intro g k x
    show 2 * (x + 10 * g) + 1 ≠ 1000
    omega
  · intro g l hl
    have hl' : l.length = 3 := hl
    show 1 < l.length ∧ ((l.map Prod.fst).reverse).length = 3
    rw [List.length_reverse, List.length_map, hl']
    omega
  · constructor
    · intro a; simp [odd, toy]
    · intro a b c; simp only [odd, toy, decide_eq_true_eq]; omega
    · intro a b c; simp only [odd, toy, decide_eq_true_eq]; omega

/-! ### C91 -/

/-- C91. Full statement: the row printed as the best individual is a row of the search that no row beats. Proved for a strict weak
order: it is such a row exactly if some row beats the dummy with fitness 1000 it starts from, otherwise it is this dummy (whole
search under the hypotheses of `C63_search_partial`). -/
theorem C91_row_partial {cb : Callbacks I F} {dummy : F} {init : List I} {procs : Nat} (hp : 0 < procs)
    (hn : procs ≤ init.length) (hd : ∀ g k x, cb.fitness g k x ≠ dummy)
    (hsize : ∀ g l, l.length = init.length →
      1 < (cb.select g l).length ∧ (cb.cross g ((cb.select g l).map Prod.fst)).length = init.length)
    (hs : StrictWeak cb.cmp) {limit fuel : Nat} {rows : List (Genetic.Row I F)} {b : Best I F}
    (h : gaParallel cb init limit fuel = .finished rows b) :
    ∃ row str, gaMpi cb dummy init limit procs fuel = .finished (rows.map forget) (b.fitness, b.generation) row str ∧
      ((∃ r ∈ rows, cb.cmp r.fitness dummy = true) →
        (∃ r ∈ rows, row = forget r) ∧ ∀ r ∈ rows, cb.cmp r.fitness row.fitness = false) ∧
      ((∀ r ∈ rows, cb.cmp r.fitness dummy = false) → row = ⟨0, 0, dummy⟩) := by
  obtain ⟨str, h1, _⟩ := loop_sim hp hn hd hsize limit (Nat.zero_le 1) fuel _ _ (rel_init cb dummy procs init) rows b h
  obtain ⟨h3, h4⟩ := bestRow_spec cb.cmp (rows.map forget) ⟨0, 0, dummy⟩
  obtain ⟨_, h5⟩ := h4 hs
  refine ⟨_, _, h1, ?_, ?_⟩
  · rintro ⟨r, hr, hb⟩
    refine ⟨?_, fun r hr => h5 (forget r) (List.mem_map.2 ⟨r, hr, rfl⟩)⟩
    rcases h3 with h3 | h3
    · have := h5 (forget r) (List.mem_map.2 ⟨r, hr, rfl⟩)
      rw [h3] at this
      exact absurd (hb.symm.trans this) (by decide)
    · obtain ⟨r, hr, h6⟩ := List.mem_map.1 h3
      exact ⟨r, hr, h6.symm⟩
  · intro hno
    apply bestRow_none
    intro r hr
    obtain ⟨r', hr', rfl⟩ := List.mem_map.1 hr
    exact hno r' hr'

/-- C91, false as stated: a search for the largest value prints the dummy, although the best fitness printed is 23. -/
theorem C91_negation_partial :
    (match gaMpi { toy id id with cmp := fun a b => a > b, desired := 50 } 1000 [1, 2, 3] 2 2 9 with
      | .finished _ best row str => some (best, row, str) | _ => none) =
    some ((23, 2), ⟨0, 0, 1000⟩, some (23, 3)) := by
  decide

/-- C91, false as stated: an individual whose fitness is 1000 makes the search panic. -/
theorem C91_dummy_negation_partial :
    (match gaMpi (toy id id) 12 [1, 2, 3] 2 2 9 with | .panic => true | _ => false) = true := by
  decide

/-- A search for the smallest value: the row is the first one of generation 1. -/
example : (match gaMpi (toy id id) 1000 [2, 1, 3] 2 2 9 with
      | .finished rows best row str => some (rows, best, row, str) | _ => none) =
    some ([⟨1, 0, 12⟩, ⟨1, 1, 11⟩, ⟨1, 2, 13⟩, ⟨2, 0, 22⟩, ⟨2, 1, 21⟩, ⟨2, 2, 23⟩], (11, 1), ⟨1, 1, 11⟩, some (11, 1)) := by
  decide

/-! ### C92 -/

/-- C92. Full statement: the search ends on all processes. The case that holds is `C63_search_partial`. False with more processes
than individuals: the processes without an individual have no best fitness and panic. -/
theorem C92_few_negation_partial (cb : Callbacks I F) (dummy : F) {init : List I} {procs : Nat} (h : init.length < procs)
    (limit fuel : Nat) : gaMpi cb dummy init limit procs (fuel + 1) = .panic := by
  have hp : 0 < procs := by omega
  show loop _ _ _ _ _ _ = _
  rw [loop, round]
  dsimp only
  rw [if_neg (by omega)]
  obtain ⟨blocks, g1, g2, g3, g4⟩ := generation_spec cb hp
    (⟨0, init, [], List.replicate procs none, none, ⟨0, 0, dummy⟩, none⟩ : State I F) (by simp)
  dsimp only at g1 g2 g3 g4
  have hz : ∃ pre, blocks = pre ++ [[]] := by
    have hmod : init.length % procs = init.length := Nat.mod_eq_of_lt h
    have hdiv : init.length / procs = 0 := Nat.div_eq_of_lt h
    rw [hmod, hdiv, sizes_eq _ _ _ (Nat.le_of_lt h)] at g3
    obtain ⟨k, hk⟩ : ∃ k, procs - init.length = k + 1 := ⟨procs - init.length - 1, by omega⟩
    rw [hk, List.replicate_succ', ← List.append_assoc] at g3
    obtain ⟨a, b, h1, _, h3⟩ := List.map_eq_append_iff.1 g3
    obtain ⟨x, h4, h5⟩ := List.map_eq_singleton_iff.1 h3
    refine ⟨a, ?_⟩
    rw [h1, h4, List.length_eq_zero_iff.1 h5]
  obtain ⟨pre, rfl⟩ := hz
  have hnone : none ∈ (workAll cb (0 + 1) (displs 0 ((pre ++ [[]]).map List.length)) (List.replicate procs none)
      (pre ++ [[]])).map (fun w => w.2.1) := by
    suffices hw : ∀ (pre : List (List I)) (acc p : Nat), p = pre.length + 1 → none ∈
        (workAll cb (0 + 1) (displs acc ((pre ++ [[]]).map List.length)) (List.replicate p none)
          (pre ++ [[]])).map (fun w => w.2.1) by
      apply hw
      rw [← g1]; simp
    intro pre
    induction pre with
    | nil => rintro acc p rfl; exact List.mem_cons_self
    | cons xs pre ih =>
      rintro acc p rfl
      rw [List.cons_append, List.map_cons, displs, List.replicate_succ, workAll, List.map_cons]
      exact List.mem_cons_of_mem _ (ih _ _ (by simp))
  rw [g4, allBests_none hnone]
  rfl

/-- C92, false as stated: if no individual of the first generation is good and the selection leaves at most one, the root leaves the
loop alone, and the other processes wait for ever. -/
theorem C92_small_negation_partial {cb : Callbacks I F} {dummy : F} {init : List I} {procs : Nat} (hp : 1 < procs)
    (hn : procs ≤ init.length) (hd : ∀ g k x, cb.fitness g k x ≠ dummy)
    (hg : ∀ r ∈ fullRows cb 1 init, Good cb r = false)
    (hsel : (cb.select 1 ((fullRows cb 1 init).map (fun r => (r.individual, r.fitness)))).length ≤ 1) (limit fuel : Nat) :
    gaMpi cb dummy init limit procs (fuel + 1) = .hang := by
  show loop _ _ _ _ _ _ = _
  rw [loop, round]
  dsimp only
  rw [if_neg (by omega)]
  obtain ⟨blocks, g1, g2, g3, g4⟩ := generation_spec cb (procs := procs) (by omega)
    (⟨0, init, [], List.replicate procs none, none, ⟨0, 0, dummy⟩, none⟩ : State I F) (by simp)
  dsimp only at g1 g2 g3 g4
  have hne : ∀ xs ∈ blocks, xs ≠ [] := by
    rintro xs hxs rfl
    refine sizes_pos (by omega) (n := init.length) hn 0 ?_ rfl
    rw [← g3]
    exact List.mem_map.2 ⟨[], hxs, rfl⟩
  obtain ⟨bl, b1, _⟩ := allBests_some ((workAll cb (0 + 1) (displs 0 (blocks.map List.length)) (List.replicate procs none)
    blocks).map (fun w => w.2.1)) (by
      intro b hb
      obtain ⟨w, hw, rfl⟩ := List.mem_map.1 hb
      exact workAll_some cb _ _ _ _ hne w hw)
  rw [g4, b1, Option.map_some]
  dsimp only
  rw [if_neg]
  swap
  · intro hany
    obtain ⟨r, h1, h2⟩ := List.any_eq_true.1 hany
    obtain ⟨r', h3, rfl⟩ := List.mem_map.1 h1
    unfold fullRows at h3
    obtain ⟨p, _, rfl⟩ := List.mem_map.1 h3
    exact hd _ _ _ (of_decide_eq_true h2)
  have hfr : fullRows cb (0 + 1) init ≠ [] := by
    intro hz
    have := congrArg List.length hz
    simp [fullRows] at this
    rw [this] at hn
    simp at hn
    omega
  obtain ⟨f, x, h1, _⟩ := bestGen_some cb.cmp hfr
  have hb : ((fullRows cb (0 + 1) init).map forget).foldl (bestFitness cb.cmp) none = some f := by
    rw [show (none : Option F) = (none : Option (F × I)).map Prod.fst from rfl, foldl_bestFitness]
    show (bestGen cb.cmp _).map _ = _
    rw [h1]
    rfl
  rw [hb]
  dsimp only [updateBest]
  have hflag : ¬ (fullRows cb (0 + 1) init).any (Good cb) = true := by
    intro hany
    obtain ⟨r, hr, hgood⟩ := List.any_eq_true.1 hany
    rw [hg r hr] at hgood
    exact absurd hgood (by decide)
  rw [if_neg hflag, pairs_rows cb [] 0 init (by simp)]
  dsimp only
  rw [if_pos hsel, if_neg (by omega)]

/-- A selection of the best one, on two processes. -/
example : (match gaMpi (toy (List.take 1) id) 1000 [1, 2, 3] 5 2 9 with | .hang => true | _ => false) = true ∧
    (match gaMpi (toy (List.take 1) id) 1000 [1, 2, 3] 5 1 9 with | .finished rows _ _ _ => rows.length | _ => 0) = 3 := by
  decide

end Verif.GeneticMpi
