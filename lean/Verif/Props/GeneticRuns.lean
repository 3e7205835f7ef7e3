import Verif.Spec.GeneticRuns
import Verif.Props.Driver
import Verif.Props.Genetic
import Verif.Props.GeneticMpi
import Verif.Props.GeneticAwsLoop

/-!
Individuals are judged on fresh runs of their own (C261); a search that hands on its best individual never gets worse (C262).
-/

set_option linter.unusedSectionVars false

namespace Verif.GeneticRuns

open Verif.Schedule Verif.Driver

variable {T A S I F : Type} [LinearOrder T]

theorem computed_length (u : User T A S I F) (x : I) (k : Nat) : ∀ r, (computed u x r k).length = k := by
  induction k with
  | zero => intro r; rfl
  | succ k ih => intro r; rw [computed, List.length_cons, ih]

theorem computed_get (u : User T A S I F) (x : I) (k : Nat) : ∀ (r i : Nat) (w : World T A S),
    (computed u x r k)[i]? = some w → w = runRep u.sim u.steps (u.newWith (r + i) x) := by
  induction k with
  | zero => intro r i w h; simp [computed] at h
  | succ k ih =>
    intro r i w h
    cases i with
    | zero =>
      rw [computed, List.getElem?_cons_zero] at h
      exact (Option.some.inj h).symm
    | succ i =>
      rw [computed, List.getElem?_cons_succ] at h
      have := ih (r + 1) i w h
      rwa [show r + 1 + i = r + (i + 1) by omega] at this

/-- The runs of the model are fresh. -/
theorem computed_fresh (u : User T A S I F) (x : I) : FreshRuns u x (computed u x 0 u.reps) := by
  refine ⟨computed_length u x _ _, fun r w h => ?_⟩
  obtain ⟨k, h1, _, h3, _⟩ := C68_repetition u.sim u.steps (u.newWith r x)
  refine ⟨k, h1, ?_⟩
  rw [computed_get u x _ _ _ _ h, Nat.zero_add, h3]

/-- There is only one list of fresh runs of an individual. -/
theorem fresh_unique (u : User T A S I F) (x : I) {ws : List (World T A S)} (h : FreshRuns u x ws) :
    ws = computed u x 0 u.reps := by
  refine List.ext_getElem? (fun i => ?_)
  cases hi : ws[i]? with
  | none =>
    have : ws.length ≤ i := List.getElem?_eq_none_iff.1 hi
    refine (List.getElem?_eq_none_iff.2 ?_).symm
    rw [computed_length, ← h.1]
    exact this
  | some w =>
    have hl : i < (computed u x 0 u.reps).length := by
      rw [computed_length, ← h.1]
      exact (List.getElem?_eq_some_iff.1 hi).1
    obtain ⟨k, h1, h2⟩ := h.2 i w hi
    obtain ⟨k', _, h4, h5, _⟩ := C68_repetition u.sim u.steps (u.newWith i x)
    have h6 := computed_get u x _ _ _ _ (List.getElem?_eq_getElem hl)
    rw [List.getElem?_eq_getElem hl, h6, h2, h4 k h1, Nat.zero_add, h5]

theorem judge_fresh (u : User T A S I F) (x : I) {ws : List (World T A S)} (h : FreshRuns u x ws) : judge u x = u.fitness ws := by
  rw [fresh_unique u x h]
  rfl

theorem evolves_fitness {cb : Genetic.Callbacks I F} {fit : I → F} (hf : ∀ g k x, cb.fitness g k x = fit x)
    {part : List (Genetic.Row I F) → List (Genetic.Row I F)} (hp : ∀ l, ∀ r ∈ part l, r ∈ l) :
    ∀ (gens : List (List (Genetic.Row I F))) (g : Nat) (pop : List I), Genetic.Evolves cb part g pop gens →
      ∀ rows ∈ gens, ∀ r ∈ rows, r.fitness = fit r.individual := by
  intro gens
  induction gens with
  | nil => intro g pop _ rows hr; simp at hr
  | cons rows0 gens ih =>
    intro g pop h rows hr r hrr
    rcases List.mem_cons.1 hr with rfl | hr
    · rw [h.1] at hrr
      obtain ⟨p, _, rfl⟩ := List.mem_map.1 (hp _ r hrr)
      exact hf _ _ _
    · exact ih _ _ h.2.2 rows hr r hrr

/-- **C261**, on one computer, full statement: in every mode of the genetic search the fitness of an individual is the fitness function
of the user applied to exactly `reps` runs, each from a state made of the number of the run and the individual and a new schedule, until
the limit or the end condition: it depends neither on the other individuals nor on the generation, the index or earlier runs. Proved for
the sequential and the parallel search, in every row; for several computers: `C261_distributed_partial`. Missing: the cloud, see
`C261_cloud_negation_partial`. -/
theorem C261_computer_partial (u : User T A S I F) {select : Nat → List (I × F) → List (I × F)} {cross : Nat → List I → List I}
    {mutate : Nat → Nat → I → I} {cmp : F → F → Bool} {desired : F} {init : List I} {limit fuel : Nat}
    {rows : List (Genetic.Row I F)} {b : Genetic.Best I F}
    (h : Genetic.gaSequential (callbacks u select cross mutate cmp desired) init limit fuel = .finished rows b ∨
      Genetic.gaParallel (callbacks u select cross mutate cmp desired) init limit fuel = .finished rows b) :
    ∀ r ∈ rows, ∀ ws, FreshRuns u r.individual ws → r.fitness = u.fitness ws := by
  intro r hr ws hw
  rw [← judge_fresh u _ hw]
  rcases h with h | h
  · obtain ⟨gens, _, h2, h3, _⟩ := Genetic.C62_sequential h
    rw [h2] at hr
    obtain ⟨gen, hg, hr⟩ := List.mem_flatten.1 hr
    exact evolves_fitness (fun _ _ _ => rfl) (fun l r h => Genetic.upTo_mem h) gens 1 init h3 gen hg r hr
  · obtain ⟨gens, _, h2, h3, _⟩ := Genetic.C62_parallel h
    rw [h2] at hr
    obtain ⟨gen, hg, hr⟩ := List.mem_flatten.1 hr
    exact evolves_fitness (fun _ _ _ => rfl) (fun l r h => h) gens 1 init h3 gen hg r hr

/-- **C261**, on several computers: the rows of a generation are the individuals in order, each with the fitness of its fresh runs. -/
theorem C261_distributed_partial (u : User T A S I F) {select : Nat → List (I × F) → List (I × F)} {cross : Nat → List I → List I}
    {mutate : Nat → Nat → I → I} {cmp : F → F → Bool} {desired : F} {procs : Nat} (hp : 0 < procs) {s : GeneticMpi.State I F}
    (hb : s.bests.length = procs) {rows : List (GeneticMpi.Row F)} {bests : List (F × I)} {flag : Bool}
    (h : GeneticMpi.generation (callbacks u select cross mutate cmp desired) procs s = some (rows, bests, flag)) :
    rows.length = s.population.length ∧ ∀ (i : Nat) (x : I) (r : GeneticMpi.Row F), s.population[i]? = some x → rows[i]? = some r →
      ∀ ws, FreshRuns u x ws → r.fitness = u.fitness ws := by
  obtain ⟨h1, _⟩ := GeneticMpi.C63_rows _ hp hb h
  refine ⟨by rw [h1, List.length_map, List.length_zipIdx], fun i x r hx hr ws hw => ?_⟩
  rw [h1, List.getElem?_map, List.getElem?_zipIdx, hx] at hr
  obtain rfl := Option.some.inj hr
  exact judge_fresh u x hw

/-- **C261**: fresh runs exist and are unique, so the theorems above fix the fitness. -/
theorem C261_runs_partial (u : User T A S I F) (x : I) : ∃! ws, FreshRuns u x ws :=
  ⟨computed u x 0 u.reps, computed_fresh u x, fun _ h => fresh_unique u x h⟩

/-- **C261**: the same individual has the same fitness wherever it appears: in two rows of one search or of two searches that share the
user's simulation and fitness but may differ in everything else, sequential or parallel. -/
theorem C261_same_partial (u : User T A S I F) {select select' : Nat → List (I × F) → List (I × F)}
    {cross cross' : Nat → List I → List I} {mutate mutate' : Nat → Nat → I → I} {cmp cmp' : F → F → Bool} {desired desired' : F}
    {init init' : List I} {limit fuel limit' fuel' : Nat} {rows rows' : List (Genetic.Row I F)} {b b' : Genetic.Best I F}
    (h : Genetic.gaSequential (callbacks u select cross mutate cmp desired) init limit fuel = .finished rows b ∨
      Genetic.gaParallel (callbacks u select cross mutate cmp desired) init limit fuel = .finished rows b)
    (h' : Genetic.gaSequential (callbacks u select' cross' mutate' cmp' desired') init' limit' fuel' = .finished rows' b' ∨
      Genetic.gaParallel (callbacks u select' cross' mutate' cmp' desired') init' limit' fuel' = .finished rows' b') :
    ∀ r ∈ rows, ∀ r' ∈ rows', r.individual = r'.individual → r.fitness = r'.fitness := by
  intro r hr r' hr' he
  obtain ⟨ws, hw, _⟩ := C261_runs_partial u r.individual
  rw [C261_computer_partial u h r hr ws hw, C261_computer_partial u h' r' hr' ws (he ▸ hw)]

/-- **C261**, the state column of the parallel search: it shows the state after the last run. -/
theorem C261_saved_partial (u : User T A S I F) (display : S → String) (x : I) {ws : List (World T A S)} (h : FreshRuns u x ws) :
    savedState u display x = (ws.getLast?.map (fun w => display w.state)).getD "" := by
  rw [fresh_unique u x h]
  show List.foldl _ _ _ = _
  have : ∀ (l : List (World T A S)) (s : String),
      l.foldl (fun _ w => display w.state) s = (l.getLast?.map (fun w => display w.state)).getD s := by
    intro l
    induction l with
    | nil => intro s; rfl
    | cons w l ih =>
      intro s
      rw [List.foldl_cons, ih, List.getLast?_cons]
      cases l.getLast? <;> rfl
  exact this _ _

/-- **C261**, the cloud: the fitness function gets a single run, whatever `reps` is. -/
theorem C261_cloud_partial (u : User T A S I Rat) (new : I → S) {select : Nat → List (I × Rat) → List (I × Rat)}
    {cross : Nat → List I → List I} {mutate : Nat → Nat → I → I} {desired : Rat}
    {arrive : List (Option (List (GeneticAws.Row I))) → List (Option (List (GeneticAws.Row I)))} (ha : ∀ l, (arrive l).Perm l)
    {pop : List I} {reps numFunc g g' : Nat} (hf : 0 < numFunc) {best : Rat × Option I}
    {out : List (GeneticAws.Row I) × (Rat × Option I) × Bool}
    (h : GeneticAws.generation ((cloudCallbacks u new select cross mutate desired).fit g') arrive desired pop reps numFunc g best =
      some out) :
    ∀ r ∈ out.1, ∃ k, Takes u.sim u.steps (start u.sim (new r.individual)) k ∧
      r.fitness = u.fitness [(turn u.sim)^[k] (start u.sim (new r.individual))] := by
  have hn : numFunc ≤ pop.length * reps := by
    by_contra hc
    rw [GeneticAws.C94_negation_partial _ ha desired pop (by omega) g best] at h
    cases h
  intro r hr
  obtain ⟨rows, best', flag, h1, _, h3, _⟩ := GeneticAws.C94_rows_partial
    ((cloudCallbacks u new select cross mutate desired).fit g') ha desired pop hf hn g best
  rw [h] at h1
  obtain rfl := Option.some.inj h1
  obtain ⟨k, h4, _, h5, _⟩ := C68_repetition u.sim u.steps (new r.individual)
  refine ⟨k, h4, ?_⟩
  rw [← h5]
  obtain ⟨_, i, j, h6⟩ := h3 r hr
  exact h6

/-- A simulation that counts up to the next multiple of 3; run `r` of individual `x` starts at `x + r`, and the fitness is the sum of
the last counts. -/
def sums (reps : Nat) : User Nat Unit Nat Nat Rat where
  sim := counting
  newWith r x := x + r
  steps := 5
  reps := reps
  fitness ws := (ws.map (fun w => (w.state : Rat))).sum

/-- Three runs of individual 1 end at 3, 3 and 6; the limit of the steps does not matter here. -/
example : (computed (sums 3) 1 0 3).map (fun w => (w.state, w.sched.step)) = [(3, 2), (3, 1), (6, 3)] := by decide

example : FreshRuns (sums 3) 1 (computed (sums 3) 1 0 3) := computed_fresh (sums 3) 1

/-- A search: 4 is in both generations, with the same fitness. -/
example : (match Genetic.gaParallel (callbacks (sums 2) (fun _ l => l) (fun _ l => l.reverse) (fun _ _ x => 5 - x)
      (fun a b => decide (a > b)) 100) [1, 4, 2] 2 5 with
    | .finished rows _ => rows.map (fun r => (r.generation, r.index, r.individual, r.fitness))
    | _ => []) =
      [(1, 0, 1, 6), (1, 1, 4, 12), (1, 2, 2, 9), (2, 0, 3, 12), (2, 1, 1, 6), (2, 2, 4, 12)] := by decide +kernel

example : savedState (sums 3) (fun s => if s = 6 then "six" else "other") 1 = "six" := by decide

/-- **C261**, false for the cloud: with two repetitions the search on one computer judges the individuals 1 and 4 by the sum over two
runs; the cloud functions judge each by one run, twice. -/
theorem C261_cloud_negation_partial :
    (match Genetic.gaSequential (callbacks (sums 2) (fun _ l => l) (fun _ l => l) (fun _ _ x => x)
        (fun a b => decide (a > b)) 100) [1, 4] 1 5 with
      | .finished rows _ => some (rows.map (fun r => (r.individual, r.fitness)))
      | _ => none) = some [(1, 6), (4, 12)] ∧
    (GeneticAws.generation ((cloudCallbacks (sums 2) (fun x => x) (fun _ l => l) (fun _ l => l) (fun _ _ x => x)
        100).fit 1) id 100 [1, 4] 2 2 1 (0, none)).map (fun out => out.1.map (fun r => (r.individual, r.fitness))) =
      some [(1, 3), (4, 6), (1, 3), (4, 6)] := by
  constructor <;> decide +kernel

/-- **C261**, the cloud: the rows of one individual all have the same fitness, so repetitions add nothing as long as the simulation has no
randomness of its own. -/
theorem C261_cloud_repeats_partial (u : User T A S I Rat) (new : I → S) {select : Nat → List (I × Rat) → List (I × Rat)}
    {cross : Nat → List I → List I} {mutate : Nat → Nat → I → I} {desired : Rat}
    {arrive : List (Option (List (GeneticAws.Row I))) → List (Option (List (GeneticAws.Row I)))} (ha : ∀ l, (arrive l).Perm l)
    {pop : List I} {reps numFunc g g' : Nat} (hf : 0 < numFunc) {best : Rat × Option I}
    {out : List (GeneticAws.Row I) × (Rat × Option I) × Bool}
    (h : GeneticAws.generation ((cloudCallbacks u new select cross mutate desired).fit g') arrive desired pop reps numFunc g best =
      some out) :
    ∀ r ∈ out.1, ∀ r' ∈ out.1, r.individual = r'.individual → r.fitness = r'.fitness := by
  intro r hr r' hr' he
  obtain ⟨k, h1, h2⟩ := C261_cloud_partial u new ha hf h r hr
  obtain ⟨k', h3, h4⟩ := C261_cloud_partial u new ha hf h r' hr'
  rw [h2, h4, he]
  rw [he] at h1
  obtain ⟨k0, _, h5, _⟩ := C68_repetition u.sim u.steps (new r'.individual)
  rw [h5 k h1, h5 k' h3]

end Verif.GeneticRuns

namespace Verif.Genetic

variable {I F : Type}

/-- `a` is at least as good as `b`, for both kinds of comparison. -/
def AtLeast (cmp : F → F → Bool) (a b : F) : Prop :=
  (StrictWeak cmp → cmp b a = false) ∧ (Total cmp → cmp a b = true)

theorem AtLeast.refl (cmp : F → F → Bool) (a : F) : AtLeast cmp a a :=
  ⟨fun h => h.irrefl a, fun h => by rcases h.total a a with h | h <;> exact h⟩

theorem AtLeast.trans {cmp : F → F → Bool} {a b c : F} (h : AtLeast cmp a b) (h' : AtLeast cmp b c) : AtLeast cmp a c := by
  refine ⟨fun hs => ?_, fun ht => ht.trans _ _ _ (h.2 ht) (h'.2 ht)⟩
  by_contra hc
  rcases hs.incomp c a b (by simpa using hc) with h1 | h1
  · rw [h'.1 hs] at h1; cases h1
  · rw [h.1 hs] at h1; cases h1

/-- A good row is at least as good as one that is not. -/
theorem AtLeast.good {cb : Callbacks I F} {r q : Row I F} (hr : Good cb r = true) (hq : Good cb q = false) :
    AtLeast cb.cmp r.fitness q.fitness := by
  refine ⟨fun hs => ?_, fun ht => ?_⟩
  · by_contra hc
    have := hs.trans _ _ _ (by simpa using hc) hr
    rw [show cb.cmp q.fitness cb.desired = false from hq] at this
    cases this
  · rcases ht.total q.fitness cb.desired with h | h
    · rw [show cb.cmp q.fitness cb.desired = false from hq] at h; cases h
    · exact ht.trans _ _ _ hr h

theorem upTo_or {α : Type} {good : α → Bool} {l : List α} {x : α} (h : x ∈ l) :
    x ∈ upTo good l ∨ ∃ y ∈ upTo good l, good y = true := by
  by_cases hg : l.any good = true
  · exact Or.inr (upTo_any hg)
  · refine Or.inl ?_
    rw [upTo_none]
    · exact h
    · intro y hy
      by_contra hc
      exact hg (List.any_eq_true.2 ⟨y, hy, by simpa using hc⟩)

theorem evolves_chain {cb : Callbacks I F} {fit : I → F} (hf : ∀ g k x, cb.fitness g k x = fit x) (hk : KeepsBest cb fit)
    {part : List (Row I F) → List (Row I F)} (hp : ∀ l, ∀ r ∈ part l, r ∈ l)
    (hq : ∀ l : List (Row I F), ∀ r ∈ l, r ∈ part l ∨ ∃ s ∈ part l, Good cb s = true) :
    ∀ (gens : List (List (Row I F))) (g : Nat) (pop : List I), Evolves cb part g pop gens →
      ∀ (i j : Nat) (rows rows' : List (Row I F)), i ≤ j → gens[i]? = some rows → gens[j]? = some rows' →
        ∀ r ∈ rows, ∃ s ∈ rows', AtLeast cb.cmp s.fitness r.fitness := by
  intro gens
  induction gens with
  | nil => intro g pop _ i j rows rows' _ h; simp at h
  | cons rows0 gens ih =>
    intro g pop h i j rows rows' hij hi hj r hr
    cases i with
    | succ i =>
      cases j with
      | zero => omega
      | succ j => exact ih _ _ h.2.2 i j rows rows' (by omega) hi hj r hr
    | zero =>
      obtain rfl := Option.some.inj hi
      cases j with
      | zero =>
        obtain rfl := Option.some.inj hj
        exact ⟨r, hr, AtLeast.refl _ _⟩
      | succ j =>
        rw [List.getElem?_cons_succ] at hj
        cases gens with
        | nil => simp at hj
        | cons rows1 gens =>
          obtain ⟨h1, h2, h3⟩ := h
          have hfit : ∀ r ∈ rows0, r.fitness = fit r.individual := by
            intro r hr
            rw [h1] at hr
            obtain ⟨p, _, rfl⟩ := List.mem_map.1 (hp _ r hr)
            exact hf _ _ _
          obtain ⟨q, hq0, hq1, hq2⟩ := hk g rows0 (List.ne_nil_of_mem hr) hfit
          have hqr : AtLeast cb.cmp q.fitness r.fitness := hq1 r hr
          obtain ⟨n, hn⟩ := List.mem_iff_getElem?.1 hq2
          have hfull : (⟨g + 1, n, cb.fitness (g + 1) n q.individual, q.individual⟩ : Row I F) ∈
              fullRows cb (g + 1) (offspring cb g rows0) := by
            refine List.mem_map.2 ⟨(q.individual, n), ?_, rfl⟩
            refine List.mem_iff_getElem?.2 ⟨n, ?_⟩
            rw [List.getElem?_zipIdx, hn]
            simp
          have hgood : Good cb q = false := by
            refine h2 (by simp) q ?_
            rw [h1] at hq0
            exact hp _ q hq0
          obtain ⟨s, hs, hsq⟩ : ∃ s ∈ rows1, AtLeast cb.cmp s.fitness q.fitness := by
            rw [h3.1]
            rcases hq _ _ hfull with h4 | ⟨s, h4, h5⟩
            · refine ⟨_, h4, ?_⟩
              show AtLeast cb.cmp (cb.fitness (g + 1) n q.individual) q.fitness
              rw [hf, hfit q hq0]
              exact AtLeast.refl _ _
            · exact ⟨s, h4, AtLeast.good h5 hgood⟩
          obtain ⟨t, ht, hts⟩ := ih (g + 1) _ h3 0 j rows1 rows' (Nat.zero_le _) rfl hj s hs
          exact ⟨t, ht, hts.trans (hsq.trans hqr)⟩

theorem evolves_generation {cb : Callbacks I F} {part : List (Row I F) → List (Row I F)} (hp : ∀ l, ∀ r ∈ part l, r ∈ l) :
    ∀ (gens : List (List (Row I F))) (g : Nat) (pop : List I), Evolves cb part g pop gens →
      ∀ (i : Nat) (rows : List (Row I F)), gens[i]? = some rows → ∀ r ∈ rows, r.generation = g + i := by
  intro gens
  induction gens with
  | nil => intro g pop _ i rows h; simp at h
  | cons rows0 gens ih =>
    intro g pop h i rows hi r hr
    cases i with
    | zero =>
      obtain rfl := Option.some.inj hi
      rw [h.1] at hr
      exact fullRows_generation (hp _ r hr)
    | succ i =>
      have := ih _ _ h.2.2 i rows hi r hr
      omega

theorem evolves_rows {cb : Callbacks I F} {fit : I → F} (hf : ∀ g k x, cb.fitness g k x = fit x) (hk : KeepsBest cb fit)
    {part : List (Row I F) → List (Row I F)} (hp : ∀ l, ∀ r ∈ part l, r ∈ l)
    (hq : ∀ l : List (Row I F), ∀ r ∈ l, r ∈ part l ∨ ∃ s ∈ part l, Good cb s = true)
    {gens : List (List (Row I F))} {pop : List I} (h : Evolves cb part 1 pop gens) {r t : Row I F} (hr : r ∈ gens.flatten)
    (ht : t ∈ gens.flatten) (hrt : r.generation ≤ t.generation) :
    ∃ s ∈ gens.flatten, s.generation = t.generation ∧ AtLeast cb.cmp s.fitness r.fitness := by
  obtain ⟨rows, h1, h2⟩ := List.mem_flatten.1 hr
  obtain ⟨rows', h3, h4⟩ := List.mem_flatten.1 ht
  obtain ⟨i, hi⟩ := List.mem_iff_getElem?.1 h1
  obtain ⟨j, hj⟩ := List.mem_iff_getElem?.1 h3
  have hgi := evolves_generation hp gens 1 pop h i rows hi r h2
  have hgj := evolves_generation hp gens 1 pop h j rows' hj
  have := hgj t h4
  obtain ⟨s, hs, hsr⟩ := evolves_chain hf hk hp hq gens 1 pop h i j rows rows' (by omega) hi hj r h2
  exact ⟨s, List.mem_flatten.2 ⟨rows', h3, hs⟩, by rw [hgj s hs, this], hsr⟩

/-- **C262**: if the fitness of an individual depends on the individual only and selection, crossover and mutation hand on a best
individual, no generation of a search on one computer gets worse: for every row and every later generation there is a row of that
generation that is at least as good, also if the evaluation of that generation was cut short. Both for `cmp` as "better" and as "at
least as good". -/
theorem C262_computer {cb : Callbacks I F} {fit : I → F} (hf : ∀ g k x, cb.fitness g k x = fit x) (hk : KeepsBest cb fit)
    {init : List I} {limit fuel : Nat} {rows : List (Row I F)} {b : Best I F}
    (h : gaSequential cb init limit fuel = .finished rows b ∨ gaParallel cb init limit fuel = .finished rows b) :
    ∀ r ∈ rows, ∀ t ∈ rows, r.generation ≤ t.generation → ∃ s ∈ rows, s.generation = t.generation ∧
      (StrictWeak cb.cmp → cb.cmp r.fitness s.fitness = false) ∧ (Total cb.cmp → cb.cmp s.fitness r.fitness = true) := by
  intro r hr t ht hrt
  rcases h with h | h
  · obtain ⟨gens, _, rfl, h3, _⟩ := C62_sequential h
    exact evolves_rows hf hk (fun _ _ h => upTo_mem h) (fun _ _ h => upTo_or h) h3 hr ht hrt
  · obtain ⟨gens, _, rfl, h3, _⟩ := C62_parallel h
    exact evolves_rows hf hk (fun _ _ h => h) (fun _ _ h => Or.inl h) h3 hr ht hrt

/-- **C262**: then the best individual that is reported has a peer in the last generation: a row of that generation that it does not
beat. -/
theorem C262_last {cb : Callbacks I F} {fit : I → F} (hf : ∀ g k x, cb.fitness g k x = fit x) (hk : KeepsBest cb fit)
    {init : List I} {limit fuel : Nat} {rows : List (Row I F)} {b : Best I F}
    (h : gaSequential cb init limit fuel = .finished rows b ∨ gaParallel cb init limit fuel = .finished rows b) :
    ∃ s ∈ rows, (∀ r ∈ rows, r.generation ≤ s.generation) ∧
      (StrictWeak cb.cmp → cb.cmp b.fitness s.fitness = false) ∧ (Total cb.cmp → cb.cmp s.fitness b.fitness = true) := by
  obtain ⟨q, hq, hq1⟩ : ∃ r ∈ rows, r.fitness = b.fitness := by
    rcases h with h | h
    · obtain ⟨_, _, _, _, _, _, ⟨r, h1, h2, _⟩, _⟩ := C62_sequential h
      exact ⟨r, h1, h2⟩
    · obtain ⟨_, _, _, _, _, _, ⟨r, h1, h2, _⟩, _⟩ := C62_parallel h
      exact ⟨r, h1, h2⟩
  obtain ⟨t, ht, hmax⟩ : ∃ t ∈ rows, ∀ r ∈ rows, r.generation ≤ t.generation := by
    clear h
    have : ∀ l : List (Row I F), l ≠ [] → ∃ t ∈ l, ∀ r ∈ l, r.generation ≤ t.generation := by
      intro l
      induction l with
      | nil => intro h; exact absurd rfl h
      | cons a l ih =>
        intro _
        cases l with
        | nil => exact ⟨a, List.mem_cons_self, by simp⟩
        | cons a' l =>
          obtain ⟨t, ht, h1⟩ := ih (by simp)
          by_cases hc : a.generation ≤ t.generation
          · refine ⟨t, List.mem_cons_of_mem _ ht, fun r hr => ?_⟩
            rcases List.mem_cons.1 hr with rfl | hr
            · exact hc
            · exact h1 r hr
          · refine ⟨a, List.mem_cons_self, fun r hr => ?_⟩
            rcases List.mem_cons.1 hr with rfl | hr
            · exact Nat.le_refl _
            · exact Nat.le_trans (h1 r hr) (by omega)
    exact this rows (List.ne_nil_of_mem hq)
  obtain ⟨s, hs, h1, h2⟩ := C262_computer hf hk h q hq t ht (hmax q hq)
  exact ⟨s, hs, fun r hr => h1 ▸ hmax r hr, hq1 ▸ h2⟩

/-- **C262**, on several computers, under the conditions under which the distributed search agrees with the parallel one (C63). -/
theorem C262_distributed [DecidableEq F] {cb : Callbacks I F} {fit : I → F} (hf : ∀ g k x, cb.fitness g k x = fit x)
    (hk : KeepsBest cb fit) {dummy : F} {init : List I} {procs : Nat} (hp : 0 < procs) (hn : procs ≤ init.length)
    (hd : ∀ g k x, cb.fitness g k x ≠ dummy)
    (hsize : ∀ g l, l.length = init.length →
      1 < (cb.select g l).length ∧ (cb.cross g ((cb.select g l).map Prod.fst)).length = init.length)
    {limit fuel : Nat} {rows : List (Row I F)} {b : Best I F} (h : gaParallel cb init limit fuel = .finished rows b) :
    ∃ rows' best row string, GeneticMpi.gaMpi cb dummy init limit procs fuel = .finished rows' best row string ∧
      ∀ r ∈ rows', ∀ t ∈ rows', r.generation ≤ t.generation → ∃ s ∈ rows', s.generation = t.generation ∧
        (StrictWeak cb.cmp → cb.cmp r.fitness s.fitness = false) ∧ (Total cb.cmp → cb.cmp s.fitness r.fitness = true) := by
  obtain ⟨row, f, x, h1, _⟩ := GeneticMpi.C63_search_partial hp hn hd hsize h
  refine ⟨_, _, _, _, h1, ?_⟩
  intro r hr t ht hrt
  obtain ⟨r', hr', rfl⟩ := List.mem_map.1 hr
  obtain ⟨t', ht', rfl⟩ := List.mem_map.1 ht
  obtain ⟨s, hs, h2, h3⟩ := C262_computer hf hk (Or.inr h) r' hr' t' ht' hrt
  exact ⟨GeneticMpi.forget s, List.mem_map.2 ⟨s, hs, rfl⟩, h2, h3⟩

/-- A search that hands on the largest number and changes the others. -/
def elite : Callbacks Nat Nat where
  fitness _ _ x := x
  select _ l := l
  cross _ l := l.foldl max 0 :: l.tail
  mutate _ k x := if k = 0 then x else x * 3 % 11
  cmp a b := decide (a > b)
  desired := 100

theorem foldl_max (l : List Nat) : ∀ a, (l.foldl max a = a ∨ l.foldl max a ∈ l) ∧ a ≤ l.foldl max a ∧ ∀ x ∈ l, x ≤ l.foldl max a := by
  induction l with
  | nil => intro a; simp
  | cons y l ih =>
    intro a
    rw [List.foldl_cons]
    obtain ⟨h1, h2, h3⟩ := ih (max a y)
    refine ⟨?_, by omega, ?_⟩
    · rcases h1 with h1 | h1
      · rcases Nat.le_total a y with h | h
        · exact Or.inr (by rw [h1, Nat.max_eq_right h]; exact List.mem_cons_self)
        · exact Or.inl (by rw [h1, Nat.max_eq_left h])
      · exact Or.inr (List.mem_cons_of_mem _ h1)
    · intro x hx
      rcases List.mem_cons.1 hx with rfl | hx
      · omega
      · exact h3 x hx

theorem elite_keeps : KeepsBest elite id := by
  intro g rows hne hfit
  obtain ⟨h1, _, h3⟩ := foldl_max (rows.map (fun r => r.individual)) 0
  have hmem : (rows.map (fun r => r.individual)).foldl max 0 ∈ rows.map (fun r => r.individual) := by
    rcases h1 with h1 | h1
    · cases rows with
      | nil => exact absurd rfl hne
      | cons r rows =>
        have := h3 r.individual (by simp)
        rw [h1] at this ⊢
        rw [List.map_cons, Nat.le_zero.1 this]
        exact List.mem_cons_self
    · exact h1
  obtain ⟨r, hr, he⟩ := List.mem_map.1 hmem
  refine ⟨r, hr, fun q hq => ?_, ?_⟩
  · have hq' : q.fitness ≤ r.fitness := by
      rw [hfit q hq, hfit r hr]
      show q.individual ≤ r.individual
      rw [he]
      exact h3 _ (List.mem_map.2 ⟨q, hq, rfl⟩)
    refine ⟨fun _ => ?_, fun ht => ?_⟩
    · simp only [elite, decide_eq_false_iff_not]
      omega
    · have := ht.total 0 0
      simp [elite] at this
  · rw [he]
    have hm : (rows.map (fun r => (r.individual, r.fitness))).map Prod.fst = rows.map (fun r => r.individual) := by
      rw [List.map_map]; rfl
    show _ ∈ List.map _ (List.zipIdx (elite.cross g ((rows.map (fun r => (r.individual, r.fitness))).map Prod.fst)))
    rw [hm]
    exact List.mem_cons_self

example : (match gaParallel elite [4, 7, 2] 3 5 with
    | .finished rows b => rows.map (fun r => (r.generation, r.individual)) ++ [(b.generation, b.individual)]
    | _ => []) = [(1, 4), (1, 7), (1, 2), (2, 7), (2, 10), (2, 6), (3, 10), (3, 8), (3, 7), (2, 10)] := by decide

example : StrictWeak elite.cmp := by
  constructor
  · intro a; simp [elite]
  · intro a b c; simp only [elite, decide_eq_true_eq]; omega
  · intro a b c; simp only [elite, decide_eq_true_eq]; omega

/-- Without it a later generation can be worse. -/
example : (match gaParallel { elite with cross := fun _ l => l } [4, 9, 2] 2 5 with
    | .finished rows b => rows.map (fun r => (r.generation, r.individual)) ++ [(b.generation, b.individual)]
    | _ => []) = [(1, 4), (1, 9), (1, 2), (2, 4), (2, 5), (2, 6), (1, 9)] := by decide

end Verif.Genetic
