import Verif.Spec.Longer
import Verif.Props.Genetic
import Verif.Props.GeneticMpi
import Verif.Props.GeneticAwsLoop
import Verif.Props.Search
import Verif.Model.Driver

/-!
C280: a longer run begins like a shorter one.
-/

open Verif.Longer (Allows)

namespace Verif.Genetic

variable {I F : Type} {cb : Callbacks I F} {eval : Nat → Nat → List I → List (Row I F) × Bool} {small : Nat}

theorem allows_below {n m g : Nat} (h : Allows n m) (hg : n = 0 ∨ g ≤ n) (hn : ¬(n ≠ 0 ∧ g = n)) : ¬(m ≠ 0 ∧ g = m) := by
  unfold Allows at h
  omega

theorem allows_next {n g : Nat} (hg : n = 0 ∨ g ≤ n) (hn : ¬(n ≠ 0 ∧ g = n)) : n = 0 ∨ g + 1 ≤ n := by omega

theorem round_longer {n m : Nat} {s : State I F} (hn : ¬(n ≠ 0 ∧ s.generation = n)) (hm : ¬(m ≠ 0 ∧ s.generation = m)) :
    round cb eval small n s = round cb eval small m s := by
  unfold round
  rw [if_neg hn, if_neg hm]

theorem round_goes {n : Nat} {s : State I F} :
    match round cb eval small n s with
    | .halt s' => ∃ more, s'.rows = s.rows ++ more
    | .next s' => s'.generation = s.generation + 1 ∧ ∃ more, s'.rows = s.rows ++ more
    | .panic => True := by
  unfold round
  by_cases hn : n ≠ 0 ∧ s.generation = n
  · rw [if_pos hn]
    exact ⟨[], by simp⟩
  · rw [if_neg hn]
    cases updateBest cb.cmp (s.generation + 1) s.best (bestGen cb.cmp (eval (s.generation + 1) 0 s.population).1) with
    | none => trivial
    | some b =>
      dsimp only
      by_cases h1 : (eval (s.generation + 1) 0 s.population).2 = true
      · rw [if_pos h1]
        exact ⟨_, rfl⟩
      · rw [if_neg h1]
        by_cases h2 : (cb.select (s.generation + 1) ((eval (s.generation + 1) 0 s.population).1.map (fun r => (r.individual, r.fitness)))).length ≤ small
        · rw [if_pos h2]
          exact ⟨_, rfl⟩
        · rw [if_neg h2]
          exact ⟨rfl, _, rfl⟩

theorem loop_extends {n : Nat} : ∀ (fuel : Nat) (s : State I F) {rows : List (Row I F)} {b : Best I F}, loop cb eval small n fuel s = .finished rows b → ∃ more, rows = s.rows ++ more
  | 0, _, _, _, h => by simp [loop] at h
  | fuel + 1, s, rows, b, h => by
    rw [loop] at h
    have hg := round_goes (cb := cb) (eval := eval) (small := small) (n := n) (s := s)
    cases hr : round cb eval small n s with
    | panic => rw [hr] at h; simp at h
    | halt s' =>
      rw [hr] at h hg
      dsimp only at h hg
      cases hb : s'.best with
      | none => rw [hb] at h; simp at h
      | some b' =>
        rw [hb] at h
        simp only [Outcome.finished.injEq] at h
        rw [← h.1]
        exact hg
    | next s' =>
      rw [hr] at h hg
      dsimp only at h hg
      obtain ⟨_, more, hm⟩ := hg
      obtain ⟨more', hm'⟩ := loop_extends fuel s' h
      exact ⟨more ++ more', by rw [hm', hm, List.append_assoc]⟩

theorem loop_longer {n m : Nat} (hnm : Allows n m) : ∀ (fuel fuel' : Nat) (s : State I F) {rows rows' : List (Row I F)} {b b' : Best I F}, (n = 0 ∨ s.generation ≤ n) →
    loop cb eval small n fuel s = .finished rows b → loop cb eval small m fuel' s = .finished rows' b' → rows <+: rows'
  | 0, _, _, _, _, _, _, _, h, _ => by simp [loop] at h
  | _ + 1, 0, _, _, _, _, _, _, _, h => by simp [loop] at h
  | fuel + 1, fuel' + 1, s, rows, rows', b, b', hs, h, h' => by
    by_cases hn : n ≠ 0 ∧ s.generation = n
    · obtain ⟨more, hm⟩ := loop_extends _ _ h'
      rw [loop] at h
      have hr : round cb eval small n s = .halt s := by unfold round; rw [if_pos hn]
      rw [hr] at h
      dsimp only at h
      cases hb : s.best with
      | none => rw [hb] at h; simp at h
      | some c =>
        rw [hb] at h
        simp only [Outcome.finished.injEq] at h
        rw [← h.1, hm]
        exact List.prefix_append _ _
    · have hg := round_goes (cb := cb) (eval := eval) (small := small) (n := n) (s := s)
      rw [loop] at h h'
      rw [← round_longer hn (allows_below hnm hs hn)] at h'
      cases hr : round cb eval small n s with
      | panic => rw [hr] at h; simp at h
      | halt s' =>
        rw [hr] at h h'
        dsimp only at h h'
        rw [h] at h'
        simp only [Outcome.finished.injEq] at h'
        rw [h'.1]
        exact List.prefix_refl _
      | next s' =>
        rw [hr] at h h' hg
        dsimp only at h h' hg
        exact loop_longer hnm fuel fuel' s' (by rw [hg.1]; exact allows_next hs hn) h h'

/-- **C280, genetic search.** Full statement: a run with a greater limit begins like the run with the smaller limit. The rows of a search with a smaller limit on the number of generations are the
first rows of the search with a greater limit or none, and its best individual is not better than the best individual of the longer search. -/
theorem C280_genetic_partial (cb : Callbacks I F) (init : List I) {n m : Nat} (hnm : Allows n m) (fuel fuel' : Nat) {rows rows' : List (Row I F)} {b b' : Best I F}
    (h : gaSequential cb init n fuel = .finished rows b) (h' : gaSequential cb init m fuel' = .finished rows' b') :
    rows <+: rows' ∧ (StrictWeak cb.cmp → cb.cmp b.fitness b'.fitness = false) := by
  have hp := loop_longer hnm fuel fuel' ⟨0, init, [], none⟩ (Or.inr (Nat.zero_le _)) h h'
  refine ⟨hp, fun hs => ?_⟩
  obtain ⟨_, _, _, _, _, _, ⟨r, hr, hf, _⟩, _⟩ := C62_sequential h
  obtain ⟨_, _, _, _, _, _, _, hb, _⟩ := C62_sequential h'
  rw [← hf]
  exact hb hs r (hp.subset hr)

/-- **C280, parallel genetic search.** -/
theorem C280_genetic_parallel_partial (cb : Callbacks I F) (init : List I) {n m : Nat} (hnm : Allows n m) (fuel fuel' : Nat) {rows rows' : List (Row I F)} {b b' : Best I F}
    (h : gaParallel cb init n fuel = .finished rows b) (h' : gaParallel cb init m fuel' = .finished rows' b') :
    rows <+: rows' ∧ (StrictWeak cb.cmp → cb.cmp b.fitness b'.fitness = false) := by
  have hp := loop_longer hnm fuel fuel' ⟨0, init, [], none⟩ (Or.inr (Nat.zero_le _)) h h'
  refine ⟨hp, fun hs => ?_⟩
  obtain ⟨_, _, _, _, _, _, ⟨r, hr, hf, _⟩, _⟩ := C62_parallel h
  obtain ⟨_, _, _, _, _, _, _, hb, _⟩ := C62_parallel h'
  rw [← hf]
  exact hb hs r (hp.subset hr)

namespace DemoLonger

/-- The fitness of an individual is its value, the greatest is the best and 9 is desired; the selection keeps all, the crossover adds one to each. -/
def rise (cross : Nat → List Nat → List Nat) : Callbacks Nat Nat where
  fitness _ _ x := x
  select _ l := l
  cross := cross
  mutate _ _ x := x + 1
  cmp a b := decide (b ≤ a)
  desired := 9

end DemoLonger

open DemoLonger in
/-- A case that meets the hypotheses: one generation, two and no limit. -/
example : Allows 1 2 ∧ Allows 2 0 ∧ gaSequential (rise (fun _ l => l)) [1, 7] 1 9 = .finished [⟨1, 0, 1, 1⟩, ⟨1, 1, 7, 7⟩] ⟨7, 7, 1⟩ ∧
    gaSequential (rise (fun _ l => l)) [1, 7] 2 9 = .finished [⟨1, 0, 1, 1⟩, ⟨1, 1, 7, 7⟩, ⟨2, 0, 2, 2⟩, ⟨2, 1, 8, 8⟩] ⟨8, 8, 2⟩ ∧
    gaParallel (rise (fun _ l => l)) [1, 7] 0 9 = .finished [⟨1, 0, 1, 1⟩, ⟨1, 1, 7, 7⟩, ⟨2, 0, 2, 2⟩, ⟨2, 1, 8, 8⟩, ⟨3, 0, 3, 3⟩, ⟨3, 1, 9, 9⟩] ⟨9, 9, 3⟩ :=
  ⟨by decide, by decide, rfl, rfl, rfl⟩

open DemoLonger in
/-- **C280 is false of a longer search that panics**: nothing is left then of the generations that the shorter search returns. -/
theorem C280_panic_negation_partial : ∃ (cb : Callbacks Nat Nat) (init : List Nat) (rows : List (Row Nat Nat)) (b : Best Nat Nat), gaSequential cb init 1 9 = .finished rows b ∧ rows ≠ [] ∧
    gaSequential cb init 2 9 = .panic :=
  ⟨rise (fun _ _ => []), [1, 7], [⟨1, 0, 1, 1⟩, ⟨1, 1, 7, 7⟩], ⟨7, 7, 1⟩, rfl, by simp, rfl⟩

end Verif.Genetic

namespace Verif.GeneticAws

open Genetic (allows_below allows_next)

variable {I : Type} {cb : Callbacks I} {arrive : Nat → List (Option (List (Row I))) → List (Option (List (Row I)))} {reps numFunc : Nat}

theorem round_longer {n m : Nat} {s : State I} (hn : ¬(n ≠ 0 ∧ s.generation = n)) (hm : ¬(m ≠ 0 ∧ s.generation = m)) :
    round cb arrive n reps numFunc s = round cb arrive m reps numFunc s := by
  unfold round
  rw [if_neg hn, if_neg hm]

theorem round_goes {n : Nat} {s : State I} :
    match round cb arrive n reps numFunc s with
    | .halt s' => ∃ more, s'.rows = s.rows ++ more
    | .next s' => s'.generation = s.generation + 1 ∧ ∃ more, s'.rows = s.rows ++ more
    | .panic => True := by
  unfold round
  by_cases hn : n ≠ 0 ∧ s.generation = n
  · rw [if_pos hn]
    exact ⟨[], by simp⟩
  · rw [if_neg hn]
    cases generation (cb.fit (s.generation + 1)) (arrive (s.generation + 1)) cb.desired s.population reps numFunc (s.generation + 1) s.best with
    | none => trivial
    | some r =>
      obtain ⟨rows, best, flag⟩ := r
      dsimp only
      by_cases h1 : flag = true
      · rw [if_pos h1]
        exact ⟨_, rfl⟩
      · rw [if_neg h1]
        by_cases h2 : (cb.select (s.generation + 1) (rows.map (fun r => (r.individual, r.fitness)))).length ≤ 1
        · rw [if_pos h2]
          exact ⟨_, rfl⟩
        · rw [if_neg h2]
          exact ⟨rfl, _, rfl⟩

theorem loop_extends {n : Nat} : ∀ (fuel : Nat) (s : State I) {rows : List (Row I)} {b : Rat × Option I}, loop cb arrive n reps numFunc fuel s = .finished rows b → ∃ more, rows = s.rows ++ more
  | 0, _, _, _, h => by simp [loop] at h
  | fuel + 1, s, rows, b, h => by
    rw [loop] at h
    have hg := round_goes (cb := cb) (arrive := arrive) (reps := reps) (numFunc := numFunc) (n := n) (s := s)
    cases hr : round cb arrive n reps numFunc s with
    | panic => rw [hr] at h; simp at h
    | halt s' =>
      rw [hr] at h hg
      simp only [Outcome.finished.injEq] at h
      rw [← h.1]
      exact hg
    | next s' =>
      rw [hr] at h hg
      dsimp only at h hg
      obtain ⟨_, more, hm⟩ := hg
      obtain ⟨more', hm'⟩ := loop_extends fuel s' h
      exact ⟨more ++ more', by rw [hm', hm, List.append_assoc]⟩

theorem loop_longer {n m : Nat} (hnm : Allows n m) : ∀ (fuel fuel' : Nat) (s : State I) {rows rows' : List (Row I)} {b b' : Rat × Option I}, (n = 0 ∨ s.generation ≤ n) →
    loop cb arrive n reps numFunc fuel s = .finished rows b → loop cb arrive m reps numFunc fuel' s = .finished rows' b' → rows <+: rows'
  | 0, _, _, _, _, _, _, _, h, _ => by simp [loop] at h
  | _ + 1, 0, _, _, _, _, _, _, _, h => by simp [loop] at h
  | fuel + 1, fuel' + 1, s, rows, rows', b, b', hs, h, h' => by
    by_cases hn : n ≠ 0 ∧ s.generation = n
    · obtain ⟨more, hm⟩ := loop_extends _ _ h'
      rw [loop] at h
      have hr : round cb arrive n reps numFunc s = .halt s := by unfold round; rw [if_pos hn]
      rw [hr] at h
      simp only [Outcome.finished.injEq] at h
      rw [← h.1, hm]
      exact List.prefix_append _ _
    · have hg := round_goes (cb := cb) (arrive := arrive) (reps := reps) (numFunc := numFunc) (n := n) (s := s)
      rw [loop] at h h'
      rw [← round_longer hn (allows_below hnm hs hn)] at h'
      cases hr : round cb arrive n reps numFunc s with
      | panic => rw [hr] at h; simp at h
      | halt s' =>
        rw [hr] at h h'
        dsimp only at h h'
        rw [h] at h'
        simp only [Outcome.finished.injEq] at h'
        rw [h'.1]
        exact List.prefix_refl _
      | next s' =>
        rw [hr] at h h' hg
        dsimp only at h h' hg
        exact loop_longer hnm fuel fuel' s' (by rw [hg.1]; exact allows_next hs hn) h h'

/-- **C280, cloud genetic search.** -/
theorem C280_genetic_cloud_partial (cb : Callbacks I) {arrive : Nat → List (Option (List (Row I))) → List (Option (List (Row I)))} (ha : ∀ g l, (arrive g l).Perm l) (init : List I) {n m : Nat}
    (hnm : Allows n m) (reps numFunc fuel fuel' : Nat) {rows rows' : List (Row I)} {b b' : Rat × Option I} (h : gaAws cb arrive init n reps numFunc fuel = .finished rows b)
    (h' : gaAws cb arrive init m reps numFunc fuel' = .finished rows' b') : rows <+: rows' ∧ ((∃ r ∈ rows, 0 < r.fitness) → b.1 ≤ b'.1) := by
  have hp := loop_longer hnm fuel fuel' ⟨0, init, [], (0, none)⟩ (Or.inr (Nat.zero_le _)) h h'
  refine ⟨hp, fun hx => ?_⟩
  obtain ⟨r, hr, hb⟩ := (C93_search_partial ha h).2 hx
  rw [hb]
  exact (C93_search_partial ha h').1 r (hp.subset hr)

end Verif.GeneticAws

namespace Verif.GeneticMpi

open Genetic (allows_below allows_next Callbacks)

variable {I F : Type} [DecidableEq F] {cb : Callbacks I F} {dummy : F} {procs : Nat}

theorem round_longer {n m : Nat} {s : State I F} (hn : ¬(n ≠ 0 ∧ s.generation = n)) (hm : ¬(m ≠ 0 ∧ s.generation = m)) :
    round cb dummy n procs s = round cb dummy m procs s := by
  unfold round
  rw [if_neg hn, if_neg hm]

theorem round_goes {n : Nat} {s : State I F} :
    match round cb dummy n procs s with
    | .halt s' => ∃ more, s'.rows = s.rows ++ more
    | .next s' => s'.generation = s.generation + 1 ∧ ∃ more, s'.rows = s.rows ++ more
    | .hang => True
    | .panic => True := by
  unfold round
  by_cases hn : n ≠ 0 ∧ s.generation = n
  · rw [if_pos hn]
    exact ⟨[], by simp⟩
  · rw [if_neg hn]
    cases generation cb procs s with
    | none => trivial
    | some r =>
      obtain ⟨rows, bests, flag⟩ := r
      dsimp only
      by_cases h0 : rows.any (fun r => decide (r.fitness = dummy)) = true
      · rw [if_pos h0]
        trivial
      · rw [if_neg h0]
        cases updateBest cb.cmp (s.generation + 1) s.best (rows.foldl (bestFitness cb.cmp) none) with
        | none => trivial
        | some best =>
          dsimp only
          by_cases h1 : flag = true
          · rw [if_pos h1]
            exact ⟨_, rfl⟩
          · rw [if_neg h1]
            cases pairs (s.rows ++ rows) (s.generation + 1) s.population.length 0 s.population with
            | none => trivial
            | some pf =>
              dsimp only
              by_cases h2 : (cb.select (s.generation + 1) pf).length ≤ 1
              · rw [if_pos h2]
                by_cases h3 : procs ≤ 1
                · rw [if_pos h3]
                  exact ⟨_, rfl⟩
                · rw [if_neg h3]
                  trivial
              · rw [if_neg h2]
                exact ⟨rfl, _, rfl⟩

theorem loop_extends {n : Nat} : ∀ (fuel : Nat) (s : State I F) {rows : List (Row F)} {b : F × Nat} {row : Row F} {str : Option (F × I)},
    loop cb dummy n procs fuel s = .finished rows b row str → ∃ more, rows = s.rows ++ more
  | 0, _, _, _, _, _, h => by simp [loop] at h
  | fuel + 1, s, rows, b, row, str, h => by
    rw [loop] at h
    have hg := round_goes (cb := cb) (dummy := dummy) (procs := procs) (n := n) (s := s)
    cases hr : round cb dummy n procs s with
    | panic => rw [hr] at h; simp at h
    | hang => rw [hr] at h; simp at h
    | halt s' =>
      rw [hr] at h hg
      dsimp only at h hg
      cases hb : s'.best with
      | none => rw [hb] at h; simp at h
      | some b' =>
        rw [hb] at h
        simp only [Outcome.finished.injEq] at h
        rw [← h.1]
        exact hg
    | next s' =>
      rw [hr] at h hg
      dsimp only at h hg
      obtain ⟨_, more, hm⟩ := hg
      obtain ⟨more', hm'⟩ := loop_extends fuel s' h
      exact ⟨more ++ more', by rw [hm', hm, List.append_assoc]⟩

theorem loop_longer {n m : Nat} (hnm : Allows n m) : ∀ (fuel fuel' : Nat) (s : State I F) {rows rows' : List (Row F)} {b b' : F × Nat} {row row' : Row F} {str str' : Option (F × I)},
    (n = 0 ∨ s.generation ≤ n) → loop cb dummy n procs fuel s = .finished rows b row str → loop cb dummy m procs fuel' s = .finished rows' b' row' str' → rows <+: rows'
  | 0, _, _, _, _, _, _, _, _, _, _, _, h, _ => by simp [loop] at h
  | _ + 1, 0, _, _, _, _, _, _, _, _, _, _, _, h => by simp [loop] at h
  | fuel + 1, fuel' + 1, s, rows, rows', b, b', row, row', str, str', hs, h, h' => by
    by_cases hn : n ≠ 0 ∧ s.generation = n
    · obtain ⟨more, hm⟩ := loop_extends _ _ h'
      rw [loop] at h
      have hr : round cb dummy n procs s = .halt s := by unfold round; rw [if_pos hn]
      rw [hr] at h
      dsimp only at h
      cases hb : s.best with
      | none => rw [hb] at h; simp at h
      | some c =>
        rw [hb] at h
        simp only [Outcome.finished.injEq] at h
        rw [← h.1, hm]
        exact List.prefix_append _ _
    · have hg := round_goes (cb := cb) (dummy := dummy) (procs := procs) (n := n) (s := s)
      rw [loop] at h h'
      rw [← round_longer hn (allows_below hnm hs hn)] at h'
      cases hr : round cb dummy n procs s with
      | panic => rw [hr] at h; simp at h
      | hang => rw [hr] at h; simp at h
      | halt s' =>
        rw [hr] at h h'
        dsimp only at h h'
        rw [h] at h'
        simp only [Outcome.finished.injEq] at h'
        rw [h'.1]
        exact List.prefix_refl _
      | next s' =>
        rw [hr] at h h' hg
        dsimp only at h h' hg
        exact loop_longer hnm fuel fuel' s' (by rw [hg.1]; exact allows_next hs hn) h h'

/-- **C280, distributed genetic search.** -/
theorem C280_genetic_mpi_partial (cb : Callbacks I F) (dummy : F) (init : List I) {n m : Nat} (hnm : Allows n m) (procs fuel fuel' : Nat) {rows rows' : List (Row F)} {b b' : F × Nat}
    {row row' : Row F} {str str' : Option (F × I)} (h : gaMpi cb dummy init n procs fuel = .finished rows b row str) (h' : gaMpi cb dummy init m procs fuel' = .finished rows' b' row' str') :
    rows <+: rows' :=
  loop_longer hnm fuel fuel' _ (Or.inr (Nat.zero_le _)) h h'

/-- A case that meets the hypotheses: two generations and three. -/
example : Allows 2 3 ∧ (match gaMpi (toy id id) 1000 [2, 1, 3] 2 2 9 with | .finished rows _ _ _ => some (rows.map (fun r => r.fitness)) | _ => none) = some [12, 11, 13, 22, 21, 23] ∧
    (match gaMpi (toy id id) 1000 [2, 1, 3] 3 2 9 with | .finished rows _ _ _ => some (rows.map (fun r => r.fitness)) | _ => none) = some [12, 11, 13, 22, 21, 23, 32, 31, 33] := by
  decide

end Verif.GeneticMpi

namespace Verif.Search

variable {S X : Type}

theorem iterate_longer {gen : Nat → Nat → S → S} {eval : Nat → Nat → S → S × Fl} {batchSize : Nat} {target : Fl} (j : Nat) : ∀ (k i : Nat) (best : S × Fl) (c : Fl)
    {r r' : (S × Fl) × List (List (S × Fl))}, iterate gen eval batchSize target k i best c = some r → iterate gen eval batchSize target (k + j) i best c = some r' → r.2 <+: r'.2
  | 0, i, best, c, r, r', h, _ => by
    simp only [iterate, Option.some.injEq] at h
    rw [← h]
    exact List.nil_prefix
  | k + 1, i, best, c, r, r', h, h' => by
    rw [show k + 1 + j = (k + j) + 1 from by omega] at h'
    rw [iterate] at h h'
    cases hb : newBest (batch gen eval batchSize i best.1) (minLoop (batch gen eval batchSize i best.1) 0 (c, none)) best with
    | none => rw [hb] at h; simp at h
    | some best' =>
      rw [hb] at h h'
      dsimp only at h h'
      by_cases ht : (minLoop (batch gen eval batchSize i best.1) 0 (c, none)).1.le target = true
      · rw [if_pos ht] at h h'
        rw [h] at h'
        simp only [Option.some.injEq] at h'
        rw [h']
        exact List.prefix_refl _
      · rw [if_neg ht] at h h'
        simp only [Option.map_eq_some_iff] at h h'
        obtain ⟨a, ha, rfl⟩ := h
        obtain ⟨a', ha', rfl⟩ := h'
        exact List.prefix_cons_inj _ |>.2 (iterate_longer j k (i + 1) best' _ ha ha')

/-- **C280, random search.** A search with more iterations evaluates the samples of the shorter one first and what it returns is the same or costs less. -/
theorem C280_random_partial (gen : Nat → Nat → S → S) (eval : Nat → Nat → S → S × Fl) (init : S) (target : Fl) (batchSize n k : Nat) :
    ∃ r r', randomSearch gen eval init n target batchSize = some r ∧ randomSearch gen eval init (n + k) target batchSize = some r' ∧ r.2 <+: r'.2 ∧ (r'.1 = r.1 ∨ r'.1.2.lt r.1.2 = true) := by
  obtain ⟨b, l, h, hm, _⟩ := C65_search gen eval init n target batchSize
  obtain ⟨b', l', h', hm', _⟩ := C65_search gen eval init (n + k) target batchSize
  have hp : l <+: l' := iterate_longer k n 0 (init, Fl.maxF32) Fl.maxF32 h h'
  refine ⟨_, _, h, h', hp, ?_⟩
  obtain ⟨more, rfl⟩ := hp
  rw [List.flatten_append] at hm'
  exact C65_monotone hm hm'

/-- A case: the cost falls by one in each iteration. -/
example : (randomSearch (fun i _ _ => i) (fun i _ s => (s, .fin (10 - i))) 77 2 (.fin 0) 1).map (fun r => r.2.flatten.map Prod.fst) = some [0, 1] ∧
    (randomSearch (fun i _ _ => i) (fun i _ s => (s, .fin (10 - i))) 77 3 (.fin 0) 1).map (fun r => r.2.flatten.map Prod.fst) = some [0, 1, 2] := by
  decide +kernel

theorem bayesLoop_longer {objective : Nat → X → Fl} {gen : Nat → List X → List X} {score : List (X × Fl) → X → Fl} (j : Nat) : ∀ (k i : Nat) (hist : List (X × Fl)) (best : X × Fl)
    {r' : (X × Fl) × List (X × Fl)}, bayesLoop objective gen score (k + j) i hist best = some r' →
    ∃ r, bayesLoop objective gen score k i hist best = some r ∧ bayesLoop objective gen score j (i + k) r.2 r.1 = some r'
  | 0, i, hist, best, r', h' => ⟨(best, hist), by rw [bayesLoop], by rw [Nat.zero_add] at h'; exact h'⟩
  | k + 1, i, hist, best, r', h' => by
    rw [show k + 1 + j = (k + j) + 1 from by omega] at h'
    rw [bayesLoop] at h' ⊢
    cases ha : acquisition (score hist) (gen i (hist.map Prod.fst)) with
    | none => rw [ha] at h'; simp at h'
    | some x =>
      rw [ha] at h'
      dsimp only at h' ⊢
      obtain ⟨r, h1, h2⟩ := bayesLoop_longer j k (i + 1) _ _ h'
      exact ⟨r, h1, by rw [show i + (k + 1) = i + 1 + k from by omega]; exact h2⟩

theorem bayesLoop_grows {objective : Nat → X → Fl} {gen : Nat → List X → List X} {score : List (X × Fl) → X → Fl} : ∀ (k i : Nat) (hist : List (X × Fl)) (best : X × Fl)
    {r : (X × Fl) × List (X × Fl)}, bayesLoop objective gen score k i hist best = some r → hist <+: r.2 ∧ (r.1 = best ∨ best.2.lt r.1.2 = true)
  | 0, i, hist, best, r, h => by
    simp only [bayesLoop, Option.some.injEq] at h
    rw [← h]
    exact ⟨List.prefix_refl _, Or.inl rfl⟩
  | k + 1, i, hist, best, r, h => by
    rw [bayesLoop] at h
    cases ha : acquisition (score hist) (gen i (hist.map Prod.fst)) with
    | none => rw [ha] at h; simp at h
    | some x =>
      rw [ha] at h
      dsimp only at h
      obtain ⟨h1, h2⟩ := bayesLoop_grows k (i + 1) _ _ h
      refine ⟨(List.prefix_append _ _).trans h1, ?_⟩
      by_cases hb : best.2.lt (objective hist.length x) = true
      · rw [if_pos hb] at h2
        rcases h2 with h2 | h2
        · exact Or.inr (by rw [h2]; exact hb)
        · exact Or.inr (by
            rw [(C65_comparisons _ _).1] at hb h2 ⊢
            obtain ⟨a, b, ha, hb, hab⟩ := hb
            obtain ⟨c, d, hc, hd, hcd⟩ := h2
            rw [hb] at hc
            cases hc
            exact ⟨a, d, ha, hd, hab.trans hcd⟩)
      · rw [if_neg hb] at h2
        exact h2

/-- **C280, bayesian search.** A search with more iterations evaluates the points of the shorter one first and what it returns is the same or higher. -/
theorem C280_bayesian_partial (objective : Nat → X → Fl) (gen : Nat → List X → List X) (score : List (X × Fl) → X → Fl) (xInit : List X) (n k : Nat) {r' : (X × Fl) × List (X × Fl)}
    (h' : bayesianSearch objective gen score xInit (n + k) = some r') :
    ∃ r, bayesianSearch objective gen score xInit n = some r ∧ r.2 <+: r'.2 ∧ (r'.1 = r.1 ∨ r.1.2.lt r'.1.2 = true) := by
  unfold bayesianSearch at h' ⊢
  cases hx : xInit[(maxLoop ((evalInit objective xInit).map Prod.snd) 0 (Fl.minF64, 0)).2]? with
  | none => rw [hx] at h'; simp at h'
  | some x =>
    rw [hx] at h'
    dsimp only at h' ⊢
    obtain ⟨r, h1, h2⟩ := bayesLoop_longer k n 0 _ _ h'
    obtain ⟨h3, h4⟩ := bayesLoop_grows k _ _ _ h2
    exact ⟨r, h1, h3, h4⟩

/-- A case: the samples of iteration `i` are `i` and `i + 1`, and the greater is tried. -/
example : (bayesianSearch (fun _ x => .fin x) (fun i _ => [i, i + 1]) (fun _ x => .fin x) [5, 3] 1).map (fun r => r.2.map Prod.fst) = some [5, 3, 1] ∧
    (bayesianSearch (fun _ x => .fin x) (fun i _ => [i, i + 1]) (fun _ x => .fin x) [5, 3] 2).map (fun r => r.2.map Prod.fst) = some [5, 3, 1, 2] := by
  decide +kernel

end Verif.Search

namespace Verif.Driver

open Schedule

variable {T A S : Type} [LinearOrder T]

theorem loop_longer (d : Sim T A S) (k : Nat) : ∀ (n : Nat) (w : World T A S), loop d (n + k) w = loop d n w ∨ loop d (n + k) w = loop d k (loop d n w)
  | 0, w => Or.inr (by rw [Nat.zero_add]; rfl)
  | n + 1, w => by
    rw [show n + 1 + k = (n + k) + 1 from by omega]
    rw [loop, loop]
    by_cases h : (check d (step d.model w)).1 = true
    · rw [if_pos h, if_pos h]
      exact Or.inl rfl
    · rw [if_neg h, if_neg h]
      exact loop_longer d k n _

theorem recordLoop_longer (d : Sim T A S) (k : Nat) : ∀ (n : Nat) (w : World T A S), (recordLoop d n w).1 <+: (recordLoop d (n + k) w).1
  | 0, w => List.nil_prefix
  | n + 1, w => by
    rw [show n + 1 + k = (n + k) + 1 from by omega]
    unfold recordLoop
    by_cases h : (check d (step d.model w)).1 = true
    · rw [if_pos h, if_pos h]
      exact List.prefix_refl _
    · rw [if_neg h, if_neg h]
      exact (List.prefix_cons_inj _).2 (recordLoop_longer d k n _)

/-- **C280, simulations.** A repetition with a greater limit ends where the one with the smaller limit ended, or goes on from there; the agents pending after each step of the shorter one are those
pending after the first steps of the longer one. -/
theorem C280_simulation_partial (d : Sim T A S) (n k : Nat) (s : S) :
    (runRep d (n + k) s = runRep d n s ∨ runRep d (n + k) s = loop d k (runRep d n s)) ∧ (record d n s).1 <+: (record d (n + k) s).1 :=
  ⟨loop_longer d k n _, (List.prefix_cons_inj _).2 (recordLoop_longer d k n _)⟩

/-- **C280, the first of several repetitions.** -/
theorem C280_first_repetition_partial (d : Sim T A S) (n k r : Nat) (s : S) : ∃ w w', (runReps d n (r + 1) s).head? = some w ∧ (runReps d (n + k) (r + 1) s).head? = some w' ∧
    (w' = w ∨ w' = loop d k w) :=
  ⟨_, _, rfl, rfl, loop_longer d k n _⟩

/-- **C280, repetitions of models that are made anew.** -/
theorem C280_fresh_repetitions_partial (d : Sim T A S) (hf : ∀ s s', d.init s = d.init s') (n k : Nat) : ∀ (r : Nat) (s s' : S) (i : Nat) (w w' : World T A S),
    (runReps d n r s)[i]? = some w → (runReps d (n + k) r s')[i]? = some w' → w' = w ∨ w' = loop d k w
  | 0, _, _, i, _, _, h, _ => by simp [runReps] at h
  | r + 1, s, s', i, w, w', h, h' => by
    rw [runReps] at h h'
    cases i with
    | zero =>
      simp only [List.getElem?_cons_zero, Option.some.injEq] at h h'
      rw [← h, ← h']
      have : start d s' = start d s := by unfold start; rw [hf s' s]
      unfold runRep
      rw [this]
      exact loop_longer d k n _
    | succ i =>
      simp only [List.getElem?_cons_succ] at h h'
      exact C280_fresh_repetitions_partial d hf n k r _ _ i w w' h h'

namespace DemoLonger

/-- A model that counts its steps and whose `init` keeps the count or starts anew. -/
def counter (fresh : Bool) : Sim Nat Nat Nat where
  model := { update := fun _ s => s, beforeStep := fun s _ => (s + 1, []), afterStep := fun s _ => (s, []), aBefore := fun a s => (a, s), aStep := fun a s => (a, s), aAfter := fun a s => (a, s),
             isStopped := fun a s => (false, a, s), adv := fun t => t + 1, tb := fun _ _ => 0 }
  zero := 0
  init := fun s => (if fresh then 0 else s, [])
  endCondition := fun w => (decide (5 ≤ w.state), w.state, [])

end DemoLonger

open DemoLonger in
/-- A case with an end condition: limits of two, four and nine steps. -/
example : (runRep (counter true) 2 7).state = 2 ∧ (runRep (counter true) 4 7).state = 4 ∧ (runRep (counter true) 9 7).state = 5 ∧ (∀ s s', (counter true).init s = (counter true).init s') := by
  refine ⟨by decide +kernel, by decide +kernel, by decide +kernel, fun _ _ => rfl⟩

open DemoLonger in
/-- **C280 is false of the later repetitions of a model that is not made anew**: the second repetition starts where the first ended, which depends on the limit. -/
theorem C280_repetitions_negation_partial : ∃ (d : Sim Nat Nat Nat) (w w' : World Nat Nat Nat), (runReps d 1 2 0)[1]? = some w ∧ (runReps d 2 2 0)[1]? = some w' ∧ w' ≠ w ∧ w' ≠ loop d 1 w := by
  refine ⟨counter false, _, _, rfl, rfl, fun h => ?_, fun h => ?_⟩
  · exact absurd (congrArg (fun w => w.state) h) (by decide +kernel)
  · exact absurd (congrArg (fun w => w.state) h) (by decide +kernel)

end Verif.Driver
