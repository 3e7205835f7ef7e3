import Verif.Spec.OnlyOrder

/-!
C271: only the order of fitnesses and costs decides what a search finds (src/explore/genetic.rs, src/explore/mpi/genetic.rs, src/explore/aws/genetic.rs,
src/explore/random_search.rs, src/explore/bayesian.rs).
-/

set_option linter.unusedSectionVars false

namespace Verif.OnlyOrder

open Verif.Genetic

variable {I F F' : Type} {f : F → F'} {cb : Callbacks I F} {cb' : Callbacks I F'}

/-! ### Sequential and parallel genetic search -/

theorem rowOf_regraded (h : Regraded f cb cb') (g k : Nat) (x : I) : rowOf cb' g k x = row f (rowOf cb g k x) := by
  unfold rowOf row
  rw [h.fitness]

theorem evalSeq_regraded (h : Regraded f cb cb') (g : Nat) : ∀ (k : Nat) (xs : List I), evalSeq cb' g k xs = ((evalSeq cb g k xs).1.map (row f), (evalSeq cb g k xs).2)
  | _, [] => rfl
  | k, x :: xs => by
    unfold evalSeq
    rw [h.fitness, h.desired, h.cmp, rowOf_regraded h, evalSeq_regraded h g (k + 1) xs]
    by_cases hc : cb.cmp (cb.fitness g k x) cb.desired = true
    · rw [if_pos hc, if_pos hc]
      rfl
    · rw [if_neg hc, if_neg hc]
      rfl

theorem evalPar_regraded (h : Regraded f cb cb') (g : Nat) : ∀ (k : Nat) (xs : List I), evalPar cb' g k xs = ((evalPar cb g k xs).1.map (row f), (evalPar cb g k xs).2)
  | _, [] => rfl
  | k, x :: xs => by
    unfold evalPar
    rw [h.fitness, h.desired, h.cmp, rowOf_regraded h, evalPar_regraded h g (k + 1) xs]
    rfl

theorem bestGen_regraded (h : Regraded f cb cb') (rows : List (Row I F)) : bestGen cb'.cmp (rows.map (row f)) = (bestGen cb.cmp rows).map (grade f) := by
  unfold bestGen
  suffices hs : ∀ b : Option (F × I), (rows.map (row f)).foldl (bestStep cb'.cmp) (b.map (grade f)) = (rows.foldl (bestStep cb.cmp) b).map (grade f) from hs none
  induction rows with
  | nil => exact fun _ => rfl
  | cons r rows ih =>
    intro b
    rw [List.map_cons, List.foldl_cons, List.foldl_cons, ← ih]
    congr 1
    cases b with
    | none => rfl
    | some b =>
      obtain ⟨y, x⟩ := b
      show bestStep cb'.cmp (some (f y, x)) (row f r) = (bestStep cb.cmp (some (y, x)) r).map (grade f)
      unfold bestStep row
      dsimp only
      rw [h.cmp]
      by_cases hc : cb.cmp r.fitness y = true
      · rw [if_pos hc, if_pos hc]
        rfl
      · rw [if_neg hc, if_neg hc]
        rfl

theorem updateBest_regraded (h : Regraded f cb cb') (g : Nat) (b : Option (Best I F)) (bg : Option (F × I)) :
    updateBest cb'.cmp g (b.map (best f)) (bg.map (grade f)) = (updateBest cb.cmp g b bg).map (best f) := by
  cases bg with
  | none => rfl
  | some y =>
    cases b with
    | none => rfl
    | some old =>
      unfold updateBest grade best
      simp only [Option.map_some]
      rw [h.cmp]
      by_cases hc : cb.cmp y.1 old.fitness = true
      · rw [if_pos hc, if_pos hc]
        rfl
      · rw [if_neg hc, if_neg hc]
        rfl

theorem mutateAll_regraded (h : Regraded f cb cb') (g : Nat) : ∀ (k : Nat) (xs : List I), mutateAll cb' g k xs = mutateAll cb g k xs
  | _, [] => rfl
  | k, x :: xs => by
    unfold mutateAll
    rw [h.mutate, mutateAll_regraded h g (k + 1) xs]

theorem pairs_regraded (rows : List (Row I F)) :
    (rows.map (row f)).map (fun r => (r.individual, r.fitness)) = (rows.map (fun r => (r.individual, r.fitness))).map (fun p => (p.1, f p.2)) := by
  rw [List.map_map, List.map_map]
  rfl

/-- The result of a round with the other fitnesses. -/
def roundMap (f : F → F') : Round I F → Round I F'
  | .halt s => .halt (state f s)
  | .next s => .next (state f s)
  | .panic => .panic

theorem round_regraded (h : Regraded f cb cb') {eval : Nat → Nat → List I → List (Row I F) × Bool} {eval' : Nat → Nat → List I → List (Row I F') × Bool}
    (he : ∀ g k xs, eval' g k xs = ((eval g k xs).1.map (row f), (eval g k xs).2)) (small limit : Nat) (s : State I F) :
    round cb' eval' small limit (state f s) = roundMap f (round cb eval small limit s) := by
  obtain ⟨g, pop, rows, b⟩ := s
  unfold round state
  dsimp only
  by_cases hl : limit ≠ 0 ∧ g = limit
  · rw [if_pos hl, if_pos hl]
    rfl
  · rw [if_neg hl, if_neg hl, he, bestGen_regraded h, updateBest_regraded h]
    cases updateBest cb.cmp (g + 1) b (bestGen cb.cmp (eval (g + 1) 0 pop).1) with
    | none => rfl
    | some nb =>
      simp only [Option.map_some]
      have hlen : (cb'.select (g + 1) (((eval (g + 1) 0 pop).1.map (row f)).map (fun r => (r.individual, r.fitness)))).length =
          (cb.select (g + 1) ((eval (g + 1) 0 pop).1.map (fun r => (r.individual, r.fitness)))).length := by
        have := congrArg List.length (h.select (g + 1) ((eval (g + 1) 0 pop).1.map (fun r => (r.individual, r.fitness))))
        rw [List.length_map, List.length_map] at this
        rw [pairs_regraded]
        exact this
      by_cases hf : (eval (g + 1) 0 pop).2 = true
      · rw [if_pos hf, if_pos hf]
        simp only [roundMap, state, List.map_append, Option.map_some]
      · rw [if_neg hf, if_neg hf, hlen]
        by_cases hs : (cb.select (g + 1) ((eval (g + 1) 0 pop).1.map (fun r => (r.individual, r.fitness)))).length ≤ small
        · rw [if_pos hs, if_pos hs]
          simp only [roundMap, state, List.map_append, Option.map_some]
        · rw [if_neg hs, if_neg hs, pairs_regraded, h.select, h.cross, mutateAll_regraded h]
          simp only [roundMap, state, List.map_append, Option.map_some]

theorem loop_regraded (h : Regraded f cb cb') {eval : Nat → Nat → List I → List (Row I F) × Bool} {eval' : Nat → Nat → List I → List (Row I F') × Bool}
    (he : ∀ g k xs, eval' g k xs = ((eval g k xs).1.map (row f), (eval g k xs).2)) (small limit : Nat) : ∀ (fuel : Nat) (s : State I F),
    loop cb' eval' small limit fuel (state f s) = outcome f (loop cb eval small limit fuel s)
  | 0, s => rfl
  | fuel + 1, s => by
    unfold loop
    rw [round_regraded h he]
    cases round cb eval small limit s with
    | panic => rfl
    | next s' => exact loop_regraded h he small limit fuel s'
    | halt s' =>
      obtain ⟨g, pop, rows, b⟩ := s'
      cases b <;> rfl

/-- **C271, sequential genetic search.** If the fitnesses are changed so that all comparisons come out as before and the selection keeps the same individuals,
the search goes through the same populations and reports the same individual. -/
theorem C271_sequential_partial (h : Regraded f cb cb') (init : List I) (limit fuel : Nat) :
    gaSequential cb' init limit fuel = outcome f (gaSequential cb init limit fuel) :=
  loop_regraded h (fun g k xs => evalSeq_regraded h g k xs) 1 limit fuel ⟨0, init, [], none⟩

/-- **C271, parallel genetic search.** -/
theorem C271_parallel_partial (h : Regraded f cb cb') (init : List I) (limit fuel : Nat) :
    gaParallel cb' init limit fuel = outcome f (gaParallel cb init limit fuel) :=
  loop_regraded h (fun g k xs => evalPar_regraded h g k xs) 0 limit fuel ⟨0, init, [], none⟩

/-! ### Random and bayesian search -/

variable {S X : Type} {p : Fl → Fl}

theorem minLoop_priced (h : KeepsOrder p) : ∀ (l : List (S × Fl)) (i : Nat) (m : Fl × Option Nat),
    Search.minLoop (l.map (priced p)) i (p m.1, m.2) = (p (Search.minLoop l i m).1, (Search.minLoop l i m).2)
  | [], _, _ => rfl
  | r :: rs, i, m => by
    show Search.minLoop (rs.map (priced p)) (i + 1) (if Fl.lt (p r.2) (p m.1) = true then (p r.2, some i) else (p m.1, m.2)) = _
    rw [Search.minLoop, ← minLoop_priced h rs (i + 1), h.lt]
    cases Fl.lt r.2 m.1 <;> rfl

theorem newBest_priced (l : List (S × Fl)) (m : Fl × Option Nat) (b : S × Fl) :
    Search.newBest (l.map (priced p)) (p m.1, m.2) (priced p b) = (Search.newBest l m b).map (priced p) := by
  unfold Search.newBest
  dsimp only
  cases m.2 with
  | none => rfl
  | some i =>
    dsimp only
    rw [List.getElem?_map, Option.map_map, Option.map_map]
    rfl

theorem iterate_priced (h : KeepsOrder p) {gen : Nat → Nat → S → S} {eval eval' : Nat → Nat → S → S × Fl} (he : ∀ i j s, eval' i j s = priced p (eval i j s))
    (n : Nat) (t : Fl) : ∀ (k i : Nat) (b : S × Fl) (c : Fl),
    Search.iterate gen eval' n (p t) k i (priced p b) (p c) = (Search.iterate gen eval n t k i b c).map (fun r => (priced p r.1, r.2.map (List.map (priced p))))
  | 0, _, _, _ => rfl
  | k + 1, i, b, c => by
    have hb : Search.batch gen eval' n i (priced p b).1 = (Search.batch gen eval n i b.1).map (priced p) := by
      unfold Search.batch
      rw [List.map_map]
      exact List.map_congr_left (fun j _ => he i j _)
    unfold Search.iterate
    rw [hb, minLoop_priced h _ 0 (c, none), newBest_priced]
    cases Search.newBest (Search.batch gen eval n i b.1) (Search.minLoop (Search.batch gen eval n i b.1) 0 (c, none)) b with
    | none => rfl
    | some b' =>
      simp only [Option.map_some]
      rw [h.le]
      by_cases ht : Fl.le (Search.minLoop (Search.batch gen eval n i b.1) 0 (c, none)).1 t = true
      · rw [if_pos ht, if_pos ht]
        rfl
      · rw [if_neg ht, if_neg ht, iterate_priced h he n t k (i + 1) b']
        cases Search.iterate gen eval n t k (i + 1) b' (Search.minLoop (Search.batch gen eval n i b.1) 0 (c, none)).1 <;> rfl

/-- **C271, random search.** (Partial: the change leaves `f32::MAX` alone.) -/
theorem C271_random_partial (h : KeepsOrder p) (hm : p Fl.maxF32 = Fl.maxF32) {gen : Nat → Nat → S → S} {eval eval' : Nat → Nat → S → S × Fl}
    (he : ∀ i j s, eval' i j s = ((eval i j s).1, p (eval i j s).2)) (init : S) (nIter : Nat) (t : Fl) (n : Nat) :
    Search.randomSearch gen eval' init nIter (p t) n =
      (Search.randomSearch gen eval init nIter t n).map (fun r => ((r.1.1, p r.1.2), r.2.map (List.map (fun x => (x.1, p x.2))))) := by
  have := iterate_priced h (gen := gen) (eval := eval) (eval' := eval') he n t nIter 0 (init, Fl.maxF32) Fl.maxF32
  unfold priced at this
  dsimp only at this
  rw [hm] at this
  exact this

/-- **C271** is false of the random search if a cost may exceed `f32::MAX`: the one sample has the cost 1, and is found; if costs are multiplied by 2^200 (and
come out infinite in single precision), the search returns the initial state. -/
theorem C271_random_negation_partial :
    ∃ p : Fl → Fl, (∀ a b, Fl.lt a b = true → (a = .fin 1 ∨ a = .fin 0) → (b = .fin 1 ∨ b = .fin 0) → Fl.lt (p a) (p b) = true) ∧
      (Search.randomSearch (fun _ _ _ => 7) (fun _ _ s => (s, .fin 1)) 3 1 (.fin 0) 1).map (fun r => r.1.1) = some 7 ∧
      (Search.randomSearch (fun _ _ _ => 7) (fun _ _ s => (s, p (.fin 1))) 3 1 (p (.fin 0)) 1).map (fun r => r.1.1) = some 3 := by
  refine ⟨fun a => if a = .fin 1 then .pinf else a, ?_, by decide +kernel, by decide +kernel⟩
  rintro a b h (rfl | rfl) (rfl | rfl)
  · exact absurd h (by decide +kernel)
  · exact absurd h (by decide +kernel)
  · decide +kernel
  · exact absurd h (by decide +kernel)

theorem maxLoop_priced (h : KeepsOrder p) : ∀ (l : List Fl) (i : Nat) (m : Fl × Nat),
    Search.maxLoop (l.map p) i (p m.1, m.2) = (p (Search.maxLoop l i m).1, (Search.maxLoop l i m).2)
  | [], _, _ => rfl
  | y :: ys, i, m => by
    show Search.maxLoop (ys.map p) (i + 1) (if Fl.lt (p m.1) (p y) = true then (p y, i) else (p m.1, m.2)) = _
    rw [Search.maxLoop, ← maxLoop_priced h ys (i + 1), h.lt]
    cases Fl.lt m.1 y <;> rfl

theorem bayesLoop_priced (h : KeepsOrder p) {obj obj' : Nat → X → Fl} (ho : ∀ k x, obj' k x = p (obj k x)) {gen : Nat → List X → List X}
    {score score' : List (X × Fl) → X → Fl} (hs : ∀ hist x, score' (hist.map (priced p)) x = score hist x) : ∀ (k i : Nat) (hist : List (X × Fl)) (b : X × Fl),
    Search.bayesLoop obj' gen score' k i (hist.map (priced p)) (priced p b) =
      (Search.bayesLoop obj gen score k i hist b).map (fun r => (priced p r.1, r.2.map (priced p)))
  | 0, _, _, _ => rfl
  | k + 1, i, hist, b => by
    have h1 : (hist.map (priced p)).map Prod.fst = hist.map Prod.fst := by
      rw [List.map_map]
      rfl
    have h2 : score' (hist.map (priced p)) = score hist := funext (hs hist)
    unfold Search.bayesLoop
    rw [h1, h2, List.length_map]
    cases Search.acquisition (score hist) (gen i (hist.map Prod.fst)) with
    | none => rfl
    | some x =>
      dsimp only
      rw [← bayesLoop_priced h ho hs k (i + 1), ho, List.map_append]
      have : (if Fl.lt (priced p b).2 (p (obj hist.length x)) = true then (x, p (obj hist.length x)) else priced p b) =
          priced p (if Fl.lt b.2 (obj hist.length x) = true then (x, obj hist.length x) else b) := by
        unfold priced
        dsimp only
        rw [h.lt]
        cases Fl.lt b.2 (obj hist.length x) <;> rfl
      rw [this]
      rfl

/-- **C271, bayesian search.** (Partial: the change leaves `f64::MIN` alone, and the process scores samples as before.) -/
theorem C271_bayesian_partial (h : KeepsOrder p) (hm : p Fl.minF64 = Fl.minF64) {obj obj' : Nat → X → Fl} (ho : ∀ k x, obj' k x = p (obj k x))
    {gen : Nat → List X → List X} {score score' : List (X × Fl) → X → Fl} (hs : ∀ hist x, score' (hist.map (fun e => (e.1, p e.2))) x = score hist x)
    (xInit : List X) (nIter : Nat) :
    Search.bayesianSearch obj' gen score' xInit nIter =
      (Search.bayesianSearch obj gen score xInit nIter).map (fun r => ((r.1.1, p r.1.2), r.2.map (fun e => (e.1, p e.2)))) := by
  have h1 : Search.evalInit obj' xInit = (Search.evalInit obj xInit).map (priced p) := by
    unfold Search.evalInit
    rw [List.map_map]
    refine List.map_congr_left (fun x _ => ?_)
    show (x.1, obj' x.2 x.1) = (x.1, p (obj x.2 x.1))
    rw [ho]
  have h2 : ((Search.evalInit obj xInit).map (priced p)).map Prod.snd = ((Search.evalInit obj xInit).map Prod.snd).map p := by
    rw [List.map_map, List.map_map]
    rfl
  have h3 := maxLoop_priced h ((Search.evalInit obj xInit).map Prod.snd) 0 (Fl.minF64, 0)
  dsimp only at h3
  rw [hm] at h3
  unfold Search.bayesianSearch
  rw [h1, h2, h3]
  dsimp only
  cases xInit[(Search.maxLoop ((Search.evalInit obj xInit).map Prod.snd) 0 (Fl.minF64, 0)).2]? with
  | none => rfl
  | some x => exact bayesLoop_priced h ho hs nIter 0 _ (x, (Search.maxLoop ((Search.evalInit obj xInit).map Prod.snd) 0 (Fl.minF64, 0)).1)

/-! ### Distributed genetic search -/

theorem myBest_regraded (h : Regraded f cb cb') (b : Option (F × I)) (y : F) (x : I) :
    GeneticMpi.myBest cb'.cmp (b.map (grade f)) (f y) x = (GeneticMpi.myBest cb.cmp b y x).map (grade f) := by
  cases b with
  | none => rfl
  | some b =>
    unfold GeneticMpi.myBest grade
    simp only [Option.map_some]
    rw [h.cmp]
    by_cases hc : cb.cmp y b.1 = true
    · rw [if_pos hc, if_pos hc]
      rfl
    · rw [if_neg hc, if_neg hc]
      rfl

/-- The results of a process with the other fitnesses. -/
def workMap (f : F → F') (w : List (GeneticMpi.Row F) × Option (F × I) × Bool) : List (GeneticMpi.Row F') × Option (F' × I) × Bool :=
  (w.1.map (rowMpi f), w.2.1.map (grade f), w.2.2)

theorem work_regraded (h : Regraded f cb cb') (g d : Nat) : ∀ (k : Nat) (b : Option (F × I)) (xs : List I),
    GeneticMpi.work cb' g d k (b.map (grade f)) xs = workMap f (GeneticMpi.work cb g d k b xs)
  | _, _, [] => rfl
  | k, b, x :: xs => by
    unfold GeneticMpi.work
    rw [h.fitness, h.desired, h.cmp, myBest_regraded h, work_regraded h g d (k + 1) _ xs]
    rfl

theorem workAll_regraded (h : Regraded f cb cb') (g : Nat) : ∀ (ds : List Nat) (bs : List (Option (F × I))) (xss : List (List I)),
    GeneticMpi.workAll cb' g ds (bs.map (Option.map (grade f))) xss = (GeneticMpi.workAll cb g ds bs xss).map (workMap f)
  | [], [], _ => rfl
  | [], _ :: _, _ => rfl
  | _ :: _, [], _ => rfl
  | _ :: _, _ :: _, [] => rfl
  | d :: ds, b :: bs, xs :: xss => by
    show GeneticMpi.work cb' g d 0 (b.map (grade f)) xs :: GeneticMpi.workAll cb' g ds (bs.map (Option.map (grade f))) xss = _
    rw [work_regraded h, workAll_regraded h g ds bs xss]
    rfl

theorem allBests_regraded : ∀ bs : List (Option (F × I)), GeneticMpi.allBests (bs.map (Option.map (grade f))) = (GeneticMpi.allBests bs).map (List.map (grade f))
  | [] => rfl
  | none :: _ => rfl
  | some b :: bs => by
    show (GeneticMpi.allBests (bs.map (Option.map (grade f)))).map (fun l => grade f b :: l) = _
    rw [allBests_regraded bs, GeneticMpi.allBests]
    cases GeneticMpi.allBests bs <;> rfl

theorem bestOfAll_regraded (h : Regraded f cb cb') (bs : List (F × I)) : GeneticMpi.bestOfAll cb'.cmp (bs.map (grade f)) = (GeneticMpi.bestOfAll cb.cmp bs).map (grade f) := by
  cases bs with
  | nil => rfl
  | cons b bs =>
    show some ((bs.map (grade f)).foldl (fun m c => if cb'.cmp c.1 m.1 = true then c else m) (grade f b)) =
      some (grade f (bs.foldl (fun m c => if cb.cmp c.1 m.1 = true then c else m) b))
    congr 1
    induction bs generalizing b with
    | nil => rfl
    | cons c bs ih =>
      rw [List.map_cons, List.foldl_cons, List.foldl_cons, ← ih]
      congr 1
      unfold grade
      dsimp only
      rw [h.cmp]
      cases cb.cmp c.1 b.1 <;> rfl

theorem reindex_regraded (counts ds : List Nat) : ∀ (i j : Nat) (rs : List (GeneticMpi.Row F)),
    GeneticMpi.reindex counts ds i j (rs.map (rowMpi f)) = (GeneticMpi.reindex counts ds i j rs).map (List.map (rowMpi f))
  | _, _, [] => rfl
  | i, j, r :: rs => by
    rw [List.map_cons, GeneticMpi.reindex, GeneticMpi.reindex, reindex_regraded counts ds (i + 1) 0 rs, reindex_regraded counts ds i (j + 1) rs]
    cases ds[i]? with
    | none => rfl
    | some d =>
      cases counts[i]? with
      | none => rfl
      | some c =>
        dsimp only
        by_cases hj : j + 1 = c
        · rw [if_pos hj, if_pos hj]
          cases GeneticMpi.reindex counts ds (i + 1) 0 rs <;> rfl
        · rw [if_neg hj, if_neg hj]
          cases GeneticMpi.reindex counts ds i (j + 1) rs <;> rfl

theorem bestFitness_regraded (h : Regraded f cb cb') (rows : List (GeneticMpi.Row F)) : ∀ b : Option F,
    (rows.map (rowMpi f)).foldl (GeneticMpi.bestFitness cb'.cmp) (b.map f) = (rows.foldl (GeneticMpi.bestFitness cb.cmp) b).map f := by
  induction rows with
  | nil => exact fun _ => rfl
  | cons r rows ih =>
    intro b
    rw [List.map_cons, List.foldl_cons, List.foldl_cons, ← ih]
    congr 1
    cases b with
    | none => rfl
    | some y =>
      unfold GeneticMpi.bestFitness rowMpi
      simp only [Option.map_some]
      rw [h.cmp]
      cases cb.cmp r.fitness y <;> rfl

theorem bestRow_regraded (h : Regraded f cb cb') (rows : List (GeneticMpi.Row F)) : ∀ b : GeneticMpi.Row F,
    (rows.map (rowMpi f)).foldl (GeneticMpi.bestRow cb'.cmp) (rowMpi f b) = rowMpi f (rows.foldl (GeneticMpi.bestRow cb.cmp) b) := by
  induction rows with
  | nil => exact fun _ => rfl
  | cons r rows ih =>
    intro b
    rw [List.map_cons, List.foldl_cons, List.foldl_cons, ← ih]
    congr 1
    unfold GeneticMpi.bestRow rowMpi
    dsimp only
    rw [h.cmp]
    cases cb.cmp r.fitness b.fitness <;> rfl

theorem updateBestMpi_regraded (h : Regraded f cb cb') (g : Nat) (b : Option (F × Nat)) (bg : Option F) :
    GeneticMpi.updateBest cb'.cmp g (b.map (grade f)) (bg.map f) = (GeneticMpi.updateBest cb.cmp g b bg).map (grade f) := by
  cases bg with
  | none => rfl
  | some y =>
    cases b with
    | none => rfl
    | some old =>
      unfold GeneticMpi.updateBest grade
      simp only [Option.map_some]
      rw [h.cmp]
      cases cb.cmp y old.1 <;> rfl

theorem pairsMpi_regraded (rows : List (GeneticMpi.Row F)) (g n : Nat) : ∀ (i : Nat) (xs : List I),
    GeneticMpi.pairs (rows.map (rowMpi f)) g n i xs = (GeneticMpi.pairs rows g n i xs).map (List.map (fun q => (q.1, f q.2)))
  | _, [] => rfl
  | i, x :: xs => by
    rw [GeneticMpi.pairs, GeneticMpi.pairs, List.getElem?_map, pairsMpi_regraded rows g n (i + 1) xs]
    cases rows[(g - 1) * n + i]? with
    | none => rfl
    | some r =>
      cases GeneticMpi.pairs rows g n (i + 1) xs <;> rfl

theorem generation_regraded (h : Regraded f cb cb') (procs : Nat) (s : GeneticMpi.State I F) :
    GeneticMpi.generation cb' procs (stateMpi f s) = (GeneticMpi.generation cb procs s).map (fun x => (x.1.map (rowMpi f), x.2.1.map (grade f), x.2.2)) := by
  obtain ⟨g, pop, rows, bests, b, r, st⟩ := s
  unfold GeneticMpi.generation stateMpi
  dsimp only
  cases GeneticMpi.deal (GeneticMpi.sizes (pop.length / procs) (pop.length % procs) procs) pop with
  | none => rfl
  | some blocks =>
    dsimp only
    rw [workAll_regraded h]
    generalize GeneticMpi.workAll cb (g + 1) (GeneticMpi.displs 0 (blocks.map List.length)) bests blocks = ws
    have h1 : (ws.map (workMap f)).map (fun w => w.2.1) = (ws.map (fun w => w.2.1)).map (Option.map (grade f)) := by
      rw [List.map_map, List.map_map]
      rfl
    have h2 : (ws.map (workMap f)).flatMap (fun w => w.1) = (ws.flatMap (fun w => w.1)).map (rowMpi f) := by
      rw [List.flatMap_map, List.map_flatMap]
      rfl
    have h3 : (ws.map (workMap f)).any (fun w => w.2.2) = ws.any (fun w => w.2.2) := by
      rw [List.any_map]
      rfl
    rw [h1, h2, h3, allBests_regraded, reindex_regraded]
    cases GeneticMpi.allBests (ws.map (fun w => w.2.1)) with
    | none => rfl
    | some bs =>
      simp only [Option.map_some]
      cases GeneticMpi.reindex (blocks.map List.length) (GeneticMpi.displs 0 (blocks.map List.length)) 0 0 (ws.flatMap (fun w => w.1)) <;> rfl

/-- The result of a round of the distributed search with the other fitnesses. -/
def roundMpi (f : F → F') : GeneticMpi.Round I F → GeneticMpi.Round I F'
  | .halt s => .halt (stateMpi f s)
  | .next s => .next (stateMpi f s)
  | .hang => .hang
  | .panic => .panic

variable [DecidableEq F] [DecidableEq F']

theorem roundMpi_regraded (h : Regraded f cb cb') {dummy : F} {dummy' : F'} (hd : ∀ y, f y = dummy' ↔ y = dummy) (limit procs : Nat) (s : GeneticMpi.State I F) :
    GeneticMpi.round cb' dummy' limit procs (stateMpi f s) = roundMpi f (GeneticMpi.round cb dummy limit procs s) := by
  have hg := generation_regraded h procs s
  obtain ⟨g, pop, rows, bests, b, r, st⟩ := s
  unfold GeneticMpi.round
  rw [hg]
  unfold stateMpi
  dsimp only
  by_cases hl : limit ≠ 0 ∧ g = limit
  · rw [if_pos hl, if_pos hl]
    rfl
  · rw [if_neg hl, if_neg hl]
    cases GeneticMpi.generation cb procs ⟨g, pop, rows, bests, b, r, st⟩ with
    | none => rfl
    | some x =>
      obtain ⟨nrows, nbests, flag⟩ := x
      simp only [Option.map_some]
      have h1 : (nrows.map (rowMpi f)).any (fun r => decide (r.fitness = dummy')) = nrows.any (fun r => decide (r.fitness = dummy)) := by
        rw [List.any_map]
        congr 1
        funext r
        show decide (f r.fitness = dummy') = decide (r.fitness = dummy)
        exact decide_eq_decide.2 (hd _)
      rw [h1]
      by_cases ha : nrows.any (fun r => decide (r.fitness = dummy)) = true
      · rw [if_pos ha, if_pos ha]
        rfl
      · rw [if_neg ha, if_neg ha, show (none : Option F') = (none : Option F).map f from rfl, bestFitness_regraded h, updateBestMpi_regraded h]
        cases GeneticMpi.updateBest cb.cmp (g + 1) b (nrows.foldl (GeneticMpi.bestFitness cb.cmp) none) with
        | none => rfl
        | some nb =>
          have h2 : (nbests.map (grade f)).map some = (nbests.map some).map (Option.map (grade f)) := by
            rw [List.map_map, List.map_map]
            rfl
          simp only [Option.map_some]
          rw [bestRow_regraded h, bestOfAll_regraded h, ← List.map_append, h2, pairsMpi_regraded]
          by_cases hf : flag = true
          · rw [if_pos hf, if_pos hf]
            rfl
          · rw [if_neg hf, if_neg hf]
            cases GeneticMpi.pairs (rows ++ nrows) (g + 1) pop.length 0 pop with
            | none => rfl
            | some pf =>
              simp only [Option.map_some]
              have hlen : (cb'.select (g + 1) (pf.map (fun q => (q.1, f q.2)))).length = (cb.select (g + 1) pf).length := by
                have := congrArg List.length (h.select (g + 1) pf)
                rwa [List.length_map, List.length_map] at this
              rw [hlen, h.select, h.cross, mutateAll_regraded h]
              by_cases hs : (cb.select (g + 1) pf).length ≤ 1
              · rw [if_pos hs, if_pos hs]
                by_cases hp : procs ≤ 1
                · rw [if_pos hp, if_pos hp]
                  rfl
                · rw [if_neg hp, if_neg hp]
                  rfl
              · rw [if_neg hs, if_neg hs]
                rfl

theorem loopMpi_regraded (h : Regraded f cb cb') {dummy : F} {dummy' : F'} (hd : ∀ y, f y = dummy' ↔ y = dummy) (limit procs : Nat) :
    ∀ (fuel : Nat) (s : GeneticMpi.State I F), GeneticMpi.loop cb' dummy' limit procs fuel (stateMpi f s) = outcomeMpi f (GeneticMpi.loop cb dummy limit procs fuel s)
  | 0, s => rfl
  | fuel + 1, s => by
    unfold GeneticMpi.loop
    rw [roundMpi_regraded h hd]
    cases GeneticMpi.round cb dummy limit procs s with
    | panic => rfl
    | hang => rfl
    | next s' => exact loopMpi_regraded h hd limit procs fuel s'
    | halt s' =>
      obtain ⟨g, pop, rows, bests, b, r, st⟩ := s'
      cases b <;> rfl

/-- **C271, distributed genetic search.** (Partial: the fitness 1000, which the search takes for a missing one, is left alone.) -/
theorem C271_distributed_partial (h : Regraded f cb cb') {dummy : F} {dummy' : F'} (hd : ∀ y, f y = dummy' ↔ y = dummy) (init : List I) (limit procs fuel : Nat) :
    GeneticMpi.gaMpi cb' dummy' init limit procs fuel = outcomeMpi f (GeneticMpi.gaMpi cb dummy init limit procs fuel) := by
  have := loopMpi_regraded h hd limit procs fuel ⟨0, init, [], List.replicate procs none, none, ⟨0, 0, dummy⟩, none⟩
  unfold stateMpi rowMpi at this
  simp only [List.map_replicate, Option.map_none, List.map_nil, (hd dummy).2 rfl] at this
  exact this

/-! ### Cloud genetic search -/

variable {q : Rat → Rat} {cba cba' : GeneticAws.Callbacks I}

theorem answer_regraded {fit fit' : Nat → I → Rat} (h : ∀ j x, fit' j x = q (fit j x)) (g : Nat) : ∀ (j : Nat) (xs : List I),
    GeneticAws.answer fit' g j xs = (GeneticAws.answer fit g j xs).map (rowAws q)
  | _, [] => rfl
  | j, x :: xs => by
    rw [GeneticAws.answer, GeneticAws.answer, answer_regraded h g (j + 1) xs, h]
    rfl

theorem messages_regraded {fit fit' : Nat → Nat → I → Rat} (h : ∀ i j x, fit' i j x = q (fit i j x)) (g : Nat) : ∀ (i : Nat) (xss : List (List I)),
    GeneticAws.messages fit' g i xss = (GeneticAws.messages fit g i xss).map (Option.map (List.map (rowAws q)))
  | _, [] => rfl
  | i, xs :: xss => by
    rw [GeneticAws.messages, GeneticAws.messages, messages_regraded h g (i + 1) xss, answer_regraded (h i)]
    cases xs.isEmpty <;> rfl

theorem parse_regraded : ∀ ms : List (Option (List (GeneticAws.Row I))),
    GeneticAws.parse (ms.map (Option.map (List.map (rowAws q)))) = (GeneticAws.parse ms).map (List.map (rowAws q))
  | [] => rfl
  | none :: _ => rfl
  | some rows :: ms => by
    show (GeneticAws.parse (ms.map (Option.map (List.map (rowAws q))))).map (fun l => rows.map (rowAws q) ++ l) = _
    rw [parse_regraded ms, GeneticAws.parse]
    cases GeneticAws.parse ms with
    | none => rfl
    | some l => simp only [Option.map_some, List.map_append]

theorem bestGenAws_regraded (hq : ∀ a b, q a < q b ↔ a < b) (h0 : q 0 = 0) (rows : List (GeneticAws.Row I)) :
    GeneticAws.bestGen (rows.map (rowAws q)) = grade q (GeneticAws.bestGen rows) := by
  unfold GeneticAws.bestGen
  have key : ∀ b : Rat × Option I, (rows.map (rowAws q)).foldl GeneticAws.bestStep (grade q b) = grade q (rows.foldl GeneticAws.bestStep b) := by
    induction rows with
    | nil => exact fun _ => rfl
    | cons r rows ih =>
      intro b
      rw [List.map_cons, List.foldl_cons, List.foldl_cons, ← ih]
      congr 1
      unfold GeneticAws.bestStep rowAws grade
      dsimp only
      by_cases hc : r.fitness > b.1
      · rw [if_pos hc, if_pos ((hq _ _).2 hc)]
      · rw [if_neg hc, if_neg (fun h => hc ((hq _ _).1 h))]
  have := key (0, none)
  unfold grade at this ⊢
  dsimp only at this
  rw [h0] at this
  exact this

theorem updateBestAws_regraded (hq : ∀ a b, q a < q b ↔ a < b) (b bg : Rat × Option I) :
    GeneticAws.updateBest (grade q b) (grade q bg) = grade q (GeneticAws.updateBest b bg) := by
  unfold GeneticAws.updateBest grade
  dsimp only
  by_cases hc : bg.1 > b.1
  · rw [if_pos hc, if_pos ((hq _ _).2 hc)]
  · rw [if_neg hc, if_neg (fun h => hc ((hq _ _).1 h))]

theorem mutateAws_regraded (h : RegradedAws q cba cba') (g : Nat) : ∀ (k : Nat) (xs : List I), GeneticAws.mutateAll cba' g k xs = GeneticAws.mutateAll cba g k xs
  | _, [] => rfl
  | k, x :: xs => by
    rw [GeneticAws.mutateAll, GeneticAws.mutateAll, h.mutate, mutateAws_regraded h g (k + 1) xs]

/-- The result of a round of the cloud search with the other fitnesses. -/
def roundAws (q : Rat → Rat) : GeneticAws.Round I → GeneticAws.Round I
  | .halt s => .halt (stateAws q s)
  | .next s => .next (stateAws q s)
  | .panic => .panic

theorem roundAws_regraded (h : RegradedAws q cba cba') (hq : ∀ a b, q a < q b ↔ a < b) (h0 : q 0 = 0)
    {arrive : Nat → List (Option (List (GeneticAws.Row I))) → List (Option (List (GeneticAws.Row I)))}
    (ha : ∀ g ms, arrive g (ms.map (Option.map (List.map (rowAws q)))) = (arrive g ms).map (Option.map (List.map (rowAws q)))) (limit reps numFunc : Nat)
    (s : GeneticAws.State I) :
    GeneticAws.round cba' arrive limit reps numFunc (stateAws q s) = roundAws q (GeneticAws.round cba arrive limit reps numFunc s) := by
  obtain ⟨g, pop, rows, b⟩ := s
  unfold GeneticAws.round stateAws
  dsimp only
  by_cases hl : limit ≠ 0 ∧ g = limit
  · rw [if_pos hl, if_pos hl]
    rfl
  · rw [if_neg hl, if_neg hl]
    unfold GeneticAws.generation
    cases GeneticAws.workload pop reps numFunc with
    | none => rfl
    | some lists =>
      dsimp only
      rw [messages_regraded (h.fit (g + 1)), ha, parse_regraded, h.desired]
      cases GeneticAws.parse (arrive (g + 1) (GeneticAws.messages (cba.fit (g + 1)) (g + 1) 0 lists)) with
      | none => rfl
      | some nrows =>
        simp only [Option.map_some]
        have h1 : (nrows.map (rowAws q)).any (fun r => decide (r.fitness ≥ q cba.desired)) = nrows.any (fun r => decide (r.fitness ≥ cba.desired)) := by
          rw [List.any_map]
          congr 1
          funext r
          show decide (q cba.desired ≤ q r.fitness) = decide (cba.desired ≤ r.fitness)
          refine decide_eq_decide.2 ?_
          rw [← not_lt, ← not_lt, hq]
        have h2 : (nrows.map (rowAws q)).map (fun r => (r.individual, r.fitness)) = (nrows.map (fun r => (r.individual, r.fitness))).map (fun x => (x.1, q x.2)) := by
          rw [List.map_map, List.map_map]
          rfl
        have hlen : (cba'.select (g + 1) ((nrows.map (fun r => (r.individual, r.fitness))).map (fun x => (x.1, q x.2)))).length =
            (cba.select (g + 1) (nrows.map (fun r => (r.individual, r.fitness)))).length := by
          have := congrArg List.length (h.select (g + 1) (nrows.map (fun r => (r.individual, r.fitness))))
          rwa [List.length_map, List.length_map] at this
        rw [h1, h2, hlen, h.select, h.cross, mutateAws_regraded h, bestGenAws_regraded hq h0, updateBestAws_regraded hq, ← List.map_append]
        by_cases hf : nrows.any (fun r => decide (r.fitness ≥ cba.desired)) = true
        · rw [if_pos hf, if_pos hf]
          rfl
        · rw [if_neg hf, if_neg hf]
          by_cases hs : (cba.select (g + 1) (nrows.map (fun r => (r.individual, r.fitness)))).length ≤ 1
          · rw [if_pos hs, if_pos hs]
            rfl
          · rw [if_neg hs, if_neg hs]
            rfl

theorem loopAws_regraded (h : RegradedAws q cba cba') (hq : ∀ a b, q a < q b ↔ a < b) (h0 : q 0 = 0)
    {arrive : Nat → List (Option (List (GeneticAws.Row I))) → List (Option (List (GeneticAws.Row I)))}
    (ha : ∀ g ms, arrive g (ms.map (Option.map (List.map (rowAws q)))) = (arrive g ms).map (Option.map (List.map (rowAws q)))) (limit reps numFunc : Nat) :
    ∀ (fuel : Nat) (s : GeneticAws.State I),
      GeneticAws.loop cba' arrive limit reps numFunc fuel (stateAws q s) = outcomeAws q (GeneticAws.loop cba arrive limit reps numFunc fuel s)
  | 0, s => rfl
  | fuel + 1, s => by
    unfold GeneticAws.loop
    rw [roundAws_regraded h hq h0 ha]
    cases GeneticAws.round cba arrive limit reps numFunc s with
    | panic => rfl
    | next s' => exact loopAws_regraded h hq h0 ha limit reps numFunc fuel s'
    | halt s' => rfl

/-- **C271, cloud genetic search.** (Partial: the fitness 0, with which the search for the best starts, is left alone; the order in which messages arrive
does not depend on the fitnesses.) -/
theorem C271_cloud_partial (h : RegradedAws q cba cba') (hq : ∀ a b, q a < q b ↔ a < b) (h0 : q 0 = 0)
    {arrive : Nat → List (Option (List (GeneticAws.Row I))) → List (Option (List (GeneticAws.Row I)))}
    (ha : ∀ g ms, arrive g (ms.map (Option.map (List.map (rowAws q)))) = (arrive g ms).map (Option.map (List.map (rowAws q)))) (init : List I)
    (limit reps numFunc fuel : Nat) : GeneticAws.gaAws cba' arrive init limit reps numFunc fuel = outcomeAws q (GeneticAws.gaAws cba arrive init limit reps numFunc fuel) := by
  have := loopAws_regraded h hq h0 ha limit reps numFunc fuel ⟨0, init, [], (0, none)⟩
  unfold stateAws grade at this
  dsimp only at this
  rw [h0] at this
  exact this

/-! ### Where it is false, and examples -/

/-- A search for large numbers whose selection keeps all. -/
def demoLarge (shift : Int) : Callbacks Int Int :=
  { fitness := fun _ _ x => x + shift
    select := fun _ l => l
    cross := fun _ l => l
    mutate := fun _ _ x => x + 1
    cmp := fun a b => decide (a > b)
    desired := 5 + shift }

/-- The same in the cloud. -/
def demoCloud (shift : Rat) : GeneticAws.Callbacks Nat :=
  { fit := fun _ _ _ x => x + shift
    select := fun _ l => l
    cross := fun _ l => l
    mutate := fun _ _ x => x + 1
    desired := 5 + shift }

/-- The individual reported. -/
def reported : GeneticMpi.Outcome Int Int → Option Int
  | .finished _ _ _ s => s.map Prod.snd
  | _ => none

/-- The individual reported by the cloud search. -/
def reportedCloud : GeneticAws.Outcome Nat → Option Nat
  | .finished _ b => b.2
  | _ => none

/-- **C271** is false of the distributed search if a changed fitness is 1000: with 997 added to all fitnesses the search panics. -/
theorem C271_distributed_negation_partial :
    reported (GeneticMpi.gaMpi (demoLarge 0) 1000 [3, 2] 2 1 5) = some 4 ∧ (∀ a b : Int, (demoLarge 997).cmp (a + 997) (b + 997) = (demoLarge 0).cmp a b) ∧
      (∀ g k x, (demoLarge 997).fitness g k x = (demoLarge 0).fitness g k x + 997) ∧ (demoLarge 997).desired = (demoLarge 0).desired + 997 ∧
      reported (GeneticMpi.gaMpi (demoLarge 997) 1000 [3, 2] 2 1 5) = none := by
  refine ⟨by decide +kernel, fun a b => decide_eq_decide.2 ⟨fun h => by omega, fun h => by omega⟩, fun g k x => ?_, by decide, by decide +kernel⟩
  show x + 997 = x + 0 + 997
  omega

/-- **C271** is false of the cloud search if fitnesses are below 0: with 100 taken from all fitnesses no individual is reported. -/
theorem C271_cloud_negation_partial :
    reportedCloud (GeneticAws.gaAws (demoCloud 0) (fun _ ms => ms) [3, 2] 2 1 1 5) = some 4 ∧
      (∀ g i j x, (demoCloud (-100)).fit g i j x = (demoCloud 0).fit g i j x + -100) ∧ (demoCloud (-100)).desired = (demoCloud 0).desired + -100 ∧
      reportedCloud (GeneticAws.gaAws (demoCloud (-100)) (fun _ ms => ms) [3, 2] 2 1 1 5) = none := by
  refine ⟨by decide +kernel, fun g i j x => ?_, by decide +kernel, by decide +kernel⟩
  show (x : Rat) + -100 = x + 0 + -100
  rw [add_zero]

/-- A score that depends on whether a value above 10 has been seen. -/
def demoScore (hist : List (Int × Fl)) (x : Int) : Fl :=
  if (hist.map Prod.snd).any (fun y => Fl.lt (.fin 10) y) then .fin x else .fin (-x)

/-- **C271** is false of the bayesian search if the score of a sample depends on the values themselves: the same objective ten times as large leads to another
sample and to another result. -/
theorem C271_bayesian_negation_partial :
    (Search.bayesianSearch (fun _ x => .fin (if x = 5 then 4 else 3)) (fun _ _ => [5, 6]) demoScore [1] 1).map (fun r => r.1.1) = some 5 ∧
    (Search.bayesianSearch (fun _ x => .fin (10 * if x = 5 then 4 else 3)) (fun _ _ => [5, 6]) demoScore [1] 1).map (fun r => r.1.1) = some 1 := by
  decide +kernel

/-- Doubling all fitnesses keeps comparisons. -/
example : Regraded (fun a : Int => 2 * a) (demoLarge 0) { demoLarge 0 with fitness := fun _ _ x => 2 * (x + 0), desired := 10 } := by
  refine ⟨fun _ _ _ => rfl, fun a b => decide_eq_decide.2 ⟨fun h => by omega, fun h => by omega⟩, rfl, fun g l => ?_, fun _ _ => rfl, fun _ _ _ => rfl⟩
  show (l.map _).map _ = l.map _
  rw [List.map_map]
  rfl

/-- Twice the distance from 1000 keeps comparisons and leaves 1000 alone, as the distributed search needs. -/
example : Regraded (fun a : Int => 2 * a - 1000) (demoLarge 0) { demoLarge 0 with fitness := fun _ _ x => 2 * (x + 0) - 1000, desired := -990 } ∧
    ∀ y : Int, 2 * y - 1000 = 1000 ↔ y = 1000 := by
  refine ⟨⟨fun _ _ _ => rfl, fun a b => decide_eq_decide.2 ⟨fun h => by omega, fun h => by omega⟩, rfl, fun g l => ?_, fun _ _ => rfl, fun _ _ _ => rfl⟩, fun y => by omega⟩
  show (l.map _).map _ = l.map _
  rw [List.map_map]
  rfl

/-- Twice the fitness is possible in the cloud. -/
example : RegradedAws (fun a : Rat => 2 * a) (demoCloud 0) { demoCloud 0 with fit := fun _ _ _ x => 2 * (x + 0), desired := 2 * (5 + 0) } ∧
    (∀ a b : Rat, 2 * a < 2 * b ↔ a < b) ∧ (2 : Rat) * 0 = 0 := by
  refine ⟨⟨fun _ _ _ _ => rfl, rfl, fun g l => ?_, fun _ _ => rfl, fun _ _ _ => rfl⟩, fun a b => mul_lt_mul_iff_of_pos_left (by decide +kernel), by decide +kernel⟩
  show (l.map _).map _ = l.map _
  rw [List.map_map]
  rfl

/-- Twice the distance from a number. -/
def demoTwice (c : Rat) : Fl → Fl
  | .fin a => .fin (2 * (a - c) + c)
  | x => x

theorem demoTwice_lt (c a b : Rat) : 2 * (a - c) + c < 2 * (b - c) + c ↔ a < b := by
  rw [add_lt_add_iff_right, mul_lt_mul_iff_of_pos_left (by decide +kernel), sub_lt_sub_iff_right]

/-- Twice the distance from the largest (smallest) number leaves it alone and keeps comparisons, as the random and the bayesian search need. -/
example (c : Rat) : KeepsOrder (demoTwice c) ∧ demoTwice c (.fin c) = .fin c ∧ demoTwice 0 (.fin 1) ≠ .fin 1 := by
  refine ⟨⟨fun a b => ?_, fun a b => ?_⟩, ?_, by decide +kernel⟩
  · cases a <;> cases b <;> try rfl
    exact decide_eq_decide.2 (demoTwice_lt c _ _)
  · cases a <;> cases b <;> try rfl
    refine decide_eq_decide.2 ?_
    rw [← not_lt, ← not_lt, demoTwice_lt]
  · show Fl.fin (2 * (c - c) + c) = .fin c
    rw [sub_self, mul_zero, zero_add]

end Verif.OnlyOrder
