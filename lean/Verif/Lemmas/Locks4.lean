import Verif.Lemmas.Locks3

/-!
The steps of the parallel schedule never hang.
-/

namespace Verif.Locks

/-- The ranks of the events of `n` steps: what happens later ranks lower, messages rank lowest. -/
def evRank (n : Nat) : Ev → Nat
  | .spawned s _ => 2 * (n - s) + 2
  | .ended s _ => 2 * (n - s) + 1
  | .message _ => 0

theorem evRank_low (n : Nat) (e : Ev) : evRank n e < 2 * n + 3 := by
  cases e <;> simp only [evRank] <;> omega

theorem piece_plan_hook {n : Nat} (us : List User) (hu : ∀ u ∈ us, GentleUser u) :
    Piece (rank false (2 * n + 3)) (evRank n) [] (guarded .state (userTrace .message us)) :=
  piece_guarded (evRank_low n) (below_nil _ _)
    (piece_users (evRank_low n) (below_cons (by simp [lockOrder]) (below_nil _ _)) _ us hu)

theorem piece_beforeThreads {n : Nat} (k : Nat) {p : StepPlan} (hp : GentlePlan p) :
    Piece (rank false (2 * n + 3)) (evRank n) [] (beforeThreads k p) := by
  have ev : Piece (rank false (2 * n + 3)) (evRank n) [] (guarded .events []) :=
    piece_lock (evRank_low n) (below_nil _ _)
  refine piece_append (piece_append (piece_append (piece_append (piece_append (piece_append ev ?_)
    (piece_plan_hook _ hp.2.1)) ev) ev) ?_) ev
  · split
    · exact piece_plan_hook _ hp.1
    · exact piece_nil
  · refine piece_flatten ?_
    intro q hq
    rw [(List.mem_replicate.mp hq).2]
    exact piece_append ev ev

theorem talks_beforeThreads (k : Nat) (p : StepPlan) : Talks Ev.message (beforeThreads k p) := by
  have ev : Talks Ev.message (guarded .events []) := talks_of_silent (silent_guarded silent_nil)
  refine talks_append (talks_append (talks_append (talks_append (talks_append (talks_append ev ?_)
    (talks_guarded (talks_users _ _))) ev) ev) ?_) ev
  · split
    · exact talks_guarded (talks_users _ _)
    · exact talks_of_silent silent_nil
  · apply talks_of_silent
    refine silent_flatten ?_
    intro q hq
    rw [(List.mem_replicate.mp hq).2]
    exact silent_append (silent_guarded silent_nil) (silent_guarded silent_nil)

theorem piece_item {n : Nat} (item : List User × Bool) (h : ∀ u ∈ item.1, GentleUser u) :
    Piece (rank false (2 * n + 3)) (evRank n) [] (itemL item) := by
  refine piece_guarded (evRank_low n) (below_nil _ _) (piece_append
    (piece_users (evRank_low n) (below_cons (by simp [lockOrder]) (below_nil _ _)) _ _ h) ?_)
  split
  · exact piece_lock (evRank_low n) (below_cons (by simp [lockOrder]) (below_nil _ _))
  · exact piece_nil

theorem talks_item (item : List User × Bool) : Talks Ev.message (itemL item) := by
  refine talks_guarded (talks_append (talks_users _ _) ?_)
  split
  · exact talks_of_silent (silent_guarded silent_nil)
  · exact talks_of_silent silent_nil

theorem ok_worker {n s t : Nat} {batch : List (List User × Bool)}
    (h : ∀ item ∈ batch, ∀ u ∈ item.1, GentleUser u) :
    Ok (rank false (2 * n + 3)) (evRank n) [] (workerL s t batch) := by
  refine ⟨fun h hh => absurd hh List.not_mem_nil, ?_, ?_⟩
  · intro e he
    rcases List.mem_append.mp he with he | he
    · obtain ⟨k, rfl⟩ := (talks_flatMap (fun item _ => talks_item item)).1 e (mem_signals.mpr he)
      simp [evRank]
    · have : e = .ended s t := by simpa using he
      subst this
      simp [evRank]
  · exact piece_flatMap (fun item hi => piece_item item (h item hi)) _ rfl

/-- Signals can go in front of anything. -/
theorem ok_signals {L E : Type} [DecidableEq L] {rl : L → Nat} {re : E → Nat} {held : List L} (es : List E)
    {q : List (Act L E)} (hq : Ok rl re held q) : Ok rl re held (es.map Act.signal ++ q) := by
  induction es with
  | nil => exact hq
  | cons e es ih => exact ih

/-- Waiting without holding anything, for events above what is signalled later. -/
theorem ok_awaits {L E : Type} [DecidableEq L] {rl : L → Nat} {re : E → Nat} (es : List E)
    {q : List (Act L E)} (hq : Ok rl re [] q) (hes : ∀ e ∈ es, ∀ e', Act.signal e' ∈ q → re e' < re e) :
    Ok rl re [] (es.map Act.await ++ q) := by
  induction es with
  | nil => exact hq
  | cons e es ih =>
    refine ⟨fun h hh => absurd hh List.not_mem_nil, ?_, ih fun e' h' => hes e' (List.mem_cons_of_mem _ h')⟩
    intro e' he'
    rcases List.mem_append.mp he' with h | h
    · obtain ⟨x, _, hx⟩ := List.mem_map.mp h
      exact (nomatch hx)
    · exact hes e List.mem_cons_self e' h

theorem signals_steps {n : Nat} : ∀ (ps : List (Nat × StepPlan)) (s : Nat), s + ps.length = n →
    ∀ e, Act.signal e ∈ stepsL s ps → evRank n e ≤ 2 * (n - s) + 2 ∧
      (∀ s' t, e = .spawned s' t → s ≤ s')
  | [], s, _, e, he => absurd he List.not_mem_nil
  | p :: ps, s, hn, e, he => by
    have hn' : s + 1 + ps.length = n := by simp at hn; omega
    have msg : (∃ k, e = Ev.message k) → evRank n e ≤ 2 * (n - s) + 2 ∧ (∀ s' t, e = .spawned s' t → s ≤ s') := by
      rintro ⟨k, rfl⟩
      exact ⟨by simp [evRank], fun s' t h => (nomatch h)⟩
    rw [stepsL] at he
    rcases List.mem_append.mp he with he | he
    · rw [stepL] at he
      rcases List.mem_append.mp he with he | he
      · rcases List.mem_append.mp he with he | he
        · rcases List.mem_append.mp he with he | he
          · rcases List.mem_append.mp he with he | he
            · exact msg ((talks_beforeThreads p.1 p.2).1 e (mem_signals.mpr he))
            · obtain ⟨t, _, ht⟩ := List.mem_map.mp he
              cases ht
              refine ⟨by simp [evRank], ?_⟩
              rintro s' t' h
              cases h
              exact Nat.le_refl _
          · obtain ⟨t, _, ht⟩ := List.mem_map.mp he
            exact (nomatch ht)
        · exact msg ((talks_guarded (talks_users Ev.message _)).1 e (mem_signals.mpr he))
      · exact msg ((talks_guarded (talks_users Ev.message _)).1 e (mem_signals.mpr he))
    · obtain ⟨h1, h2⟩ := signals_steps ps (s + 1) hn' e he
      refine ⟨by omega, ?_⟩
      intro s' t h
      have := h2 s' t h
      omega

theorem ok_steps {n : Nat} : ∀ (ps : List (Nat × StepPlan)) (s : Nat), s + ps.length = n →
    (∀ p ∈ ps, GentlePlan p.2) → Ok (rank false (2 * n + 3)) (evRank n) [] (stepsL s ps)
  | [], _, _, _ => rfl
  | p :: ps, s, hn, hp => by
    have hn' : s + 1 + ps.length = n := by simp at hn; omega
    have ih := ok_steps ps (s + 1) hn' fun q hq => hp q (List.mem_cons_of_mem _ hq)
    have hpl := hp p List.mem_cons_self
    have hafter : Ok (rank false (2 * n + 3)) (evRank n) []
        (guarded .state (userTrace .message p.2.after) ++ guarded .state (userTrace .message p.2.update) ++
          stepsL (s + 1) ps) :=
      piece_append (piece_plan_hook _ hpl.2.2.1) (piece_plan_hook _ hpl.2.2.2.1) _ ih
    have htot : stepsL s (p :: ps) = beforeThreads p.1 p.2 ++
        ((List.range p.2.batches.length).map (fun t => Ev.spawned s t)).map Act.signal ++
        (((List.range p.2.batches.length).map (fun t => Ev.ended s t)).map Act.await ++
        (guarded .state (userTrace .message p.2.after) ++ guarded .state (userTrace .message p.2.update) ++
          stepsL (s + 1) ps)) := by
      simp [stepsL, stepL, List.map_map, Function.comp_def, List.append_assoc]
    rw [htot, List.append_assoc]
    refine piece_beforeThreads p.1 hpl _ (ok_signals _ (ok_awaits _ hafter ?_))
    intro e he e' he'
    obtain ⟨t, _, rfl⟩ := List.mem_map.mp he
    have msg : (∃ k, e' = Ev.message k) → evRank n e' < evRank n (.ended s t) := by
      rintro ⟨k, rfl⟩
      simp [evRank]
    rcases List.mem_append.mp he' with h | h
    · rcases List.mem_append.mp h with h | h
      · exact msg ((talks_guarded (talks_users Ev.message _)).1 e' (mem_signals.mpr h))
      · exact msg ((talks_guarded (talks_users Ev.message _)).1 e' (mem_signals.mpr h))
    · have := (signals_steps ps (s + 1) hn' e' h).1
      simp only [evRank]
      simp at hn
      cases e' with
      | spawned s' t' =>
        have h2 := (signals_steps ps (s + 1) hn' _ h).2 s' t' rfl
        simp only [evRank]
        omega
      | ended s' t' =>
        exfalso
        -- no step signals the end of a thread
        exact absurd h (not_ended ps (s + 1) s' t')
      | message k => simp [evRank]
where
  not_ended : ∀ (ps : List (Nat × StepPlan)) (s s' t' : Nat), Act.signal (Ev.ended s' t') ∉ stepsL s ps
    | [], _, _, _, h => absurd h List.not_mem_nil
    | p :: ps, s, s', t', he => by
      have msg : ¬ ∃ k, Ev.ended s' t' = Ev.message k := by
        rintro ⟨k, h⟩
        cases h
      rw [stepsL] at he
      rcases List.mem_append.mp he with he | he
      · rw [stepL] at he
        rcases List.mem_append.mp he with he | he
        · rcases List.mem_append.mp he with he | he
          · rcases List.mem_append.mp he with he | he
            · rcases List.mem_append.mp he with he | he
              · exact msg ((talks_beforeThreads p.1 p.2).1 _ (mem_signals.mpr he))
              · obtain ⟨t, _, ht⟩ := List.mem_map.mp he
                exact (nomatch ht)
            · obtain ⟨t, _, ht⟩ := List.mem_map.mp he
              exact (nomatch ht)
          · exact msg ((talks_guarded (talks_users Ev.message _)).1 _ (mem_signals.mpr he))
        · exact msg ((talks_guarded (talks_users Ev.message _)).1 _ (mem_signals.mpr he))
      · exact not_ended ps (s + 1) s' t' he

theorem mem_workers : ∀ (ps : List (Nat × StepPlan)) (s : Nat) (p : Trace Ev), p ∈ workersL s ps →
    ∃ q ∈ ps, ∃ s' t b, b ∈ q.2.batches ∧ p = workerL s' t b
  | [], _, _, h => absurd h List.not_mem_nil
  | q :: ps, s, p, h => by
    rw [workersL] at h
    rcases List.mem_append.mp h with h | h
    · obtain ⟨i, hi, hp⟩ := List.mem_mapIdx.mp h
      exact ⟨q, List.mem_cons_self, s, i, _, List.getElem_mem hi, hp.symm⟩
    · obtain ⟨q', hq', rest⟩ := mem_workers ps (s + 1) p h
      exact ⟨q', List.mem_cons_of_mem _ hq', rest⟩

/-- Each thread waits for its start, which the steps signal; each end a step waits for is signalled by its thread. -/
theorem workers_started : ∀ (ps : List (Nat × StepPlan)) (s : Nat) (p : Trace Ev), p ∈ workersL s ps →
    ∀ e, Act.await e ∈ p → Act.signal e ∈ stepsL s ps
  | [], _, _, h, _, _ => absurd h List.not_mem_nil
  | q :: ps, s, p, h, e, he => by
    rw [workersL] at h
    rw [stepsL]
    rcases List.mem_append.mp h with h | h
    · obtain ⟨i, hi, hp⟩ := List.mem_mapIdx.mp h
      subst hp
      have hee : e = .spawned s i := by
        rcases List.mem_cons.mp he with h1 | h1
        · cases h1; rfl
        · exfalso
          have h2 : e ∈ awaits (List.flatMap itemL q.2.batches[i] ++ [Act.signal (Ev.ended s i)]) := mem_awaits.mpr h1
          rw [awaits_append, (talks_flatMap (fun item _ => talks_item item)).2] at h2
          simp [awaits] at h2
      subst hee
      refine List.mem_append.mpr (Or.inl ?_)
      simp only [stepL, List.mem_append, List.mem_map, List.mem_range]
      exact Or.inl (Or.inl (Or.inl (Or.inr ⟨i, hi, rfl⟩)))
    · exact List.mem_append.mpr (Or.inr (workers_started ps (s + 1) p h e he))

theorem steps_ended : ∀ (ps : List (Nat × StepPlan)) (s : Nat) (e : Ev), Act.await e ∈ stepsL s ps →
    ∃ p ∈ workersL s ps, Act.signal e ∈ p
  | [], _, _, h => absurd h List.not_mem_nil
  | q :: ps, s, e, he => by
    have none : ∀ p : Trace Ev, Talks Ev.message p → Act.await e ∉ p := by
      intro p hp h
      have := mem_awaits.mpr h
      rw [hp.2] at this
      exact absurd this List.not_mem_nil
    rw [stepsL] at he
    rw [workersL]
    rcases List.mem_append.mp he with he | he
    · rw [stepL] at he
      rcases List.mem_append.mp he with he | he
      · rcases List.mem_append.mp he with he | he
        · rcases List.mem_append.mp he with he | he
          · rcases List.mem_append.mp he with he | he
            · exact absurd he (none _ (talks_beforeThreads q.1 q.2))
            · obtain ⟨t, _, ht⟩ := List.mem_map.mp he
              exact (nomatch ht)
          · obtain ⟨t, ht, h⟩ := List.mem_map.mp he
            cases h
            have hlt := List.mem_range.mp ht
            refine ⟨workerL s t q.2.batches[t], List.mem_append.mpr (Or.inl ?_), ?_⟩
            · exact List.mem_mapIdx.mpr ⟨t, hlt, rfl⟩
            · simp [workerL]
        · exact absurd he (none _ (talks_guarded (talks_users _ _)))
      · exact absurd he (none _ (talks_guarded (talks_users _ _)))
    · obtain ⟨p, hp, h⟩ := steps_ended ps (s + 1) e he
      exact ⟨p, List.mem_append.mpr (Or.inr hp), h⟩

/-- A simulation of parallel steps never hangs. -/
theorem simulation_never_hangs (init : List User) (ps : List (Nat × StepPlan)) (hinit : ∀ u ∈ init, GentleUser u)
    (hps : ∀ p ∈ ps, GentlePlan p.2) : ¬ CanHang (simulationL init ps) := by
  have hn : 0 + ps.length = ps.length := Nat.zero_add _
  refine ok_never_hangs (rank false (2 * ps.length + 3)) (evRank ps.length) _ ?_ ?_
  · intro p hp
    rcases List.mem_cons.mp hp with rfl | hp
    · exact piece_users (evRank_low _) (below_nil _ _) _ init hinit _ (ok_steps ps 0 hn hps)
    · obtain ⟨q, hq, s, t, b, hb, rfl⟩ := mem_workers ps 0 p hp
      exact ok_worker fun item hi u hu => (hps q hq).2.2.2.2 b hb item hi u hu
  · intro p hp e he
    rcases List.mem_cons.mp hp with rfl | hp
    · rcases List.mem_append.mp he with he | he
      · exfalso
        have h := mem_awaits.mpr he
        rw [(talks_users Ev.message init).2] at h
        exact absurd h List.not_mem_nil
      · obtain ⟨p, hp, h⟩ := steps_ended ps 0 e he
        exact ⟨p, List.mem_cons_of_mem _ hp, h⟩
    · exact ⟨_, List.mem_cons_self, List.mem_append.mpr (Or.inr (workers_started ps 0 p hp e he))⟩

end Verif.Locks
