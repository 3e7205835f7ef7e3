import Verif.Spec.Watchers
import Verif.Props.Permute

/-!
C266: agents that only watch do not disturb the simulation.
-/

namespace Verif.Schedule

variable {T A S V : Type} {see : S → V} {watch : A → Bool} {m : Model T A S} {m' : Model T A V}

/-- `Undisturbed`, with what the schedules keep about their numbers. -/
structure Shadow (see : S → V) (watch : A → Bool) (w : World T A S) (w' : World T A V) : Prop where
  same : Undisturbed see watch w w'
  nodup : (ids w.sched.events).Nodup
  nodup' : (ids w'.sched.events).Nodup
  known : ∀ i ∈ ids w.sched.events, i < w.sched.idCount
  known' : ∀ i ∈ ids w'.sched.events, i < w'.sched.idCount

theorem others_append (q q' : Queue T A) : others watch (q ++ q') = others watch q ++ others watch q' := List.filter_append _ _

theorem nodup_snoc {q : Queue T A} {e : Entry T A} (h : (ids q).Nodup) (he : e.1.id ∉ ids q) : (ids (q ++ [e])).Nodup := by
  simp only [ids, List.map_append, List.map_cons, List.map_nil] at *
  rw [List.nodup_append]
  exact ⟨h, by simp, fun x hx y hy hxy => he (by simp at hy; rw [← hy, ← hxy]; exact hx)⟩

theorem known_snoc {q : Queue T A} {e : Entry T A} {n k : Nat} (h : ∀ i ∈ ids q, i < n) (hk : n ≤ k) (he : e.1.id < k) : ∀ i ∈ ids (q ++ [e]), i < k := by
  intro i hi
  simp only [ids, List.map_append, List.map_cons, List.map_nil, List.mem_append, List.mem_singleton] at hi
  rcases hi with hi | rfl
  · exact Nat.lt_of_lt_of_le (h i hi) hk
  · exact he

theorem register_events (w : World T A S) (a : A) (t : T) (o : Int) (hk : ∀ i ∈ ids w.sched.events, i < w.sched.idCount) :
    (w.exec (.scheduleRepeating a t o)).sched.events = w.sched.events ++ [(⟨w.sched.idCount, a, true⟩, ⟨t, o⟩)] := by
  show (Queue.push w.sched.events ⟨w.sched.idCount, a, true⟩ ⟨t, o⟩).1 = _
  rw [push_fresh (fun hi => Nat.lt_irrefl _ (hk _ hi))]

/-- Both simulations schedule an agent that does not watch. -/
theorem Shadow.register {w : World T A S} {w' : World T A V} (h : Shadow see watch w w') (a : A) (t : T) (o : Int) (ha : watch a = false) :
    Shadow see watch (w.exec (.scheduleRepeating a t o)) (w'.exec (.scheduleRepeating a t o)) := by
  have g1 := register_events w a t o h.known
  have g2 := register_events w' a t o h.known'
  refine ⟨⟨h.same.state, h.same.step, ?_⟩, ?_, ?_, ?_, ?_⟩
  · rw [g1, g2, others_append, List.map_append, List.map_append]
    refine h.same.pending.append ?_
    unfold others
    rw [List.filter_cons_of_pos (by dsimp only; rw [ha]; rfl)]
    exact List.Perm.refl _
  · rw [g1]; exact nodup_snoc h.nodup (fun hi => Nat.lt_irrefl _ (h.known _ hi))
  · rw [g2]; exact nodup_snoc h.nodup' (fun hi => Nat.lt_irrefl _ (h.known' _ hi))
  · rw [g1]; exact known_snoc h.known (Nat.le_succ _) (Nat.lt_succ_self _)
  · rw [g2]; exact known_snoc h.known' (Nat.le_succ _) (Nat.lt_succ_self _)

/-- The watched simulation schedules a watcher. -/
theorem Shadow.enrol {w : World T A S} {w' : World T A V} (h : Shadow see watch w w') (a : A) (t : T) (o : Int) (ha : watch a = true) :
    Shadow see watch (w.exec (.scheduleRepeating a t o)) w' := by
  have g1 := register_events w a t o h.known
  refine ⟨⟨h.same.state, h.same.step, ?_⟩, ?_, h.nodup', ?_, h.known'⟩
  · rw [g1, others_append, List.map_append]
    have e : others watch [((⟨w.sched.idCount, a, true⟩, ⟨t, o⟩) : Entry T A)] = [] := by
      unfold others
      rw [List.filter_cons_of_neg (by dsimp only; rw [ha]; decide)]
      rfl
    rw [e, List.map_nil, List.append_nil]
    exact h.same.pending
  · rw [g1]; exact nodup_snoc h.nodup (fun hi => Nat.lt_irrefl _ (h.known _ hi))
  · rw [g1]; exact known_snoc h.known (Nat.le_succ _) (Nat.lt_succ_self _)

theorem Shadow.calls : ∀ (l : List (Plan T A)) {w : World T A S} {w' : World T A V}, Shadow see watch w w' →
    Shadow see watch (w.execAll (Plan.calls l)) (w'.execAll (Plan.calls (l.filter (fun p => !watch p.agent))))
  | [], _, _, h => h
  | p :: l, w, w', h => by
    cases hp : watch p.agent with
    | false =>
      rw [List.filter_cons_of_pos (by rw [hp]; rfl)]
      exact Shadow.calls l (h.register p.agent p.time p.ordering hp)
    | true =>
      rw [List.filter_cons_of_neg (by rw [hp]; decide)]
      exact Shadow.calls l (h.enrol p.agent p.time p.ordering hp)

theorem Shadow.doUpdate (hm : Unwatched see watch m m') {w : World T A S} {w' : World T A V} (h : Shadow see watch w w') {k k' : Nat} (hk : k' = k) :
    Shadow see watch (w.doUpdate m k) (w'.doUpdate m' k') := by
  subst hk
  exact ⟨⟨by show m'.update _ w'.state = _; rw [h.same.state, hm.update]; rfl, h.same.step, h.same.pending⟩, h.nodup, h.nodup', h.known, h.known'⟩

theorem Shadow.doBefore (hm : Unwatched see watch m m') {w : World T A S} {w' : World T A V} (h : Shadow see watch w w') :
    Shadow see watch (w.doBefore m) (w'.doBefore m') := by
  obtain ⟨l, h1, h2⟩ := hm.before w.state w.sched w'.sched
  unfold World.doBefore
  dsimp only
  rw [h.same.state, h2, h1]
  exact Shadow.calls l ⟨⟨rfl, h.same.step, h.same.pending⟩, h.nodup, h.nodup', h.known, h.known'⟩

theorem Shadow.doAfter (hm : Unwatched see watch m m') {w : World T A S} {w' : World T A V} (h : Shadow see watch w w') :
    Shadow see watch (w.doAfter m) (w'.doAfter m') := by
  obtain ⟨l, h1, h2⟩ := hm.after w.state w.sched w'.sched
  unfold World.doAfter
  dsimp only
  rw [h.same.state, h2, h1]
  exact Shadow.calls l ⟨⟨rfl, h.same.step, h.same.pending⟩, h.nodup, h.nodup', h.known, h.known'⟩

theorem Shadow.pre (hm : Unwatched see watch m m') {w : World T A S} {w' : World T A V} (h : Shadow see watch w w') :
    Shadow see watch (preStep m w) (preStep m' w') := by
  unfold preStep
  rw [h.same.step]
  by_cases h0 : w.sched.step = 0
  · rw [if_pos h0, if_pos h0]
    exact (h.doUpdate hm rfl).doBefore hm
  · rw [if_neg h0, if_neg h0]
    exact h.doBefore hm

theorem Shadow.post (hm : Unwatched see watch m m') {w : World T A S} {w' : World T A V} (h : Shadow see watch w w') :
    Shadow see watch (postStep m w) (postStep m' w') := by
  have h1 := h.doAfter hm
  have h2 : Shadow see watch
      (⟨(w.doAfter m).state, ⟨(w.doAfter m).sched.step + 1, (w.doAfter m).sched.time, (w.doAfter m).sched.events, (w.doAfter m).sched.idCount,
        (w.doAfter m).sched.pops⟩, (w.doAfter m).trace⟩ : World T A S)
      ⟨(w'.doAfter m').state, ⟨(w'.doAfter m').sched.step + 1, (w'.doAfter m').sched.time, (w'.doAfter m').sched.events, (w'.doAfter m').sched.idCount,
        (w'.doAfter m').sched.pops⟩, (w'.doAfter m').trace⟩ :=
    ⟨⟨h1.same.state, congrArg (· + 1) h1.same.step, h1.same.pending⟩, h1.nodup, h1.nodup', h1.known, h1.known'⟩
  exact h2.doUpdate hm (congrArg (· + 1) h1.same.step)

/-- What the three calls of an agent do. -/
def ran (m : Model T A S) (a : A) (s : S) : A × S :=
  m.aAfter (m.aStep (m.aBefore a s).1 (m.aBefore a s).2).1 (m.aStep (m.aBefore a s).1 (m.aBefore a s).2).2

/-- An agent runs and is put on the schedule again or not. -/
theorem runOne_ran (m : Model T A S) (w : World T A S) (e : Entry T A) (hf : e.1.id ∉ ids w.sched.events) : ∃ tr,
    runOne m w e = (if e.1.repeating = true then
      (if (m.isStopped (ran m e.1.agent w.state).1 (ran m e.1.agent w.state).2).1 = true then
        ⟨(m.isStopped (ran m e.1.agent w.state).1 (ran m e.1.agent w.state).2).2.2, w.sched, tr⟩
      else ⟨(m.isStopped (ran m e.1.agent w.state).1 (ran m e.1.agent w.state).2).2.2,
        ⟨w.sched.step, w.sched.time, w.sched.events ++ [(⟨e.1.id, (m.isStopped (ran m e.1.agent w.state).1 (ran m e.1.agent w.state).2).2.1, e.1.repeating⟩,
          ⟨m.adv e.2.time, e.2.ordering⟩)], w.sched.idCount, w.sched.pops⟩, tr⟩)
      else ⟨(ran m e.1.agent w.state).2, w.sched, tr⟩) := by
  refine ⟨w.trace ++ [.agentBefore e.1.id, .agentStep e.1.id e.2, .agentAfter e.1.id], ?_⟩
  rw [← show (Queue.push w.sched.events ⟨e.1.id, (m.isStopped (ran m e.1.agent w.state).1 (ran m e.1.agent w.state).2).2.1, e.1.repeating⟩
    ⟨m.adv e.2.time, e.2.ordering⟩).1 = w.sched.events ++ [(⟨e.1.id, (m.isStopped (ran m e.1.agent w.state).1 (ran m e.1.agent w.state).2).2.1, e.1.repeating⟩,
          ⟨m.adv e.2.time, e.2.ordering⟩)] from by rw [push_fresh (by exact hf)]]
  rfl

theorem ran_other (hm : Unwatched see watch m m') (a : A) (s : S) (ha : watch a = false) :
    ran m' a (see s) = ((ran m a s).1, see (ran m a s).2) ∧ watch (ran m a s).1 = false := by
  have h1 := (hm.stays a s).1.trans ha
  have h2 := (hm.stays (m.aBefore a s).1 (m.aBefore a s).2).2.1.trans h1
  have h3 := (hm.stays (m.aStep (m.aBefore a s).1 (m.aBefore a s).2).1 (m.aStep (m.aBefore a s).1 (m.aBefore a s).2).2).2.2.1.trans h2
  refine ⟨?_, h3⟩
  unfold ran
  rw [hm.aBefore a s ha]
  dsimp only
  rw [hm.aStep _ _ h1]
  dsimp only
  rw [hm.aAfter _ _ h2]

theorem ran_watcher (hm : Unwatched see watch m m') (a : A) (s : S) (ha : watch a = true) :
    see (ran m a s).2 = see s ∧ watch (ran m a s).1 = true := by
  have h1 := (hm.stays a s).1.trans ha
  have h2 := (hm.stays (m.aBefore a s).1 (m.aBefore a s).2).2.1.trans h1
  have h3 := (hm.stays (m.aStep (m.aBefore a s).1 (m.aBefore a s).2).1 (m.aStep (m.aBefore a s).1 (m.aBefore a s).2).2).2.2.1.trans h2
  refine ⟨?_, h3⟩
  unfold ran
  rw [(hm.watches _ _ h2).2.2.1, (hm.watches _ _ h1).2.1, (hm.watches _ _ ha).1]

/-- A watcher runs. -/
theorem Shadow.runWatcher (hm : Unwatched see watch m m') {w : World T A S} {w' : World T A V} (h : Shadow see watch w w') (e : Entry T A)
    (he : watch e.1.agent = true) (hf : e.1.id ∉ ids w.sched.events) (hk : e.1.id < w.sched.idCount) : Shadow see watch (runOne m w e) w' := by
  obtain ⟨tr, ht⟩ := runOne_ran m w e hf
  obtain ⟨hs, hw⟩ := ran_watcher hm e.1.agent w.state he
  have h4 := (hm.watches _ (ran m e.1.agent w.state).2 hw).2.2.2
  have h5 := (hm.stays (ran m e.1.agent w.state).1 (ran m e.1.agent w.state).2).2.2.2.trans hw
  rw [ht]
  by_cases hr : e.1.repeating = true
  · rw [if_pos hr]
    by_cases hst : (m.isStopped (ran m e.1.agent w.state).1 (ran m e.1.agent w.state).2).1 = true
    · rw [if_pos hst]
      exact ⟨⟨by dsimp only; rw [h.same.state, h4, hs], h.same.step, h.same.pending⟩, h.nodup, h.nodup', h.known, h.known'⟩
    · rw [if_neg hst]
      refine ⟨⟨by dsimp only; rw [h.same.state, h4, hs], h.same.step, ?_⟩, nodup_snoc h.nodup hf, h.nodup', known_snoc h.known (Nat.le_refl _) hk, h.known'⟩
      dsimp only
      rw [others_append, List.map_append]
      unfold others at *
      rw [List.filter_cons_of_neg (by dsimp only; rw [h5]; decide), List.filter_nil, List.map_nil, List.append_nil]
      exact h.same.pending
  · rw [if_neg hr]
    exact ⟨⟨by dsimp only; rw [h.same.state, hs], h.same.step, h.same.pending⟩, h.nodup, h.nodup', h.known, h.known'⟩

/-- Another agent runs, in both simulations. -/
theorem Shadow.runOther (hm : Unwatched see watch m m') {w : World T A S} {w' : World T A V} (h : Shadow see watch w w') (e e' : Entry T A)
    (hee : e'.nameless = e.nameless) (he : watch e.1.agent = false) (hf : e.1.id ∉ ids w.sched.events) (hk : e.1.id < w.sched.idCount)
    (hf' : e'.1.id ∉ ids w'.sched.events) (hk' : e'.1.id < w'.sched.idCount) : Shadow see watch (runOne m w e) (runOne m' w' e') := by
  obtain ⟨tr, ht⟩ := runOne_ran m w e hf
  obtain ⟨tr', ht'⟩ := runOne_ran m' w' e' hf'
  obtain ⟨⟨i, a, r⟩, p⟩ := e
  obtain ⟨⟨i', a', r'⟩, p'⟩ := e'
  simp only [Entry.nameless, Prod.mk.injEq] at hee
  obtain ⟨rfl, rfl, rfl⟩ := hee
  dsimp only at ht ht' he hf hk hf' hk'
  obtain ⟨hs, hw⟩ := ran_other hm a' w.state he
  have h4 := hm.isStopped _ (ran m a' w.state).2 hw
  have h5 := (hm.stays (ran m a' w.state).1 (ran m a' w.state).2).2.2.2.trans hw
  rw [h.same.state, hs] at ht'
  dsimp only at ht'
  rw [h4] at ht'
  dsimp only at ht'
  rw [ht, ht']
  by_cases hr : r' = true
  · rw [if_pos hr, if_pos hr]
    by_cases hst : (m.isStopped (ran m a' w.state).1 (ran m a' w.state).2).1 = true
    · rw [if_pos hst, if_pos hst]
      exact ⟨⟨rfl, h.same.step, h.same.pending⟩, h.nodup, h.nodup', h.known, h.known'⟩
    · rw [if_neg hst, if_neg hst]
      refine ⟨⟨rfl, h.same.step, ?_⟩, nodup_snoc h.nodup hf, nodup_snoc h.nodup' hf', known_snoc h.known (Nat.le_refl _) hk,
        known_snoc h.known' (Nat.le_refl _) hk'⟩
      dsimp only
      rw [others_append, List.map_append, List.map_append, hm.adv]
      refine h.same.pending.append ?_
      unfold others
      rw [List.filter_cons_of_pos (by dsimp only; rw [h5]; rfl)]
      exact List.Perm.refl _
  · rw [if_neg hr, if_neg hr]
    exact ⟨⟨rfl, h.same.step, h.same.pending⟩, h.nodup, h.nodup', h.known, h.known'⟩

theorem Shadow.runAll (hm : Unwatched see watch m m') : ∀ (l l' : List (Entry T A)) {w : World T A S} {w' : World T A V},
    Shadow see watch w w' → l'.map Entry.nameless = (others watch l).map Entry.nameless → Fresh w l → Fresh w' l' →
    Shadow see watch (l.foldl (runOne m) w) (l'.foldl (runOne m') w')
  | [], l', w, w', h, hl, _, _ => by
    cases l' with
    | nil => exact h
    | cons e' l' => cases hl
  | e :: l, l', w, w', h, hl, hf, hf' => by
    cases he : watch e.1.agent with
    | true =>
      unfold others at hl
      rw [List.filter_cons_of_neg (by rw [he]; decide)] at hl
      exact Shadow.runAll hm l l' (h.runWatcher hm e he (hf.apart _ (by simp [ids])) (hf.known _ (by simp [ids]))) hl (fresh_runOne hf) hf'
    | false =>
      unfold others at hl
      rw [List.filter_cons_of_pos (by rw [he]; rfl)] at hl
      cases l' with
      | nil => cases hl
      | cons e' l' =>
        simp only [List.map_cons, List.cons.injEq] at hl
        exact Shadow.runAll hm l l' (h.runOther hm e e' hl.1 he (hf.apart _ (by simp [ids])) (hf.known _ (by simp [ids]))
          (hf'.apart _ (by simp [ids])) (hf'.known _ (by simp [ids]))) hl.2 (fresh_runOne hf) (fresh_runOne hf')

/-- Only watchers are pending: they run alone. -/
theorem Shadow.alone (hm : Unwatched see watch m m') : ∀ (l : List (Entry T A)) {w : World T A S} {w' : World T A V},
    Shadow see watch w w' → (∀ e ∈ l, watch e.1.agent = true) → Fresh w l → Shadow see watch (l.foldl (runOne m) w) w'
  | [], _, _, h, _, _ => h
  | e :: l, _, _, h, hl, hf =>
    Shadow.alone hm l (h.runWatcher hm e (hl e List.mem_cons_self) (hf.apart _ (by simp [ids])) (hf.known _ (by simp [ids])))
      (fun f hf' => hl f (List.mem_cons_of_mem _ hf')) (fresh_runOne hf)

theorem runDue_popped [LinearOrder T] {m : Model T A S} {w : World T A S} {top : Entry T A} (h : w.sched.events.peek m.tb w.sched.pops = some top) :
    runDue m w = (popDue m.tb w.sched.events.length ⟨w.sched.step, top.2.time, w.sched.events, w.sched.idCount, w.sched.pops⟩).1.foldl (runOne m)
      ⟨w.state, (popDue m.tb w.sched.events.length ⟨w.sched.step, top.2.time, w.sched.events, w.sched.idCount, w.sched.pops⟩).2, w.trace⟩ := by
  unfold runDue
  rw [h]

theorem others_time (q : Queue T A) (p : Priority T → Bool) : others watch (q.filter (fun e => p e.2)) = (others watch q).filter (fun e => p e.2) := by
  unfold others
  rw [List.filter_filter, List.filter_filter]
  congr 1
  funext e
  exact Bool.and_comm _ _

theorem nameless_time (q : Queue T A) (p : Priority T → Bool) :
    (q.filter (fun e => p e.2)).map Entry.nameless = (q.map Entry.nameless).filter (fun x => p x.2.2) := by
  rw [List.filter_map]
  rfl

theorem fold_time (m : Model T A S) : ∀ (l : List (Entry T A)) (w : World T A S), (l.foldl (runOne m) w).sched.time = w.sched.time
  | [], _ => rfl
  | e :: l, w => by
    rw [List.foldl_cons, fold_time m l]
    unfold runOne
    dsimp only
    by_cases hr : e.1.repeating = true
    · rw [if_pos hr]
      split <;> rfl
    · rw [if_neg hr]

/-- The agents that are due run. -/
theorem Shadow.due [LinearOrder T] (hm : Unwatched see watch m m') {w : World T A S} {w' : World T A V} (h : Shadow see watch w w')
    (hd : DistinctPriorities (others watch w.sched.events)) (ha : NoneAhead watch w.sched.events) :
    Shadow see watch (runDue m w) (runDue m' w') ∧ (others watch w.sched.events ≠ [] → (runDue m' w').sched.time = (runDue m w).sched.time) := by
  by_cases hq : w.sched.events = []
  · have hq' : w'.sched.events = [] := by
      have := h.same.pending
      rw [hq] at this
      simpa [others] using this
    unfold runDue
    rw [hq, hq']
    exact ⟨h, fun hc => absurd rfl hc⟩
  obtain ⟨top, htop⟩ := peek_some m.tb w.sched.pops hq
  obtain ⟨hm1, hmin1⟩ := peek_mem htop
  obtain ⟨hp1, hs1, he1⟩ := popDue_spec m.tb w.sched.events.length ⟨w.sched.step, top.2.time, w.sched.events, w.sched.idCount, w.sched.pops⟩ h.nodup (Nat.le_refl _)
  have hfr := due_fresh w m.tb ⟨w.sched.step, top.2.time, w.sched.events, w.sched.idCount, w.sched.pops⟩ h.nodup h.known
  dsimp only at hp1 hs1 he1 hfr
  rw [runDue_popped htop]
  by_cases ho : others watch w.sched.events = []
  · refine ⟨?_, fun hc => absurd ho hc⟩
    have hw : ∀ e ∈ w.sched.events, watch e.1.agent = true := by
      intro e he
      by_contra hc
      have : e ∈ others watch w.sched.events := List.mem_filter.2 ⟨he, by simpa using hc⟩
      rw [ho] at this
      cases this
    have hq' : w'.sched.events = [] := by
      have := h.same.pending
      rw [ho] at this
      simpa using this
    have hr' : runDue m' w' = w' := by
      unfold runDue
      rw [hq']
      rfl
    rw [hr']
    refine Shadow.alone hm _ ?_ ?_ hfr
    · rw [he1]
      refine ⟨⟨h.same.state, h.same.step, ?_⟩, nodup_filter h.nodup _, h.nodup', ?_, h.known'⟩
      · dsimp only
        rw [others_time w.sched.events (fun p => decide (top.2.time < p.time)), ho, hq']
        exact List.Perm.refl _
      · intro i hi
        simp only [ids, List.mem_map, List.mem_filter] at hi
        obtain ⟨e, ⟨hem, _⟩, hei⟩ := hi
        exact h.known i (by simp only [ids, List.mem_map]; exact ⟨e, hem, hei⟩)
    · intro e he
      exact hw e (List.mem_of_mem_filter (hp1.mem_iff.1 he))
  · have hq' : w'.sched.events ≠ [] := by
      intro h0
      have := h.same.pending
      rw [h0] at this
      simp only [List.map_nil, List.nil_perm, List.map_eq_nil_iff] at this
      exact ho this
    obtain ⟨top', htop'⟩ := peek_some m'.tb w'.sched.pops hq'
    obtain ⟨hm2, hmin2⟩ := peek_mem htop'
    have across : ∀ e ∈ others watch w.sched.events, ∃ f ∈ w'.sched.events, f.2 = e.2 := by
      intro e he
      have := h.same.pending.mem_iff.2 (List.mem_map_of_mem (f := Entry.nameless) he)
      obtain ⟨f, hf, hfe⟩ := List.mem_map.1 this
      exact ⟨f, hf, by simp only [Entry.nameless, Prod.mk.injEq] at hfe; exact hfe.2.2⟩
    have across' : ∀ e ∈ w'.sched.events, ∃ f ∈ others watch w.sched.events, f.2 = e.2 := by
      intro e he
      have := h.same.pending.mem_iff.1 (List.mem_map_of_mem (f := Entry.nameless) he)
      obtain ⟨f, hf, hfe⟩ := List.mem_map.1 this
      exact ⟨f, hf, by simp only [Entry.nameless, Prod.mk.injEq] at hfe; exact hfe.2.2⟩
    have htime : top'.2.time = top.2.time := by
      obtain ⟨o, hom, hot⟩ := ha ho top hm1
      obtain ⟨f, hf, hfe⟩ := across o hom
      obtain ⟨g, hg, hge⟩ := across' top' hm2
      have h1 := Priority.le_time (hmin2 f hf)
      have h2 := Priority.le_time (hmin1 g (List.mem_of_mem_filter hg))
      rw [hfe] at h1
      rw [hge] at h2
      exact _root_.le_antisymm (h1.trans hot) h2
    obtain ⟨hp2, hs2, he2⟩ := popDue_spec m'.tb w'.sched.events.length ⟨w'.sched.step, top.2.time, w'.sched.events, w'.sched.idCount, w'.sched.pops⟩ h.nodup' (Nat.le_refl _)
    have hfr' := due_fresh w' m'.tb ⟨w'.sched.step, top.2.time, w'.sched.events, w'.sched.idCount, w'.sched.pops⟩ h.nodup' h.known'
    dsimp only at hp2 hs2 he2 hfr'
    rw [runDue_popped htop', htime]
    have part : ∀ (p : Priority T → Bool), ((w'.sched.events.filter (fun e => p e.2)).map Entry.nameless).Perm
        ((others watch (w.sched.events.filter (fun e => p e.2))).map Entry.nameless) := by
      intro p
      rw [others_time, nameless_time, nameless_time]
      exact h.same.pending.filter _
    have hbatch : (popDue m'.tb w'.sched.events.length ⟨w'.sched.step, top.2.time, w'.sched.events, w'.sched.idCount, w'.sched.pops⟩).1.map Entry.nameless =
        (others watch (popDue m.tb w.sched.events.length ⟨w.sched.step, top.2.time, w.sched.events, w.sched.idCount, w.sched.pops⟩).1).map Entry.nameless := by
      refine nameless_unique ?_ ?_ (hs1.sublist List.filter_sublist) hs2
      · unfold DistinctPriorities at *
        have e := ((hp1.filter (fun e => !watch e.1.agent)).map (fun e => e.2)).nodup_iff
        refine e.2 ?_
        have e2 := others_time (watch := watch) w.sched.events (fun p => !decide (top.2.time < p.time))
        unfold others at e2 hd
        rw [e2]
        exact hd.sublist (List.filter_sublist.map _)
      · exact ((hp2.map _).trans (part (fun p => !decide (top.2.time < p.time)))).trans ((hp1.filter (fun e => !watch e.1.agent)).map _).symm
    refine ⟨Shadow.runAll hm _ _ ?_ hbatch hfr hfr', fun _ => ?_⟩
    · rw [he1, he2]
      refine ⟨⟨h.same.state, h.same.step, part (fun p => decide (top.2.time < p.time))⟩, nodup_filter h.nodup _, nodup_filter h.nodup' _, ?_, ?_⟩
      · intro i hi
        simp only [ids, List.mem_map, List.mem_filter] at hi
        obtain ⟨e, ⟨hem, _⟩, hei⟩ := hi
        exact h.known i (by simp only [ids, List.mem_map]; exact ⟨e, hem, hei⟩)
      · intro i hi
        simp only [ids, List.mem_map, List.mem_filter] at hi
        obtain ⟨e, ⟨hem, _⟩, hei⟩ := hi
        exact h.known' i (by simp only [ids, List.mem_map]; exact ⟨e, hem, hei⟩)
    · rw [fold_time, fold_time, he1, he2]

theorem runDue_empty [LinearOrder T] {m : Model T A S} {w : World T A S} : (if w.sched.events.isEmpty = true then w else runDue m w) = runDue m w := by
  by_cases h : w.sched.events.isEmpty = true
  · rw [if_pos h]
    unfold runDue
    rw [List.isEmpty_iff.1 h]
    rfl
  · rw [if_neg h]

theorem execAll_time : ∀ (l : List (Cmd T A)) (w : World T A S), (w.execAll l).sched.time = w.sched.time
  | [], _ => rfl
  | c :: l, w => by
    show (World.execAll (w.exec c) l).sched.time = _
    rw [execAll_time l]
    cases c <;> rfl

theorem Shadow.step [LinearOrder T] (hm : Unwatched see watch m m') {w : World T A S} {w' : World T A V} (h : Shadow see watch w w')
    (hd : DistinctPriorities (others watch (preStep m w).sched.events)) (ha : NoneAhead watch (preStep m w).sched.events) :
    Shadow see watch (step m w) (step m' w') ∧
      (others watch (preStep m w).sched.events ≠ [] → (Schedule.step m' w').sched.time = (Schedule.step m w).sched.time) := by
  obtain ⟨h1, h2⟩ := (h.pre hm).due hm hd ha
  unfold Schedule.step midStep
  dsimp only
  rw [runDue_empty, runDue_empty]
  refine ⟨h1.post hm, fun ho => ?_⟩
  have e : ∀ {X : Type} (m : Model T A X) (w : World T A X), (postStep m w).sched.time = w.sched.time := by
    intro X m w
    show (World.execAll _ _).sched.time = _
    rw [execAll_time]
  rw [e, e]
  exact h2 ho

theorem shadow_start (see : S → V) (watch : A → Bool) (z : T) (s : S) : Shadow see watch (World.start z s : World T A S) (World.start z (see s)) := by
  refine ⟨⟨rfl, rfl, List.Perm.refl _⟩, List.nodup_nil, List.nodup_nil, ?_, ?_⟩
  · intro i hi; cases hi
  · intro i hi; cases hi

/-- **C266.** A simulation with watchers and the same simulation without them: after any number of steps the state apart from the notes of the watchers
is the same, the step counter is the same and the same other agents are pending with the same times and orderings, provided no two of the other
agents share time and ordering and no watcher is due before all others; watchers may tie with anything. The clock is the same whenever other agents
were pending in the last step. -/
theorem C266_watchers_partial [LinearOrder T] (see : S → V) (watch : A → Bool) (m : Model T A S) (m' : Model T A V) (hm : Unwatched see watch m m')
    (z : T) (s : S) (l : List (Plan T A)) (n : Nat)
    (hd : ∀ k < n, ((others watch (preStep m (steps m k ((World.start z s).execAll (Plan.calls l)))).sched.events).map (fun e => e.2)).Nodup)
    (ha : ∀ k < n, NoneAhead watch (preStep m (steps m k ((World.start z s).execAll (Plan.calls l)))).sched.events) :
    Undisturbed see watch (steps m n ((World.start z s).execAll (Plan.calls l)))
      (steps m' n ((World.start z (see s)).execAll (Plan.calls (l.filter (fun p => !watch p.agent))))) ∧
    (∀ k < n, others watch (preStep m (steps m k ((World.start z s).execAll (Plan.calls l)))).sched.events ≠ [] →
      (steps m' (k + 1) ((World.start z (see s)).execAll (Plan.calls (l.filter (fun p => !watch p.agent))))).sched.time =
        (steps m (k + 1) ((World.start z s).execAll (Plan.calls l))).sched.time) := by
  have key : ∀ k ≤ n, Shadow see watch (steps m k ((World.start z s).execAll (Plan.calls l)))
      (steps m' k ((World.start z (see s)).execAll (Plan.calls (l.filter (fun p => !watch p.agent))))) := by
    intro k
    induction k with
    | zero => exact fun _ => (shadow_start see watch z s).calls l
    | succ k ih =>
      intro hk
      rw [steps_succ', steps_succ']
      exact ((ih (Nat.le_of_succ_le hk)).step hm (hd k hk) (ha k hk)).1
  refine ⟨(key n (Nat.le_refl _)).same, fun k hk ho => ?_⟩
  rw [steps_succ', steps_succ']
  exact ((key k (Nat.le_of_lt hk)).step hm (hd k hk) (ha k hk)).2 ho

/-! ### All agents start together -/

theorem fold_moved (m : Model T A S) (t : T) : ∀ (l : List (Entry T A)) (w : World T A S), Fresh w l → (∀ e ∈ l, e.2.time = t) →
    (∀ e ∈ w.sched.events, e.2.time = m.adv t) → ∀ e ∈ (l.foldl (runOne m) w).sched.events, e.2.time = m.adv t
  | [], _, _, _, h => h
  | e :: l, w, hf, hl, h => by
    refine fold_moved m t l _ (fresh_runOne hf) (fun f hf' => hl f (List.mem_cons_of_mem _ hf')) ?_
    rcases (runOne_events m w e (hf.apart _ (by simp [ids]))).1 with he | ⟨a, _, he⟩
    · rw [he]; exact h
    · rw [he]
      intro f hf'
      rcases List.mem_append.1 hf' with hf' | hf'
      · exact h f hf'
      · rw [List.mem_singleton.1 hf']
        dsimp only
        rw [hl e List.mem_cons_self]

theorem due_moved [LinearOrder T] (m : Model T A S) (w : World T A S) (hn : (ids w.sched.events).Nodup) (hk : ∀ i ∈ ids w.sched.events, i < w.sched.idCount)
    (h : ∃ t, ∀ e ∈ w.sched.events, e.2.time = t) : ∃ t, ∀ e ∈ (runDue m w).sched.events, e.2.time = t := by
  obtain ⟨t, h⟩ := h
  by_cases hq : w.sched.events = []
  · refine ⟨t, ?_⟩
    unfold runDue
    rw [hq]
    exact h
  obtain ⟨top, htop⟩ := peek_some m.tb w.sched.pops hq
  obtain ⟨hm1, _⟩ := peek_mem htop
  obtain ⟨hp1, hs1, he1⟩ := popDue_spec m.tb w.sched.events.length ⟨w.sched.step, top.2.time, w.sched.events, w.sched.idCount, w.sched.pops⟩ hn (Nat.le_refl _)
  have hfr := due_fresh w m.tb ⟨w.sched.step, top.2.time, w.sched.events, w.sched.idCount, w.sched.pops⟩ hn hk
  dsimp only at hp1 hs1 he1 hfr
  rw [runDue_popped htop]
  refine ⟨m.adv t, fold_moved m t _ _ hfr (fun e he => h e (List.mem_of_mem_filter (hp1.mem_iff.1 he))) ?_⟩
  rw [he1]
  intro e he
  obtain ⟨he, hlt⟩ := List.mem_filter.1 he
  rw [h e he, h top hm1] at hlt
  simp at hlt

theorem noneAhead_of_together [LinearOrder T] {q : Queue T A} (h : ∃ t, ∀ e ∈ q, e.2.time = t) : NoneAhead watch q := by
  obtain ⟨t, h⟩ := h
  intro ho e he
  obtain ⟨f, hf⟩ := List.exists_mem_of_ne_nil _ ho
  exact ⟨f, hf, by rw [h e he, h f (List.mem_of_mem_filter hf)]⟩

/-- **C266 (all agents start together).** If all agents are scheduled for the same time, the others with orderings of their own, and the hooks make no
calls, then watchers do not disturb, for any number of steps. -/
theorem C266_together_partial [LinearOrder T] (see : S → V) (watch : A → Bool) (m : Model T A S) (m' : Model T A V) (hm : Unwatched see watch m m')
    (hs : Still m) (hs' : Still m') (z t : T) (s : S) (l : List (Plan T A)) (ht : ∀ p ∈ l, p.time = t)
    (ho : ((l.filter (fun p => !watch p.agent)).map (fun p => p.ordering)).Nodup) (n : Nat) :
    Undisturbed see watch (steps m n ((World.start z s).execAll (Plan.calls l)))
      (steps m' n ((World.start z (see s)).execAll (Plan.calls (l.filter (fun p => !watch p.agent))))) := by
  have key : Shadow see watch (steps m n ((World.start z s).execAll (Plan.calls l)))
      (steps m' n ((World.start z (see s)).execAll (Plan.calls (l.filter (fun p => !watch p.agent))))) ∧
      (∃ t, ∀ e ∈ (steps m n ((World.start z s).execAll (Plan.calls l))).sched.events, e.2.time = t) := by
    induction n with
    | zero =>
      refine ⟨(shadow_start see watch z s).calls l, t, ?_⟩
      obtain ⟨_, _, _, _, _, h6⟩ := calls_world l (World.start z s : World T A S) (by simp [World.start, Sched.new, ids])
      intro e he
      have : e.nameless ∈ (((World.start z s : World T A S).execAll (Plan.calls l)).sched.events.map Entry.nameless) := List.mem_map_of_mem he
      rw [h6] at this
      rcases List.mem_append.1 this with h | h
      · simp [World.start, Sched.new] at h
      · obtain ⟨p, hp, hpe⟩ := List.mem_map.1 h
        have := congrArg (fun x => x.2.2.time) hpe
        exact this.symm.trans (ht p hp)
    | succ n ih =>
      obtain ⟨ih1, ih2⟩ := ih
      have e1 := still_pre hs (steps m n ((World.start z s).execAll (Plan.calls l)))
      have hd : DistinctPriorities (others watch (steps m n ((World.start z s).execAll (Plan.calls l))).sched.events) := by
        have h0 : Twin ((World.start z (see s)).execAll (Plan.calls (l.filter (fun p => !watch p.agent))))
            ((World.start z (see s)).execAll (Plan.calls (l.filter (fun p => !watch p.agent)))) := twin_planned z (see s) (List.Perm.refl _)
        have h1 : (orders (steps m' n ((World.start z (see s)).execAll (Plan.calls (l.filter (fun p => !watch p.agent))))).sched.events).Nodup := by
          refine (still_steps (tb := m'.tb) hs' h0 ?_ n).2
          obtain ⟨_, _, _, _, _, h6⟩ := calls_world (l.filter (fun p => !watch p.agent)) (World.start z (see s) : World T A V)
            (by simp [World.start, Sched.new, ids])
          have : orders ((World.start z (see s) : World T A V).execAll (Plan.calls (l.filter (fun p => !watch p.agent)))).sched.events =
              (((World.start z (see s) : World T A V).execAll (Plan.calls (l.filter (fun p => !watch p.agent)))).sched.events.map Entry.nameless).map
                (fun x => x.2.2.ordering) := by
            rw [List.map_map]
            rfl
          rw [this, h6, List.map_append, List.map_map, List.map_map]
          exact ho
        have h2 := ih1.same.pending.map (fun x => x.2.2.ordering)
        rw [List.map_map, List.map_map] at h2
        exact orders_distinct (h2.nodup_iff.1 h1)
      rw [steps_succ', steps_succ']
      refine ⟨(ih1.step hm (by rw [e1]; exact hd) (by rw [e1]; exact noneAhead_of_together ih2)).1, ?_⟩
      unfold Schedule.step midStep
      rw [still_post hs]
      dsimp only
      rw [runDue_empty]
      exact due_moved m _ (by rw [e1]; exact ih1.nodup) (by rw [e1]; exact ih1.known) (by rw [e1]; exact ih2)
  exact key.1.same

namespace DemoWatchers

/-- Agents below 100 write their names on a list and stop when it has six names; the others write down how many names are there, and the list of notes is
theirs. Times in halves. -/
def watched (tb : TieBreak Nat Nat) : Model Nat Nat (List Nat × List Nat) where
  update := fun _ s => s
  beforeStep := fun s _ => (s, [])
  afterStep := fun s _ => (s, [])
  aBefore := fun a s => (a, s)
  aStep := fun a s => if 100 ≤ a then (a, s.1, s.2 ++ [s.1.length]) else (a, s.1 ++ [a], s.2)
  aAfter := fun a s => (a, s)
  isStopped := fun a s => (decide (a < 100) && decide (6 ≤ s.1.length), a, s)
  adv := fun t => t + 2
  tb := tb

/-- The same without watchers. -/
def unwatched (tb : TieBreak Nat Nat) : Model Nat Nat (List Nat) where
  update := fun _ s => s
  beforeStep := fun s _ => (s, [])
  afterStep := fun s _ => (s, [])
  aBefore := fun a s => (a, s)
  aStep := fun a s => (a, s ++ [a])
  aAfter := fun a s => (a, s)
  isStopped := fun a s => (decide (a < 100) && decide (6 ≤ s.length), a, s)
  adv := fun t => t + 2
  tb := tb

theorem fits (tb tb' : TieBreak Nat Nat) : Unwatched Prod.fst (fun a => decide (100 ≤ a)) (watched tb) (unwatched tb') := by
  refine ⟨rfl, fun _ _ => rfl, fun _ _ _ => ⟨[], rfl, rfl⟩, fun _ _ _ => ⟨[], rfl, rfl⟩, fun _ _ _ => rfl, fun a s ha => ?_, fun _ _ _ => rfl, fun _ _ _ => rfl,
    fun a s => ⟨rfl, ?_, rfl, rfl⟩, fun a s ha => ⟨rfl, ?_, rfl, rfl⟩⟩
  · have : ¬ 100 ≤ a := by simpa using ha
    show _ = ((if 100 ≤ a then _ else _ : Nat × List Nat × List Nat).1, (if 100 ≤ a then _ else _ : Nat × List Nat × List Nat).2.1)
    rw [if_neg this]
    rfl
  · show decide (100 ≤ (if 100 ≤ a then _ else _ : Nat × List Nat × List Nat).1) = _
    by_cases h : 100 ≤ a
    · rw [if_pos h]
    · rw [if_neg h]
  · have : 100 ≤ a := by simpa using ha
    show (if 100 ≤ a then _ else _ : Nat × List Nat × List Nat).2.1 = _
    rw [if_pos this]

theorem still (tb : TieBreak Nat Nat) : Still (watched tb) := ⟨fun _ _ _ => rfl, fun _ _ _ => rfl, fun _ _ => rfl, fun _ _ => rfl⟩

theorem still' (tb : TieBreak Nat Nat) : Still (unwatched tb) := ⟨fun _ _ _ => rfl, fun _ _ _ => rfl, fun _ _ => rfl, fun _ _ => rfl⟩

/-- Two watchers, one of them tied with an agent. -/
def plan : List (Plan Nat Nat) := [⟨7, 0, 3⟩, ⟨100, 0, 3⟩, ⟨9, 0, 1⟩, ⟨101, 0, 2⟩]

end DemoWatchers

/-- A case that meets the hypotheses of both theorems: the agents stop after six names, the watchers go on. -/
example : Unwatched Prod.fst (fun a => decide (100 ≤ a)) (DemoWatchers.watched (fun _ q => q.length)) (DemoWatchers.unwatched (fun _ _ => 0)) ∧
    (∀ p ∈ DemoWatchers.plan, p.time = 0) ∧ ((DemoWatchers.plan.filter (fun p => !decide (100 ≤ p.agent))).map (fun p => p.ordering)).Nodup ∧
    (steps (DemoWatchers.watched (fun _ q => q.length)) 5 ((World.start 0 ([], [])).execAll (Plan.calls DemoWatchers.plan))).state =
      ([9, 7, 9, 7, 9, 7, 9], [1, 2, 3, 4, 5, 6, 7, 7, 7, 7]) ∧
    (steps (DemoWatchers.unwatched (fun _ _ => 0)) 5 ((World.start 0 []).execAll (Plan.calls (DemoWatchers.plan.filter (fun p => !decide (100 ≤ p.agent)))))).state =
      [9, 7, 9, 7, 9, 7, 9] :=
  ⟨DemoWatchers.fits _ _, by decide, by decide, by decide +kernel, by decide +kernel⟩

/-- **C266** is false of watchers that run at times of their own: every step goes to the next time at which anything is pending, and with a watcher at half times
the agents run in every other step only. -/
theorem C266_ahead_negation_partial : ∃ (m : Model Nat Nat (List Nat × List Nat)) (m' : Model Nat Nat (List Nat)) (watch : Nat → Bool) (l : List (Plan Nat Nat)) (n : Nat),
    Unwatched Prod.fst watch m m' ∧ Still m ∧ Still m' ∧ ((l.filter (fun p => !watch p.agent)).map (fun p => p.ordering)).Nodup ∧
    (steps m n ((World.start 0 ([], [])).execAll (Plan.calls l))).state.1 = [7] ∧
    (steps m' n ((World.start 0 []).execAll (Plan.calls (l.filter (fun p => !watch p.agent))))).state = [7, 7] :=
  ⟨DemoWatchers.watched (fun _ _ => 0), DemoWatchers.unwatched (fun _ _ => 0), fun a => decide (100 ≤ a), [⟨7, 0, 3⟩, ⟨100, 1, 3⟩], 2, DemoWatchers.fits _ _,
    DemoWatchers.still _, DemoWatchers.still' _, by decide, by decide +kernel, by decide +kernel⟩

/-- **C266** is false of agents that share time and ordering: a watcher more on the heap can turn their order round. -/
theorem C266_ties_negation_partial : ∃ (m : Model Nat Nat (List Nat × List Nat)) (m' : Model Nat Nat (List Nat)) (watch : Nat → Bool) (l : List (Plan Nat Nat)) (n : Nat),
    Unwatched Prod.fst watch m m' ∧ Still m ∧ Still m' ∧ m'.tb = m.tb ∧ (∀ p ∈ l, p.time = 0) ∧
    (steps m n ((World.start 0 ([], [])).execAll (Plan.calls l))).state.1 = [9, 7] ∧
    (steps m' n ((World.start 0 []).execAll (Plan.calls (l.filter (fun p => !watch p.agent))))).state = [7, 9] :=
  ⟨DemoWatchers.watched (fun _ q => q.length), DemoWatchers.unwatched (fun _ q => q.length), fun a => decide (100 ≤ a), [⟨7, 0, 3⟩, ⟨9, 0, 3⟩, ⟨100, 0, 5⟩], 1,
    DemoWatchers.fits _ _, DemoWatchers.still _, DemoWatchers.still' _, rfl, by decide, by decide +kernel, by decide +kernel⟩

end Verif.Schedule
