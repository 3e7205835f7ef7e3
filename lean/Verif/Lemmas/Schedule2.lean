import Verif.Lemmas.Schedule
import Verif.Spec.Schedule

/-! Helper lemmas: what one step does. -/

namespace Verif.Schedule

variable {T A S : Type}

/-! ### Traces only grow -/

theorem exec_sched (w : World T A S) (c : Cmd T A) : (w.exec c).sched = w.sched.after c := by
  cases c <;> rfl

/-- Events the API itself records. -/
def Ev.isApi : Ev T A → Bool
  | .once _ => true
  | .registered _ _ => true
  | .dequeued _ _ => true
  | _ => false

theorem exec_trace (w : World T A S) (c : Cmd T A) :
    ∃ e : Ev T A, e.isApi = true ∧ (w.exec c).trace = w.trace ++ [e] := by
  cases c <;> exact ⟨_, rfl, rfl⟩

theorem exec_state (w : World T A S) (c : Cmd T A) : (w.exec c).state = w.state := by
  cases c <;> rfl

theorem execAll_nil (w : World T A S) : w.execAll [] = w := rfl
theorem execAll_cons (w : World T A S) (c : Cmd T A) (cs : List (Cmd T A)) :
    w.execAll (c :: cs) = (w.exec c).execAll cs := rfl

theorem execAll_trace (cs : List (Cmd T A)) : ∀ w : World T A S,
    ∃ l : List (Ev T A), (∀ e ∈ l, e.isApi = true) ∧ (w.execAll cs).trace = w.trace ++ l := by
  induction cs with
  | nil => intro w; exact ⟨[], by simp, by simp [execAll_nil]⟩
  | cons c cs ih =>
    intro w
    obtain ⟨e, he, h1⟩ := exec_trace w c
    obtain ⟨l, hl, h2⟩ := ih (w.exec c)
    refine ⟨e :: l, ?_, ?_⟩
    · intro x hx
      rcases List.mem_cons.1 hx with rfl | hx
      · exact he
      · exact hl x hx
    · rw [execAll_cons, h2, h1]; simp

theorem runOne_trace (m : Model T A S) (w : World T A S) (e : Entry T A) :
    (runOne m w e).trace = w.trace ++ [.agentBefore e.1.id, .agentStep e.1.id e.2, .agentAfter e.1.id] := by
  unfold runOne
  dsimp only
  split
  · split <;> rfl
  · rfl

/-- The calls one agent contributes. -/
def callsOf (e : Entry T A) : List (Ev T A) :=
  [.agentBefore e.1.id, .agentStep e.1.id e.2, .agentAfter e.1.id]

theorem foldl_runOne_trace (m : Model T A S) (l : List (Entry T A)) : ∀ w : World T A S,
    (l.foldl (runOne m) w).trace = w.trace ++ l.flatMap callsOf := by
  induction l with
  | nil => intro w; simp
  | cons e l ih =>
    intro w
    rw [List.foldl_cons, ih, runOne_trace]
    simp [callsOf]

theorem preStep_trace (m : Model T A S) (w : World T A S) :
    ∃ l : List (Ev T A), (∀ e ∈ l, e.isApi = true) ∧
    (preStep m w).trace =
      w.trace ++ ((if w.sched.step = 0 then [.update 0] else []) ++ [.stateBefore] ++ l) := by
  unfold preStep
  by_cases h : w.sched.step = 0
  · simp only [h, if_true, World.doBefore, World.doUpdate]
    obtain ⟨l, hl, h2⟩ := execAll_trace
      (m.beforeStep (m.update 0 w.state) w.sched).2
      { state := (m.beforeStep (m.update 0 w.state) w.sched).1
        sched := w.sched
        trace := w.trace ++ [.update 0] ++ [.stateBefore] }
    exact ⟨l, hl, by rw [h2]; simp⟩
  · simp only [h, if_false, World.doBefore]
    obtain ⟨l, hl, h2⟩ := execAll_trace
      (m.beforeStep w.state w.sched).2
      { state := (m.beforeStep w.state w.sched).1
        sched := w.sched
        trace := w.trace ++ [.stateBefore] }
    exact ⟨l, hl, by rw [h2]; simp⟩

theorem execAll_sched_step (cs : List (Cmd T A)) : ∀ w : World T A S,
    (w.execAll cs).sched.step = w.sched.step ∧ (w.execAll cs).sched.time = w.sched.time
      ∧ (w.execAll cs).sched.pops = w.sched.pops ∧ (w.execAll cs).state = w.state := by
  induction cs with
  | nil => intro w; simp [execAll_nil]
  | cons c cs ih =>
    intro w
    rw [execAll_cons]
    obtain ⟨h1, h2, h3, h4⟩ := ih (w.exec c)
    rw [h1, h2, h3, h4]
    cases c <;> exact ⟨rfl, rfl, rfl, rfl⟩

theorem preStep_step (m : Model T A S) (w : World T A S) :
    (preStep m w).sched.step = w.sched.step ∧ (preStep m w).sched.time = w.sched.time := by
  unfold preStep
  split
  · obtain ⟨h1, h2, _, _⟩ := execAll_sched_step (m.beforeStep (m.update w.sched.step w.state) w.sched).2
      { state := (m.beforeStep (m.update w.sched.step w.state) w.sched).1
        sched := w.sched
        trace := w.trace ++ [.update w.sched.step] ++ [.stateBefore] }
    exact ⟨h1, h2⟩
  · obtain ⟨h1, h2, _, _⟩ := execAll_sched_step (m.beforeStep w.state w.sched).2
      { state := (m.beforeStep w.state w.sched).1
        sched := w.sched
        trace := w.trace ++ [.stateBefore] }
    exact ⟨h1, h2⟩

theorem postStep_step (m : Model T A S) (w : World T A S) :
    (postStep m w).sched.step = w.sched.step + 1 ∧ (postStep m w).sched.time = w.sched.time := by
  unfold postStep World.doAfter World.doUpdate
  obtain ⟨h1, h2, _, _⟩ := execAll_sched_step (m.afterStep w.state w.sched).2
      { state := (m.afterStep w.state w.sched).1
        sched := w.sched
        trace := w.trace ++ [.stateAfter] }
  exact ⟨by simpa using h1, h2⟩

theorem postStep_trace (m : Model T A S) (w : World T A S) :
    ∃ l : List (Ev T A), (∀ e ∈ l, e.isApi = true) ∧
    (postStep m w).trace = w.trace ++ ([.stateAfter] ++ l ++ [.update (w.sched.step + 1)]) := by
  unfold postStep World.doAfter World.doUpdate
  obtain ⟨l, hl, h2⟩ := execAll_trace (m.afterStep w.state w.sched).2
      { state := (m.afterStep w.state w.sched).1
        sched := w.sched
        trace := w.trace ++ [.stateAfter] }
  obtain ⟨h1, _, _, _⟩ := execAll_sched_step (m.afterStep w.state w.sched).2
      { state := (m.afterStep w.state w.sched).1
        sched := w.sched
        trace := w.trace ++ [.stateAfter] }
  refine ⟨l, hl, ?_⟩
  simp only [h2, h1]
  simp

/-! ### Running the due agents -/

theorem runOne_sched_fields (m : Model T A S) (w : World T A S) (e : Entry T A) :
    (runOne m w e).sched.step = w.sched.step ∧ (runOne m w e).sched.time = w.sched.time ∧
    (runOne m w e).sched.idCount = w.sched.idCount ∧ (runOne m w e).sched.pops = w.sched.pops := by
  unfold runOne
  dsimp only
  split
  · split <;> exact ⟨rfl, rfl, rfl, rfl⟩
  · exact ⟨rfl, rfl, rfl, rfl⟩

theorem foldl_runOne_fields (m : Model T A S) (l : List (Entry T A)) : ∀ w : World T A S,
    (l.foldl (runOne m) w).sched.step = w.sched.step ∧ (l.foldl (runOne m) w).sched.time = w.sched.time ∧
    (l.foldl (runOne m) w).sched.idCount = w.sched.idCount ∧
    (l.foldl (runOne m) w).sched.pops = w.sched.pops := by
  induction l with
  | nil => intro w; exact ⟨rfl, rfl, rfl, rfl⟩
  | cons e l ih =>
    intro w
    rw [List.foldl_cons]
    obtain ⟨h1, h2, h3, h4⟩ := ih (runOne m w e)
    obtain ⟨g1, g2, g3, g4⟩ := runOne_sched_fields m w e
    exact ⟨h1.trans g1, h2.trans g2, h3.trans g3, h4.trans g4⟩

theorem turns_ids {m : Model T A S} {s s' : S} {l k : List (Entry T A)} (h : Turns m s l s' k) :
    List.Sublist (ids k) (ids l) := by
  induction h with
  | nil => simp
  | oneShot _ _ ih => exact ih.cons _
  | stopped _ _ _ ih => exact ih.cons _
  | goesOn _ _ _ ih => exact ih.cons_cons _

/-- The agent loop lets the agents take their turns and appends the ones that go on. -/
theorem foldl_runOne_turns (m : Model T A S) (l : List (Entry T A)) : ∀ w : World T A S,
    (ids (w.sched.events ++ l)).Nodup →
    ∃ k, Turns m w.state l (l.foldl (runOne m) w).state k ∧
      (l.foldl (runOne m) w).sched.events = w.sched.events ++ k := by
  induction l with
  | nil => intro w _; exact ⟨[], Turns.nil _, by simp⟩
  | cons e l ih =>
    intro w hn
    obtain ⟨⟨i, a, rep⟩, p⟩ := e
    have hfresh : i ∉ ids w.sched.events := by
      rw [ids_append, ids_cons, List.nodup_append] at hn
      intro hi
      exact hn.2.2 _ hi _ (List.mem_cons_self) rfl
    have hn' : (ids (w.sched.events ++ l)).Nodup := by
      refine hn.sublist ?_
      rw [ids_append, ids_append, ids_cons]
      exact (List.Sublist.refl _).append (List.sublist_cons_self _ _)
    rw [List.foldl_cons]
    -- the three callbacks
    have hcb : Callbacks m a w.state
        (m.aAfter (m.aStep (m.aBefore a w.state).1 (m.aBefore a w.state).2).1
          (m.aStep (m.aBefore a w.state).1 (m.aBefore a w.state).2).2).1
        (m.aAfter (m.aStep (m.aBefore a w.state).1 (m.aBefore a w.state).2).1
          (m.aStep (m.aBefore a w.state).1 (m.aBefore a w.state).2).2).2 :=
      ⟨_, _, _, _, rfl, rfl, rfl⟩
    cases rep with
    | false =>
      have hw : (runOne m w (⟨i, a, false⟩, p)).sched = w.sched := by simp [runOne]
      obtain ⟨k, hk1, hk2⟩ := ih (runOne m w (⟨i, a, false⟩, p)) (by rw [hw]; exact hn')
      refine ⟨k, Turns.oneShot hcb ?_, by rw [hk2, hw]⟩
      simpa [runOne] using hk1
    | true =>
      generalize hr : (m.aAfter (m.aStep (m.aBefore a w.state).1 (m.aBefore a w.state).2).1
          (m.aStep (m.aBefore a w.state).1 (m.aBefore a w.state).2).2) = r3 at hcb
      generalize hq : m.isStopped r3.1 r3.2 = r4
      obtain ⟨st, a2, s2⟩ := r4
      cases st with
      | true =>
        have hw : (runOne m w (⟨i, a, true⟩, p)).sched = w.sched := by simp [runOne, hr, hq]
        obtain ⟨k, hk1, hk2⟩ := ih (runOne m w (⟨i, a, true⟩, p)) (by rw [hw]; exact hn')
        refine ⟨k, Turns.stopped hcb hq ?_, by rw [hk2, hw]⟩
        simpa [runOne, hr, hq] using hk1
      | false =>
        have hw : (runOne m w (⟨i, a, true⟩, p)).sched.events
            = w.sched.events ++ [(⟨i, a2, true⟩, ⟨m.adv p.time, p.ordering⟩)] := by
          simp only [runOne, hr, hq, if_true, Sched.scheduleOnce]
          simp only [Bool.false_eq_true, if_false]
          rw [push_fresh (by simpa using hfresh)]
        obtain ⟨k, hk1, hk2⟩ := ih (runOne m w (⟨i, a, true⟩, p)) (by
          rw [hw]
          have : (ids (w.sched.events ++ [(⟨i, a2, true⟩, ⟨m.adv p.time, p.ordering⟩)] ++ l) : List Nat)
              = ids (w.sched.events ++ (⟨i, a, true⟩, p) :: l) := by simp
          rw [this]; exact hn)
        refine ⟨(⟨i, a2, true⟩, ⟨m.adv p.time, p.ordering⟩) :: k, Turns.goesOn hcb hq ?_, ?_⟩
        · simpa [runOne, hr, hq] using hk1
        · rw [hk2, hw]; simp

/-- Everything `runDue` does, in one statement. -/
theorem runDue_spec [LinearOrder T] (m : Model T A S) (w : World T A S)
    (hn : (ids w.sched.events).Nodup) (hne : w.sched.events ≠ []) :
    ∃ (t : T) (ran kept : List (Entry T A)),
      (∃ e ∈ w.sched.events, e.2.time = t) ∧ (∀ e ∈ w.sched.events, t ≤ e.2.time) ∧
      ran.Perm (w.sched.events.filter (fun e => decide (e.2.time = t))) ∧
      ran.Pairwise (fun e f => e.2.le f.2) ∧
      Turns m w.state ran (runDue m w).state kept ∧
      (runDue m w).sched.events = w.sched.events.filter (fun e => decide (t < e.2.time)) ++ kept ∧
      (runDue m w).sched.time = t ∧
      (runDue m w).sched.step = w.sched.step ∧
      (runDue m w).sched.idCount = w.sched.idCount ∧
      (runDue m w).sched.pops = w.sched.pops + ran.length ∧
      (runDue m w).trace = w.trace ++ ran.flatMap callsOf := by
  obtain ⟨top, htop⟩ := peek_some m.tb w.sched.pops hne
  obtain ⟨hmem, hmin⟩ := peek_mem htop
  let s : Sched T A := { w.sched with time := top.2.time }
  obtain ⟨hperm, hpw, heq⟩ := popDue_spec m.tb s.events.length s hn (Nat.le_refl _)
  let r := popDue m.tb s.events.length s
  have hmin' : ∀ e ∈ w.sched.events, top.2.time ≤ e.2.time := fun e he => Priority.le_time (hmin e he)
  have hfil : w.sched.events.filter (fun e => !decide (top.2.time < e.2.time))
      = w.sched.events.filter (fun e => decide (e.2.time = top.2.time)) := by
    apply List.filter_congr
    intro e he
    by_cases h : e.2.time = top.2.time
    · simp [h]
    · simp [h, lt_of_le_of_ne (hmin' e he) (Ne.symm h)]
  have hrun : runDue m w = r.1.foldl (runOne m) { w with sched := r.2 } := by
    unfold runDue; rw [htop]
  have hr2 : r.2 = { s with events := s.events.filter (fun e => decide (s.time < e.2.time))
                            pops := s.pops + r.1.length } := heq
  have hnd : (ids (r.2.events ++ r.1)).Nodup := by
    have h1 : (r.2.events ++ r.1).Perm s.events := by
      rw [hr2]
      have := List.filter_append_perm (fun e : Entry T A => decide (s.time < e.2.time)) s.events
      refine List.Perm.trans ?_ this
      exact List.Perm.append_left _ hperm
    have : (ids (r.2.events ++ r.1)).Perm (ids s.events) := h1.map _
    exact this.nodup_iff.2 hn
  obtain ⟨kept, hk1, hk2⟩ := foldl_runOne_turns m r.1 { w with sched := r.2 } hnd
  obtain ⟨f1, f2, f3, f4⟩ := foldl_runOne_fields m r.1 { w with sched := r.2 }
  refine ⟨top.2.time, r.1, kept, ⟨top, hmem, rfl⟩, hmin', ?_, hpw, ?_, ?_, ?_, ?_, ?_, ?_, ?_⟩
  · rw [← hfil]; exact hperm
  · rw [hrun]; exact hk1
  · rw [hrun, hk2, hr2]
  · rw [hrun, f2, hr2]
  · rw [hrun, f1, hr2]
  · rw [hrun, f3, hr2]
  · rw [hrun, f4, hr2]
  · rw [hrun]; exact foldl_runOne_trace m r.1 _

/-- Everything `midStep` does, including the empty queue. -/
theorem midStep_spec [LinearOrder T] (m : Model T A S) (w : World T A S)
    (hn : (ids (preStep m w).sched.events).Nodup) :
    ∃ (t : T) (ran kept : List (Entry T A)),
      ((preStep m w).sched.events = [] → t = (preStep m w).sched.time) ∧
      ((preStep m w).sched.events ≠ [] → ∃ e ∈ (preStep m w).sched.events, e.2.time = t) ∧
      (∀ e ∈ (preStep m w).sched.events, t ≤ e.2.time) ∧
      ran.Perm ((preStep m w).sched.events.filter (fun e => decide (e.2.time = t))) ∧
      ran.Pairwise (fun e f => e.2.le f.2) ∧
      Turns m (preStep m w).state ran (midStep m w).state kept ∧
      (midStep m w).sched.events
        = (preStep m w).sched.events.filter (fun e => decide (t < e.2.time)) ++ kept ∧
      (midStep m w).sched.time = t ∧
      (midStep m w).sched.step = w.sched.step ∧
      (midStep m w).sched.idCount = (preStep m w).sched.idCount ∧
      (midStep m w).sched.pops = (preStep m w).sched.pops + ran.length ∧
      (midStep m w).trace = (preStep m w).trace ++ ran.flatMap callsOf := by
  by_cases hq : (preStep m w).sched.events = []
  · have hmid : midStep m w = preStep m w := by unfold midStep; simp [hq]
    refine ⟨(preStep m w).sched.time, [], [], fun _ => rfl, fun h => absurd hq h, ?_, ?_, ?_, ?_, ?_, ?_, ?_, ?_,
      ?_, ?_⟩
    · simp [hq]
    · simp [hq]
    · simp
    · rw [hmid]; exact Turns.nil _
    · rw [hmid]; simp [hq]
    · rw [hmid]
    · rw [hmid]; exact (preStep_step m w).1
    · rw [hmid]
    · rw [hmid]; simp
    · rw [hmid]; simp
  · have hmid : midStep m w = runDue m (preStep m w) := by unfold midStep; simp [hq]
    obtain ⟨t, ran, kept, h1, h2, h3, h4, h5, h6, h7, h8, h9, h10, h11⟩ := runDue_spec m (preStep m w) hn hq
    rw [hmid]
    exact ⟨t, ran, kept, fun h => absurd h hq, fun _ => h1, h2, h3, h4, h5, h6, h7,
      h8.trans (preStep_step m w).1, h9, h10, h11⟩

/-! ### Distinct ids are an invariant of every program -/

theorem after_nodup (s : Sched T A) (c : Cmd T A) (h : (ids s.events).Nodup) :
    (ids (s.after c).events).Nodup := by
  cases c with
  | scheduleOnce a t o => exact nodup_push h _ _
  | scheduleRepeating a t o => exact nodup_push h _ _
  | dequeue i => exact nodup_filter h _

theorem execAll_nodup (cs : List (Cmd T A)) : ∀ w : World T A S, (ids w.sched.events).Nodup →
    (ids (w.execAll cs).sched.events).Nodup := by
  induction cs with
  | nil => intro w h; exact h
  | cons c cs ih =>
    intro w h
    rw [execAll_cons]
    exact ih _ (by rw [exec_sched]; exact after_nodup _ _ h)

theorem preStep_nodup (m : Model T A S) (w : World T A S) (h : (ids w.sched.events).Nodup) :
    (ids (preStep m w).sched.events).Nodup := by
  unfold preStep
  apply execAll_nodup
  split
  · exact h
  · exact h

theorem postStep_nodup (m : Model T A S) (w : World T A S) (h : (ids w.sched.events).Nodup) :
    (ids (postStep m w).sched.events).Nodup := by
  unfold postStep
  exact execAll_nodup _ _ h

theorem midStep_nodup [LinearOrder T] (m : Model T A S) (w : World T A S) (h : (ids w.sched.events).Nodup) :
    (ids (midStep m w).sched.events).Nodup := by
  have hp := preStep_nodup m w h
  obtain ⟨t, ran, kept, _, _, _, h3, _, h5, h6, _⟩ := midStep_spec m w hp
  rw [h6]
  have h7 := turns_ids h5
  have h8 : (ids ((preStep m w).sched.events.filter (fun e => decide (t < e.2.time)) ++ ran)).Nodup := by
    have h9 : (ids ((preStep m w).sched.events.filter (fun e => decide (t < e.2.time)) ++ ran)).Perm
        (ids ((preStep m w).sched.events.filter (fun e => decide (t < e.2.time)) ++
          (preStep m w).sched.events.filter (fun e => decide (e.2.time = t)))) := by
      unfold ids
      exact (List.Perm.append_left _ h3).map _
    rw [h9.nodup_iff, ids_append, List.nodup_append]
    refine ⟨nodup_filter hp _, nodup_filter hp _, ?_⟩
    intro a ha b hb hab
    subst hab
    obtain ⟨e, he, hea⟩ := mem_ids.1 ha
    obtain ⟨f, hf, hfa⟩ := mem_ids.1 hb
    rw [List.mem_filter] at he hf
    have := eq_of_id hp he.1 hf.1 (hea.trans hfa.symm)
    subst this
    have h1 := of_decide_eq_true he.2
    have h2 := of_decide_eq_true hf.2
    exact absurd h2 (ne_of_gt h1)
  refine h8.sublist ?_
  rw [ids_append, ids_append]
  exact (List.Sublist.refl _).append h7

theorem step_nodup [LinearOrder T] (m : Model T A S) (w : World T A S) (h : (ids w.sched.events).Nodup) :
    (ids (step m w).sched.events).Nodup :=
  postStep_nodup m _ (midStep_nodup m w h)

theorem run_nodup [LinearOrder T] (m : Model T A S) (ops : List (Op T A)) : ∀ w : World T A S,
    (ids w.sched.events).Nodup → (ids (w.run m ops).sched.events).Nodup := by
  induction ops with
  | nil => intro w h; exact h
  | cons o ops ih =>
    intro w h
    show (ids (World.run m (w.op m o) ops).sched.events).Nodup
    apply ih
    cases o with
    | cmd c => show (ids (w.exec c).sched.events).Nodup; rw [exec_sched]; exact after_nodup _ _ h
    | step => exact step_nodup m w h

theorem reachable_nodup [LinearOrder T] {m : Model T A S} {w : World T A S} (h : Reachable m w) :
    (ids w.sched.events).Nodup := by
  obtain ⟨z, s, ops, rfl⟩ := h
  exact run_nodup m ops _ (by simp [World.start, Sched.new])

theorem reachable_step [LinearOrder T] {m : Model T A S} {w : World T A S} (h : Reachable m w) :
    Reachable m (step m w) := by
  obtain ⟨z, s, ops, rfl⟩ := h
  exact ⟨z, s, ops ++ [.step], by simp [World.run, World.op]⟩

theorem reachable_exec [LinearOrder T] {m : Model T A S} {w : World T A S} (h : Reachable m w) (c : Cmd T A) :
    Reachable m (w.exec c) := by
  obtain ⟨z, s, ops, rfl⟩ := h
  exact ⟨z, s, ops ++ [.cmd c], by simp [World.run, World.op]⟩

theorem reachable_steps [LinearOrder T] {m : Model T A S} (n : Nat) : ∀ {w : World T A S}, Reachable m w →
    Reachable m (steps m n w) := by
  induction n with
  | zero => intro w h; exact h
  | succ n ih => intro w h; exact ih (reachable_step h)

end Verif.Schedule
