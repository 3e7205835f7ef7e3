import Verif.Props.Schedule

/-!
Further properties of the sequential schedule: what `get_all_events` lists (C76) and how a step passes the
user's state and the schedule through the hooks (C77). Both were added after a mutation of the model
survived the first eleven properties.
-/

namespace Verif.Schedule

variable {T A S : Type}

theorem execAll_sched (cs : List (Cmd T A)) : ∀ w : World T A S,
    (w.execAll cs).sched = cs.foldl Sched.after w.sched := by
  induction cs with
  | nil => intro w; rfl
  | cons c cs ih => intro w; rw [execAll_cons, ih, exec_sched]; rfl

theorem execAll_state (cs : List (Cmd T A)) : ∀ w : World T A S, (w.execAll cs).state = w.state := by
  induction cs with
  | nil => intro w; rfl
  | cons c cs ih => intro w; rw [execAll_cons, ih, exec_state]

/-! ### C76 -/

theorem remove_perm {q : Queue T A} (hn : (ids q).Nodup) {e : Entry T A} (he : e ∈ q) :
    q.Perm (e :: q.filter (fun f => f.1.id != e.1.id)) := by
  refine (List.perm_ext_iff_of_nodup (nodup_of_ids hn) ?_).2 ?_
  · rw [List.nodup_cons]
    exact ⟨by simp, (nodup_of_ids hn).filter _⟩
  · intro f
    simp only [List.mem_cons, List.mem_filter, bne_iff_ne, ne_eq]
    constructor
    · intro hf
      by_cases h : f.1.id = e.1.id
      · exact Or.inl (eq_of_id hn hf he h)
      · exact Or.inr ⟨hf, h⟩
    · rintro (rfl | h)
      · exact he
      · exact h.1

/-- **C76.** `get_all_events` lists, with repetitions, exactly the pending agents: nothing on a new
schedule; one more element, the agent itself, after scheduling an agent whose id is not pending; the
same agents after scheduling an id that is already pending; one element less, the agent pending under
the id, after a successful `dequeue`; the same after an unsuccessful one. -/
theorem C76_get_all_events [LinearOrder T] (m : Model T A S) (w : World T A S) (hw : Reachable m w) :
    (Sched.new w.sched.time : Sched T A).getAllEvents = [] ∧
    (∀ a t o, (∀ e ∈ w.sched.events, e.1.id ≠ a.id) →
      (w.sched.scheduleOnce a t o).getAllEvents.Perm (a.agent :: w.sched.getAllEvents)) ∧
    (∀ a t o, (∃ e ∈ w.sched.events, e.1.id = a.id) →
      (w.sched.scheduleOnce a t o).getAllEvents = w.sched.getAllEvents) ∧
    (∀ a t o, (w.sched.scheduleRepeating a t o).2.2 = true →
      (w.sched.scheduleRepeating a t o).1.getAllEvents.Perm (a :: w.sched.getAllEvents)) ∧
    (∀ e ∈ w.sched.events, (w.sched.dequeue e.1.id).2 = true ∧
      w.sched.getAllEvents.Perm (e.1.agent :: (w.sched.dequeue e.1.id).1.getAllEvents)) ∧
    (∀ i, (w.sched.dequeue i).2 = false → (w.sched.dequeue i).1.getAllEvents = w.sched.getAllEvents) := by
  have hn := reachable_nodup hw
  have hpush : ∀ (a : AgentImpl A) (p : Priority T), a.id ∉ ids w.sched.events →
      ((w.sched.events.push a p).1.map (fun e => e.1.agent)).Perm
        (a.agent :: w.sched.events.map (fun e => e.1.agent)) := by
    intro a p h
    rw [push_fresh h]
    simp
  refine ⟨rfl, ?_, ?_, ?_, ?_, ?_⟩
  · intro a t o h
    refine hpush a _ ?_
    rw [mem_ids]
    rintro ⟨e, he, hid⟩
    exact h e he hid
  · rintro a t o ⟨e, he, hid⟩
    have h : a.id ∈ ids w.sched.events := mem_ids.2 ⟨e, he, hid⟩
    obtain ⟨_, _, _, hp⟩ := push_present (p := (⟨t, o⟩ : Priority T)) h
    simp only [Sched.scheduleOnce, Sched.getAllEvents, hp, List.map_map]
    refine List.map_congr_left ?_
    intro f _
    simp only [Function.comp_apply]
    split <;> rfl
  · intro a t o h
    by_cases hid : w.sched.idCount ∈ ids w.sched.events
    · exfalso
      obtain ⟨_, _, _, hp⟩ := push_present (a := { AgentImpl.new a w.sched.idCount with repeating := true })
        (p := (⟨t, o⟩ : Priority T)) (q := w.sched.events) hid
      simp [Sched.scheduleRepeating, hp] at h
    · exact hpush _ _ hid
  · intro e he
    have hp := remove_perm hn he
    have hf : w.sched.events.any (fun f => f.1.id == e.1.id) = true :=
      List.any_eq_true.2 ⟨e, he, by simp⟩
    refine ⟨?_, ?_⟩
    · simp only [Sched.dequeue, Queue.remove]
      simp
      exact ⟨e.1, ⟨e.2, he⟩, rfl⟩
    · have := hp.map (fun f => f.1.agent)
      simpa [Sched.dequeue, Queue.remove, Sched.getAllEvents] using this
  · intro i h
    simp only [Sched.dequeue, Queue.remove, Sched.getAllEvents] at h ⊢
    congr 1
    rw [List.filter_eq_self]
    intro f hf
    simp at h
    simpa using h f.1 f.2 hf

/-- C76, across a step: when the agents of a step have run, `get_all_events` lists the agents that were
later than the step's time and the agents that go on, as their own callbacks left them (`Turns`). -/
theorem C76_get_all_events_after_agents [LinearOrder T] (m : Model T A S) (w : World T A S)
    (hw : Reachable m w) :
    ∃ (t : T) (ran goOn : List (Entry T A)),
      runsOf (since w (step m w)) = ran.map (fun e => (e.1.id, e.2)) ∧
      Turns m (preStep m w).state ran (midStep m w).state goOn ∧
      (midStep m w).sched.getAllEvents.Perm
        (((preStep m w).sched.events.filter (fun e => decide (t < e.2.time))).map (fun e => e.1.agent) ++
          goOn.map (fun e => e.1.agent)) := by
  obtain ⟨t, ran, goOn, h1, _, _, h2, h3, _⟩ := C03_pending_after_step m w hw
  refine ⟨t, ran, goOn, h1, h2, ?_⟩
  have := h3.map (fun e => e.1.agent)
  rwa [List.map_append] at this

example : demoWorld.sched.getAllEvents = [10, 20, 30, 50] ∧
    (demoWorld.sched.dequeue 1).1.getAllEvents = [10, 30, 50] ∧
    (step demo demoWorld).sched.getAllEvents = [30, 21, 11] := by decide

/-! ### C77 -/

/-- **C77.** A step passes the user's state and the schedule through the hooks without losing anything:
`update(0)` first if no step was made yet, then `before_step` with that state and the schedule as
the program left it, then the agents' turns on the schedule as `before_step` left it, then
`after_step` with the state the last agent left and the schedule `sm` holding the pending agents,
then, with the step counter one higher, `update(step + 1)`. -/
theorem C77_step_threads_state_and_schedule [LinearOrder T] (m : Model T A S) (w : World T A S)
    (hw : Reachable m w) :
    ∃ (s0 s1 s2 s3 : S) (before after : List (Cmd T A)) (sb sm : Sched T A) (t : T)
      (ran goOn : List (Entry T A)),
      (w.sched.step = 0 → s0 = m.update 0 w.state) ∧ (w.sched.step ≠ 0 → s0 = w.state) ∧
      m.beforeStep s0 w.sched = (s1, before) ∧
      sb = before.foldl Sched.after w.sched ∧
      runsOf (since w (step m w)) = ran.map (fun e => (e.1.id, e.2)) ∧
      (∀ e, e ∈ ran ↔ e ∈ sb.events ∧ e.2.time = t) ∧ (∀ e ∈ sb.events, t ≤ e.2.time) ∧
      Turns m s1 ran s2 goOn ∧
      sm.events.Perm (sb.events.filter (fun e => decide (t < e.2.time)) ++ goOn) ∧
      sm.idCount = sb.idCount ∧ sm.step = w.sched.step ∧
      (ran ≠ [] → sm.time = t) ∧ (ran = [] → sm.time = w.sched.time) ∧
      m.afterStep s2 sm = (s3, after) ∧
      (step m w).state = m.update (w.sched.step + 1) s3 ∧
      (step m w).sched = { after.foldl Sched.after sm with step := w.sched.step + 1 } := by
  have hn := reachable_nodup hw
  have htime : ∀ (cs : List (Cmd T A)) (s : Sched T A),
      (cs.foldl Sched.after s).time = s.time ∧ (cs.foldl Sched.after s).step = s.step := by
    intro cs
    induction cs with
    | nil => intro s; exact ⟨rfl, rfl⟩
    | cons c cs ih =>
      intro s
      have : (s.after c).time = s.time ∧ (s.after c).step = s.step := by cases c <;> exact ⟨rfl, rfl⟩
      rw [List.foldl_cons, (ih _).1, (ih _).2]
      exact this
  have hpre : (preStep m w).state = (m.beforeStep (if w.sched.step = 0 then m.update 0 w.state else w.state)
      w.sched).1 ∧ (preStep m w).sched = (m.beforeStep (if w.sched.step = 0 then m.update 0 w.state
        else w.state) w.sched).2.foldl Sched.after w.sched := by
    unfold preStep World.doBefore
    by_cases h : w.sched.step = 0
    · simp [h, execAll_sched, execAll_state, World.doUpdate]
    · simp [h, execAll_sched, execAll_state]
  have hpost : ∀ v : World T A S, (postStep m v).state = m.update (v.sched.step + 1)
      (m.afterStep v.state v.sched).1 ∧ (postStep m v).sched =
        { (m.afterStep v.state v.sched).2.foldl Sched.after v.sched with step := v.sched.step + 1 } := by
    intro v
    unfold postStep World.doAfter World.doUpdate
    simp [execAll_sched, execAll_state, (htime _ _).2]
  obtain ⟨t, ran, goOn, hr, hran, hmin, hturn, hperm, hcount⟩ := C03_pending_after_step m w hw
  have hmid : (midStep m w).sched.step = w.sched.step := by
    have h1 := (htime (m.beforeStep (if w.sched.step = 0 then m.update 0 w.state else w.state)
      w.sched).2 w.sched).2
    rw [← hpre.2] at h1
    obtain ⟨_, _, _, _, _, _, _, _, _, _, _, h, _⟩ := midStep_spec m w (preStep_nodup m w hn)
    simpa using h
  have hclk := C04_clock_is_batch_time m w hw
  have hst : (step m w).sched.time = (midStep m w).sched.time := by
    show (postStep m (midStep m w)).sched.time = _
    rw [(hpost _).2]
    exact (htime _ _).1
  refine ⟨if w.sched.step = 0 then m.update 0 w.state else w.state, _, (midStep m w).state, _, _, _, _,
    (midStep m w).sched, t, ran, goOn, ?_, ?_, (Prod.mk.eta).symm, rfl, hr, ?_, ?_, ?_, ?_, ?_, ?_,
    ?_, ?_, (Prod.mk.eta).symm, ?_, ?_⟩
  · intro h; rw [if_pos h]
  · intro h; rw [if_neg h]
  · rw [← hpre.2]; exact hran
  · rw [← hpre.2]; exact hmin
  · rw [← hpre.1]; exact hturn
  · rw [← hpre.2]; exact hperm
  · rw [← hpre.2]; exact hcount
  · exact hmid
  · intro hne
    obtain ⟨e, he⟩ := List.exists_mem_of_ne_nil _ hne
    rw [← hst, ← hclk.1 (e.1.id, e.2) (by rw [hr]; exact List.mem_map.2 ⟨e, he, rfl⟩)]
    exact ((hran e).1 he).2
  · intro hnil
    rw [← hst]
    refine hclk.2.2 ?_
    by_contra hne
    exact hclk.2.1 hne (by rw [hr, hnil]; rfl)
  · rw [← hmid]; exact (hpost _).1
  · rw [← hmid]; exact (hpost _).2

/-- A model whose hooks all change the state (a log of who ran) and schedule or cancel agents. -/
def demoHooks : Model Nat Nat (List Nat) where
  update := fun k s => (1000 + k) :: s
  beforeStep := fun s sch => ((2000 + sch.events.length) :: s, [.scheduleOnce ⟨90, 9, false⟩ 5 0])
  afterStep := fun s sch => ((3000 + sch.events.length) :: s, [.dequeue 2])
  aBefore := fun a s => (a, s)
  aStep := fun a s => (a + 1, a :: s)
  aAfter := fun a s => (a, s)
  isStopped := fun _ s => (false, 0, s)
  adv := fun t => t + 1
  tb := fun _ _ => 0

example : (step demoHooks ((World.start 0 []).run demoHooks demoOps)).state
      = [1001, 3003, 10, 50, 20, 9, 2004, 1000] ∧
    ((step demoHooks ((World.start 0 []).run demoHooks demoOps)).sched.events.map (fun e => e.1.id)) = [1, 0] := by
  decide

end Verif.Schedule
