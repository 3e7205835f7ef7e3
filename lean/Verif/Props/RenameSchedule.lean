import Verif.Spec.Rename
import Mathlib.Order.Defs.LinearOrder
import Mathlib.Data.Nat.Basic

/-!
C251 "Names do not matter", the schedule.
-/

namespace Verif.Schedule

variable {T A B S : Type}

theorem push_rename (φ : A → B) (q : Queue T A) (a : AgentImpl A) (p : Priority T) :
    Queue.push (q.rename φ) (a.rename φ) p = ((Queue.push q a p).1.rename φ, (Queue.push q a p).2) := by
  have hf : (q.rename φ).find? (fun e => e.1.id == a.id) = (q.find? (fun e => e.1.id == a.id)).map (fun e => (e.1.rename φ, e.2)) := by
    unfold Queue.rename
    rw [List.find?_map]
    rfl
  unfold Queue.push
  show (match (q.rename φ).find? (fun e => e.1.id == a.id) with
    | none => (q.rename φ ++ [(a.rename φ, p)], none)
    | some old => ((q.rename φ).map (fun e : Entry T B => if e.1.id == a.id then (e.1, p) else e), some old.2)) = _
  rw [hf]
  cases q.find? (fun e => e.1.id == a.id) with
  | none =>
    show (q.rename φ ++ [(a.rename φ, p)], none) = (Queue.rename φ (q ++ [(a, p)]), none)
    unfold Queue.rename
    rw [List.map_append]
    rfl
  | some old =>
    show ((q.rename φ).map (fun e => if e.1.id == a.id then (e.1, p) else e), some old.2) =
      (Queue.rename φ (q.map (fun e => if e.1.id == a.id then (e.1, p) else e)), some old.2)
    unfold Queue.rename
    rw [List.map_map, List.map_map]
    congr 2
    funext e
    show (if e.1.id == a.id then (e.1.rename φ, p) else (e.1.rename φ, e.2)) =
      ((if e.1.id == a.id then (e.1, p) else e).1.rename φ, (if e.1.id == a.id then (e.1, p) else e).2)
    by_cases h : (e.1.id == a.id) = true
    · rw [if_pos h, if_pos h]
    · rw [if_neg h, if_neg h]

theorem tops_rename [LinearOrder T] (φ : A → B) (q : Queue T A) : (q.rename φ).tops = q.tops.rename φ := by
  unfold Queue.tops Queue.rename
  rw [List.filter_map]
  congr 1
  refine List.filter_congr (fun e _ => ?_)
  show (List.map (fun e : Entry T A => (e.1.rename φ, e.2)) q).all (fun f => f.2.cmp e.2 != Ordering.gt) = _
  rw [List.all_map]
  rfl

theorem peek_rename [LinearOrder T] {φ : A → B} {tb : TieBreak T A} {tb' : TieBreak T B} (h : ∀ n q, tb' n (Queue.rename φ q) = tb n q)
    (n : Nat) (q : Queue T A) : (q.rename φ).peek tb' n = (q.peek tb n).map (fun e => (e.1.rename φ, e.2)) := by
  unfold Queue.peek
  rw [tops_rename, h]
  unfold Queue.rename
  rw [List.length_map, List.getElem?_map]

theorem pop_rename [LinearOrder T] {φ : A → B} {tb : TieBreak T A} {tb' : TieBreak T B} (h : ∀ n q, tb' n (Queue.rename φ q) = tb n q)
    (n : Nat) (q : Queue T A) :
    (q.rename φ).pop tb' n = (q.pop tb n).map (fun r => ((r.1.1.rename φ, r.1.2), r.2.rename φ)) := by
  unfold Queue.pop
  rw [peek_rename h, Option.map_map, Option.map_map]
  congr 1
  funext e
  show ((e.1.rename φ, e.2), (q.rename φ).filter (fun f => f.1.id != e.1.id)) = ((e.1.rename φ, e.2), Queue.rename φ _)
  unfold Queue.rename
  rw [List.filter_map]
  rfl

theorem cmd_rename (φ : A → B) (w : World T A S) (c : Cmd T A) : (w.rename φ).exec (c.rename φ) = (w.exec c).rename φ := by
  cases c with
  | scheduleOnce a t o =>
    show World.mk w.state { w.sched.rename φ with events := (Queue.push (w.sched.events.rename φ) (a.rename φ) ⟨t, o⟩).1 }
      (w.trace.map (Ev.rename φ) ++ [.once a.id]) = _
    rw [push_rename]
    show _ = World.mk w.state _ ((w.trace ++ [Ev.once a.id]).map (Ev.rename φ))
    rw [List.map_append]
    rfl
  | scheduleRepeating a t o =>
    show World.mk w.state
      { w.sched.rename φ with
        idCount := w.sched.idCount + 1
        events := (Queue.push (w.sched.events.rename φ) (AgentImpl.rename φ ⟨w.sched.idCount, a, true⟩) ⟨t, o⟩).1 }
      (w.trace.map (Ev.rename φ) ++ [.registered w.sched.idCount
        (Queue.push (w.sched.events.rename φ) (AgentImpl.rename φ ⟨w.sched.idCount, a, true⟩) ⟨t, o⟩).2.isNone]) = _
    rw [push_rename]
    show _ = World.mk w.state _ ((w.trace ++ [Ev.registered w.sched.idCount
      (Queue.push w.sched.events ⟨w.sched.idCount, a, true⟩ ⟨t, o⟩).2.isNone]).map (Ev.rename φ))
    rw [List.map_append]
    rfl
  | dequeue id =>
    show World.mk w.state { w.sched.rename φ with events := (w.sched.events.rename φ).filter (fun e => e.1.id != id) }
      (w.trace.map (Ev.rename φ) ++ [.dequeued id ((w.sched.events.rename φ).find? (fun e => e.1.id == id)).isSome]) = _
    show _ = World.mk w.state (Sched.rename φ { w.sched with events := w.sched.events.filter (fun e : Entry T A => e.1.id != id) })
      ((w.trace ++ [Ev.dequeued id (w.sched.events.find? (fun e : Entry T A => e.1.id == id)).isSome]).map (Ev.rename φ))
    rw [List.map_append]
    unfold Sched.rename Queue.rename
    rw [List.filter_map, List.find?_map, Option.isSome_map]
    rfl

theorem execAll_rename (φ : A → B) : ∀ (cs : List (Cmd T A)) (w : World T A S),
    (w.rename φ).execAll (cs.map (Cmd.rename φ)) = (w.execAll cs).rename φ
  | [], _ => rfl
  | c :: cs, w => by
    show (((w.rename φ).exec (c.rename φ))).execAll (cs.map (Cmd.rename φ)) = _
    rw [cmd_rename]
    exact execAll_rename φ cs _

theorem world_append (φ : A → B) (s : S) (q : Sched T A) (t : List (Ev T A)) (es : List (Ev T A)) :
    World.mk s (q.rename φ) (t.map (Ev.rename φ) ++ es.map (Ev.rename φ)) = World.rename φ ⟨s, q, t ++ es⟩ := by
  unfold World.rename
  rw [List.map_append]

variable {φ : A → B} {m : Model T A S} {m' : Model T B S}

theorem doUpdate_rename (h : Renamed φ m m') (k : Nat) (w : World T A S) :
    (w.rename φ).doUpdate m' k = (w.doUpdate m k).rename φ := by
  unfold World.doUpdate
  rw [h.update]
  exact world_append φ _ _ _ [.update k]

theorem doBefore_rename (h : Renamed φ m m') (w : World T A S) : (w.rename φ).doBefore m' = (w.doBefore m).rename φ := by
  show World.execAll ⟨(m'.beforeStep w.state (w.sched.rename φ)).1, w.sched.rename φ, w.trace.map (Ev.rename φ) ++ [.stateBefore]⟩
    (m'.beforeStep w.state (w.sched.rename φ)).2 = _
  rw [h.before]
  refine Eq.trans ?_ (execAll_rename φ (m.beforeStep w.state w.sched).2 ⟨(m.beforeStep w.state w.sched).1, w.sched, w.trace ++ [.stateBefore]⟩)
  rw [← world_append φ _ _ _ [.stateBefore]]
  rfl

theorem doAfter_rename (h : Renamed φ m m') (w : World T A S) : (w.rename φ).doAfter m' = (w.doAfter m).rename φ := by
  show World.execAll ⟨(m'.afterStep w.state (w.sched.rename φ)).1, w.sched.rename φ, w.trace.map (Ev.rename φ) ++ [.stateAfter]⟩
    (m'.afterStep w.state (w.sched.rename φ)).2 = _
  rw [h.after]
  refine Eq.trans ?_ (execAll_rename φ (m.afterStep w.state w.sched).2 ⟨(m.afterStep w.state w.sched).1, w.sched, w.trace ++ [.stateAfter]⟩)
  rw [← world_append φ _ _ _ [.stateAfter]]
  rfl

theorem preStep_rename (h : Renamed φ m m') (w : World T A S) : preStep m' (w.rename φ) = (preStep m w).rename φ := by
  show (if w.sched.step = 0 then (w.rename φ).doUpdate m' w.sched.step else w.rename φ).doBefore m' =
    ((if w.sched.step = 0 then w.doUpdate m w.sched.step else w).doBefore m).rename φ
  by_cases h0 : w.sched.step = 0
  · rw [if_pos h0, if_pos h0, doUpdate_rename h, doBefore_rename h]
  · rw [if_neg h0, if_neg h0, doBefore_rename h]

theorem postStep_rename (h : Renamed φ m m') (w : World T A S) : postStep m' (w.rename φ) = (postStep m w).rename φ := by
  unfold postStep
  rw [doAfter_rename h]
  exact doUpdate_rename h _ ⟨(w.doAfter m).state, { (w.doAfter m).sched with step := (w.doAfter m).sched.step + 1 }, (w.doAfter m).trace⟩

theorem popDue_rename [LinearOrder T] {tb : TieBreak T A} {tb' : TieBreak T B} (h : ∀ n q, tb' n (Queue.rename φ q) = tb n q) :
    ∀ (n : Nat) (s : Sched T A), popDue tb' n (s.rename φ) =
      (Queue.rename φ (popDue tb n s).1, (popDue tb n s).2.rename φ)
  | 0, s => rfl
  | n + 1, s => by
    rw [popDue, popDue]
    show (match (s.events.rename φ).peek tb' s.pops with
      | none => ([], s.rename φ)
      | some top =>
        if s.time < top.2.time then ([], s.rename φ)
        else
          match (s.events.rename φ).pop tb' s.pops with
          | none => ([], s.rename φ)
          | some (e, q) => (e :: (popDue tb' n { s.rename φ with events := q, pops := s.pops + 1 }).1,
              (popDue tb' n { s.rename φ with events := q, pops := s.pops + 1 }).2)) = _
    rw [peek_rename h, pop_rename h]
    cases s.events.peek tb s.pops with
    | none => rfl
    | some top =>
      show (if s.time < top.2.time then ([], s.rename φ) else _) = _
      by_cases ht : s.time < top.2.time
      · simp only [if_pos ht]; rfl
      · simp only [if_neg ht]
        cases s.events.pop tb s.pops with
        | none => rfl
        | some r =>
          obtain ⟨e, q⟩ := r
          have ih := popDue_rename h n { s with events := q, pops := s.pops + 1 }
          show ((e.1.rename φ, e.2) :: (popDue tb' n (Sched.rename φ { s with events := q, pops := s.pops + 1 })).1,
            (popDue tb' n (Sched.rename φ { s with events := q, pops := s.pops + 1 })).2) = _
          rw [ih]
          rfl

theorem runOne_rename (h : Renamed φ m m') (w : World T A S) (e : Entry T A) :
    runOne m' (w.rename φ) (e.1.rename φ, e.2) = (runOne m w e).rename φ := by
  unfold runOne
  simp only [AgentImpl.rename, World.rename, h.aBefore, h.aStep, h.aAfter, h.stopped, h.adv]
  by_cases hr : e.1.repeating = true
  · rw [if_pos hr, if_pos hr]
    cases (m.isStopped (m.aAfter (m.aStep (m.aBefore e.1.agent w.state).1 (m.aBefore e.1.agent w.state).2).1
          (m.aStep (m.aBefore e.1.agent w.state).1 (m.aBefore e.1.agent w.state).2).2).1
        (m.aAfter (m.aStep (m.aBefore e.1.agent w.state).1 (m.aBefore e.1.agent w.state).2).1
          (m.aStep (m.aBefore e.1.agent w.state).1 (m.aBefore e.1.agent w.state).2).2).2) with
    | mk b r =>
      cases b with
      | true => simp [Ev.rename]
      | false =>
        simp only [if_neg Bool.false_ne_true, List.map_append]
        show World.mk r.2 { w.sched.rename φ with events := (Queue.push (w.sched.events.rename φ)
          (AgentImpl.rename φ { e.1 with agent := r.1 }) ⟨m.adv e.2.time, e.2.ordering⟩).1 } _ = _
        rw [push_rename]
        rfl
  · rw [if_neg hr, if_neg hr]
    simp [Ev.rename]

theorem runDue_rename [LinearOrder T] (h : Renamed φ m m') (w : World T A S) : runDue m' (w.rename φ) = (runDue m w).rename φ := by
  unfold runDue
  show (match (w.sched.events.rename φ).peek m'.tb w.sched.pops with
    | none => w.rename φ
    | some top => List.foldl (runOne m')
        ⟨w.state, (popDue m'.tb (w.sched.events.rename φ).length (Sched.rename φ { w.sched with time := top.2.time })).2,
          w.trace.map (Ev.rename φ)⟩
        (popDue m'.tb (w.sched.events.rename φ).length (Sched.rename φ { w.sched with time := top.2.time })).1) = _
  rw [peek_rename h.ties]
  cases w.sched.events.peek m.tb w.sched.pops with
  | none => rfl
  | some top =>
    show List.foldl (runOne m')
        ⟨w.state, (popDue m'.tb (w.sched.events.rename φ).length (Sched.rename φ { w.sched with time := top.2.time })).2,
          w.trace.map (Ev.rename φ)⟩
        (popDue m'.tb (w.sched.events.rename φ).length (Sched.rename φ { w.sched with time := top.2.time })).1 =
      World.rename φ (List.foldl (runOne m) ⟨w.state, (popDue m.tb w.sched.events.length { w.sched with time := top.2.time }).2, w.trace⟩
        (popDue m.tb w.sched.events.length { w.sched with time := top.2.time }).1)
    have hl : (w.sched.events.rename φ).length = w.sched.events.length := List.length_map _
    rw [hl, popDue_rename h.ties]
    have key : ∀ (es : Queue T A) (v : World T A S), List.foldl (runOne m') (v.rename φ) (Queue.rename φ es) =
        (List.foldl (runOne m) v es).rename φ := by
      intro es
      induction es with
      | nil => intro v; rfl
      | cons e es ih =>
        intro v
        show List.foldl (runOne m') (runOne m' (v.rename φ) (e.1.rename φ, e.2)) (Queue.rename φ es) = _
        rw [runOne_rename h, ih]
        rfl
    exact key (popDue m.tb w.sched.events.length { w.sched with time := top.2.time }).1
      ⟨w.state, (popDue m.tb w.sched.events.length { w.sched with time := top.2.time }).2, w.trace⟩

theorem step_rename [LinearOrder T] (h : Renamed φ m m') (w : World T A S) : step m' (w.rename φ) = (step m w).rename φ := by
  have hm : midStep m' (w.rename φ) = (midStep m w).rename φ := by
    show (if (preStep m' (w.rename φ)).sched.events.isEmpty then preStep m' (w.rename φ) else runDue m' (preStep m' (w.rename φ))) =
      (if (preStep m w).sched.events.isEmpty then preStep m w else runDue m (preStep m w)).rename φ
    rw [preStep_rename h]
    have he : ((preStep m w).rename φ).sched.events.isEmpty = (preStep m w).sched.events.isEmpty := List.isEmpty_map
    rw [he]
    by_cases h0 : (preStep m w).sched.events.isEmpty = true
    · rw [if_pos h0, if_pos h0]
    · rw [if_neg h0, if_neg h0, runDue_rename h]
  unfold step
  rw [hm, postStep_rename h]

/-- C251, the schedule: whatever the renaming, the observations, the state, the clock and the ids are the same, and the pending
agents are the renamed ones, in the same order. -/
theorem C251_schedule [LinearOrder T] (h : Renamed φ m m') : ∀ (ops : List (Op T A)) (w : World T A S),
    ((w.rename φ).run m' (ops.map (Op.rename φ))).state = (w.run m ops).state ∧
    ((w.rename φ).run m' (ops.map (Op.rename φ))).trace = (w.run m ops).trace.map (Ev.rename φ) ∧
    ((w.rename φ).run m' (ops.map (Op.rename φ))).sched.getAllEvents = (w.run m ops).sched.getAllEvents.map φ ∧
    ((w.rename φ).run m' (ops.map (Op.rename φ))).sched.step = (w.run m ops).sched.step ∧
    ((w.rename φ).run m' (ops.map (Op.rename φ))).sched.time = (w.run m ops).sched.time ∧
    ((w.rename φ).run m' (ops.map (Op.rename φ))).sched.idCount = (w.run m ops).sched.idCount := by
  have key : ∀ (ops : List (Op T A)) (w : World T A S), (w.rename φ).run m' (ops.map (Op.rename φ)) = (w.run m ops).rename φ := by
    intro ops
    induction ops with
    | nil => intro w; rfl
    | cons o ops ih =>
      intro w
      show ((w.rename φ).op m' (o.rename φ)).run m' (ops.map (Op.rename φ)) = ((w.op m o).run m ops).rename φ
      have e : (w.rename φ).op m' (o.rename φ) = (w.op m o).rename φ := by
        cases o with
        | cmd c => exact cmd_rename φ w c
        | step => exact step_rename h w
      rw [e, ih]
  intro ops w
  rw [key]
  refine ⟨rfl, rfl, ?_, rfl, rfl, rfl⟩
  show (Queue.rename φ (w.run m ops).sched.events).map (fun e => e.1.agent) = _
  unfold Queue.rename Sched.getAllEvents
  rw [List.map_map, List.map_map]
  rfl

/-- Agents that count down from a number and stop at zero; the state lists what was left. -/
def countDown : Model Nat Nat (List Nat) where
  update _ s := s
  beforeStep s _ := (s, [])
  afterStep s q := (s, if q.step = 0 then [.scheduleRepeating 5 9 0] else [])
  aBefore a s := (a, s)
  aStep a s := (a - 1, s ++ [a - 1])
  aAfter a s := (a, s)
  isStopped a s := (a == 0, a, s)
  adv t := t + 1
  tb _ _ := 0

/-- The same agents with a name that is not used. -/
def countDownNamed : Model Nat (Nat × String) (List Nat) where
  update _ s := s
  beforeStep s _ := (s, [])
  afterStep s q := (s, if q.step = 0 then [.scheduleRepeating (5, "agent") 9 0] else [])
  aBefore a s := (a, s)
  aStep a s := ((a.1 - 1, a.2), s ++ [a.1 - 1])
  aAfter a s := (a, s)
  isStopped a s := (a.1 == 0, a, s)
  adv t := t + 1
  tb _ _ := 0

/-- Giving names to agents satisfies the hypothesis of `C251_schedule`, and so does taking them away. -/
example : Renamed (fun n => (n, "agent")) countDown countDownNamed where
  update := rfl
  before _ _ := rfl
  after s q := by
    show (s, if q.step = 0 then _ else _) = (s, List.map _ (if q.step = 0 then _ else _))
    by_cases h : q.step = 0
    · rw [if_pos h, if_pos h]; rfl
    · rw [if_neg h, if_neg h]; rfl
  aBefore _ _ := rfl
  aStep _ _ := rfl
  aAfter _ _ := rfl
  stopped _ _ := rfl
  adv := rfl
  ties _ _ := rfl

example : Renamed Prod.fst countDownNamed countDown where
  update := rfl
  before _ _ := rfl
  after s q := by
    show (s, if q.step = 0 then _ else _) = (s, List.map _ (if q.step = 0 then _ else _))
    by_cases h : q.step = 0
    · rw [if_pos h, if_pos h]; rfl
    · rw [if_neg h, if_neg h]; rfl
  aBefore _ _ := rfl
  aStep _ _ := rfl
  aAfter _ _ := rfl
  stopped _ _ := rfl
  adv := rfl
  ties _ _ := rfl

example :
    let ops : List (Op Nat (Nat × String)) := [.cmd (.scheduleRepeating (2, "ann") 0 0), .cmd (.scheduleRepeating (3, "bob") 0 0),
      .step, .step]
    ((World.mk [] (Sched.new 0) []).run countDownNamed ops).state = [1, 2, 0, 1] ∧
    ((World.mk [] (Sched.new 0) []).run countDownNamed ops).sched.getAllEvents = [(5, "agent"), (1, "bob")] ∧
    ((World.mk [] (Sched.new 0) []).run countDown (ops.map (Op.rename Prod.fst))).state = [1, 2, 0, 1] ∧
    ((World.mk [] (Sched.new 0) []).run countDown (ops.map (Op.rename Prod.fst))).sched.getAllEvents = [5, 1] := by
  decide +kernel

end Verif.Schedule
