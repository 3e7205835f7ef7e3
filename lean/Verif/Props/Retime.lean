import Verif.Spec.Retime
import Verif.Model.Single
import Mathlib.Tactic.Ring
import Mathlib.Tactic.Linarith

/-!
C245: only the order of the times and of the orderings matters (src/engine/schedule.rs:227-413,
src/engine/priority.rs:22-38).
-/

set_option linter.unusedSectionVars false

namespace Verif.Schedule

variable {T T' A S : Type} [LinearOrder T] [LinearOrder T']

theorem cmp_retime {σ : T → T'} {ρ : Int → Int} (h : SameOrder σ ρ) (p q : Priority T) :
    (p.retime σ ρ).cmp (q.retime σ ρ) = p.cmp q := by
  unfold Priority.cmp Priority.retime
  simp only [h.1, h.2]

theorem push_retime (σ : T → T') (ρ : Int → Int) (q : Queue T A) (a : AgentImpl A) (p : Priority T) :
    Queue.push (q.map (Entry.retime σ ρ)) a (p.retime σ ρ) =
      ((q.push a p).1.map (Entry.retime σ ρ), (q.push a p).2.map (Priority.retime σ ρ)) := by
  unfold Queue.push
  rw [List.find?_map]
  have : ((fun e : Entry T' A => e.1.id == a.id) ∘ Entry.retime σ ρ) = (fun e : Entry T A => e.1.id == a.id) := rfl
  rw [this]
  cases q.find? (fun e => e.1.id == a.id) with
  | none => simp [Entry.retime]
  | some old =>
    simp only [Option.map_some, List.map_map]
    congr 1
    apply List.map_congr_left
    intro e _
    unfold Entry.retime
    dsimp only [Function.comp]
    by_cases he : (e.1.id == a.id) = true
    · rw [if_pos he, if_pos he]
    · rw [if_neg he, if_neg he]

theorem tops_retime {σ : T → T'} {ρ : Int → Int} (h : SameOrder σ ρ) (q : Queue T A) :
    Queue.tops (q.map (Entry.retime σ ρ)) = q.tops.map (Entry.retime σ ρ) := by
  unfold Queue.tops
  rw [List.filter_map]
  congr 1
  apply List.filter_congr
  intro e _
  dsimp only [Function.comp]
  rw [List.all_map]
  congr 1
  funext f
  dsimp only [Function.comp, Entry.retime]
  rw [cmp_retime h]

theorem peek_retime {σ : T → T'} {ρ : Int → Int} (h : SameOrder σ ρ) {tb : TieBreak T A} {tb' : TieBreak T' A}
    (ht : ∀ n q, tb' n (q.map (Entry.retime σ ρ)) = tb n q) (n : Nat) (q : Queue T A) :
    Queue.peek tb' n (q.map (Entry.retime σ ρ)) = (q.peek tb n).map (Entry.retime σ ρ) := by
  unfold Queue.peek
  rw [tops_retime h, ht, List.length_map, List.getElem?_map]

theorem filter_retime (σ : T → T') (ρ : Int → Int) (q : Queue T A) (id : Nat) :
    (q.map (Entry.retime σ ρ)).filter (fun f => f.1.id != id) =
      (q.filter (fun f => f.1.id != id)).map (Entry.retime σ ρ) := by
  rw [List.filter_map]; rfl

theorem pop_retime {σ : T → T'} {ρ : Int → Int} (h : SameOrder σ ρ) {tb : TieBreak T A} {tb' : TieBreak T' A}
    (ht : ∀ n q, tb' n (q.map (Entry.retime σ ρ)) = tb n q) (n : Nat) (q : Queue T A) :
    Queue.pop tb' n (q.map (Entry.retime σ ρ)) =
      (q.pop tb n).map (fun x => (Entry.retime σ ρ x.1, x.2.map (Entry.retime σ ρ))) := by
  unfold Queue.pop
  rw [peek_retime h ht]
  cases q.peek tb n with
  | none => rfl
  | some e =>
    simp only [Option.map_some]
    rw [← filter_retime]
    rfl

theorem scheduleOnce_retime (σ : T → T') (ρ : Int → Int) (s : Sched T A) (a : AgentImpl A) (t : T) (o : Int) :
    (s.retime σ ρ).scheduleOnce a (σ t) (ρ o) = (s.scheduleOnce a t o).retime σ ρ := by
  unfold Sched.scheduleOnce Sched.retime
  dsimp only
  have := push_retime σ ρ s.events a ⟨t, o⟩
  unfold Priority.retime at this
  rw [this]

theorem exec_retime (σ : T → T') (ρ : Int → Int) (w : World T A S) (c : Cmd T A) :
    (w.retime σ ρ).exec (c.retime σ ρ) = (w.exec c).retime σ ρ := by
  cases c with
  | scheduleOnce a t o =>
    simp only [Cmd.retime, World.exec]
    unfold World.retime
    dsimp only
    rw [scheduleOnce_retime]
    simp [Ev.retime]
  | scheduleRepeating a t o =>
    simp only [Cmd.retime, World.exec]
    unfold World.retime Sched.scheduleRepeating Sched.retime
    dsimp only
    have := push_retime σ ρ w.sched.events { AgentImpl.new a w.sched.idCount with repeating := true } ⟨t, o⟩
    unfold Priority.retime at this
    rw [this]
    simp [Ev.retime]
  | dequeue id =>
    simp only [Cmd.retime, World.exec]
    unfold World.retime Sched.dequeue Queue.remove Sched.retime
    dsimp only
    rw [filter_retime, List.find?_map]
    have : ((fun e : Entry T' A => e.1.id == id) ∘ Entry.retime σ ρ) = (fun e : Entry T A => e.1.id == id) := rfl
    rw [this]
    simp [Ev.retime]

theorem execAll_retime (σ : T → T') (ρ : Int → Int) (cs : List (Cmd T A)) : ∀ w : World T A S,
    (w.retime σ ρ).execAll (cs.map (Cmd.retime σ ρ)) = (w.execAll cs).retime σ ρ := by
  unfold World.execAll
  induction cs with
  | nil => intro w; rfl
  | cons c cs ih => intro w; rw [List.map_cons, List.foldl_cons, List.foldl_cons, exec_retime, ih]

variable {m : Model T A S} {m' : Model T' A S}

theorem doUpdate_retime {σ : T → T'} {ρ : Int → Int} (hm : Corresponds σ ρ m m') (k : Nat) (w : World T A S) :
    (w.retime σ ρ).doUpdate m' k = (w.doUpdate m k).retime σ ρ := by
  unfold World.doUpdate World.retime
  dsimp only
  rw [hm.update]
  simp [Ev.retime]

theorem doBefore_retime {σ : T → T'} {ρ : Int → Int} (hm : Corresponds σ ρ m m') (w : World T A S) :
    (w.retime σ ρ).doBefore m' = (w.doBefore m).retime σ ρ := by
  unfold World.doBefore
  dsimp only
  rw [← execAll_retime]
  unfold World.retime
  dsimp only
  rw [hm.before]
  simp [Ev.retime]

theorem doAfter_retime {σ : T → T'} {ρ : Int → Int} (hm : Corresponds σ ρ m m') (w : World T A S) :
    (w.retime σ ρ).doAfter m' = (w.doAfter m).retime σ ρ := by
  unfold World.doAfter
  dsimp only
  rw [← execAll_retime]
  unfold World.retime
  dsimp only
  rw [hm.after]
  simp [Ev.retime]

theorem preStep_retime {σ : T → T'} {ρ : Int → Int} (hm : Corresponds σ ρ m m') (w : World T A S) :
    preStep m' (w.retime σ ρ) = (preStep m w).retime σ ρ := by
  unfold preStep
  rw [← doBefore_retime hm]
  congr 1
  by_cases h : w.sched.step = 0
  · rw [if_pos h, if_pos (show (w.retime σ ρ).sched.step = 0 from h), ← doUpdate_retime hm]; rfl
  · rw [if_neg h, if_neg (show ¬ (w.retime σ ρ).sched.step = 0 from h)]

theorem postStep_retime {σ : T → T'} {ρ : Int → Int} (hm : Corresponds σ ρ m m') (w : World T A S) :
    postStep m' (w.retime σ ρ) = (postStep m w).retime σ ρ := by
  unfold postStep
  dsimp only
  rw [← doUpdate_retime hm, doAfter_retime hm]
  rfl

theorem popDue_retime {σ : T → T'} {ρ : Int → Int} (h : SameOrder σ ρ) (hm : Corresponds σ ρ m m') (fuel : Nat) :
    ∀ s : Sched T A, popDue m'.tb fuel (s.retime σ ρ) =
      ((popDue m.tb fuel s).1.map (Entry.retime σ ρ), (popDue m.tb fuel s).2.retime σ ρ) := by
  induction fuel with
  | zero => intro s; rfl
  | succ fuel ih =>
    intro s
    rw [popDue, popDue]
    have e1 : (s.retime σ ρ).events.peek m'.tb (s.retime σ ρ).pops = (s.events.peek m.tb s.pops).map (Entry.retime σ ρ) :=
      peek_retime h hm.ties s.pops s.events
    have e2 : (s.retime σ ρ).events.pop m'.tb (s.retime σ ρ).pops = (s.events.pop m.tb s.pops).map
        (fun x => (Entry.retime σ ρ x.1, x.2.map (Entry.retime σ ρ))) := pop_retime h hm.ties s.pops s.events
    rw [e1]
    cases s.events.peek m.tb s.pops with
    | none => rfl
    | some top =>
      dsimp only [Option.map_some]
      have e3 : (s.retime σ ρ).time < (Entry.retime σ ρ top).2.time ↔ s.time < top.2.time := h.1 _ _
      by_cases ht : s.time < top.2.time
      · rw [if_pos ht, if_pos (e3.2 ht)]; rfl
      · rw [if_neg ht, if_neg (fun hx => ht (e3.1 hx)), e2]
        cases s.events.pop m.tb s.pops with
        | none => rfl
        | some x =>
          obtain ⟨e, q⟩ := x
          dsimp only [Option.map_some]
          have := ih { s with events := q, pops := s.pops + 1 }
          unfold Sched.retime at this ⊢
          dsimp only at this ⊢
          rw [this]
          rfl

theorem runOne_retime {σ : T → T'} {ρ : Int → Int} (hm : Corresponds σ ρ m m') (w : World T A S) (item : Entry T A) :
    runOne m' (w.retime σ ρ) (Entry.retime σ ρ item) = (runOne m w item).retime σ ρ := by
  unfold runOne
  dsimp only
  rw [hm.aBefore, hm.aStep, hm.aAfter, hm.isStopped]
  have e1 : (w.retime σ ρ).state = w.state := rfl
  have e2 : (Entry.retime σ ρ item).1 = item.1 := rfl
  have e3 : (Entry.retime σ ρ item).2 = item.2.retime σ ρ := rfl
  simp only [e1, e2, e3]
  generalize m.aAfter (m.aStep (m.aBefore item.1.agent w.state).1 (m.aBefore item.1.agent w.state).2).1
        (m.aStep (m.aBefore item.1.agent w.state).1 (m.aBefore item.1.agent w.state).2).2 = r3
  generalize m.isStopped r3.1 r3.2 = r4
  cases hr : item.1.repeating with
  | true =>
    simp only [if_true]
    cases hs : r4.1 with
    | true =>
      simp only [if_true]
      unfold World.retime
      simp [Ev.retime]
    | false =>
      simp only [Bool.false_eq_true, if_false]
      have : m'.adv (item.2.retime σ ρ).time = σ (m.adv item.2.time) := hm.adv _
      rw [this]
      have e : (item.2.retime σ ρ).ordering = ρ item.2.ordering := rfl
      rw [e]
      unfold World.retime
      dsimp only
      rw [scheduleOnce_retime]
      simp [Ev.retime]
  | false =>
    simp only [Bool.false_eq_true, if_false]
    unfold World.retime
    simp [Ev.retime]

theorem foldl_runOne_retime {σ : T → T'} {ρ : Int → Int} (hm : Corresponds σ ρ m m') (l : List (Entry T A)) :
    ∀ w : World T A S, (l.map (Entry.retime σ ρ)).foldl (runOne m') (w.retime σ ρ) =
      (l.foldl (runOne m) w).retime σ ρ := by
  induction l with
  | nil => intro w; rfl
  | cons e l ih => intro w; rw [List.map_cons, List.foldl_cons, List.foldl_cons, runOne_retime hm, ih]

theorem runDue_retime {σ : T → T'} {ρ : Int → Int} (h : SameOrder σ ρ) (hm : Corresponds σ ρ m m') (w : World T A S) :
    runDue m' (w.retime σ ρ) = (runDue m w).retime σ ρ := by
  unfold runDue
  have e1 : (w.retime σ ρ).sched.events.peek m'.tb (w.retime σ ρ).sched.pops =
      (w.sched.events.peek m.tb w.sched.pops).map (Entry.retime σ ρ) := peek_retime h hm.ties w.sched.pops w.sched.events
  rw [e1]
  cases w.sched.events.peek m.tb w.sched.pops with
  | none => rfl
  | some top =>
    dsimp only [Option.map_some]
    have := popDue_retime h hm w.sched.events.length { w.sched with time := top.2.time }
    have e2 : (w.retime σ ρ).sched.events.length = w.sched.events.length := List.length_map ..
    rw [e2]
    rw [← foldl_runOne_retime hm]
    unfold World.retime Sched.retime at this ⊢
    dsimp only at this ⊢
    unfold Entry.retime Priority.retime at this ⊢
    dsimp only at this ⊢
    rw [this]

theorem step_retime {σ : T → T'} {ρ : Int → Int} (h : SameOrder σ ρ) (hm : Corresponds σ ρ m m') (w : World T A S) :
    step m' (w.retime σ ρ) = (step m w).retime σ ρ := by
  unfold step midStep
  dsimp only
  rw [← postStep_retime hm, preStep_retime hm]
  congr 1
  have e : ((preStep m w).retime σ ρ).sched.events.isEmpty = (preStep m w).sched.events.isEmpty := by
    unfold World.retime Sched.retime; simp
  rw [e]
  by_cases he : (preStep m w).sched.events.isEmpty = true
  · rw [if_pos he, if_pos he]
  · rw [if_neg he, if_neg he, runDue_retime h hm]

/-- **C245**: if the times and orderings of a program are replaced by others in the same order, `+ 1` included, then it
runs the same agents in the same steps and in the same order, with the same states and answers. -/
theorem C245_retime_partial {σ : T → T'} {ρ : Int → Int} (h : SameOrder σ ρ) (hm : Corresponds σ ρ m m')
    (w : World T A S) (ops : List (Op T A)) :
    World.run m' (w.retime σ ρ) (ops.map (Op.retime σ ρ)) = (World.run m w ops).retime σ ρ := by
  unfold World.run
  induction ops generalizing w with
  | nil => rfl
  | cons op ops ih =>
    rw [List.map_cons, List.foldl_cons, List.foldl_cons, ← ih]
    congr 1
    cases op with
    | cmd c => exact exec_retime σ ρ w c
    | step => exact step_retime h hm w

/-! ### The clock at the beginning -/

theorem execAll_atClock (cs : List (Cmd T A)) (t : T) : ∀ w : World T A S,
    (w.atClock t).execAll cs = (w.execAll cs).atClock t := by
  unfold World.execAll
  induction cs with
  | nil => intro w; rfl
  | cons c cs ih =>
    intro w
    rw [List.foldl_cons, List.foldl_cons, ← ih]
    congr 1
    cases c <;> rfl

theorem doBefore_atClock (hf : ClockFree m) (w : World T A S) (t : T) :
    (w.atClock t).doBefore m = (w.doBefore m).atClock t := by
  unfold World.doBefore
  dsimp only
  rw [← execAll_atClock]
  have e : m.beforeStep (w.atClock t).state (w.atClock t).sched = m.beforeStep w.state w.sched := (hf w.state w.sched t).1
  rw [e]
  rfl

theorem doAfter_atClock (hf : ClockFree m) (w : World T A S) (t : T) :
    (w.atClock t).doAfter m = (w.doAfter m).atClock t := by
  unfold World.doAfter
  dsimp only
  rw [← execAll_atClock]
  have e : m.afterStep (w.atClock t).state (w.atClock t).sched = m.afterStep w.state w.sched := (hf w.state w.sched t).2
  rw [e]
  rfl

theorem step_atClock (hf : ClockFree m) (w : World T A S) (t : T) :
    ∃ t', step m (w.atClock t) = (step m w).atClock t' := by
  have pre : preStep m (w.atClock t) = (preStep m w).atClock t := by
    unfold preStep
    rw [← doBefore_atClock hf]
    congr 1
    by_cases h : w.sched.step = 0
    · rw [if_pos h, if_pos (show (w.atClock t).sched.step = 0 from h)]; rfl
    · rw [if_neg h, if_neg (show ¬ (w.atClock t).sched.step = 0 from h)]
  have mid : ∃ t', midStep m (w.atClock t) = (midStep m w).atClock t' := by
    unfold midStep
    dsimp only
    rw [pre]
    have e : ((preStep m w).atClock t).sched.events = (preStep m w).sched.events := rfl
    rw [e]
    by_cases he : (preStep m w).sched.events.isEmpty = true
    · rw [if_pos he, if_pos he]; exact ⟨t, rfl⟩
    · rw [if_neg he, if_neg he]
      unfold runDue
      have e2 : ((preStep m w).atClock t).sched.pops = (preStep m w).sched.pops := rfl
      rw [e, e2]
      cases (preStep m w).sched.events.peek m.tb (preStep m w).sched.pops with
      | none => exact ⟨t, rfl⟩
      | some top => exact ⟨_, rfl⟩
  obtain ⟨t', ht'⟩ := mid
  refine ⟨t', ?_⟩
  unfold step
  rw [ht']
  unfold postStep
  dsimp only
  rw [doAfter_atClock hf]
  rfl

theorem run_atClock (hf : ClockFree m) (ops : List (Op T A)) : ∀ (w : World T A S) (t : T),
    ∃ t', World.run m (w.atClock t) ops = (World.run m w ops).atClock t' := by
  unfold World.run
  induction ops with
  | nil => intro w t; exact ⟨t, rfl⟩
  | cons op ops ih =>
    intro w t
    rw [List.foldl_cons, List.foldl_cons]
    cases op with
    | cmd c =>
      have e : World.op m (w.atClock t) (.cmd c) = (World.op m w (.cmd c)).atClock t := by cases c <;> rfl
      rw [e]
      exact ih _ t
    | step =>
      obtain ⟨t1, h1⟩ := step_atClock hf w t
      have e : World.op m (w.atClock t) .step = (World.op m w .step).atClock t1 := h1
      rw [e]
      exact ih _ t1

theorem retime_back (c : Rat) (sch : Sched Rat A) :
    (sch.retime (· + c) id).retime (· - c) id = sch := by
  unfold Sched.retime
  dsimp only
  rw [List.map_map]
  have : (Entry.retime (· - c) id ∘ Entry.retime (· + c) id : Entry Rat A → Entry Rat A) = id := by
    funext e
    unfold Function.comp Entry.retime Priority.retime
    simp
  rw [this, List.map_id, add_sub_cancel_right]

theorem corresponds_later (c : Rat) (m : Model Rat A S) (hadv : m.adv = (· + 1)) :
    Corresponds (· + c) id m (m.later c) := by
  refine ⟨rfl, ?_, ?_, rfl, rfl, rfl, rfl, ?_, ?_⟩
  · intro s sch; unfold Model.later; dsimp only; rw [retime_back]
  · intro s sch; unfold Model.later; dsimp only; rw [retime_back]
  · intro t; unfold Model.later; dsimp only; rw [hadv]; dsimp only; ring
  · intro n q
    unfold Model.later
    dsimp only
    rw [List.map_map]
    have : (Entry.retime (· - c) id ∘ Entry.retime (· + c) id : Entry Rat A → Entry Rat A) = id := by
      funext e
      unfold Function.comp Entry.retime Priority.retime
      simp
    rw [this, List.map_id]

/-- **C245**, times: a program all of whose agents are scheduled `c` later (or earlier) runs, from the empty schedule
on, the same agents in the same steps and in the same order, with the same states and answers, at exact times. The
clock is `c` later too, except that the clock of a schedule that has not run anything is 0. -/
theorem C245_later_partial (c : Rat) (m : Model Rat A S) (hadv : m.adv = (· + 1)) (hf : ClockFree m) (s : S)
    (ops : List (Op Rat A)) : ∃ t,
    World.run (m.later c) (World.start 0 s) (ops.map (Op.retime (· + c) id)) =
      ((World.run m (World.start 0 s) ops).retime (· + c) id).atClock t := by
  have ho : SameOrder (· + c : Rat → Rat) (id : Int → Int) := ⟨fun a b => by dsimp only; constructor <;> intro h <;> linarith, fun _ _ => Iff.rfl⟩
  have hf' : ClockFree (m.later c) := by
    intro s sch t
    unfold Model.later
    dsimp only
    have e : ({ sch with time := t } : Sched Rat A).retime (· - c) id = { sch.retime (· - c) id with time := t - c } := rfl
    rw [e, (hf _ _ _).1, (hf _ _ _).2]
    exact ⟨rfl, rfl⟩
  obtain ⟨t, ht⟩ := run_atClock hf' (ops.map (Op.retime (· + c) id)) ((World.start (A := A) 0 s).retime (· + c) id) 0
  refine ⟨t, ?_⟩
  rw [← C245_retime_partial ho (corresponds_later c m hadv), ← ht]
  rfl

/-- **C245**, orderings: only their order matters. -/
theorem C245_orderings_partial (ρ : Int → Int) (hρ : ∀ i j, ρ i < ρ j ↔ i < j) {m m' : Model T A S}
    (hm : Corresponds id ρ m m') (zero : T) (s : S) (ops : List (Op T A)) :
    World.run m' (World.start zero s) (ops.map (Op.retime id ρ)) = (World.run m (World.start zero s) ops).retime id ρ :=
  C245_retime_partial ⟨fun _ _ => Iff.rfl, hρ⟩ hm (World.start zero s) ops

/-! ### Single precision -/

/-- A model with agents that do nothing but run for ever. -/
def demoIdle (adv : Rat → Rat) : Model Rat Nat Unit :=
  { update := fun _ s => s, beforeStep := fun s _ => (s, []), afterStep := fun s _ => (s, [])
    aBefore := fun a s => (a, s), aStep := fun a s => (a, s), aAfter := fun a s => (a, s)
    isStopped := fun a s => (false, a, s), adv := adv, tb := fun _ _ => 0 }

/-- A repeating agent from time `c` on and another one at time `c + 2`; three steps. -/
def demoTwo (c : Rat) : List (Op Rat Nat) :=
  [.cmd (.scheduleRepeating 7 (0 + c) 0), .cmd (.scheduleOnce ⟨5, 8, false⟩ (2 + c) 0), .step, .step, .step]

/-- The ids of the agents that ran, in order. -/
def ranIds (w : World Rat Nat Unit) : List Nat :=
  w.trace.filterMap (fun e => match e with | .agentStep id _ => some id | _ => none)

/-- **C245** is false of the times of the code (single precision): moved 16777216 units, the repeating agent stays at
its time and the other agent is never run. -/
theorem C245_single_negation_partial :
    demoTwo 16777216 = (demoTwo 0).map (Op.retime (· + 16777216) id) ∧
    ranIds (World.run (demoIdle (fun t => Single.single (t + 1))) (World.start 0 ()) (demoTwo 0)) = [0, 0, 5, 0] ∧
    ranIds (World.run (demoIdle (fun t => Single.single (t + 1))) (World.start 0 ()) (demoTwo 16777216)) = [0, 0, 0] := by
  refine ⟨?_, ?_, ?_⟩
  · simp [demoTwo, Op.retime, Cmd.retime]
  · decide +kernel
  · decide +kernel

/-- A case that meets the hypotheses: the same program, 100 units later, at exact times. -/
example : (demoIdle (· + 1)).adv = (· + 1) ∧ ClockFree (demoIdle (· + 1)) ∧
    ranIds (World.run (demoIdle (· + 1)) (World.start 0 ()) (demoTwo 0)) = [0, 0, 5, 0] ∧
    ranIds (World.run ((demoIdle (· + 1)).later 100) (World.start 0 ()) (demoTwo 100)) = [0, 0, 5, 0] := by
  refine ⟨rfl, fun _ _ _ => ⟨rfl, rfl⟩, ?_, ?_⟩ <;> decide +kernel

/-- Orderings may be renumbered: 0, 1, 2 as 0, 10, 20. -/
example : (∀ i j : Int, 10 * i < 10 * j ↔ i < j) ∧ Corresponds id (10 * ·) (demoIdle (· + 1)) (demoIdle (· + 1)) := by
  refine ⟨fun i j => by omega, rfl, ?_, ?_, rfl, rfl, rfl, rfl, fun _ => rfl, fun _ _ => rfl⟩ <;> intro s sch <;> rfl

end Verif.Schedule
