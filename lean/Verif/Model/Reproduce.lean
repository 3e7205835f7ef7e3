import Verif.Model.ParallelSchedule

/-!
Model of the step of the schedule with the values that the agents' own `before_step` and `after_step` return: agents to be scheduled,
with `ScheduleOptions` ("schedule options to pass to an agent's clone when an agent reproduces", src/engine/schedule.rs:418-423).

Simplifications: as in `Verif.Model.Schedule`.
-/

namespace Verif.Reproduce

open Schedule

/-- `ScheduleOptions` (src/engine/schedule.rs:418-423). -/
structure Options where
  ordering : Int
  repeating : Bool
deriving DecidableEq, Repr

/-- The user's code, with the full results of the agents' `before_step` and `after_step` (src/engine/agent.rs:7-40). The other fields
are those of `Schedule.Model`. -/
structure Hooks (T A S : Type) where
  update : Nat → S → S
  beforeStep : S → Sched T A → S × List (Cmd T A)
  afterStep : S → Sched T A → S × List (Cmd T A)
  aBefore : A → S → (A × S) × Option (List (A × Options))
  aStep : A → S → A × S
  aAfter : A → S → (A × S) × Option (List (A × Options))
  isStopped : A → S → Bool × A × S
  adv : T → T
  tb : TieBreak T A

variable {T A S : Type}

/-- The hooks without these results, for the parts of the step that do not call them (src/engine/schedule.rs:349-393, 410-412). -/
def Hooks.plain (h : Hooks T A S) : Model T A S :=
  { update := h.update
    beforeStep := h.beforeStep
    afterStep := h.afterStep
    aBefore := fun a s => (h.aBefore a s).1
    aStep := h.aStep
    aAfter := fun a s => (h.aAfter a s).1
    isStopped := h.isStopped
    adv := h.adv
    tb := h.tb }

/-- One iteration of the agent loop, src/engine/schedule.rs:395-408 (parallel: 185-211): the results of lines 397 and 399 are
dropped. -/
def runOne (h : Hooks T A S) (w : World T A S) (item : Entry T A) : World T A S :=
  let r1 := h.aBefore item.1.agent w.state
  let r2 := h.aStep r1.1.1 r1.1.2
  let r3 := h.aAfter r2.1 r2.2
  let trace := w.trace ++
    [.agentBefore item.1.id, .agentStep item.1.id item.2, .agentAfter item.1.id]
  if item.1.repeating then
    let r4 := h.isStopped r3.1.1 r3.1.2
    if r4.1 then { w with state := r4.2.2, trace := trace }
    else
      { state := r4.2.2
        sched := w.sched.scheduleOnce { item.1 with agent := r4.2.1 } (h.adv item.2.time) item.2.ordering
        trace := trace }
  else { w with state := r3.1.2, trace := trace }

/-- The part of `step` that runs agents, src/engine/schedule.rs:369-408. -/
def runDue [LinearOrder T] (h : Hooks T A S) (w : World T A S) : World T A S :=
  match w.sched.events.peek h.tb w.sched.pops with
  | none => w
  | some top =>
    let s := { w.sched with time := top.2.time }
    let r := popDue h.tb s.events.length s
    r.1.foldl (runOne h) { w with sched := r.2 }

/-- `Schedule::step`, src/engine/schedule.rs:347-413. -/
def step [LinearOrder T] (h : Hooks T A S) (w : World T A S) : World T A S :=
  postStep h.plain (if (preStep h.plain w).sched.events.isEmpty then preStep h.plain w else runDue h (preStep h.plain w))

/-- `n` steps (src/engine/schedule.rs:347-413). -/
def steps [LinearOrder T] (h : Hooks T A S) : Nat → World T A S → World T A S
  | 0, w => w
  | n + 1, w => steps h n (step h w)

/-- `Schedule::step` with the feature `parallel`, src/engine/schedule.rs:127-221: a completed step. -/
def ParStepOk [LinearOrder T] (h : Hooks T A S) (k : Nat) (w w' : World T A S) : Prop :=
  0 < k ∧ ∃ top seq, (preStep h.plain w).sched.events.peek h.tb (preStep h.plain w).sched.pops = some top ∧
    Interleaves (batches k (popAll h.tb (preStep h.plain w).sched.events.length (preStep h.plain w).sched.pops
      (preStep h.plain w).sched.events)) seq ∧
    w' = postStep h.plain (seq.foldl (runOne h) { preStep h.plain w with
      sched := { (preStep h.plain w).sched with time := top.2.time, events := [], pops := (preStep h.plain w).sched.pops + seq.length } })

end Verif.Reproduce
