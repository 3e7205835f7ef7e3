import Verif.Model.Schedule
import Verif.Model.DenseI32

/-!
The schedule with its counter of agents as it is, a `u32` (src/engine/schedule.rs:233, 295-313): `+= 1` on the greatest
`u32` panics in a debug build and gives 0 in a release build. Everything else is as in `Verif.Model.Schedule`.
-/

namespace Verif.ScheduleU32

open Schedule
open DenseI32 (Mode)

variable {T A S : Type}

/-- `n + 1` on `u32`; `none` is a panic (src/engine/schedule.rs:297, 307). -/
def incr : Mode → Nat → Option Nat
  | .debug, n => if n + 1 < 2 ^ 32 then some (n + 1) else none
  | .release, n => some ((n + 1) % 2 ^ 32)

/-- src/engine/schedule.rs:305-313 (`distributed_schedule_repeating`), 295-303 (`schedule_repeating`). The id returned is
`agent_ids_counting - 1`, which overflows in a debug build when the counter is 0; it never is there, the `+= 1` has
panicked before. -/
def scheduleRepeating (b : Mode) (s : Sched T A) (agent : A) (t : T) (o : Int) : Option (Sched T A × Nat × Bool) :=
  match incr b s.idCount with
  | none => none
  | some n =>
    some ({ s with
        idCount := n
        events := (s.events.push { AgentImpl.new agent s.idCount with repeating := true } ⟨t, o⟩).1 },
      (n + (2 ^ 32 - 1)) % 2 ^ 32,
      (s.events.push { AgentImpl.new agent s.idCount with repeating := true } ⟨t, o⟩).2.isNone)

/-- One API call (src/engine/schedule.rs:283-341). -/
def exec (b : Mode) (w : World T A S) : Cmd T A → Option (World T A S)
  | .scheduleRepeating a t o =>
    match scheduleRepeating b w.sched a t o with
    | none => none
    | some r => some { w with sched := r.1, trace := w.trace ++ [.registered r.2.1 r.2.2] }
  | .scheduleOnce a t o => some (w.exec (.scheduleOnce a t o))
  | .dequeue id => some (w.exec (.dequeue id))

/-- A list of API calls (src/engine/schedule.rs:283-341). -/
def execAll (b : Mode) : World T A S → List (Cmd T A) → Option (World T A S)
  | w, [] => some w
  | w, c :: cs =>
    match exec b w c with
    | none => none
    | some w' => execAll b w' cs

/-- `state.before_step(self)`, src/engine/schedule.rs:353. -/
def doBefore (b : Mode) (m : Model T A S) (w : World T A S) : Option (World T A S) :=
  execAll b { w with state := (m.beforeStep w.state w.sched).1, trace := w.trace ++ [.stateBefore] }
    (m.beforeStep w.state w.sched).2

/-- `state.after_step(self)`, src/engine/schedule.rs:361, 410. -/
def doAfter (b : Mode) (m : Model T A S) (w : World T A S) : Option (World T A S) :=
  execAll b { w with state := (m.afterStep w.state w.sched).1, trace := w.trace ++ [.stateAfter] }
    (m.afterStep w.state w.sched).2

/-- src/engine/schedule.rs:347-413 (`Schedule::step`, sequential). -/
def step [LinearOrder T] (b : Mode) (m : Model T A S) (w : World T A S) : Option (World T A S) :=
  match doBefore b m (if w.sched.step = 0 then w.doUpdate m w.sched.step else w) with
  | none => none
  | some v =>
    match doAfter b m (if v.sched.events.isEmpty then v else runDue m v) with
    | none => none
    | some x =>
      some (World.doUpdate m (x.sched.step + 1) { x with sched := { x.sched with step := x.sched.step + 1 } })

/-- One operation (src/engine/schedule.rs:283-413). -/
def op [LinearOrder T] (b : Mode) (m : Model T A S) (w : World T A S) : Op T A → Option (World T A S)
  | .cmd c => exec b w c
  | .step => step b m w

/-- A history of operations (src/engine/schedule.rs:283-413). -/
def run [LinearOrder T] (b : Mode) (m : Model T A S) : World T A S → List (Op T A) → Option (World T A S)
  | w, [] => some w
  | w, o :: os =>
    match op b m w o with
    | none => none
    | some w' => run b m w' os

end Verif.ScheduleU32
