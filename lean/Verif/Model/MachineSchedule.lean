import Verif.Model.Schedule
import Verif.Model.Machine

/-!
The sequential schedule with the times of the code: `f32` with infinities and NaN (`Verif.Model.Machine`). Everything that does not compare times is that of
`Verif.Model.Schedule`.
-/

namespace Verif.MachineSchedule

open Machine (F add lt)
open Schedule

variable {A S : Type}

/-- `Ord for Priority` (src/engine/priority.rs:22-38). Every comparison with NaN is false. -/
def cmp (p q : Priority F) : Ordering :=
  if lt p.time q.time then .gt
  else if lt q.time p.time then .lt
  else if p.ordering < q.ordering then .gt
  else if q.ordering < p.ordering then .lt
  else .eq

/-- The entries no other entry beats (used in src/engine/schedule.rs:369-393). -/
def tops (q : Queue F A) : Queue F A := q.filter (fun e => q.all (fun f => cmp f.2 e.2 != .gt))

/-- An entry has the time NaN (the times of src/engine/schedule.rs:283-285). -/
def hasNan (q : Queue F A) : Bool := q.any (fun e => decide (e.2.time = .nan))

/-- What `PriorityQueue::peek`/`pop` may return (used in src/engine/schedule.rs:369-393). The queue is a binary heap: an entry has been compared with its neighbours only. With NaN
the comparison is not transitive, and any entry may be at the root; but the root of at most two entries has been compared with the other one. -/
def candidates (q : Queue F A) : Queue F A := if hasNan q && decide (2 < q.length) then q else tops q

/-- `PriorityQueue::peek` (used in src/engine/schedule.rs:369-393). -/
def peek (tb : TieBreak F A) (n : Nat) (q : Queue F A) : Option (Entry F A) := (candidates q)[tb n q % (candidates q).length]?

/-- `PriorityQueue::pop` (used in src/engine/schedule.rs:369-393). -/
def pop (tb : TieBreak F A) (n : Nat) (q : Queue F A) : Option (Entry F A × Queue F A) :=
  (peek tb n q).map (fun e => (e, q.filter (fun f => f.1.id != e.1.id)))

/-- The pop loop (src/engine/schedule.rs:377-393); `fuel` as in `Schedule.popDue`. -/
def popDue (tb : TieBreak F A) : Nat → Sched F A → List (Entry F A) × Sched F A
  | 0, s => ([], s)
  | fuel + 1, s =>
    match peek tb s.pops s.events with
    | none => ([], s)
    | some top =>
      if lt s.time top.2.time then ([], s)
      else
        match pop tb s.pops s.events with
        | none => ([], s)
        | some (e, q) =>
          let r := popDue tb fuel { s with events := q, pops := s.pops + 1 }
          (e :: r.1, r.2)

/-- The part of `step` that runs agents (src/engine/schedule.rs:369-408). -/
def runDue (m : Model F A S) (w : World F A S) : World F A S :=
  match peek m.tb w.sched.pops w.sched.events with
  | none => w
  | some top =>
    let s := { w.sched with time := top.2.time }
    let r := popDue m.tb s.events.length s
    r.1.foldl (runOne m) { w with sched := r.2 }

/-- What `step` has done when it calls `after_step` (src/engine/schedule.rs:349-408). -/
def midStep (m : Model F A S) (w : World F A S) : World F A S :=
  let w := preStep m w
  if w.sched.events.isEmpty then w else runDue m w

/-- `Schedule::step` (src/engine/schedule.rs:347-413). -/
def step (m : Model F A S) (w : World F A S) : World F A S := postStep m (midStep m w)

/-- `n` successive steps (src/engine/schedule.rs:347-413). -/
def steps (m : Model F A S) : Nat → World F A S → World F A S
  | 0, w => w
  | n + 1, w => steps m n (step m w)

/-- One operation (src/engine/schedule.rs:283-413). -/
def op (m : Model F A S) (w : World F A S) : Op F A → World F A S
  | .cmd c => w.exec c
  | .step => step m w

/-- A history of operations (src/engine/schedule.rs:283-413). -/
def run (m : Model F A S) (w : World F A S) (ops : List (Op F A)) : World F A S := ops.foldl (op m) w

/-- `item.priority.time + 1.0` (src/engine/schedule.rs:404). -/
def advance (rnd : Rat → Rat) (t : F) : F := add rnd t (.fin 1)

end Verif.MachineSchedule
