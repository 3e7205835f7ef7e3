import Mathlib.Order.Defs.LinearOrder

/-!
Model of `src/engine/schedule.rs` (sequential and parallel variants), `src/engine/priority.rs`,
`src/engine/agentimpl.rs` and of the parts of the `priority-queue` crate they use.

`T` is the type of times (`f32` in the code, any linear order here; NaN is excluded), `A` the type of
agents (`Box<dyn Agent>`), `S` the user's state (`dyn State`).
-/

namespace Verif.Schedule

/-- src/engine/agentimpl.rs:14-18 (`AgentImpl`). Equality and hash are by `id` only (42-54); the model
compares ids explicitly. `u32` is `Nat`. -/
structure AgentImpl (A : Type) where
  id : Nat
  agent : A
  repeating : Bool
deriving DecidableEq, Repr

/-- src/engine/agentimpl.rs:22-28 (`AgentImpl::new`). -/
def AgentImpl.new {A : Type} (agent : A) (id : Nat) : AgentImpl A :=
  { id := id, agent := agent, repeating := false }

/-- src/engine/priority.rs:6-9 (`Priority`). -/
structure Priority (T : Type) where
  time : T
  ordering : Int
deriving DecidableEq, Repr

/-- src/engine/priority.rs:22-38 (`Ord for Priority`): an earlier time is *greater*, then a smaller
ordering is greater. -/
def Priority.cmp {T : Type} [LinearOrder T] (p q : Priority T) : Ordering :=
  if p.time < q.time then .gt
  else if q.time < p.time then .lt
  else if p.ordering < q.ordering then .gt
  else if q.ordering < p.ordering then .lt
  else .eq

/-- A queue entry: `(AgentImpl, Priority)`, also `Pair` of src/engine/schedule.rs:240-243. -/
abbrev Entry (T A : Type) := AgentImpl A × Priority T

/-- `PriorityQueue<AgentImpl, Priority>` (priority-queue 1.2): the stored entries. The position of an entry
in the list carries no meaning; it is the order of first insertion (src/engine/schedule.rs:227-236). -/
abbrev Queue (T A : Type) := List (Entry T A)

/-- `PriorityQueue::push`: if an equal item (same id) is stored, only its priority is replaced, the
stored item is kept and the old priority is returned (used in src/engine/schedule.rs:284). -/
def Queue.push {T A : Type} (q : Queue T A) (a : AgentImpl A) (p : Priority T) :
    Queue T A × Option (Priority T) :=
  match q.find? (fun e => e.1.id == a.id) with
  | none => (q ++ [(a, p)], none)
  | some old => (q.map (fun e => if e.1.id == a.id then (e.1, p) else e), some old.2)

/-- `PriorityQueue::remove`: removes the item equal to (same id as) the argument (used in src/engine/schedule.rs:329-341). -/
def Queue.remove {T A : Type} (q : Queue T A) (id : Nat) : Queue T A × Option (Entry T A) :=
  (q.filter (fun e => e.1.id != id), q.find? (fun e => e.1.id == id))

/-- The entries no other entry beats: the candidates `PriorityQueue::peek`/`pop` may return (used in
src/engine/schedule.rs:369-393). -/
def Queue.tops {T A : Type} [LinearOrder T] (q : Queue T A) : Queue T A :=
  q.filter (fun e => q.all (fun f => f.2.cmp e.2 != .gt))

/-- Resolution of ties inside the heap: an arbitrary choice, depending on the queue and on the number of
pops made so far (so two equal queues may be resolved differently) (src/engine/schedule.rs:369-393). -/
abbrev TieBreak (T A : Type) := Nat → Queue T A → Nat

/-- `PriorityQueue::peek`: some entry of greatest priority (used in src/engine/schedule.rs:369-393). -/
def Queue.peek {T A : Type} [LinearOrder T] (tb : TieBreak T A) (n : Nat) (q : Queue T A) :
    Option (Entry T A) :=
  q.tops[tb n q % q.tops.length]?

/-- `PriorityQueue::pop`: returns and removes the entry `peek` shows (used in src/engine/schedule.rs:369-393). -/
def Queue.pop {T A : Type} [LinearOrder T] (tb : TieBreak T A) (n : Nat) (q : Queue T A) :
    Option (Entry T A × Queue T A) :=
  (q.peek tb n).map (fun e => (e, q.filter (fun f => f.1.id != e.1.id)))

/-- src/engine/schedule.rs:227-236 (`Schedule`). `pops` is a ghost counter for the tie-break oracle. -/
structure Sched (T A : Type) where
  step : Nat
  time : T
  events : Queue T A
  idCount : Nat
  pops : Nat

/-- src/engine/schedule.rs:268-275 (`Schedule::new`); `zero` is `0.0`. -/
def Sched.new {T A : Type} (zero : T) : Sched T A :=
  { step := 0, time := zero, events := [], idCount := 0, pops := 0 }

/-- src/engine/schedule.rs:283-285 (`schedule_once`). -/
def Sched.scheduleOnce {T A : Type} (s : Sched T A) (a : AgentImpl A) (t : T) (o : Int) :
    Sched T A :=
  { s with events := (s.events.push a ⟨t, o⟩).1 }

/-- src/engine/schedule.rs:305-313 (`distributed_schedule_repeating`); `schedule_repeating` (295-303) is
the same without the id in the result. `u32` overflow of the counter is not modelled here (see `ScheduleU32`). -/
def Sched.scheduleRepeating {T A : Type} (s : Sched T A) (agent : A) (t : T) (o : Int) :
    Sched T A × Nat × Bool :=
  let a := { AgentImpl.new agent s.idCount with repeating := true }
  let r := s.events.push a ⟨t, o⟩
  ({ s with idCount := s.idCount + 1, events := r.1 }, s.idCount, r.2.isNone)

/-- src/engine/schedule.rs:329-341 (`dequeue`): the agent argument is ignored by equality. -/
def Sched.dequeue {T A : Type} (s : Sched T A) (id : Nat) : Sched T A × Bool :=
  let r := s.events.remove id
  ({ s with events := r.1 }, r.2.isSome)

/-- src/engine/schedule.rs:316-322 (`get_all_events`): clones of the pending agents, in the queue's
internal order. -/
def Sched.getAllEvents {T A : Type} (s : Sched T A) : List A :=
  s.events.map (fun e => e.1.agent)

/-- The calls a user can make on a `Schedule` besides `step` (src/engine/schedule.rs:283-341). -/
inductive Cmd (T A : Type) where
  | scheduleOnce (a : AgentImpl A) (t : T) (o : Int)
  | scheduleRepeating (agent : A) (t : T) (o : Int)
  | dequeue (id : Nat)

/-- What an outside observer can record: every call of user code made by `step`, and the result of each
API call (src/engine/schedule.rs:347-413). -/
inductive Ev (T A : Type) where
  /-- `state.update(k)` -/
  | update (k : Nat)
  /-- `state.before_step(schedule)` -/
  | stateBefore
  /-- `state.after_step(schedule)` -/
  | stateAfter
  /-- `agent.before_step(state)` of the agent with this id -/
  | agentBefore (id : Nat)
  /-- `agent.step(state)` of the agent with this id, popped with this priority -/
  | agentStep (id : Nat) (p : Priority T)
  /-- `agent.after_step(state)` of the agent with this id -/
  | agentAfter (id : Nat)
  /-- `schedule_once` was called -/
  | once (id : Nat)
  /-- `(distributed_)schedule_repeating` assigned this id and returned this flag -/
  | registered (id : Nat) (ok : Bool)
  /-- `dequeue(_, id)` returned this flag -/
  | dequeued (id : Nat) (ok : Bool)

/-- The user's code and the queue's tie-breaking, all arbitrary.

* `update`, `beforeStep`, `afterStep`: the `State` trait (src/engine/state.rs). `before_step` and
  `after_step` get `&mut Schedule`; the model lets them look at everything and then perform any list of
  API calls. (Code that assigns the public fields of `Schedule` directly is not covered.)
* `aBefore`, `aStep`, `aAfter`, `isStopped`: the `Agent` trait (src/engine/agent.rs). The vectors
  returned by `before_step`/`after_step` are ignored by the schedule and not modelled. `is_stopped`
  may mutate agent and state.
* `adv` is `time + 1.0`. -/
structure Model (T A S : Type) where
  update : Nat → S → S
  beforeStep : S → Sched T A → S × List (Cmd T A)
  afterStep : S → Sched T A → S × List (Cmd T A)
  aBefore : A → S → A × S
  aStep : A → S → A × S
  aAfter : A → S → A × S
  isStopped : A → S → Bool × A × S
  adv : T → T
  tb : TieBreak T A

/-- A running simulation: the state, the schedule and the observations so far (oldest first) (src/engine/schedule.rs:347-413). -/
structure World (T A S : Type) where
  state : S
  sched : Sched T A
  trace : List (Ev T A)

variable {T A S : Type}

/-- One API call, recording its result (src/engine/schedule.rs:283-341). -/
def World.exec (w : World T A S) : Cmd T A → World T A S
  | .scheduleOnce a t o =>
    { w with sched := w.sched.scheduleOnce a t o, trace := w.trace ++ [.once a.id] }
  | .scheduleRepeating a t o =>
    let r := w.sched.scheduleRepeating a t o
    { w with sched := r.1, trace := w.trace ++ [.registered r.2.1 r.2.2] }
  | .dequeue id =>
    let r := w.sched.dequeue id
    { w with sched := r.1, trace := w.trace ++ [.dequeued id r.2] }

/-- A list of API calls (src/engine/schedule.rs:283-341). -/
def World.execAll (w : World T A S) (cs : List (Cmd T A)) : World T A S :=
  cs.foldl World.exec w

/-- `state.update(k)` (src/engine/schedule.rs:349-353, 410-412). -/
def World.doUpdate (m : Model T A S) (k : Nat) (w : World T A S) : World T A S :=
  { w with state := m.update k w.state, trace := w.trace ++ [.update k] }

/-- `state.before_step(self)`, src/engine/schedule.rs:353. -/
def World.doBefore (m : Model T A S) (w : World T A S) : World T A S :=
  let r := m.beforeStep w.state w.sched
  World.execAll { w with state := r.1, trace := w.trace ++ [.stateBefore] } r.2

/-- `state.after_step(self)`, src/engine/schedule.rs:361, 410. -/
def World.doAfter (m : Model T A S) (w : World T A S) : World T A S :=
  let r := m.afterStep w.state w.sched
  World.execAll { w with state := r.1, trace := w.trace ++ [.stateAfter] } r.2

/-- The part of `step` before the queue is looked at: src/engine/schedule.rs:349-353. -/
def preStep (m : Model T A S) (w : World T A S) : World T A S :=
  (if w.sched.step = 0 then w.doUpdate m w.sched.step else w).doBefore m

/-- The part of `step` after the agents have run: src/engine/schedule.rs:410-412 and 361-363. -/
def postStep (m : Model T A S) (w : World T A S) : World T A S :=
  let w := w.doAfter m
  let w := { w with sched := { w.sched with step := w.sched.step + 1 } }
  w.doUpdate m w.sched.step

/-- The pop loop, src/engine/schedule.rs:377-393: pop while the next entry's time is not later than the
clock. `fuel` bounds the number of iterations; each iteration removes an entry, so the length of the
queue is enough (`popDue_fuel` in the lemmas). -/
def popDue [LinearOrder T] (tb : TieBreak T A) : Nat → Sched T A → List (Entry T A) × Sched T A
  | 0, s => ([], s)
  | fuel + 1, s =>
    match s.events.peek tb s.pops with
    | none => ([], s)
    | some top =>
      if s.time < top.2.time then ([], s)
      else
        match s.events.pop tb s.pops with
        | none => ([], s)
        | some (e, q) =>
          let r := popDue tb fuel { s with events := q, pops := s.pops + 1 }
          (e :: r.1, r.2)

/-- One iteration of the agent loop, src/engine/schedule.rs:395-408. -/
def runOne (m : Model T A S) (w : World T A S) (item : Entry T A) : World T A S :=
  let r1 := m.aBefore item.1.agent w.state
  let r2 := m.aStep r1.1 r1.2
  let r3 := m.aAfter r2.1 r2.2
  let trace := w.trace ++
    [.agentBefore item.1.id, .agentStep item.1.id item.2, .agentAfter item.1.id]
  if item.1.repeating then
    let r4 := m.isStopped r3.1 r3.2
    if r4.1 then { w with state := r4.2.2, trace := trace }
    else
      { state := r4.2.2
        sched := w.sched.scheduleOnce { item.1 with agent := r4.2.1 } (m.adv item.2.time) item.2.ordering
        trace := trace }
  else { w with state := r3.2, trace := trace }

/-- The part of `step` that runs agents, src/engine/schedule.rs:369-408 (queue not empty). -/
def runDue [LinearOrder T] (m : Model T A S) (w : World T A S) : World T A S :=
  match w.sched.events.peek m.tb w.sched.pops with
  | none => w
  | some top =>
    let s := { w.sched with time := top.2.time }
    let r := popDue m.tb s.events.length s
    r.1.foldl (runOne m) { w with sched := r.2 }

/-- What `step` has done when it calls `after_step`: src/engine/schedule.rs:349-408 (or 349-360 when nothing is
pending). -/
def midStep [LinearOrder T] (m : Model T A S) (w : World T A S) : World T A S :=
  let w := preStep m w
  if w.sched.events.isEmpty then w else runDue m w

/-- src/engine/schedule.rs:347-413 (`Schedule::step`, sequential). The two copies of the closing code
(361-363 and 410-412) are the same. -/
def step [LinearOrder T] (m : Model T A S) (w : World T A S) : World T A S :=
  postStep m (midStep m w)

/-- `n` successive steps (src/engine/schedule.rs:347-413). -/
def steps [LinearOrder T] (m : Model T A S) : Nat → World T A S → World T A S
  | 0, w => w
  | n + 1, w => steps m n (step m w)

/-- What a program does with a schedule: API calls and steps in any order (src/engine/schedule.rs:283-413). -/
inductive Op (T A : Type) where
  | cmd (c : Cmd T A)
  | step

/-- One operation (src/engine/schedule.rs:283-413). -/
def World.op [LinearOrder T] (m : Model T A S) (w : World T A S) : Op T A → World T A S
  | .cmd c => w.exec c
  | .step => Verif.Schedule.step m w

/-- A history of operations (src/engine/schedule.rs:283-413). -/
def World.run [LinearOrder T] (m : Model T A S) (w : World T A S) (ops : List (Op T A)) : World T A S :=
  ops.foldl (World.op m) w

end Verif.Schedule
