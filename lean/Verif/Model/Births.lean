import Verif.Model.Synchronous

/-!
Model of simulations whose population grows. An agent cannot reach the schedule in `step` (src/engine/agent.rs:12 hands it the
state only), so its offspring wait in a list of the state, and `after_step`, which has the schedule (src/engine/state.rs:57-58,
src/engine/schedule.rs:361, 410), schedules them for the time of the next step.

Simplifications: as in `Verif.Model.Synchronous`; besides the field the state has the list of the newborn and the number of the next
newborn, from which every newborn gets its identity.
-/

namespace Verif.Births

open Schedule
open Sync (FieldOps)

/-- The state: field, random values taken, number of the next newborn, the newborn that are not scheduled yet
(src/engine/state.rs:9-62). -/
structure State (F B : Type) where
  field : Option F
  draws : Nat
  next : Nat
  born : List B

variable {T F B V C D : Type}

/-- The newborn made from the offspring `cs`, with the numbers from `k` on (src/engine/agent.rs:12). -/
def children (mk : Nat → C → B) (k : Nat) (cs : List C) : List B := cs.mapIdx (fun j c => mk (k + j) c)

/-- `Agent::step` (src/engine/agent.rs:12): look, decide, place yourself unless you die, place your offspring and put it in the list
of the newborn. -/
def agentStep (ops : FieldOps F B V) (act : D → B → V → (B × Bool) × List C) (mk : Nat → C → B) (rnd : Nat → D) (a : B × Bool)
    (s : State F B) : (B × Bool) × State F B :=
  match s.field with
  | none => (a, s)
  | some f =>
    match ops.look f a.1 with
    | none => (a, { s with field := none })
    | some v =>
      ((act (rnd s.draws) a.1 v).1,
        { field := (if (act (rnd s.draws) a.1 v).1.2 then ops.place f (act (rnd s.draws) a.1 v).1.1 else some f).bind
            (fun f => (children mk s.next (act (rnd s.draws) a.1 v).2).foldlM ops.place f)
          draws := s.draws + 1
          next := s.next + (act (rnd s.draws) a.1 v).2.length
          born := s.born ++ children mk s.next (act (rnd s.draws) a.1 v).2 })

/-- The hooks: `update` publishes the field; `after_step` schedules the newborn with `schedule_repeating(agent, schedule.time + 1.0,
ordering)` and empties their list; `is_stopped` answers whether the agent died (src/engine/state.rs:47-62,
src/engine/agent.rs:12-39, src/engine/schedule.rs:296-313). -/
def model (adv : T → T) (tb : TieBreak T (B × Bool)) (ops : FieldOps F B V) (act : D → B → V → (B × Bool) × List C)
    (mk : Nat → C → B) (rnd : Nat → D) (ident : B → Nat) (ord : Nat → Int) : Model T (B × Bool) (State F B) :=
  { update := fun _ s => { s with field := s.field.bind ops.publish }
    beforeStep := fun s _ => (s, [])
    afterStep := fun s sched =>
      ({ s with born := [] }, s.born.map (fun b => .scheduleRepeating (b, true) (adv sched.time) (ord (ident b))))
    aBefore := fun a s => (a, s)
    aStep := agentStep ops act mk rnd
    aAfter := fun a s => (a, s)
    isStopped := fun a s => (!a.2, a, s)
    adv := adv
    tb := tb }

/-- `State::init` (src/engine/state.rs:47): every agent is placed and scheduled from `zero` on. -/
def init (zero : T) (ops : FieldOps F B V) (ident : B → Nat) (ord : Nat → Int) (agents : List B) (s : State F B) :
    State F B × List (Cmd T (B × Bool)) :=
  ({ s with field := s.field.bind (fun f => agents.foldlM ops.place f) },
    agents.map (fun b => .scheduleRepeating (b, true) zero (ord (ident b))))

/-- The simulation for the driver; `end_condition` is the default (src/engine/state.rs:60-62). -/
def sim (zero : T) (adv : T → T) (tb : TieBreak T (B × Bool)) (ops : FieldOps F B V) (act : D → B → V → (B × Bool) × List C)
    (mk : Nat → C → B) (rnd : Nat → D) (ident : B → Nat) (ord : Nat → Int) (agents : List B) :
    Driver.Sim T (B × Bool) (State F B) :=
  { model := model adv tb ops act mk rnd ident ord
    zero := zero
    init := init zero ops ident ord agents
    endCondition := fun w => (false, w.state, []) }

end Verif.Births
