import Verif.Spec.Schedule

/-!
Specification of C246: the order in which agents are put on the schedule.
-/

namespace Verif.Schedule

variable {T A S : Type}

/-- An agent to be scheduled: what it is, when and with which ordering. -/
structure Plan (T A : Type) where
  agent : A
  time : T
  ordering : Int
  deriving DecidableEq, Repr

/-- A program that schedules these agents one after the other. -/
def Plan.calls (l : List (Plan T A)) : List (Cmd T A) := l.map (fun p => .scheduleRepeating p.agent p.time p.ordering)

/-- What is pending, without the numbers the schedule gives. -/
def Entry.nameless (e : Entry T A) : A × Bool × Priority T := (e.1.agent, e.1.repeating, e.2)

/-- An observation, without the numbers the schedule gives. -/
def Ev.nameless : Ev T A → Ev T A
  | .update k => .update k
  | .stateBefore => .stateBefore
  | .stateAfter => .stateAfter
  | .agentBefore _ => .agentBefore 0
  | .agentStep _ p => .agentStep 0 p
  | .agentAfter _ => .agentAfter 0
  | .once _ => .once 0
  | .registered _ ok => .registered 0 ok
  | .dequeued _ ok => .dequeued 0 ok

/-- Two simulations nobody can tell apart who does not look at the numbers of the agents: the same state, the same
clock, the same observations and the same agents pending. -/
structure Alike (w w' : World T A S) : Prop where
  state : w'.state = w.state
  step : w'.sched.step = w.sched.step
  time : w'.sched.time = w.sched.time
  trace : w'.trace.map Ev.nameless = w.trace.map Ev.nameless
  pending : (w'.sched.events.map Entry.nameless).Perm (w.sched.events.map Entry.nameless)

/-- Hooks that do not look at the schedule and make no calls but to schedule new agents. -/
def Blind (m : Model T A S) : Prop :=
  (∀ s sch sch', m.beforeStep s sch = m.beforeStep s sch') ∧ (∀ s sch sch', m.afterStep s sch = m.afterStep s sch') ∧
  (∀ s sch, ∃ l : List (Plan T A), (m.beforeStep s sch).2 = Plan.calls l) ∧
  (∀ s sch, ∃ l : List (Plan T A), (m.afterStep s sch).2 = Plan.calls l)

/-- Hooks that do not look at the schedule and make no calls. -/
def Still (m : Model T A S) : Prop :=
  (∀ s sch sch', m.beforeStep s sch = m.beforeStep s sch') ∧ (∀ s sch sch', m.afterStep s sch = m.afterStep s sch') ∧
  (∀ s sch, (m.beforeStep s sch).2 = []) ∧ (∀ s sch, (m.afterStep s sch).2 = [])

end Verif.Schedule
