import Verif.Spec.Schedule
import Mathlib.Algebra.Order.Ring.Rat

/-!
Specification of C245: only the order of the times and of the orderings matters.
-/

namespace Verif.Schedule

variable {T T' A S : Type}

/-- A priority with another time and ordering. -/
def Priority.retime (σ : T → T') (ρ : Int → Int) (p : Priority T) : Priority T' := ⟨σ p.time, ρ p.ordering⟩

/-- The same agent at another time. -/
def Entry.retime (σ : T → T') (ρ : Int → Int) (e : Entry T A) : Entry T' A := (e.1, e.2.retime σ ρ)

/-- The same schedule at other times. -/
def Sched.retime (σ : T → T') (ρ : Int → Int) (s : Sched T A) : Sched T' A :=
  ⟨s.step, σ s.time, s.events.map (Entry.retime σ ρ), s.idCount, s.pops⟩

/-- The same call for another time. -/
def Cmd.retime (σ : T → T') (ρ : Int → Int) : Cmd T A → Cmd T' A
  | .scheduleOnce a t o => .scheduleOnce a (σ t) (ρ o)
  | .scheduleRepeating a t o => .scheduleRepeating a (σ t) (ρ o)
  | .dequeue id => .dequeue id

/-- The same observation at another time. -/
def Ev.retime (σ : T → T') (ρ : Int → Int) : Ev T A → Ev T' A
  | .update k => .update k
  | .stateBefore => .stateBefore
  | .stateAfter => .stateAfter
  | .agentBefore id => .agentBefore id
  | .agentStep id p => .agentStep id (p.retime σ ρ)
  | .agentAfter id => .agentAfter id
  | .once id => .once id
  | .registered id ok => .registered id ok
  | .dequeued id ok => .dequeued id ok

/-- The same operation at another time. -/
def Op.retime (σ : T → T') (ρ : Int → Int) : Op T A → Op T' A
  | .cmd c => .cmd (c.retime σ ρ)
  | .step => .step

/-- The same simulation at other times. -/
def World.retime (σ : T → T') (ρ : Int → Int) (w : World T A S) : World T' A S :=
  ⟨w.state, w.sched.retime σ ρ, w.trace.map (Ev.retime σ ρ)⟩

/-- Two models that differ in the times and orderings they use only: the agents and the state do the same, hooks that
look at the schedule make the same calls for the other times, ties are broken in the same way, and the time after a
time `t` is the one after `t` in the other model. -/
structure Corresponds (σ : T → T') (ρ : Int → Int) (m : Model T A S) (m' : Model T' A S) : Prop where
  update : m'.update = m.update
  before : ∀ s sch, m'.beforeStep s (sch.retime σ ρ) =
    ((m.beforeStep s sch).1, (m.beforeStep s sch).2.map (Cmd.retime σ ρ))
  after : ∀ s sch, m'.afterStep s (sch.retime σ ρ) =
    ((m.afterStep s sch).1, (m.afterStep s sch).2.map (Cmd.retime σ ρ))
  aBefore : m'.aBefore = m.aBefore
  aStep : m'.aStep = m.aStep
  aAfter : m'.aAfter = m.aAfter
  isStopped : m'.isStopped = m.isStopped
  adv : ∀ t, m'.adv (σ t) = σ (m.adv t)
  ties : ∀ n q, m'.tb n (q.map (Entry.retime σ ρ)) = m.tb n q

/-- The times and orderings are in the same order. -/
def SameOrder [LT T] [LT T'] (σ : T → T') (ρ : Int → Int) : Prop :=
  (∀ a b, σ a < σ b ↔ a < b) ∧ (∀ i j, ρ i < ρ j ↔ i < j)

/-- The same model `c` later: hooks that look at the schedule see the times of the first model and make their calls `c`
later, and ties are broken in the same way. -/
def Model.later (c : Rat) (m : Model Rat A S) : Model Rat A S :=
  { m with
    beforeStep := fun s sch => ((m.beforeStep s (sch.retime (· - c) id)).1,
      (m.beforeStep s (sch.retime (· - c) id)).2.map (Cmd.retime (· + c) id))
    afterStep := fun s sch => ((m.afterStep s (sch.retime (· - c) id)).1,
      (m.afterStep s (sch.retime (· - c) id)).2.map (Cmd.retime (· + c) id))
    tb := fun n q => m.tb n (q.map (Entry.retime (· - c) id)) }

/-- The same simulation with its clock set to `t`. -/
def World.atClock (w : World T A S) (t : T) : World T A S := { w with sched := { w.sched with time := t } }

/-- The hooks do not look at the clock. -/
def ClockFree (m : Model T A S) : Prop :=
  ∀ (s : S) (sch : Sched T A) (t : T), m.beforeStep s { sch with time := t } = m.beforeStep s sch ∧
    m.afterStep s { sch with time := t } = m.afterStep s sch

/-- A whole number up to `N`. -/
def WholeUpTo (N : Nat) (t : Rat) : Prop := ∃ n : Nat, n ≤ N ∧ t = n

/-- A call that asks for a whole time up to `N`. -/
def CallWhole (N : Nat) : Cmd Rat A → Prop
  | .scheduleOnce _ t _ => WholeUpTo N t
  | .scheduleRepeating _ t _ => WholeUpTo N t
  | .dequeue _ => True

/-- The hooks ask for whole times up to `N` only. -/
def HooksWhole (N : Nat) (m : Model Rat A S) : Prop :=
  ∀ (s : S) (sch : Sched Rat A), (∀ c ∈ (m.beforeStep s sch).2, CallWhole N c) ∧ ∀ c ∈ (m.afterStep s sch).2, CallWhole N c

/-- The number of steps of a program. -/
def stepCount : List (Op T A) → Nat
  | [] => 0
  | .step :: ops => stepCount ops + 1
  | .cmd _ :: ops => stepCount ops

end Verif.Schedule
