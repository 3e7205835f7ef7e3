import Verif.Model.Reproduce
import Verif.Spec.Schedule

/-!
Specification of reproduction: the agents that an agent returns are scheduled.
-/

namespace Verif.Reproduce

open Schedule

variable {T A S : Type}

/-- What an agent returns in its turn, from `before_step` and from `after_step`. -/
def offspring (h : Hooks T A S) (a : A) (s : S) : List (A × Options) :=
  ((h.aBefore a s).2.getD []) ++
    ((h.aAfter (h.aStep (h.aBefore a s).1.1 (h.aBefore a s).1.2).1 (h.aStep (h.aBefore a s).1.1 (h.aBefore a s).1.2).2).2.getD [])

/-- A child is scheduled as its options say. -/
def Scheduled (w : World T A S) (c : A × Options) : Prop :=
  ∃ e ∈ w.sched.events, e.1.agent = c.1 ∧ e.1.repeating = c.2.repeating ∧ e.2.ordering = c.2.ordering

/-- The hooks of the state call nothing. -/
def Quiet (h : Hooks T A S) : Prop := (∀ s c, (h.beforeStep s c).2 = []) ∧ ∀ s c, (h.afterStep s c).2 = []

/-- Two programs that differ in nothing but what the agents return. -/
structure Alike (h h' : Hooks T A S) : Prop where
  update : h.update = h'.update
  before : h.beforeStep = h'.beforeStep
  after : h.afterStep = h'.afterStep
  aBefore : ∀ a s, (h.aBefore a s).1 = (h'.aBefore a s).1
  aStep : h.aStep = h'.aStep
  aAfter : ∀ a s, (h.aAfter a s).1 = (h'.aAfter a s).1
  stopped : h.isStopped = h'.isStopped
  adv : h.adv = h'.adv
  tb : h.tb = h'.tb

end Verif.Reproduce
