import Verif.Spec.Watchers

/-!
Specification of C283: what is scheduled for later.
-/

namespace Verif.Schedule

variable {T A S : Type}

/-- `m'` is the simulation `m` without its late agents, which may do anything when they run. The other agents and `update` do the same in both; they do not turn into late
agents. The hooks do not look at the schedule, and schedule the same agents, late ones left out. -/
structure WithoutLate (late : A → Bool) (m m' : Model T A S) : Prop where
  adv : m'.adv = m.adv
  update : m'.update = m.update
  before : ∀ s sch sch', ∃ l : List (Plan T A), (m.beforeStep s sch).2 = Plan.calls l ∧
    m'.beforeStep s sch' = ((m.beforeStep s sch).1, Plan.calls (l.filter (fun p => !late p.agent)))
  after : ∀ s sch sch', ∃ l : List (Plan T A), (m.afterStep s sch).2 = Plan.calls l ∧
    m'.afterStep s sch' = ((m.afterStep s sch).1, Plan.calls (l.filter (fun p => !late p.agent)))
  agents : ∀ a s, late a = false → m'.aBefore a s = m.aBefore a s ∧ m'.aStep a s = m.aStep a s ∧ m'.aAfter a s = m.aAfter a s ∧ m'.isStopped a s = m.isStopped a s
  stays : ∀ a s, late a = false → late (m.aBefore a s).1 = false ∧ late (m.aStep a s).1 = false ∧ late (m.aAfter a s).1 = false ∧ late (m.isStopped a s).2.1 = false

/-- It is too early for the late agents: another agent is due before each of them. -/
def TooEarly [LinearOrder T] (late : A → Bool) (q : Queue T A) : Prop :=
  ∀ e ∈ q, late e.1.agent = true → ∃ f ∈ q, late f.1.agent = false ∧ f.2.time < e.2.time

end Verif.Schedule
