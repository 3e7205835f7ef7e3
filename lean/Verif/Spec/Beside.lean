import Verif.Spec.Watchers

/-! Specification of C279: two models on one schedule. -/

namespace Verif.Schedule

variable {T A S V : Type}

/-- Two models on one schedule, each with a state of its own: the agents of which `first` holds are those of the first model. The hooks of both run. -/
def beside (first : A → Bool) (tb : TieBreak T A) (m₁ : Model T A S) (m₂ : Model T A V) : Model T A (S × V) where
  update := fun k s => (m₁.update k s.1, m₂.update k s.2)
  beforeStep := fun s sch => (((m₁.beforeStep s.1 sch).1, (m₂.beforeStep s.2 sch).1), (m₁.beforeStep s.1 sch).2 ++ (m₂.beforeStep s.2 sch).2)
  afterStep := fun s sch => (((m₁.afterStep s.1 sch).1, (m₂.afterStep s.2 sch).1), (m₁.afterStep s.1 sch).2 ++ (m₂.afterStep s.2 sch).2)
  aBefore := fun a s => if first a then ((m₁.aBefore a s.1).1, (m₁.aBefore a s.1).2, s.2) else ((m₂.aBefore a s.2).1, s.1, (m₂.aBefore a s.2).2)
  aStep := fun a s => if first a then ((m₁.aStep a s.1).1, (m₁.aStep a s.1).2, s.2) else ((m₂.aStep a s.2).1, s.1, (m₂.aStep a s.2).2)
  aAfter := fun a s => if first a then ((m₁.aAfter a s.1).1, (m₁.aAfter a s.1).2, s.2) else ((m₂.aAfter a s.2).1, s.1, (m₂.aAfter a s.2).2)
  isStopped := fun a s =>
    if first a then ((m₁.isStopped a s.1).1, (m₁.isStopped a s.1).2.1, (m₁.isStopped a s.1).2.2, s.2)
    else ((m₂.isStopped a s.2).1, (m₂.isStopped a s.2).2.1, s.1, (m₂.isStopped a s.2).2.2)
  adv := m₁.adv
  tb := tb

/-- The agents of a model remain agents of that model, and its hooks, which do not look at the schedule, schedule agents of that model only. -/
structure Closed (mine : A → Bool) (m : Model T A S) : Prop where
  before : ∀ s, ∃ (s' : S) (l : List (Plan T A)), (∀ p ∈ l, mine p.agent = true) ∧ ∀ sch, m.beforeStep s sch = (s', Plan.calls l)
  after : ∀ s, ∃ (s' : S) (l : List (Plan T A)), (∀ p ∈ l, mine p.agent = true) ∧ ∀ sch, m.afterStep s sch = (s', Plan.calls l)
  stays : ∀ a s, mine a = true → mine (m.aBefore a s).1 = true ∧ mine (m.aStep a s).1 = true ∧ mine (m.aAfter a s).1 = true ∧ mine (m.isStopped a s).2.1 = true

end Verif.Schedule
