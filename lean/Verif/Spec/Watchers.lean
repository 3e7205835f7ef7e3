import Verif.Spec.Permute

/-!
Specification of C266: agents that only watch.
-/

namespace Verif.Schedule

variable {T A S V : Type}

/-- `m'` is the simulation `m` without its watchers. `see` is what the simulation without watchers has of the state; the rest is what the watchers
write down. The other agents and the hooks act on what `see` shows and depend on it only, and watchers do not change it. The hooks do not look at
the schedule, and schedule the same agents, watchers left out. -/
structure Unwatched (see : S → V) (watch : A → Bool) (m : Model T A S) (m' : Model T A V) : Prop where
  adv : m'.adv = m.adv
  update : ∀ k s, m'.update k (see s) = see (m.update k s)
  before : ∀ s sch sch', ∃ l : List (Plan T A), (m.beforeStep s sch).2 = Plan.calls l ∧
    m'.beforeStep (see s) sch' = (see (m.beforeStep s sch).1, Plan.calls (l.filter (fun p => !watch p.agent)))
  after : ∀ s sch sch', ∃ l : List (Plan T A), (m.afterStep s sch).2 = Plan.calls l ∧
    m'.afterStep (see s) sch' = (see (m.afterStep s sch).1, Plan.calls (l.filter (fun p => !watch p.agent)))
  aBefore : ∀ a s, watch a = false → m'.aBefore a (see s) = ((m.aBefore a s).1, see (m.aBefore a s).2)
  aStep : ∀ a s, watch a = false → m'.aStep a (see s) = ((m.aStep a s).1, see (m.aStep a s).2)
  aAfter : ∀ a s, watch a = false → m'.aAfter a (see s) = ((m.aAfter a s).1, see (m.aAfter a s).2)
  isStopped : ∀ a s, watch a = false → m'.isStopped a (see s) = ((m.isStopped a s).1, (m.isStopped a s).2.1, see (m.isStopped a s).2.2)
  stays : ∀ a s, watch (m.aBefore a s).1 = watch a ∧ watch (m.aStep a s).1 = watch a ∧ watch (m.aAfter a s).1 = watch a ∧
    watch (m.isStopped a s).2.1 = watch a
  watches : ∀ a s, watch a = true → see (m.aBefore a s).2 = see s ∧ see (m.aStep a s).2 = see s ∧ see (m.aAfter a s).2 = see s ∧
    see (m.isStopped a s).2.2 = see s

/-- The pending agents that are not watchers. -/
def others (watch : A → Bool) (q : Queue T A) : Queue T A := q.filter (fun e => !watch e.1.agent)

/-- No watcher runs ahead: if other agents are pending, none of the watchers is due before all of them. -/
def NoneAhead [LinearOrder T] (watch : A → Bool) (q : Queue T A) : Prop :=
  others watch q ≠ [] → ∀ e ∈ q, ∃ f ∈ others watch q, f.2.time ≤ e.2.time

/-- What can be compared of a simulation with its watchers and one without: the step counter, the state apart from the notes of the watchers, and
the other agents that are pending, with time and ordering. -/
structure Undisturbed (see : S → V) (watch : A → Bool) (w : World T A S) (w' : World T A V) : Prop where
  state : w'.state = see w.state
  step : w'.sched.step = w.sched.step
  pending : (w'.sched.events.map Entry.nameless).Perm ((others watch w.sched.events).map Entry.nameless)

end Verif.Schedule
