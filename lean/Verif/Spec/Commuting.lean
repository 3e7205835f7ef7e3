import Verif.Spec.Permute

/-!
Specification of C284: agents whose actions may be exchanged.
-/

namespace Verif.Schedule

variable {T A S : Type}

/-- What happens when it is an agent's turn: what is left of it to be scheduled again, if anything, and the state. `x.2` says whether the agent is repeating. -/
def turn (m : Model T A S) (x : A × Bool) (s : S) : Option A × S :=
  let r1 := m.aBefore x.1 s
  let r2 := m.aStep r1.1 r1.2
  let r3 := m.aAfter r2.1 r2.2
  if x.2 = true then
    let r4 := m.isStopped r3.1 r3.2
    (if r4.1 = true then none else some r4.2.1, r4.2.2)
  else (none, r3.2)

/-- The turns of any two agents may be exchanged: the state afterwards is the same, and an agent becomes the same whether or not another one had its turn before. -/
structure Exchangeable (m : Model T A S) : Prop where
  state : ∀ x y s, (turn m y (turn m x s).2).2 = (turn m x (turn m y s).2).2
  agent : ∀ x y s, (turn m y (turn m x s).2).1 = (turn m y s).1

/-- A pending agent, without its number and its ordering. -/
def Entry.unordered (e : Entry T A) : A × Bool × T := (e.1.agent, e.1.repeating, e.2.time)

/-- Two simulations that can be told apart by orderings and numbers of agents only. -/
structure SameTurns (w w' : World T A S) : Prop where
  state : w'.state = w.state
  step : w'.sched.step = w.sched.step
  time : w'.sched.time = w.sched.time
  pending : (w'.sched.events.map Entry.unordered).Perm (w.sched.events.map Entry.unordered)

/-- The same agents for the same times, in any order and with any orderings. -/
def Replanned (l l' : List (Plan T A)) : Prop := (l'.map (fun p => (p.agent, p.time))).Perm (l.map (fun p => (p.agent, p.time)))

end Verif.Schedule
