import Verif.Model.Panics

/-!
What a step with panicking agents should do: the agents run one after another, and the first panic is the last
thing that happens; it reaches the caller of `step`.
-/

namespace Verif.Panics

open Verif.Schedule

variable {T A S : Type}

/-- The turn of this agent, taken in state `s`, panics in one of the agent's hooks. -/
def Falls (p : Hooks A S) (item : AgentImpl A) (s : S) : Prop :=
  (∃ s', p.aBefore item.agent s = .error s') ∨
  ∃ a1 s1, p.aBefore item.agent s = .ok (a1, s1) ∧
    ((∃ s', p.aStep a1 s1 = .error s') ∨
    ∃ a2 s2, p.aStep a1 s1 = .ok (a2, s2) ∧
      ((∃ s', p.aAfter a2 s2 = .error s') ∨
      ∃ a3 s3, p.aAfter a2 s2 = .ok (a3, s3) ∧ item.repeating = true ∧ ∃ s', p.isStopped a3 s3 = .error s'))

/-- The same agents in a world without panics: whatever returns, returns the same. -/
structure Agrees (p : Hooks A S) (m : Model T A S) : Prop where
  aBefore : ∀ a s r, p.aBefore a s = .ok r → m.aBefore a s = r
  aStep : ∀ a s r, p.aStep a s = .ok r → m.aStep a s = r
  aAfter : ∀ a s r, p.aAfter a s = .ok r → m.aAfter a s = r
  isStopped : ∀ a s r, p.isStopped a s = .ok r → m.isStopped a s = r

/-- The agents can take their turns in this order, starting from `w`, and none panics. -/
def NoneFalls (m : Model T A S) (p : Hooks A S) : World T A S → List (Entry T A) → Prop
  | _, [] => True
  | w, e :: es => ¬ Falls p e.1 w.state ∧ NoneFalls m p (runOne m w e) es

/-- The turn of this agent, taken in state `s`, panics in its `n`th hook, which leaves the state `s'`; `is_stopped` is not seen by
the observer. -/
def FallsIn (p : Hooks A S) (item : AgentImpl A) (s s' : S) (n : Nat) : Prop :=
  (p.aBefore item.agent s = .error s' ∧ n = 1) ∨
  ∃ a1 s1, p.aBefore item.agent s = .ok (a1, s1) ∧
    ((p.aStep a1 s1 = .error s' ∧ n = 2) ∨
    ∃ a2 s2, p.aStep a1 s1 = .ok (a2, s2) ∧
      ((p.aAfter a2 s2 = .error s' ∧ n = 3) ∨
      ∃ a3 s3, p.aAfter a2 s2 = .ok (a3, s3) ∧ item.repeating = true ∧ p.isStopped a3 s3 = .error s' ∧ n = 3))

/-- The turn of `e` was cut short by a panic: nothing was put into the schedule, the observer saw the hooks of this agent up to the
one that panicked, and nothing else, and the state is the one that hook left. -/
def CutShort (p : Hooks A S) (w w' : World T A S) (e : Entry T A) : Prop :=
  w'.sched = w.sched ∧
  ∃ n, FallsIn p e.1 w.state w'.state n ∧
    w'.trace = w.trace ++ [.agentBefore e.1.id, .agentStep e.1.id e.2, .agentAfter e.1.id].take n

/-- Taking the turns in the order `order` from `w`, the outcome is `out`: all return and the step is completed, or
the first one that panics is the last thing that happens and the step panics. -/
def Reported (m : Model T A S) (p : Hooks A S) (w : World T A S) (order : List (Entry T A)) :
    Out T A S → Prop
  | .ok w' => NoneFalls m p w order ∧ w' = postStep m (order.foldl (runOne m) w)
  | .panicked w' => ∃ ran e rest, order = ran ++ e :: rest ∧ NoneFalls m p w ran ∧
      Falls p e.1 (ran.foldl (runOne m) w).state ∧ CutShort p (ran.foldl (runOne m) w) w' e
  | .exit => False
  | .noThreads => False

end Verif.Panics
