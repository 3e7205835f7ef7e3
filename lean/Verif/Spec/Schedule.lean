import Verif.Model.Schedule

/-!
Independent vocabulary for the schedule properties: what an observer reads off the trace, which worlds
are reachable, and the effect of letting a list of agents take their turns one after the other.
-/

namespace Verif.Schedule

variable {T A S : Type}

/-- The observations made after world `w` (the trace only grows). -/
def since (w w' : World T A S) : List (Ev T A) := w'.trace.drop w.trace.length

/-- The `agent.step` calls of a trace: which agent, with which priority it had been scheduled. -/
def runsOf (tr : List (Ev T A)) : List (Nat × Priority T) :=
  tr.filterMap (fun e => match e with | .agentStep i p => some (i, p) | _ => none)

/-- All calls of agent code in a trace. -/
def agentCalls (tr : List (Ev T A)) : List (Ev T A) :=
  tr.filter (fun e => match e with
    | .agentBefore _ => true | .agentStep _ _ => true | .agentAfter _ => true | _ => false)

/-- The hook calls on the user's state in a trace. -/
def hookCalls (tr : List (Ev T A)) : List (Ev T A) :=
  tr.filter (fun e => match e with
    | .update _ => true | .stateBefore => true | .stateAfter => true | _ => false)

/-- The results of `schedule_repeating` / `distributed_schedule_repeating` in a trace. -/
def registrations (tr : List (Ev T A)) : List (Nat × Bool) :=
  tr.filterMap (fun e => match e with | .registered i ok => some (i, ok) | _ => none)

/-- The world at program start. -/
def World.start (zero : T) (s : S) : World T A S :=
  { state := s, sched := Sched.new zero, trace := [] }

/-- Worlds a program can get to with any API calls and steps. -/
def Reachable [LinearOrder T] (m : Model T A S) (w : World T A S) : Prop :=
  ∃ (zero : T) (s : S) (ops : List (Op T A)), w = (World.start zero s).run m ops

/-- An agent's three callbacks in a row. -/
def Callbacks (m : Model T A S) (a : A) (s : S) (a' : A) (s' : S) : Prop :=
  ∃ a1 s1 a2 s2, m.aBefore a s = (a1, s1) ∧ m.aStep a1 s1 = (a2, s2) ∧ m.aAfter a2 s2 = (a', s')

/-- `Turns m s l s' k`: letting the agents of `l` take their turns in this order takes the user state from
`s` to `s'`, and `k` are the agents that go on, with their next time. -/
inductive Turns (m : Model T A S) : S → List (Entry T A) → S → List (Entry T A) → Prop where
  | nil (s : S) : Turns m s [] s []
  | oneShot {s s1 s' : S} {i : Nat} {a a1 : A} {p : Priority T} {l k : List (Entry T A)}
      (h : Callbacks m a s a1 s1) (ht : Turns m s1 l s' k) :
      Turns m s ((⟨i, a, false⟩, p) :: l) s' k
  | stopped {s s1 s2 s' : S} {i : Nat} {a a1 a2 : A} {p : Priority T} {l k : List (Entry T A)}
      (h : Callbacks m a s a1 s1) (hs : m.isStopped a1 s1 = (true, a2, s2)) (ht : Turns m s2 l s' k) :
      Turns m s ((⟨i, a, true⟩, p) :: l) s' k
  | goesOn {s s1 s2 s' : S} {i : Nat} {a a1 a2 : A} {p : Priority T} {l k : List (Entry T A)}
      (h : Callbacks m a s a1 s1) (hs : m.isStopped a1 s1 = (false, a2, s2)) (ht : Turns m s2 l s' k) :
      Turns m s ((⟨i, a, true⟩, p) :: l) s' ((⟨i, a2, true⟩, ⟨m.adv p.time, p.ordering⟩) :: k)

/-- A call that can affect the agent with this id. -/
def Cmd.touches (i : Nat) : Cmd T A → Prop
  | .scheduleOnce a _ _ => a.id = i
  | .scheduleRepeating _ _ _ => False
  | .dequeue j => j = i

/-- A call that can schedule this id. -/
def Cmd.adds (i : Nat) : Cmd T A → Prop
  | .scheduleOnce a _ _ => a.id = i
  | _ => False

/-- A call that schedules nothing before time `t`. -/
def Cmd.notBefore [LinearOrder T] (t : T) : Cmd T A → Prop
  | .scheduleOnce _ t' _ => t ≤ t'
  | .scheduleRepeating _ t' _ => t ≤ t'
  | .dequeue _ => True

/-- A call that only names ids handed out already (`n` = number of ids handed out). -/
def Cmd.knownId (n : Nat) : Cmd T A → Prop
  | .scheduleOnce a _ _ => a.id < n
  | .scheduleRepeating _ _ _ => True
  | .dequeue _ => True

/-- The schedule after one API call. -/
def Sched.after (s : Sched T A) : Cmd T A → Sched T A
  | .scheduleOnce a t o => s.scheduleOnce a t o
  | .scheduleRepeating a t o => (s.scheduleRepeating a t o).1
  | .dequeue i => (s.dequeue i).1

/-- Every call of the list satisfies `P` with respect to the schedule at the moment it is made. -/
def CallsSatisfy (P : Sched T A → Cmd T A → Prop) : Sched T A → List (Cmd T A) → Prop
  | _, [] => True
  | s, c :: cs => P s c ∧ CallsSatisfy P (s.after c) cs

/-- The hooks of the state only make calls that satisfy `P`. -/
def HooksSatisfy (m : Model T A S) (P : Sched T A → Cmd T A → Prop) : Prop :=
  ∀ s sch, CallsSatisfy P sch (m.beforeStep s sch).2 ∧ CallsSatisfy P sch (m.afterStep s sch).2

/-- The program only makes calls that satisfy `P` in this history (steps are not restricted). -/
def OpsSatisfy [LinearOrder T] (m : Model T A S) (P : Sched T A → Cmd T A → Prop) :
    World T A S → List (Op T A) → Prop
  | _, [] => True
  | w, .cmd c :: ops => P w.sched c ∧ OpsSatisfy m P (w.exec c) ops
  | w, .step :: ops => OpsSatisfy m P (step m w) ops

end Verif.Schedule
