import Verif.Spec.ObjectGrid
import Verif.Spec.Field2D
import Verif.Model.Schedule

/-!
Objects and agents under other names: a program and the same program with every object `o` replaced by `φ o`.
-/

namespace Verif.Grid

variable {O P : Type}

/-- The renaming neither confuses different objects nor tells equal ones apart. -/
def Faithful [BEq O] [BEq P] (φ : O → P) : Prop := ∀ a b : O, (φ a == φ b) = (a == b)

/-- The second call is the first one under the new names; a closure does to the renamed object what the other closure does to the
object. -/
inductive ObjOp.Renamed (φ : O → P) : ObjOp O → ObjOp P → Prop where
  | place (o : O) (l : Loc) : ObjOp.Renamed φ (.place o l) (.place (φ o) l)
  | remove (o : O) (l : Loc) : ObjOp.Renamed φ (.remove o l) (.remove (φ o) l)
  | update : ObjOp.Renamed φ .update .update
  | lazyUpdate : ObjOp.Renamed φ .lazyUpdate .lazyUpdate
  | apply (f : Loc → O → Option O) (f' : Loc → P → Option P) (opt : GridOption) (h : ∀ l o, f' l (φ o) = (f l o).map φ) :
      ObjOp.Renamed φ (.apply f opt) (.apply f' opt)

end Verif.Grid

namespace Verif.Field2D

/-- The call under the new names. -/
def FieldOp.rename {O P : Type} (φ : O → P) : FieldOp O → FieldOp P
  | .place o l => .place (φ o) l
  | .remove o l => .remove (φ o) l
  | .update => .update
  | .lazyUpdate => .lazyUpdate

end Verif.Field2D

namespace Verif.Schedule

variable {T A B S : Type}

/-- The scheduled agent under its new name. -/
def AgentImpl.rename (φ : A → B) (a : AgentImpl A) : AgentImpl B := { id := a.id, agent := φ a.agent, repeating := a.repeating }

/-- The pending agents under their new names. -/
def Queue.rename (φ : A → B) (q : Queue T A) : Queue T B := q.map (fun e => (e.1.rename φ, e.2))

/-- The schedule with all agents under their new names. -/
def Sched.rename (φ : A → B) (s : Sched T A) : Sched T B :=
  { step := s.step, time := s.time, events := Queue.rename φ s.events, idCount := s.idCount, pops := s.pops }

/-- The call under the new names. -/
def Cmd.rename (φ : A → B) : Cmd T A → Cmd T B
  | .scheduleOnce a t o => .scheduleOnce (a.rename φ) t o
  | .scheduleRepeating a t o => .scheduleRepeating (φ a) t o
  | .dequeue id => .dequeue id

/-- The operation under the new names. -/
def Op.rename (φ : A → B) : Op T A → Op T B
  | .cmd c => .cmd (c.rename φ)
  | .step => .step

/-- The second model does to the renamed agents what the first one does to the agents. -/
structure Renamed (φ : A → B) (m : Model T A S) (m' : Model T B S) : Prop where
  update : m'.update = m.update
  before : ∀ s q, m'.beforeStep s (q.rename φ) = ((m.beforeStep s q).1, (m.beforeStep s q).2.map (Cmd.rename φ))
  after : ∀ s q, m'.afterStep s (q.rename φ) = ((m.afterStep s q).1, (m.afterStep s q).2.map (Cmd.rename φ))
  aBefore : ∀ a s, m'.aBefore (φ a) s = (φ (m.aBefore a s).1, (m.aBefore a s).2)
  aStep : ∀ a s, m'.aStep (φ a) s = (φ (m.aStep a s).1, (m.aStep a s).2)
  aAfter : ∀ a s, m'.aAfter (φ a) s = (φ (m.aAfter a s).1, (m.aAfter a s).2)
  stopped : ∀ a s, m'.isStopped (φ a) s = ((m.isStopped a s).1, φ (m.isStopped a s).2.1, (m.isStopped a s).2.2)
  adv : m'.adv = m.adv
  ties : ∀ n q, m'.tb n (Queue.rename φ q) = m.tb n q

/-- What can be recorded of a simulation (`Ev` names agents by their ids), with agents under their new names. -/
def Ev.rename (_ : A → B) : Ev T A → Ev T B
  | .update k => .update k
  | .stateBefore => .stateBefore
  | .stateAfter => .stateAfter
  | .agentBefore id => .agentBefore id
  | .agentStep id p => .agentStep id p
  | .agentAfter id => .agentAfter id
  | .once id => .once id
  | .registered id ok => .registered id ok
  | .dequeued id ok => .dequeued id ok

/-- The simulation with agents under their new names. -/
def World.rename (φ : A → B) (w : World T A S) : World T B S :=
  { state := w.state, sched := w.sched.rename φ, trace := w.trace.map (Ev.rename φ) }

end Verif.Schedule
