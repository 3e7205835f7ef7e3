import Mathlib.Logic.Relation
import Mathlib.Data.List.Chain

/-!
What it means for threads that share mutexes to hang. Nothing here comes from the code: it is the meaning of
`std::sync::Mutex`, `thread::spawn`, `join` and channels. A thread is the list of things it still does and the
mutexes it holds. Taking a mutex that anybody holds, the thread itself included, blocks. A thread that waits for an
event blocks until some thread has signalled it: starting a thread is an event the new thread waits for, the end of
a thread is an event its joiner waits for, and every message of a channel is an event its receiver waits for.
-/

namespace Verif.Locks

/-- What a thread does, as far as other threads can notice. -/
inductive Act (L E : Type) where
  | take (l : L)
  | drop (l : L)
  | signal (e : E)
  | await (e : E)
deriving DecidableEq

structure Thread (L E : Type) where
  held : List L
  todo : List (Act L E)

structure World (L E : Type) where
  threads : List (Thread L E)
  /-- the events that have happened -/
  past : List E

variable {L E : Type} [DecidableEq L]

/-- One thread does its next thing. -/
inductive Step : World L E → World L E → Prop where
  | take (pre post : List (Thread L E)) (past : List E) (held : List L) (l : L) (p : List (Act L E))
      (hfree : ∀ t ∈ pre ++ ⟨held, .take l :: p⟩ :: post, l ∉ t.held) :
      Step ⟨pre ++ ⟨held, .take l :: p⟩ :: post, past⟩ ⟨pre ++ ⟨l :: held, p⟩ :: post, past⟩
  | drop (pre post : List (Thread L E)) (past : List E) (held : List L) (l : L) (p : List (Act L E)) :
      Step ⟨pre ++ ⟨held, .drop l :: p⟩ :: post, past⟩ ⟨pre ++ ⟨held.erase l, p⟩ :: post, past⟩
  | signal (pre post : List (Thread L E)) (past : List E) (held : List L) (e : E) (p : List (Act L E)) :
      Step ⟨pre ++ ⟨held, .signal e :: p⟩ :: post, past⟩ ⟨pre ++ ⟨held, p⟩ :: post, e :: past⟩
  | await (pre post : List (Thread L E)) (past : List E) (held : List L) (e : E) (p : List (Act L E))
      (hpast : e ∈ past) :
      Step ⟨pre ++ ⟨held, .await e :: p⟩ :: post, past⟩ ⟨pre ++ ⟨held, p⟩ :: post, past⟩

/-- The threads before any of them has done anything. -/
def start (ps : List (List (Act L E))) : World L E := ⟨ps.map fun p => ⟨[], p⟩, []⟩

/-- What can happen, in any interleaving. -/
def Reach : World L E → World L E → Prop := Relation.ReflTransGen Step

/-- Every thread has done everything and holds nothing. -/
def Finished (w : World L E) : Prop := ∀ t ∈ w.threads, t.todo = [] ∧ t.held = []

/-- Nothing can happen any more although something is left to do. -/
def Stuck (w : World L E) : Prop := ¬ Finished w ∧ ∀ w', ¬ Step w w'

/-- Some interleaving of the programs hangs. -/
def CanHang (ps : List (List (Act L E))) : Prop := ∃ w, Reach (start ps) w ∧ Stuck w

/-- Every interleaving hangs: no state in which all threads are done can be reached. -/
def AlwaysHangs (ps : List (List (Act L E))) : Prop := ∀ w, Reach (start ps) w → ¬ Finished w

/-- Everything `ps` can do comes to an end with all threads done: no run is longer than the programs together, and
every run that has got anywhere can go on to the end, so that a run that cannot go on is at the end. -/
def AlwaysFinishes (ps : List (List (Act L E))) : Prop :=
  (∀ w, Reach (start ps) w → (∀ w', ¬ Step w w') → Finished w) ∧
  (∀ w, Reach (start ps) w → ∃ w', Reach w w' ∧ Finished w') ∧
  ∀ run : List (World L E), run.IsChain Step → run.head? = some (start ps) →
    run.length ≤ (ps.map List.length).sum + 1

end Verif.Locks
