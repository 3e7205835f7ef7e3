import Verif.Model.SyncNodes
import Verif.Spec.Synchronous

/-!
Specification of a synchronous simulation on a graph: a list of numbered nodes with their records and whether they live; all living
nodes act at once.
-/

namespace Verif.Sync

open Schedule

variable {T F B V D K : Type}

/-- All living nodes act at once: each sees the records of the round before and decides with the random value `r i` of its number `i`.
A node that dies, and one that is dead, keeps its record. -/
def nextNodes (act : D → B → V → B × Bool) (view : List B → B → V) (r : Nat → D) (nodes : List (Nat × B × Bool)) :
    List (Nat × B × Bool) :=
  nodes.map (fun p =>
    if p.2.2 = true ∧ (act (r p.1) p.2.1 (view (nodes.map (fun q => q.2.1)) p.2.1)).2 = true then
      (p.1, (act (r p.1) p.2.1 (view (nodes.map (fun q => q.2.1)) p.2.1)).1, true)
    else (p.1, p.2.1, false))

/-- The nodes after `n` rounds; `r m i` is the random value of node `i` in round `m`. -/
def nodesAt (act : D → B → V → B × Bool) (view : List B → B → V) (r : Nat → Nat → D) (first : List (Nat × B × Bool)) :
    Nat → List (Nat × B × Bool)
  | 0 => first
  | n + 1 => nextNodes act view (r n) (nodesAt act view r first n)

/-- The agents as nodes, numbered from 0, all alive. -/
def allAlive (agents : List B) : List (Nat × B × Bool) := agents.mapIdx (fun i b => (i, b, true))

/-- The living nodes, with their numbers. -/
def living (nodes : List (Nat × B × Bool)) : List (Nat × B) := (nodes.filter (fun p => p.2.2)).map (fun p => (p.1, p.2.1))

/-- The world is the nodes after `n` rounds: the scheduled agents are exactly the living ones, each once, all due at the same time,
with their orderings, and the network shows all records. (Nothing is published before the first round.) -/
structure FollowsNodes (shows : F → List B → Prop) (ord : Nat → Int) (time : T) (n : Nat) (nodes : List (Nat × B × Bool))
    (w : World T (B × Bool) (State F)) : Prop where
  agents : w.sched.events.Perm ((living nodes).map (fun p => (⟨p.1, (p.2, true), true⟩, ⟨time, ord p.1⟩)))
  steps : w.sched.step = n
  field : ∃ f, w.state.field = some f ∧ (0 < n → shows f (nodes.map (fun p => p.2.1)))

/-- What is required of a field whose nodes stay. `Holds f r w`: the records `r` are published and `w` are those that would be shown
after a publication. -/
structure NodeLaws [DecidableEq K] (ops : FieldOps F B V) (ident : B → K) (view : List B → B → V) (shows : F → List B → Prop)
    (Holds : F → List B → List B → Prop) : Prop where
  place : ∀ {f r w} (b : B), Holds f r w → (∃ x ∈ w, ident x = ident b) →
    ∃ f', ops.place f b = some f' ∧ Holds f' r (w.map (fun x => if ident x = ident b then b else x))
  publish : ∀ {f r w}, Holds f r w → ∃ f', ops.publish f = some f' ∧ Holds f' w w
  look : ∀ {f r w} (b : B), Holds f r w → b ∈ r → ops.look f b = some (view r b)
  shows : ∀ {f r w}, Holds f r w → r ≠ [] → shows f r

/-! ### Networks -/

/-- The numbers of the nodes that node `i` is joined to, in the order of the edges, which lead both ways unless directed. -/
def joinedTo (directed : Bool) (E : List (Nat × Nat)) (i : Nat) : List Nat :=
  E.flatMap (fun e => (if e.1 = i then [e.2] else []) ++ (if directed = false ∧ e.2 = i then [e.1] else []))

/-- What a node sees: the records of the nodes it is joined to. -/
def graphView [DecidableEq K] (ident : B → K) (directed : Bool) (E : List (Nat × Nat)) (all : List B) (b : B) : List B :=
  (joinedTo directed E (all.findIdx (fun x => decide (ident x = ident b)))).filterMap (fun j => all[j]?)

/-- A network shows these records on this graph: node number `i` is found under the id `i`, and its edges lead to the nodes it is
joined to. -/
def NetShows (get : F → Nat → Option B) (edges : F → B → List Nat) (directed : Bool) (E : List (Nat × Nat)) (f : F)
    (all : List B) : Prop :=
  ∀ i b, all[i]? = some b → get f i = some b ∧ edges f b = joinedTo directed E i

end Verif.Sync
