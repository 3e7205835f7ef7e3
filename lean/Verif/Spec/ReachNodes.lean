import Verif.Spec.SyncHyper

/-! Specification of C274: influence on a network passes at most one edge per step. -/

namespace Verif.Sync

open Schedule

variable {T F B X : Type}

/-- Node `j` can be reached from `i` in at most `n` steps to a neighbour. -/
inductive Away (nb : Nat → List Nat) : Nat → Nat → Nat → Prop
  | here (i : Nat) : Away nb 0 i i
  | stay {n i j : Nat} : Away nb n i j → Away nb (n + 1) i j
  | go {n i k j : Nat} : k ∈ nb i → Away nb n k j → Away nb (n + 1) i j

/-- Two networks have the same nodes up to `n` steps away from node `i`, and the same edges at all nodes less than `n` steps away. -/
structure SameUpTo (nb : Nat → List Nat) (edges edges' : Nat → X) (agents agents' : List B) (n i : Nat) : Prop where
  nodes : ∀ j, Away nb n i j → agents[j]? = agents'[j]?
  edges : ∀ m < n, ∀ j, Away nb m i j → edges j = edges' j

/-- Two worlds agree on node `i`: it is scheduled in the one as in the other, and its record is shown in the one as in the other. -/
def SameNode {F' : Type} (get : F → Nat → Option B) (get' : F' → Nat → Option B) (i : Nat) (w : World T (B × Bool) (State F)) (w' : World T (B × Bool) (State F')) : Prop :=
  (∀ e, e.1.id = i → (e ∈ w.sched.events ↔ e ∈ w'.sched.events)) ∧ ∃ f f' b, w.state.field = some f ∧ w'.state.field = some f' ∧ get f i = some b ∧ get' f' i = some b

end Verif.Sync
