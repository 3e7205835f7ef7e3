import Verif.Spec.Synchronous

/-!
Specification of a synchronous simulation whose rule may depend on the order in which an agent sees the others (a sum of floats does): all agents act at once, and
each sees the population of the round before in some arrangement.
-/

namespace Verif.Sync

variable {T F B V D : Type}

/-- All agents act at once; agent `i` decides with the random value `r i` on what it sees, `v i`. -/
def nextSeen (act : D → B → V → B × Bool) (r : Nat → D) (v : Nat → V) (pop : List (Nat × B)) : List (Nat × B) :=
  pop.filterMap (fun p => if (act (r p.1) p.2 (v p.1)).2 then some (p.1, (act (r p.1) p.2 (v p.1)).1) else none)

/-- A round: every agent sees the same population, up to the arrangement. -/
def Round (act : D → B → V → B × Bool) (view : List B → B → V) (same : V → V → Prop) (r : Nat → D) (pop pop' : List (Nat × B)) : Prop :=
  ∃ v : Nat → V, (∀ p ∈ pop, same (v p.1) (view (pop.map Prod.snd) p.2)) ∧ pop' = nextSeen act r v pop

/-- The rule of the agents: it keeps their identity, and it leaves survivors proper if they were proper and saw proper agents only. `okD` are the random values
that may come. Nothing is said about the order in which an agent sees the others. -/
structure Rule (act : D → B → V → B × Bool) (ident : B → Nat) (ok : B → Prop) (okD : D → Prop) (view : List B → B → V) (same : V → V → Prop) : Prop where
  ident : ∀ x b v, ident (act x b v).1 = ident b
  ok : ∀ x b r v, okD x → ok b → (∀ c ∈ r, ok c) → same v (view r b) → (act x b v).2 = true → ok (act x b v).1

/-- `n` rounds from the first population, with random values of which none is used twice and none is among the first `k`. -/
structure Rounds (act : D → B → V → B × Bool) (view : List B → B → V) (same : V → V → Prop) (rnd : Nat → D) (first : List (Nat × B)) (k n : Nat)
    (pops : Nat → List (Nat × B)) : Prop where
  first : pops 0 = first
  rounds : ∃ σ : Nat → Nat → Nat, Fresh pops k n σ ∧ ∀ m < n, Round act view same (fun i => rnd (σ m i)) (pops m) (pops (m + 1))

end Verif.Sync
