import Verif.Spec.SyncHyper
import Verif.Spec.Turned

/-! Specification of C276: a network that was put together in another order goes through the same steps. -/

namespace Verif.Sync

open Schedule

variable {T F F' B B' V V' D : Type}

/-- The second agents are the images of the first in another order: number `i` of the first is number `π i` of the second, and number `j` of the second is number `ρ j` of the first. -/
structure Renumbered (π ρ : Nat → Nat) (φ : B → B') (agents : List B) (agents' : List B') : Prop where
  length : agents'.length = agents.length
  there : ∀ i < agents.length, π i < agents.length ∧ ρ (π i) = i
  back : ∀ j < agents.length, ρ j < agents.length ∧ π (ρ j) = j
  node : ∀ i < agents.length, agents'[π i]? = (agents[i]?).map φ

/-- The same groups, in any order, their members in any order. -/
def SameGroups (v v' : List (List B)) : Prop := ∃ u, v.Perm u ∧ List.Forall₂ List.Perm u v'

/-- The same event of the agent under its other number. -/
def renumber (π : Nat → Nat) (φ : B → B') (e : Entry T (B × Bool)) : Entry T (B' × Bool) := (⟨π e.1.id, (φ e.1.agent.1, e.1.agent.2), e.1.repeating⟩, e.2)

/-- The second world is the first under other numbers: the same agents are scheduled for the same times, and the same records are shown. -/
structure SameNetworks (get : F → Nat → Option B) (get' : F' → Nat → Option B') (π : Nat → Nat) (φ : B → B') (N : Nat) (w : World T (B × Bool) (State F))
    (w' : World T (B' × Bool) (State F')) : Prop where
  events : w'.sched.events.Perm (w.sched.events.map (renumber π φ))
  shown : ∃ f f', w.state.field = some f ∧ w'.state.field = some f' ∧ ∀ i < N, ∃ b, get f i = some b ∧ get' f' (π i) = some (φ b)

end Verif.Sync
