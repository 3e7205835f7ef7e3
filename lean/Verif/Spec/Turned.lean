import Verif.Spec.Synchronous
import Verif.Spec.Rename

/-! Specification of C275: a turned world goes through the turned steps. -/

namespace Verif.Sync

open Schedule Grid

variable {T B B' D V V' : Type}

/-- The second rule does to the image of an agent, seeing the image of a view, what the first rule does to the agent. -/
def Equivariant (φ : B → B') (ψ : V → V') (act : D → B → V → B × Bool) (act' : D → B' → V' → B' × Bool) : Prop :=
  ∀ x b v, act' x (φ b) (ψ v) = (φ (act x b v).1, (act x b v).2)

/-- The same event of the image of the agent. -/
def imageOf (φ : B → B') (e : Entry T (B × Bool)) : Entry T (B' × Bool) := (⟨e.1.id, (φ e.1.agent.1, e.1.agent.2), e.1.repeating⟩, e.2)

/-- The images of bags. -/
def imageBags (φ : B → B') (v : List (Option (List B))) : List (Option (List B')) := v.map (Option.map (List.map φ))

/-- `τ` moves the cells of a grid without bringing two together, and `φ` moves the agents and what they look at along with the cells. -/
structure MovesCells (w h : Int) (τ : Loc → Loc) (φ : B → B') (loc : B → Loc) (loc' : B' → Loc) (nbh : B → List Loc) (nbh' : B' → List Loc) : Prop where
  apart : ∀ l l', InRange w h l → InRange w h l' → τ l = τ l' → l = l'
  place : ∀ b, loc' (φ b) = τ (loc b)
  looks : ∀ b, nbh' (φ b) = (nbh b).map τ

variable {F F' N N' : Type}

/-- The moved agents are scheduled, and the moved grid shows the values. -/
structure MovedCells (get : F → Loc → Option (Option N)) (get' : F' → Loc → Option (Option N')) (w h : Int) (τ : Loc → Loc) (φ : B → B') (g : N → N') (a : World T (B × Bool) (State F))
    (a' : World T (B' × Bool) (State F')) : Prop where
  events : a'.sched.events.Perm (a.sched.events.map (imageOf φ))
  values : ∃ f f', a.state.field = some f ∧ a'.state.field = some f' ∧ ∀ l, InRange w h l → get' f' (τ l) = (get f l).map (Option.map g)

end Verif.Sync
