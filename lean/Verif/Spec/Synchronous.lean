import Verif.Model.Synchronous
import Verif.Spec.Schedule
import Verif.Spec.Field2D
import Mathlib.Data.List.Forall2

/-!
Specification of a synchronous simulation: a list of numbered agents that all act at once, without schedule, buffers or order.
-/

namespace Verif.Sync

open Schedule

variable {T F B V D : Type}

/-- All agents act at once: each sees the same population, decides with the random value `r i` of its number `i`, and those who die
are gone. -/
def nextPop (act : D → B → V → B × Bool) (view : List B → B → V) (r : Nat → D) (pop : List (Nat × B)) : List (Nat × B) :=
  pop.filterMap (fun p =>
    if (act (r p.1) p.2 (view (pop.map Prod.snd) p.2)).2 then some (p.1, (act (r p.1) p.2 (view (pop.map Prod.snd) p.2)).1) else none)

/-- The population after `n` rounds; `r m i` is the random value of agent `i` in round `m`. -/
def popAt (act : D → B → V → B × Bool) (view : List B → B → V) (r : Nat → Nat → D) (first : List (Nat × B)) : Nat → List (Nat × B)
  | 0 => first
  | n + 1 => nextPop act view (r n) (popAt act view r first n)

/-- The agents, numbered from 0. -/
def numbered (agents : List B) : List (Nat × B) := agents.mapIdx (fun i b => (i, b))

/-- The world is the population after `n` rounds: the scheduled agents are exactly these, each once, all due at the same time, with
their orderings, and the field shows exactly them. (Nothing is published before the first round.) -/
structure Follows (shows : F → List B → Prop) (ord : Nat → Int) (time : T) (n : Nat) (pop : List (Nat × B))
    (w : World T (B × Bool) (State F)) : Prop where
  agents : w.sched.events.Perm (pop.map (fun p => (⟨p.1, (p.2, true), true⟩, ⟨time, ord p.1⟩)))
  steps : w.sched.step = n
  field : ∃ f, w.state.field = some f ∧ (0 < n → shows f (pop.map Prod.snd))

/-- No random value is used twice in `n` rounds of this simulation, and none of the first `k` is used. -/
def Fresh (pops : Nat → List (Nat × B)) (k n : Nat) (σ : Nat → Nat → Nat) : Prop :=
  (∀ m m' i i', m < n → m' < n → i ∈ (pops m).map Prod.fst → i' ∈ (pops m').map Prod.fst → σ m i = σ m' i' → m = m' ∧ i = i') ∧
  ∀ m i, m < n → i ∈ (pops m).map Prod.fst → k ≤ σ m i

/-- What is required of a field. `Holds f r w`: the agents `r` are published and the agents `w` written since. `ident` tells agents
apart, `ok` says that an agent has a place inside the field, `view r b` is what agent `b` sees of the agents `r`, up to `same`. -/
structure Laws (ops : FieldOps F B V) (ident : B → Nat) (ok : B → Prop) (view : List B → B → V) (same : V → V → Prop)
    (shows : F → List B → Prop) (Holds : F → List B → List B → Prop) : Prop where
  place : ∀ {f r w} (b : B), Holds f r w → ok b → (∀ x ∈ w, ident x ≠ ident b) → ∃ f', ops.place f b = some f' ∧ Holds f' r (w ++ [b])
  publish : ∀ {f r w}, Holds f r w → ∃ f', ops.publish f = some f' ∧ Holds f' w []
  look : ∀ {f r w} (b : B), Holds f r w → r ≠ [] → ok b → ∃ v, ops.look f b = some v ∧ same v (view r b)
  shows : ∀ {f r w pop}, Holds f r w → r.Perm pop → shows f pop
  perm : ∀ {r r'} (b : B), (∀ x ∈ r, ok x) → ok b → r.Perm r' → same (view r b) (view r' b)

/-- The rule of the agents: it keeps their identity, leaves survivors inside the field, and does not tell apart views that are the
same. -/
structure Lawful (act : D → B → V → B × Bool) (ident : B → Nat) (ok : B → Prop) (same : V → V → Prop) : Prop where
  ident : ∀ x b v, ident (act x b v).1 = ident b
  ok : ∀ x b v, ok b → (act x b v).2 = true → ok (act x b v).1
  same : ∀ x b {v v'}, same v v' → act x b v = act x b v'

/-! ### What agents see -/

open Grid (Loc InRange)
open Torus (Pos)

/-- The bag of the agents at a location; none if it is empty. -/
def bagAt (loc : B → Loc) (pop : List B) (l : Loc) : Option (List B) :=
  if pop.filter (fun b => decide (loc b = l)) = [] then none else some (pop.filter (fun b => decide (loc b = l)))

/-- The same bag, up to the order of the agents in it. -/
def SameBag (a b : Option (List B)) : Prop := Option.Rel List.Perm a b

/-- Views of grids are the same if their bags are, one by one. -/
def SameView (a b : List (Option (List B))) : Prop := List.Forall₂ SameBag a b

/-- What an agent sees on a grid: the bags at the locations it looks at. -/
def gridView (loc : B → Loc) (nbh : B → List Loc) (pop : List B) (b : B) : List (Option (List B)) := (nbh b).map (bagAt loc pop)

/-- A grid shows a population: at every location the agents that are there. -/
def GridShows (get : F → Loc → Option (Option (List B))) (loc : B → Loc) (w h : Int) (g : F) (pop : List B) : Prop :=
  ∀ l, InRange w h l → ∃ v, get g l = some v ∧ SameBag v (bagAt loc pop l)

/-- The agent is inside the grid and looks only at locations inside. -/
def GridOk (loc : B → Loc) (nbh : B → List Loc) (w h : Int) (b : B) : Prop := InRange w h (loc b) ∧ ∀ l ∈ nbh b, InRange w h l

/-- What an agent sees in a field: the answer of a field into which exactly these agents were placed, each at its position, and
published. -/
def fieldView [DecidableEq B] (width height d : Rat) (tor : Bool) (loc : B → Pos) (reach : B → Rat) (pop : List B) (b : B) : List B :=
  ((Field2D.run (Field2D.new width height d tor) (.lazyUpdate :: (pop.map (fun b => .place b (loc b))).reverse)).bind
    (fun f => Field2D.getNeighborsWithinDistance f loc (loc b) (reach b))).getD []

/-- A field shows a population: in every square the agents whose positions are in it. -/
def FieldShows (get : F → Pos → Option (List B)) (loc : B → Pos) (width height d : Rat) (f : F) (pop : List B) : Prop :=
  ∀ p, Field2D.InField width height p → ∃ l, get f p = some l ∧ l.Perm (pop.filter (fun b => Field2D.sameSquare d (loc b) p))

end Verif.Sync
