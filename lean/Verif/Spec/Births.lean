import Verif.Model.Births
import Verif.Spec.Synchronous

/-!
Specification of a population with births and deaths: all agents act at once, survivors and offspring are the next generation. No
schedule, buffers or order.
-/

namespace Verif.Births

open Schedule

variable {T F B V C D : Type}

/-- The next generation: every agent sees the same population and decides with the random value `r i` of its identity `i`; whoever
survives goes on, and its `j`-th child gets the identity `nm i j`. -/
def nextGen (act : D → B → V → (B × Bool) × List C) (mk : Nat → C → B) (ident : B → Nat) (view : List B → B → V) (r : Nat → D)
    (nm : Nat → Nat → Nat) (pop : List B) : List B :=
  pop.flatMap (fun b =>
    (if (act (r (ident b)) b (view pop b)).1.2 then [(act (r (ident b)) b (view pop b)).1.1] else []) ++
      (act (r (ident b)) b (view pop b)).2.mapIdx (fun j c => mk (nm (ident b) j) c))

/-- The generation after `n` rounds. -/
def genAt (act : D → B → V → (B × Bool) × List C) (mk : Nat → C → B) (ident : B → Nat) (view : List B → B → V) (r : Nat → Nat → D)
    (nm : Nat → Nat → Nat → Nat) (first : List B) : Nat → List B
  | 0 => first
  | n + 1 => nextGen act mk ident view (r n) (nm n) (genAt act mk ident view r nm first n)

/-- No two turns in `n` rounds use the same random value, and none of the first `k` is used. -/
def FreshDraws (ident : B → Nat) (gens : Nat → List B) (k n : Nat) (σ : Nat → Nat → Nat) : Prop :=
  (∀ m < n, ∀ m' < n, ∀ b ∈ gens m, ∀ b' ∈ gens m', σ m (ident b) = σ m' (ident b') → m = m' ∧ ident b = ident b') ∧
  ∀ m < n, ∀ b ∈ gens m, k ≤ σ m (ident b)

/-- No two children born in `n` rounds have the same identity, and none has one below `k`; `kids m b` is how many children agent `b`
has in round `m`. -/
def FreshNames (ident : B → Nat) (gens : Nat → List B) (kids : Nat → B → Nat) (k n : Nat) (nm : Nat → Nat → Nat → Nat) : Prop :=
  (∀ m < n, ∀ m' < n, ∀ b ∈ gens m, ∀ b' ∈ gens m', ∀ j < kids m b, ∀ j' < kids m' b',
    nm m (ident b) j = nm m' (ident b') j' → m = m' ∧ ident b = ident b' ∧ j = j') ∧
  ∀ m < n, ∀ b ∈ gens m, ∀ j < kids m b, k ≤ nm m (ident b) j

/-- The number the schedule gives to an agent: its position for the first agents, which have identities below `k`, and the following
numbers for the children in the order of their identities. -/
def numOf (ident : B → Nat) (first : List B) (k i : Nat) : Nat :=
  if i < k then first.findIdx (fun b => ident b == i) else first.length + (i - k)

/-- The world is this generation: the scheduled agents are exactly these, each once, all due at the same time, with their orderings
and the number they got at birth; nobody waits to be scheduled; the field shows exactly them. -/
structure Follows (ident : B → Nat) (shows : F → List B → Prop) (num : Nat → Nat) (ord : Nat → Int) (time : T) (n : Nat)
    (pop : List B) (w : World T (B × Bool) (State F B)) : Prop where
  distinct : (pop.map ident).Nodup
  numbers : (pop.map (fun b => num (ident b))).Nodup
  agents : w.sched.events.Perm (pop.map (fun b => (⟨num (ident b), (b, true), true⟩, ⟨time, ord (ident b)⟩)))
  steps : w.sched.step = n
  nobody : w.state.born = []
  field : ∃ f, w.state.field = some f ∧ (0 < n → shows f pop)

/-- The rule of the agents: it keeps their identity, leaves survivors and offspring inside the field, does not tell apart views that
are the same, and offspring get the identity they are given. -/
structure Lawful (act : D → B → V → (B × Bool) × List C) (mk : Nat → C → B) (ident : B → Nat) (ok : B → Prop)
    (same : V → V → Prop) : Prop where
  named : ∀ k c, ident (mk k c) = k
  same : ∀ x b {v v'}, same v v' → act x b v = act x b v'
  kids : ∀ x b v k, ok b → ∀ c ∈ (act x b v).2, ok (mk k c)
  ident : ∀ x b v, ident (act x b v).1.1 = ident b
  ok : ∀ x b v, ok b → (act x b v).1.2 = true → ok (act x b v).1.1

end Verif.Births
