import Verif.Model.Flockers
import Verif.Spec.Field2D
import Verif.Spec.Schedule

/-!
Specification of the flockers simulation: the flock as a list of birds that all move at once, without schedule, buffers or order.
-/

namespace Verif.Flockers

open Torus Schedule Field2D

/-- A field into which exactly these birds have been placed, each at its own position, and published. -/
def fieldOf (c : Config) (flock : List Bird) : Option (Field2D.Field Bird) :=
  Field2D.run (Field2D.new c.width c.height (1 / 2) true) (.lazyUpdate :: (flock.map (fun b => .place b b.pos)).reverse)

/-- What a search from position `p` finds in a flock: the answer of a field that shows exactly this flock. -/
def sees (c : Config) (flock : List Bird) (p : Pos) : List Bird :=
  ((fieldOf c flock).bind (fun f => getNeighborsWithinDistance f Bird.pos p 10)).getD []

/-- All birds move at once, each looking at the same flock; `r i` are the random numbers of bird `i`. -/
def nextFlock (c : Config) (r : Nat → Rat × Rat) (flock : List Bird) : List Bird :=
  flock.map (fun b => move c (r b.id) b (sees c flock b.pos))

/-- The flock after `n` rounds; `r m i` are the random numbers of bird `i` in round `m`. -/
def flockAt (c : Config) (r : Nat → Nat → Rat × Rat) (first : List Bird) : Nat → List Bird
  | 0 => first
  | n + 1 => nextFlock c (r n) (flockAt c r first n)

/-- The world is the flock after `n` rounds: the scheduled agents are exactly these birds, each once, all due at the same time, and
the field shows every bird in the square of its own position and nothing else. (Nothing is published before the first round.) -/
structure Follows {F T : Type} (c : Config) (get : F → Pos → Option (List Bird)) (time : T) (n : Nat) (flock : List Bird)
    (w : World T Bird (State F)) : Prop where
  ids : flock.map Bird.id = List.range c.birds
  inside : ∀ b ∈ flock, InField c.width c.height b.pos
  agents : w.sched.events.Perm (flock.map (fun b => (⟨b.id, b, true⟩, ⟨time, 0⟩)))
  steps : w.sched.step = n
  field : ∃ f, w.state.field = some f ∧ (0 < n → ∀ p, InField c.width c.height p →
    ∃ l, get f p = some l ∧ l.Perm (flock.filter (fun b => sameSquare (1 / 2) b.pos p)))

/-- No pair of random numbers is used twice in `n` rounds, and none of the first `k` is used. -/
def Fresh (c : Config) (k n : Nat) (σ : Nat → Nat → Nat) : Prop :=
  (∀ m m' i i', m < n → m' < n → i < c.birds → i' < c.birds → σ m i = σ m' i' → m = m' ∧ i = i') ∧
  ∀ m i, m < n → i < c.birds → k ≤ σ m i

/-- `n` parallel steps with `k` threads, all of which completed. -/
inductive ParSteps {T A S : Type} [LinearOrder T] (m : Model T A S) (k : Nat) : Nat → World T A S → World T A S → Prop where
  | zero (w : World T A S) : ParSteps m k 0 w w
  | succ {n : Nat} {w w' w'' : World T A S} (h : ParSteps m k n w w') (hs : ParStep m k w' (.ok w'')) :
      ParSteps m k (n + 1) w w''

/-- The random numbers are between 0 and 1. -/
def UnitDraws (c : Config) : Prop := ∀ k, (0 ≤ (c.rnd k).1 ∧ (c.rnd k).1 ≤ 1) ∧ 0 ≤ (c.rnd k).2 ∧ (c.rnd k).2 ≤ 1

end Verif.Flockers
