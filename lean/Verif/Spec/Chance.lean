import Verif.Model.Grid
import Mathlib.Algebra.Order.Field.Rat
import Mathlib.Algebra.Order.Group.Unbundled.Abs

/-!
Chances among equally likely draws.
-/

namespace Verif.Chance

/-- `l` lists every value with `P`, each once. -/
structure Lists {A : Type} (l : List A) (P : A → Prop) : Prop where
  once : l.Nodup
  mem : ∀ a, a ∈ l ↔ P a

/-- How many of the draws give `r`. -/
def favourable {D R : Type} [DecidableEq R] (f : D → R) (draws : List D) (r : R) : Nat :=
  (draws.filter (fun d => decide (f d = r))).length

/-- The chance that `f` gives `r`, if the draws listed are equally likely. -/
def chance {D R : Type} [DecidableEq R] (f : D → R) (draws : List D) (r : R) : ℚ :=
  (favourable f draws r : ℚ) / (draws.length : ℚ)

/-- All the ways of drawing `k` times from `all`. -/
def sequences {A : Type} (all : List A) : Nat → List (List A)
  | 0 => [[]]
  | k + 1 => all.flatMap (fun c => (sequences all k).map (fun s => c :: s))

/-- A search that draws from the locations `all` until it meets one of `es` is fair: after `k` draws all of `es` have the same
chance to have been returned, the search goes on with the chance that all the draws missed `es`, and the chance of each one of `es`
approaches its equal share. -/
structure FairSearch (search : List Grid.Loc → Grid.Draw) (all es : List Grid.Loc) : Prop where
  share : ∀ k, ∀ l ∈ es, chance search (sequences all k) (.returned (some l)) =
    (1 - (((all.length : ℚ) - es.length) / all.length) ^ k) / es.length
  goesOn : ∀ k, chance search (sequences all k) .looping = (((all.length : ℚ) - es.length) / all.length) ^ k
  settles : ∀ ε : ℚ, 0 < ε → ∃ K, ∀ k, K ≤ k → ∀ l ∈ es,
    |chance search (sequences all k) (.returned (some l)) - 1 / es.length| < ε

end Verif.Chance
