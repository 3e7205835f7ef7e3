import Verif.Model.Explore
import Mathlib.Logic.Function.Iterate

/-!
What an exploration should do, stated without the tables of the code.
-/

namespace Verif.Explore

/-- All combinations of one element per list, the last list fastest. -/
def combinations {V : Type} : List (List V) → List (List V)
  | [] => [[]]
  | l :: ls => l.flatMap (fun v => (combinations ls).map (fun c => v :: c))

/-- The rows of a list of configurations: `rep` rows for each, the row of configuration `i` and repetition `j` given by
`row`. -/
def majorRows {C R : Type} (rep : Nat) (row : Nat → Nat → C → R) (configs : List C) : List R :=
  configs.zipIdx.flatMap (fun c => (List.range rep).map (fun j => row c.2 j c.1))

/-- Configuration `i` takes the `i`-th value of every list. -/
def matchedConfigs {V : Type} (inputs : List (List V)) (n : Nat) : List (List V) :=
  (List.range n).map (fun i => inputs.filterMap (fun l => l[i]?))

/-- `cs` are the configurations that an exploration of `inputs` has to simulate: all combinations of values of lists that are not
empty, or the matched values of lists of one length. -/
def ConfigsOf {V : Type} : Mode → List (List V) → List (List V) → Prop
  | .exaustive, inputs, cs => (∀ l ∈ inputs, l ≠ []) ∧ cs = combinations inputs
  | .matched, inputs, cs => inputs ≠ [] ∧ ∃ n, (∀ l ∈ inputs, l.length = n) ∧ cs = matchedConfigs inputs n

end Verif.Explore
