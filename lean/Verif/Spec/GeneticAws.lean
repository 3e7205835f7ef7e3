import Verif.Model.GeneticAwsLoop

/-!
What the cloud genetic search should do.
-/

namespace Verif.GeneticAws

variable {I : Type}

/-- The selected individuals. -/
def selected (cb : Callbacks I) (g : Nat) (rows : List (Row I)) : List I :=
  (cb.select g (rows.map (fun r => (r.individual, r.fitness)))).map Prod.fst

/-- The next population as the searches on one computer make it: crossover of the selected, then mutation. -/
def offspring (cb : Callbacks I) (g : Nat) (rows : List (Row I)) : List I :=
  (cb.cross g (selected cb g rows)).zipIdx.map (fun p => cb.mutate g p.2 p.1)

/-- The next population with the mutation before the crossover. -/
def mutatedFirst (cb : Callbacks I) (g : Nat) (rows : List (Row I)) : List I :=
  cb.cross g ((selected cb g rows).zipIdx.map (fun p => cb.mutate g p.2 p.1))

/-- A search: `gens` are the rows of the generations `g, g + 1, …`, the first with population `pop`, where `next` makes a population
from the rows before it. Every generation has `reps` rows for each individual, each with a fitness computed for it, and only the
last may reach the desired fitness. -/
def Descends (cb : Callbacks I) (next : Nat → List (Row I) → List I) (reps : Nat) :
    Nat → List I → List (List (Row I)) → Prop
  | _, _, [] => True
  | g, pop, rows :: gens =>
    (rows.map (fun r => r.individual)).Perm (List.replicate reps pop).flatten ∧
    (∀ r ∈ rows, r.generation = g ∧ ∃ i j, r.fitness = cb.fit g i j r.individual) ∧
    (gens ≠ [] → ∀ r ∈ rows, r.fitness < cb.desired) ∧ Descends cb next reps (g + 1) (next g rows) gens

/-- Why a search stopped: the limit, the desired fitness, or a selection of at most one. -/
def Stops (cb : Callbacks I) (limit : Nat) : Nat → List (List (Row I)) → Prop
  | g, [] => limit ≠ 0 ∧ g = limit
  | g, [rows] => (limit ≠ 0 ∧ g + 1 = limit) ∨ (∃ r ∈ rows, cb.desired ≤ r.fitness) ∨
      (selected cb (g + 1) rows).length ≤ 1
  | g, _ :: rest => Stops cb limit (g + 1) rest

/-- A character that JSON allows inside a string as it is (RFC 8259, section 7). -/
def Plain (c : Char) : Prop := c ≠ '"' ∧ c ≠ '\\' ∧ 32 ≤ c.toNat

end Verif.GeneticAws
