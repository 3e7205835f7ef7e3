import Verif.Model.Genetic

/-!
What a genetic search should do.
-/

namespace Verif.Genetic

variable {I F : Type}

/-- The individuals of a population that are evaluated if the evaluation stops after the first good one. -/
def upTo {α : Type} (good : α → Bool) : List α → List α
  | [] => []
  | x :: xs => if good x = true then [x] else x :: upTo good xs

/-- The rows of a whole generation. -/
def fullRows (cb : Callbacks I F) (g : Nat) (pop : List I) : List (Row I F) :=
  pop.zipIdx.map (fun p => ⟨g, p.2, cb.fitness g p.2 p.1, p.1⟩)

/-- A row reaches the desired fitness. -/
def Good (cb : Callbacks I F) (r : Row I F) : Bool := cb.cmp r.fitness cb.desired

/-- The population that follows a generation with these rows. -/
def offspring (cb : Callbacks I F) (g : Nat) (rows : List (Row I F)) : List I :=
  (cb.cross g ((cb.select g (rows.map (fun r => (r.individual, r.fitness)))).map Prod.fst)).zipIdx.map
    (fun p => cb.mutate g p.2 p.1)

/-- A search: `gens` are the rows of generations `g, g + 1, …`, the first with population `pop`. `part` says which rows of a
generation are made. All but the last generation have no good row. -/
def Evolves (cb : Callbacks I F) (part : List (Row I F) → List (Row I F)) : Nat → List I → List (List (Row I F)) → Prop
  | _, _, [] => True
  | g, pop, rows :: gens =>
    rows = part (fullRows cb g pop) ∧
    (gens ≠ [] → ∀ r ∈ fullRows cb g pop, Good cb r = false) ∧ Evolves cb part (g + 1) (offspring cb g rows) gens

/-- `cmp` is a strict weak order ("better than"). -/
structure StrictWeak (cmp : F → F → Bool) : Prop where
  irrefl : ∀ a, cmp a a = false
  trans : ∀ a b c, cmp a b = true → cmp b c = true → cmp a c = true
  incomp : ∀ a b c, cmp a b = true → cmp a c = true ∨ cmp c b = true

/-- `cmp` is a total preorder ("at least as good as"). -/
structure Total (cmp : F → F → Bool) : Prop where
  total : ∀ a b, cmp a b = true ∨ cmp b a = true
  trans : ∀ a b c, cmp a b = true → cmp b c = true → cmp a c = true

/-- Why a search stopped: the limit, a good individual, or a selection that leaves too few. -/
def Stops (cb : Callbacks I F) (small limit g : Nat) : List (List (Row I F)) → Prop
  | [] => limit ≠ 0 ∧ g = limit
  | [rows] => (limit ≠ 0 ∧ g + 1 = limit) ∨ (∃ r ∈ rows, Good cb r = true) ∨
      (cb.select (g + 1) (rows.map (fun r => (r.individual, r.fitness)))).length ≤ small
  | _ :: rest => Stops cb small limit (g + 1) rest

end Verif.Genetic
