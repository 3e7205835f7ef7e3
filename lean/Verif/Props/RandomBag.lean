import Verif.Props.NumberGrid
import Verif.Props.ObjectGrid

/-!
`get_random_empty_bag` on the four grids (C24). The random source is arbitrary: for the dense grids a
function giving the draw of `gen_range(0..n)`, for the sparse grids the list of locations drawn so far.
-/

set_option linter.unusedSectionVars false

namespace Verif

open Grid

/-- The answer of a search for an empty cell of a `w` by `h` grid: an in-range cell satisfying `E`, or
`None` exactly when there is none. -/
def SomeEmptyCell (w h : Int) (E : Loc → Prop) (r : Option Loc) : Prop :=
  (r = none ↔ ∀ l, InRange w h l → ¬ E l) ∧ ∀ l, r = some l → InRange w h l ∧ E l

/-- **C24**, dense number grid: whatever the generator draws, the call returns, and returns an empty
in-range cell or `None` iff there is none. -/
theorem C24_dense_number_random_empty_bag_partial {T : Type} (g : DenseNumber.DGrid T) (hg : DenseNumber.WF g)
    (genRange : Nat → Nat) (hgen : ∀ n, 0 < n → genRange n < n) :
    ∃ r, DenseNumber.getRandomEmptyBag g genRange = some r ∧
      SomeEmptyCell g.width g.height (fun l => DenseNumber.getValue g l = some none) r := by
  obtain ⟨es, h1, _, h3⟩ := DenseNumber.C22_get_empty_bags g hg
  unfold DenseNumber.getRandomEmptyBag
  rw [h1]
  cases es with
  | nil =>
    refine ⟨none, rfl, ⟨?_, by simp⟩⟩
    simp only [true_iff]
    intro l hl he
    exact absurd ((h3 l).2 ⟨hl, he⟩) (by simp)
  | cons b bs =>
    have hlt := hgen (b :: bs).length (by simp)
    refine ⟨some ((b :: bs)[genRange (b :: bs).length]), by dsimp only; rw [List.getElem?_eq_getElem hlt], ⟨?_, ?_⟩⟩
    · simp only [reduceCtorEq, false_iff]
      intro hall
      have := (h3 b).1 List.mem_cons_self
      exact hall b this.1 this.2
    · intro l hl
      have : (b :: bs)[genRange (b :: bs).length] = l := by simpa using hl
      exact (h3 l).1 (this ▸ List.getElem_mem hlt)

/-- **C24**, dense object grid. -/
theorem C24_dense_object_random_empty_bag_partial {O : Type} [BEq O] (g : DenseObject.OGrid O)
    (hg : DenseObject.WF g) (genRange : Nat → Nat) (hgen : ∀ n, 0 < n → genRange n < n) :
    ∃ r, DenseObject.getRandomEmptyBag g genRange = some r ∧
      SomeEmptyCell g.width g.height (fun l => DenseObject.getObjects g l = some none) r := by
  obtain ⟨es, h1, _, h3⟩ := DenseObject.C29_get_empty_bags g hg
  unfold DenseObject.getRandomEmptyBag
  rw [h1]
  cases es with
  | nil =>
    refine ⟨none, rfl, ⟨?_, by simp⟩⟩
    simp only [true_iff]
    intro l hl he
    exact absurd ((h3 l).2 ⟨hl, he⟩) (by simp)
  | cons b bs =>
    have hlt := hgen (b :: bs).length (by simp)
    refine ⟨some ((b :: bs)[genRange (b :: bs).length]), by dsimp only; rw [List.getElem?_eq_getElem hlt], ⟨?_, ?_⟩⟩
    · simp only [reduceCtorEq, false_iff]
      intro hall
      have := (h3 b).1 List.mem_cons_self
      exact hall b this.1 this.2
    · intro l hl
      have : (b :: bs)[genRange (b :: bs).length] = l := by simpa using hl
      exact (h3 l).1 (this ▸ List.getElem_mem hlt)

/-- Every empty cell can be drawn, on the dense number grid. -/
theorem C24_dense_number_every_empty_cell_possible_partial {T : Type} (g : DenseNumber.DGrid T)
    (hg : DenseNumber.WF g) (l : Loc) (hl : InRange g.width g.height l)
    (he : DenseNumber.getValue g l = some none) :
    ∃ genRange : Nat → Nat, (∀ n, 0 < n → genRange n < n) ∧
      DenseNumber.getRandomEmptyBag g genRange = some (some l) := by
  obtain ⟨es, h1, _, h3⟩ := DenseNumber.C22_get_empty_bags g hg
  obtain ⟨i, hi, hil⟩ := List.getElem_of_mem ((h3 l).2 ⟨hl, he⟩)
  refine ⟨fun n => if i < n then i else 0, ?_, ?_⟩
  · intro n hn; dsimp only; split <;> omega
  · unfold DenseNumber.getRandomEmptyBag
    rw [h1]
    cases es with
    | nil => simp at hi
    | cons b bs =>
      dsimp only
      rw [if_pos hi, List.getElem?_eq_getElem hi, hil]

/-- The loops of the sparse grids, on any predicate. -/
theorem sparse_loop {V : Type} (m : HMap Loc V) (loop : List Loc → Draw)
    (h0 : loop [] = .looping)
    (h1 : ∀ d ds, loop (d :: ds) = if (HMap.get m d).isSome then loop ds else .returned (some d))
    (draws : List Loc) :
    (loop draws = .looping ↔ ∀ d ∈ draws, (HMap.get m d).isSome = true) ∧ loop draws ≠ .panic ∧
    loop draws ≠ .returned none ∧
    ∀ l, loop draws = .returned (some l) → l ∈ draws ∧ HMap.get m l = none := by
  induction draws with
  | nil => rw [h0]; simp
  | cons d ds ih =>
    rw [h1]
    cases hg : HMap.get m d with
    | none => simp [hg]
    | some v =>
      obtain ⟨i1, i2, i3, i4⟩ := ih
      simp only [Option.isSome_some, if_true]
      refine ⟨?_, i2, i3, fun l hl => ⟨List.mem_cons_of_mem _ (i4 l hl).1, (i4 l hl).2⟩⟩
      rw [i1]; simp [hg]

/-- **C24**, sparse number grid, correct part: for every stream of in-range draws the call never panics
and never returns `None`; any cell it returns is in range and empty, and it returns as soon as an empty
cell is drawn. -/
theorem C24_sparse_number_random_empty_bag_partial {T : Type} (g : SparseNumber.SGrid T) (draws : List Loc)
    (hw : 0 < g.width) (hh : 0 < g.height) (hd : ∀ d ∈ draws, InRange g.width g.height d) :
    SparseNumber.getRandomEmptyBag g draws ≠ .panic ∧
    SparseNumber.getRandomEmptyBag g draws ≠ .returned none ∧
    (SparseNumber.getRandomEmptyBag g draws = .looping ↔ ∀ d ∈ draws, SparseNumber.getValue g d ≠ none) ∧
    ∀ l, SparseNumber.getRandomEmptyBag g draws = .returned (some l) →
      InRange g.width g.height l ∧ SparseNumber.getValue g l = none := by
  have key := sparse_loop g.rlocs (SparseNumber.randomLoop g.rlocs) rfl
    (fun d ds => by rw [SparseNumber.randomLoop]; cases HMap.get g.rlocs d <;> rfl) draws
  unfold SparseNumber.getRandomEmptyBag
  rw [if_neg (by omega)]
  obtain ⟨k1, k2, k3, k4⟩ := key
  refine ⟨k2, k3, ?_, fun l hl => ⟨hd l (k4 l hl).1, (k4 l hl).2⟩⟩
  rw [k1]
  simp only [Option.isSome_iff_ne_none]
  rfl

/-- **C24**, sparse object grid, correct part. -/
theorem C24_sparse_object_random_empty_bag_partial {O : Type} [BEq O] (g : SparseObject.BGrid O)
    (draws : List Loc) (hw : 0 < g.width) (hh : 0 < g.height) (hd : ∀ d ∈ draws, InRange g.width g.height d) :
    SparseObject.getRandomEmptyBag g draws ≠ .panic ∧
    SparseObject.getRandomEmptyBag g draws ≠ .returned none ∧
    (SparseObject.getRandomEmptyBag g draws = .looping ↔ ∀ d ∈ draws, SparseObject.getObjects g d ≠ none) ∧
    ∀ l, SparseObject.getRandomEmptyBag g draws = .returned (some l) →
      InRange g.width g.height l ∧ SparseObject.getObjects g l = none := by
  have key := sparse_loop g.rlocs (SparseObject.randomLoop g.rlocs) rfl
    (fun d ds => by rw [SparseObject.randomLoop]; cases HMap.get g.rlocs d <;> rfl) draws
  unfold SparseObject.getRandomEmptyBag
  rw [if_neg (by omega)]
  obtain ⟨k1, k2, k3, k4⟩ := key
  refine ⟨k2, k3, ?_, fun l hl => ⟨hd l (k4 l hl).1, (k4 l hl).2⟩⟩
  rw [k1]
  simp only [Option.isSome_iff_ne_none]
  rfl

/-- **C24** is false of the sparse grids: on a full grid the call never returns, for any stream of draws. -/
theorem C24_sparse_full_grid_never_returns_partial {T O : Type} [BEq O] (gn : SparseNumber.SGrid T)
    (go : SparseObject.BGrid O) (draws : List Loc)
    (hn : 0 < gn.width ∧ 0 < gn.height ∧ (∀ d ∈ draws, InRange gn.width gn.height d) ∧
      ∀ l, InRange gn.width gn.height l → SparseNumber.getValue gn l ≠ none)
    (ho : 0 < go.width ∧ 0 < go.height ∧ (∀ d ∈ draws, InRange go.width go.height d) ∧
      ∀ l, InRange go.width go.height l → SparseObject.getObjects go l ≠ none) :
    SparseNumber.getRandomEmptyBag gn draws = .looping ∧ SparseObject.getRandomEmptyBag go draws = .looping := by
  obtain ⟨a1, a2, a3, a4⟩ := hn
  obtain ⟨b1, b2, b3, b4⟩ := ho
  exact ⟨(C24_sparse_number_random_empty_bag_partial gn draws a1 a2 a3).2.2.1.2 (fun d hd => a4 d (a3 d hd)),
    (C24_sparse_object_random_empty_bag_partial go draws b1 b2 b3).2.2.1.2 (fun d hd => b4 d (b3 d hd))⟩

/-- **C24** is false of the sparse grids: with a dimension `≤ 0` the call panics instead of returning `None`. -/
theorem C24_sparse_empty_grid_panics_partial {T O : Type} [BEq O] (w h : Int) (hwh : w ≤ 0 ∨ h ≤ 0)
    (draws : List Loc) :
    SparseNumber.getRandomEmptyBag (SparseNumber.new w h : SparseNumber.SGrid T) draws = .panic ∧
    SparseObject.getRandomEmptyBag (SparseObject.new w h : SparseObject.BGrid O) draws = .panic := by
  constructor
  · unfold SparseNumber.getRandomEmptyBag; exact if_pos hwh
  · unfold SparseObject.getRandomEmptyBag; exact if_pos hwh

example : DenseNumber.WF DenseNumber.demoGrid ∧
    DenseNumber.getRandomEmptyBag DenseNumber.demoGrid (fun n => n - 1) = some (some ⟨0, 0⟩) ∧
    DenseObject.getRandomEmptyBag DenseObject.demoGrid (fun n => n / 2) = some (some ⟨0, 0⟩) ∧
    SparseObject.getRandomEmptyBag SparseObject.demoGrid [⟨0, 1⟩, ⟨1, 1⟩] = .looping ∧
    SparseObject.getRandomEmptyBag SparseObject.demoGrid [⟨0, 1⟩, ⟨1, 0⟩] = .returned (some ⟨1, 0⟩) :=
  ⟨⟨rfl, rfl⟩, by decide, by decide, by decide, by decide⟩

/-- A full one-cell sparse number grid, for the hypotheses of the theorem on full grids. -/
example : (∀ l, InRange 1 1 l →
    SparseNumber.getValue (⟨[(⟨0, 0⟩, 5)], [], 1, 1⟩ : SparseNumber.SGrid Nat) l ≠ none) ∧
    SparseNumber.getRandomEmptyBag (⟨[(⟨0, 0⟩, 5)], [], 1, 1⟩ : SparseNumber.SGrid Nat) [⟨0, 0⟩, ⟨0, 0⟩] = .looping := by
  refine ⟨?_, by decide⟩
  rintro ⟨x, y⟩ ⟨h1, h2, h3, h4⟩
  have hx : x = 0 := by dsimp only at *; omega
  have hy : y = 0 := by dsimp only at *; omega
  subst hx hy
  decide

end Verif
