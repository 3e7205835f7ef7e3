import Verif.Lemmas.Chance
import Verif.Props.NumberGrid
import Verif.Props.ObjectGrid
import Verif.Props.Field2D
import Verif.Props.ParGrid

/-!
`get_random_empty_bag` is fair (C238). The generator is taken to be uniform: all indexes below the length of the list of empty bags
are equally likely, and so are all sequences of locations of the grid.
-/

set_option linter.unusedSectionVars false

namespace Verif.Chance

open Grid

/-- **C238**, dense number grid: every empty cell is returned for exactly one of the indexes that can be drawn;
`gen i` is the generator that answers `i` when asked for a number below the number of empty cells, and anything otherwise. -/
theorem C238_dense_number_partial {T : Type} [DecidableEq T] (g : DenseNumber.DGrid T) (hg : DenseNumber.WF g) (es : List Loc)
    (he : Lists es (fun l => InRange g.width g.height l ∧ DenseNumber.getValue g l = some none)) (l : Loc) (hl : l ∈ es)
    (gen : Nat → Nat → Nat) (hgen : ∀ i, gen i es.length = i) :
    chance (fun i => DenseNumber.getRandomEmptyBag g (gen i)) (List.range es.length) (some (some l)) =
      1 / (es.length : ℚ) := by
  obtain ⟨r, h1, h2, h3⟩ := DenseNumber.C22_get_empty_bags g hg
  have hr : Lists r (fun l => InRange g.width g.height l ∧ DenseNumber.getValue g l = some none) := ⟨h2, h3⟩
  rw [he.length_eq hr] at hgen ⊢
  refine index h2 _ (fun a => some (some a)) (fun a b h => by simpa using h) ?_ ((h3 l).2 ((he.mem l).1 hl))
  intro i hi
  unfold DenseNumber.getRandomEmptyBag
  rw [h1]
  cases r with
  | nil => exact absurd hi (by simp)
  | cons b bs =>
    dsimp only
    rw [hgen i, List.getElem?_eq_getElem hi]

/-- **C238**, dense object grid. -/
theorem C238_dense_object_partial {O : Type} [BEq O] (g : DenseObject.OGrid O) (hg : DenseObject.WF g) (es : List Loc)
    (he : Lists es (fun l => InRange g.width g.height l ∧ DenseObject.getObjects g l = some none)) (l : Loc) (hl : l ∈ es)
    (gen : Nat → Nat → Nat) (hgen : ∀ i, gen i es.length = i) :
    chance (fun i => DenseObject.getRandomEmptyBag g (gen i)) (List.range es.length) (some (some l)) =
      1 / (es.length : ℚ) := by
  obtain ⟨r, h1, h2, h3⟩ := DenseObject.C29_get_empty_bags g hg
  have hr : Lists r (fun l => InRange g.width g.height l ∧ DenseObject.getObjects g l = some none) := ⟨h2, h3⟩
  rw [he.length_eq hr] at hgen ⊢
  refine index h2 _ (fun a => some (some a)) (fun a b h => by simpa using h) ?_ ((h3 l).2 ((he.mem l).1 hl))
  intro i hi
  unfold DenseObject.getRandomEmptyBag
  rw [h1]
  cases r with
  | nil => exact absurd hi (by simp)
  | cons b bs =>
    dsimp only
    rw [hgen i, List.getElem?_eq_getElem hi]

/-- **C238**, the field of one process: the corners of the empty squares have the same chance. -/
theorem C238_field_partial {O : Type} [BEq O] [LawfulBEq O] (w h d : ℚ) (t : Bool) (hw : 0 < w) (hh : 0 < h) (hd : 0 < d)
    (hist : List (Field2D.FieldOp O)) (hin : ∀ op ∈ hist, op.InField w h) (es : List Torus.Pos)
    (he : Lists es (fun p => ∃ i j : Nat, (i : ℤ) ≤ (w / d).ceil ∧ (j : ℤ) ≤ (h / d).ceil ∧ p = Field2D.corner d i j ∧
      Field2D.objsPublished d hist p = [])) (p : Torus.Pos) (hp : p ∈ es)
    (gen : Nat → Nat → Nat) (hgen : ∀ i, gen i es.length = i) :
    ∃ f, Field2D.run (Field2D.new w h d t) hist = some f ∧
      chance (fun i => Field2D.getRandomEmptyBag f (gen i)) (List.range es.length) (some (some p)) =
        1 / (es.length : ℚ) := by
  obtain ⟨f, h1, hs⟩ := Field2D.shows_run t hw hh hd hist hin
  obtain ⟨r, h2, h3, h4⟩ := Field2D.empty_bags hd hs
  refine ⟨f, h1, ?_⟩
  rw [he.length_eq ⟨h3, h4⟩] at hgen ⊢
  refine index h3 _ (fun a => some (some a)) (fun a b h => by simpa using h) ?_ ((h4 p).2 ((he.mem p).1 hp))
  intro i hi
  unfold Field2D.getRandomEmptyBag
  rw [h2]
  cases r with
  | nil => exact absurd hi (by simp)
  | cons b bs =>
    dsimp only
    rw [hgen i, List.getElem?_eq_getElem hi]

/-- The loops of the sparse grids are fair. -/
theorem fair {search : List Loc → Draw} {ok : Loc → Bool} (h0 : search [] = .looping)
    (h1 : ∀ d ds, search (d :: ds) = if ok d = true then .returned (some d) else search ds) {w h : Int} (hw : 0 < w) (hh : 0 < h)
    {all es : List Loc} (ha : Lists all (InRange w h)) (he : Lists es (fun l => InRange w h l ∧ ok l = true)) :
    FairSearch search all es := by
  have hrej : Rejection search ok (fun l => Draw.returned (some l)) .looping :=
    ⟨h0, h1, fun a b hab => by simpa using hab, fun a => by simp⟩
  have hne : all ≠ [] := by
    intro hnil
    have : (⟨0, 0⟩ : Loc) ∈ all := (ha.mem _).2 ⟨le_refl _, hw, le_refl _, hh⟩
    rw [hnil] at this
    exact absurd this (by simp)
  refine ⟨fun k => (rejection hrej ha he k).1, fun k => (rejection hrej ha he k).2 hne, ?_⟩
  intro ε hε
  by_cases hes : es = []
  · exact ⟨0, fun k _ l hl => absurd hl (by rw [hes]; simp)⟩
  · have h2 : (0 : ℚ) < es.length := by exact_mod_cast List.length_pos_of_ne_nil hes
    have h3 : (es.length : ℚ) ≤ all.length := by
      have : es.length ≤ all.length := (he.once.subperm (fun a hm => (ha.mem a).2 ((he.mem a).1 hm).1)).length_le
      exact_mod_cast this
    obtain ⟨K, hK⟩ := settles h2 h3 ε hε
    exact ⟨K, fun k hk l hl => by rw [(rejection hrej ha he k).1 l hl]; exact hK k hk⟩

/-- **C238**, sparse number grid. -/
theorem C238_sparse_number_partial {T : Type} (g : SparseNumber.SGrid T) (hw : 0 < g.width) (hh : 0 < g.height)
    (all es : List Loc) (ha : Lists all (InRange g.width g.height))
    (he : Lists es (fun l => InRange g.width g.height l ∧ SparseNumber.getValue g l = none)) :
    FairSearch (SparseNumber.getRandomEmptyBag g) all es := by
  refine fair (ok := fun l => (HMap.get g.rlocs l).isNone) ?_ ?_ hw hh ha
    ⟨he.once, fun l => by rw [he.mem, Option.isNone_iff_eq_none]; rfl⟩
  · unfold SparseNumber.getRandomEmptyBag
    rw [if_neg (by omega)]
    rfl
  · intro d ds
    unfold SparseNumber.getRandomEmptyBag
    simp only [if_neg (show ¬ (g.width ≤ 0 ∨ g.height ≤ 0) by omega)]
    rw [SparseNumber.randomLoop]
    cases HMap.get g.rlocs d <;> rfl

/-- **C238**, sparse object grid of the sequential build. -/
theorem C238_sparse_object_partial {O : Type} [BEq O] (g : SparseObject.BGrid O) (hw : 0 < g.width) (hh : 0 < g.height)
    (all es : List Loc) (ha : Lists all (InRange g.width g.height))
    (he : Lists es (fun l => InRange g.width g.height l ∧ SparseObject.getObjects g l = none)) :
    FairSearch (SparseObject.getRandomEmptyBag g) all es := by
  refine fair (ok := fun l => (HMap.get g.rlocs l).isNone) ?_ ?_ hw hh ha
    ⟨he.once, fun l => by rw [he.mem, Option.isNone_iff_eq_none]; rfl⟩
  · unfold SparseObject.getRandomEmptyBag
    rw [if_neg (by omega)]
    rfl
  · intro d ds
    unfold SparseObject.getRandomEmptyBag
    simp only [if_neg (show ¬ (g.width ≤ 0 ∨ g.height ≤ 0) by omega)]
    rw [SparseObject.randomLoop]
    cases HMap.get g.rlocs d <;> rfl

/-- **C238**, sparse object grid under the feature `parallel`, removals included: the search is fair to the cells that hold no bag,
and a cell whose bag has lost its objects has no chance. -/
theorem C238_sparse_object_parallel_partial {O I : Type} [DecidableEq I] (ident : O → I) (g : ParGrid.OGrid O I)
    (hg : ParGrid.Reachable ident g) (hw : 0 < g.width) (hh : 0 < g.height) (all es : List Loc)
    (ha : Lists all (InRange g.width g.height))
    (he : Lists es (fun l => InRange g.width g.height l ∧ DBDashMap.getRead g.loc2objs l = some none)) :
    FairSearch g.getRandomEmptyBag all es ∧
    ∀ l, g.getObjects l = some none → l ∉ es → ∀ k, chance g.getRandomEmptyBag (sequences all k) (.returned (some l)) = 0 := by
  have hi := hg.wf.invL
  have h0 : g.getRandomEmptyBag [] = .looping := by
    unfold ParGrid.OGrid.getRandomEmptyBag
    rw [if_neg (by omega)]
    rfl
  have h1 : ∀ d ds, g.getRandomEmptyBag (d :: ds) =
      if (((DBDashMap.abs g.loc2objs).read d).isNone) = true then .returned (some d) else g.getRandomEmptyBag ds := by
    intro d ds
    unfold ParGrid.OGrid.getRandomEmptyBag
    simp only [if_neg (show ¬ (g.width ≤ 0 ∨ g.height ≤ 0) by omega)]
    rw [ParGrid.randomLoop, ParGrid.getRead_abs hi]
    cases (DBDashMap.abs g.loc2objs).read d <;> rfl
  have hes : ∀ l, l ∈ es ↔ InRange g.width g.height l ∧ ((DBDashMap.abs g.loc2objs).read l).isNone = true := by
    intro l
    rw [he.mem, ParGrid.getRead_abs hi, Option.some.injEq, Option.isNone_iff_eq_none]
  refine ⟨fair (ok := fun l => ((DBDashMap.abs g.loc2objs).read l).isNone) h0 h1 hw hh ha ⟨he.once, hes⟩, ?_⟩
  intro l _ hl k
  have hnot : ∀ s, (∀ c ∈ s, c ∈ all) → g.getRandomEmptyBag s ≠ .returned (some l) := by
    intro s
    induction s with
    | nil => intro _; rw [h0]; simp
    | cons c s ih =>
      intro hs
      rw [h1]
      by_cases hc : (((DBDashMap.abs g.loc2objs).read c).isNone) = true
      · rw [if_pos hc]
        intro heq
        simp only [Draw.returned.injEq, Option.some.injEq] at heq
        exact hl (heq ▸ (hes c).2 ⟨(ha.mem c).1 (hs c List.mem_cons_self), hc⟩)
      · rw [if_neg hc]
        exact ih (fun x hx => hs x (List.mem_cons_of_mem _ hx))
  have hfav : favourable g.getRandomEmptyBag (sequences all k) (.returned (some l)) = 0 := by
    unfold favourable
    rw [List.length_eq_zero_iff, List.filter_eq_nil_iff]
    intro s hs
    simp only [decide_eq_true_eq]
    exact hnot s (mem_sequences all k s hs)
  unfold chance
  rw [hfav]
  simp

/-- **C238** is false under the feature `parallel`: both cells of this grid show no objects, but of all the ways of drawing three
times seven return the second and none the first. -/
theorem C238_emptied_negation_partial :
    ∃ g : ParGrid.OGrid Nat Nat,
      ParGrid.OGrid.run id (ParGrid.OGrid.new 1 id (fun _ => 0) 2 1)
        [.lazyUpdate, .remove 7, .place 7 ⟨0, 0⟩, .lazyUpdate, .place 7 ⟨0, 0⟩] = some g ∧
      g.getObjects ⟨0, 0⟩ = some none ∧ g.getObjects ⟨1, 0⟩ = some none ∧
      chance g.getRandomEmptyBag (sequences [⟨0, 0⟩, ⟨1, 0⟩] 3) (.returned (some ⟨0, 0⟩)) = 0 ∧
      chance g.getRandomEmptyBag (sequences [⟨0, 0⟩, ⟨1, 0⟩] 3) (.returned (some ⟨1, 0⟩)) = 7 / 8 :=
  ⟨((ParGrid.OGrid.run id (ParGrid.OGrid.new 1 id (fun _ => 0) 2 1)
      [.lazyUpdate, .remove 7, .place 7 ⟨0, 0⟩, .lazyUpdate, .place 7 ⟨0, 0⟩]).get
      (by decide +kernel)),
    (Option.some_get _).symm, by decide +kernel, by decide +kernel, by decide +kernel, by decide +kernel⟩

/-- The hypotheses on the dense grids: two empty cells of four. -/
example : DenseNumber.WF (⟨[none, some 3, none, some 4], [none, none, none, none], 2, 2⟩ : DenseNumber.DGrid Nat) ∧
    DenseNumber.getEmptyBags (⟨[none, some 3, none, some 4], [none, none, none, none], 2, 2⟩ : DenseNumber.DGrid Nat) =
      some [⟨0, 0⟩, ⟨1, 0⟩] ∧
    chance (fun i => DenseNumber.getRandomEmptyBag
      (⟨[none, some 3, none, some 4], [none, none, none, none], 2, 2⟩ : DenseNumber.DGrid Nat) (fun _ => i)) (List.range 2)
      (some (some ⟨1, 0⟩)) = 1 / 2 := by
  refine ⟨⟨rfl, rfl⟩, by decide, by decide +kernel⟩

/-- A sparse grid of two by two with one value: three empty cells; after two draws each has been returned with chance 5/16. -/
example : Lists [(⟨0, 0⟩ : Loc), ⟨0, 1⟩, ⟨1, 0⟩, ⟨1, 1⟩] (InRange 2 2) ∧
    chance (SparseNumber.getRandomEmptyBag (⟨[(⟨0, 1⟩, 5)], [], 2, 2⟩ : SparseNumber.SGrid Nat))
      (sequences [⟨0, 0⟩, ⟨0, 1⟩, ⟨1, 0⟩, ⟨1, 1⟩] 2) (.returned (some ⟨1, 1⟩)) = 5 / 16 ∧
    (1 - ((4 - 3 : ℚ) / 4) ^ 2) / 3 = 5 / 16 := by
  refine ⟨⟨by decide, ?_⟩, by decide +kernel, by norm_num⟩
  rintro ⟨x, y⟩
  simp only [List.mem_cons, Loc.mk.injEq, List.not_mem_nil, or_false, InRange]
  omega

end Verif.Chance
