import Verif.Lemmas.SingleField
import Verif.Props.SingleTorus

/-! C173: what a continuous field shows when positions are singles. -/

namespace Verif.Single

open Grid Torus
open Field2D (FieldOp InField)

variable {O : Type} [BEq O]

/-- One axis of the cells. -/
theorem floor_slack {rnd : Rat → Rat} (hr : Rounding rnd) {d : Rat} (hd : 0 < d) {x : Rat} (hx : 0 ≤ x) :
    ((rnd (x / d)).floor : Rat) * d ≤ x + slack d x ∧ x - slack d x < ((rnd (x / d)).floor + 1) * d := by
  have hn := hr.near (x / d)
  rw [abs_of_nonneg (div_nonneg hx hd.le), abs_le] at hn
  have h1 := Rat.floor_le (a := rnd (x / d))
  have h2 := Rat.lt_floor (x := rnd (x / d))
  have e : (x / d / 2 ^ 24 + 1 / 2 ^ 150) * d = slack d x := by unfold slack; field_simp
  have e2 : x / d * d = x := by field_simp
  constructor
  · have : ((rnd (x / d)).floor : Rat) ≤ x / d + (x / d / 2 ^ 24 + 1 / 2 ^ 150) := by linarith [hn.2]
    have := mul_le_mul_of_nonneg_right this hd.le
    rw [add_mul, e, e2] at this
    exact this
  · have : x / d - (x / d / 2 ^ 24 + 1 / 2 ^ 150) < (rnd (x / d)).floor + 1 := by linarith [hn.1]
    have := mul_lt_mul_of_pos_right this hd
    rw [sub_mul, e, e2] at this
    exact this

theorem floor_exact {rnd : Rat → Rat} (hr : Rounding rnd) {d : Rat} (hd : 0 < d) {x : Rat} (hx : IsF32 (x / d)) :
    ((rnd (x / d)).floor : Rat) * d ≤ x ∧ x < ((rnd (x / d)).floor + 1) * d := by
  rw [hr.keeps hx]
  have h1 := Rat.floor_le (a := x / d)
  have h2 := Rat.lt_floor (x := x / d)
  rw [le_div_iff₀ hd] at h1
  rw [sub_lt_iff_lt_add, div_lt_iff₀ hd] at h2
  exact ⟨h1, h2⟩

theorem squares_cellOf {rnd : Rat → Rat} (hr : Rounding rnd) {d : Rat} (hd : 0 < d) : Squares (cellOf rnd d) d where
  x _ hp := floor_slack hr hd hp
  y _ hp := floor_slack hr hd hp
  ordered _ _ :=
    ⟨fun h => Rat.floor_monotone (hr.mono _ _ (div_le_div_of_nonneg_right h hd.le)),
      fun h => Rat.floor_monotone (hr.mono _ _ (div_le_div_of_nonneg_right h hd.le))⟩
  exactX _ hp := floor_exact hr hd hp
  exactY _ hp := floor_exact hr hd hp

/-- A width is not rounded to nothing. -/
theorem width_pos {rnd : Rat → Rat} (hr : Rounding rnd) {w d : Rat} (hd : 0 < d) (hw : d ≤ w) : 0 < rnd (w / d) := by
  have h1 : 1 ≤ w / d := by rw [le_div_iff₀ hd]; linarith
  have := hr.mono _ _ h1
  rw [hr.keeps ⟨1, 0, by norm_num, by norm_num, by norm_num⟩] at this
  linarith

theorem run_new {rnd : Rat → Rat} (hr : Rounding rnd) {w h d : Rat} (t : Bool) (hd : 0 < d) (hw : d ≤ w) (hh : d ≤ h)
    (hcells : (cellsAlong rnd w d + 1) * (cellsAlong rnd h d + 1) ≤ 2 ^ 24) (hist : List (FieldOp O)) (hin : ∀ op ∈ hist, op.InField w h) :
    ∃ f, run rnd (new rnd w h d t) hist = some f ∧ f.discretization = d ∧
      Field2D.run (Field2D.new (rnd (w / d)) (rnd (h / d)) 1 t) (hist.map (imageOp rnd d)) = some (imageField rnd f) ∧
      ∀ op ∈ hist.map (imageOp rnd d), op.InField (rnd (w / d)) (rnd (h / d)) := by
  have hin' : ∀ op ∈ hist.map (imageOp rnd d), op.InField (rnd (w / d)) (rnd (h / d)) := by
    intro op hop
    obtain ⟨op', h1, rfl⟩ := List.mem_map.1 hop
    have := hin op' h1
    cases op' with
    | place o l => exact image_inField hr hd this
    | remove o l => exact image_inField hr hd this
    | update => trivial
    | lazyUpdate => trivial
  obtain ⟨g, h1, _⟩ := Field2D.C35_field_history (rnd (w / d)) (rnd (h / d)) 1 t (width_pos hr hd hw) (width_pos hr hd hh) (by norm_num) _ hin'
  have h2 := run_image rnd (new rnd w h d t) hist
  rw [image_new hr t (lt_of_lt_of_le hd hw) (lt_of_lt_of_le hd hh) hd hcells] at h2
  have h3 : (new rnd w h d t : Field2D.Field O).discretization = d := rfl
  rw [h3, h1] at h2
  obtain ⟨f, h4, rfl⟩ := Option.map_eq_some_iff.1 h2
  exact ⟨f, h4, run_discretization h4, h1, hin'⟩

/-- **C173 (partial).** In single precision, on a field of at most 2^24 cells, a program that places objects in the field (borders included) never panics, and
every position shows the objects placed in its cell, where the cells are the squares of side `d` up to rounding. Missing: larger fields, where a position of the
field can panic, and exact squares. -/
theorem C173_history_partial (rnd : Rat → Rat) (hr : Rounding rnd) (w h d : Rat) (t : Bool) (hd : 0 < d) (hw : d ≤ w) (hh : d ≤ h)
    (hcells : (cellsAlong rnd w d + 1) * (cellsAlong rnd h d + 1) ≤ 2 ^ 24) :
    ∃ cell : Pos → Int × Int, Squares cell d ∧ ∀ hist : List (FieldOp O), (∀ op ∈ hist, op.InField w h) →
      ∃ f, run rnd (new rnd w h d t) hist = some f ∧ ∀ p, InField w h p →
        getObjects rnd f p = some (published cell hist p) ∧
        getObjectsUnbuffered rnd f p = some (written cell hist p) ∧
        numObjectsAtLocation rnd f p = some (published cell hist p).length := by
  refine ⟨cellOf rnd d, squares_cellOf hr hd, ?_⟩
  intro hist hin
  obtain ⟨f, h1, h2, h3, h4⟩ := run_new hr t hd hw hh hcells hist hin
  refine ⟨f, h1, ?_⟩
  intro p hp
  obtain ⟨g, h5, h6⟩ := Field2D.C35_field_history (rnd (w / d)) (rnd (h / d)) 1 t (width_pos hr hd hw) (width_pos hr hd hh) (by norm_num) _ h4
  rw [h3] at h5
  obtain rfl := Option.some.inj h5
  obtain ⟨a, b, c⟩ := h6 _ (image_inField hr hd hp)
  rw [published_image] at a c
  rw [written_image] at b
  unfold getObjects getObjectsUnbuffered numObjectsAtLocation
  rw [h2, discretize_image]
  exact ⟨a, b, c⟩

omit [BEq O] in
theorem vecGet_short {n : Nat} {dh : Int} {c : Loc} (h : (n : Int) ≤ c.x * dh + c.y) : vecGet (List.replicate n ([] : List O)) dh c = none := by
  unfold vecGet
  split
  · rw [List.getElem?_eq_none]
    rw [List.length_replicate]
    omega
  · rfl

omit [BEq O] in
theorem set_short {rnd : Rat → Rat} {f : Field2D.Field O} {n : Nat} (hf : f.bags = List.replicate n []) {o : O} {l : Pos}
    (h : (n : Int) ≤ (discretize rnd f.discretization l).x * f.dh + (discretize rnd f.discretization l).y) : setObjectLocation rnd f o l = none := by
  unfold setObjectLocation
  rw [hf, vecGet_short h]

theorem bags_5000 : bagsMade single 5000 5000 1 = 25010000 := by decide +kernel

theorem cells_5000 : cellsAlong single 5000 1 = 5000 := by decide +kernel

theorem corner_5000 : discretize single 1 ⟨5000, 5000⟩ = ⟨5000, 5000⟩ := by decide +kernel

omit [BEq O] in
/-- **C173** is false of the code, first way: the number of bags is computed as a single, so that a field of 5000 by 5000 cells gets too few, and placing an
object on its far corner panics. -/
theorem C173_corner_panics_partial :
    InField 5000 5000 (⟨5000, 5000⟩ : Pos) ∧ (new single 5000 5000 1 true : Field2D.Field O).dw * (new single 5000 5000 1 true : Field2D.Field O).dh = 25010001 ∧
      (new single 5000 5000 1 true : Field2D.Field O).bags.length = 25010000 ∧
      ∀ o : O, setObjectLocation single (new single 5000 5000 1 true) o ⟨5000, 5000⟩ = none := by
  have hdh : (new single 5000 5000 1 true : Field2D.Field O).dh = cellsAlong single 5000 1 + 1 := rfl
  have hdw : (new single 5000 5000 1 true : Field2D.Field O).dw = cellsAlong single 5000 1 + 1 := rfl
  have hdd : (new single 5000 5000 1 true : Field2D.Field O).discretization = 1 := rfl
  have hbags : (new single 5000 5000 1 true : Field2D.Field O).bags = List.replicate (bagsMade single 5000 5000 1) [] := rfl
  refine ⟨by refine ⟨?_, ?_, ?_, ?_⟩ <;> norm_num, ?_, ?_, ?_⟩
  · rw [hdw, hdh, cells_5000]; norm_num
  · rw [hbags, List.length_replicate, bags_5000]
  · intro o
    refine set_short hbags ?_
    rw [hdd, hdh, corner_5000, cells_5000, bags_5000]
    norm_num

/-- **C173** is false of the code, second way: with a discretization of 0.1 the position 0.7 is counted in the cell from `7 * 0.1` on, although as singles it is
below it. -/
theorem C173_rounded_square_partial : IsF32 (single (7 / 10)) ∧ IsF32 (single (1 / 10)) ∧ single (7 / 10) < 7 * single (1 / 10) ∧
    (discretize single (single (1 / 10)) ⟨single (7 / 10), 0⟩).x = 7 := by
  refine ⟨rounding_single.lands _, rounding_single.lands _, ?_⟩
  decide +kernel

/-- A field of 10 by 10 with discretization 0.7 meets the hypotheses of the history theorem. -/
example : 0 < single (7 / 10) ∧ single (7 / 10) ≤ 10 ∧ (cellsAlong single 10 (single (7 / 10)) + 1) * (cellsAlong single 10 (single (7 / 10)) + 1) = 256 ∧
    (run single (new single 10 10 (single (7 / 10)) true) [.lazyUpdate, .place 1 ⟨5, 5⟩, .place 2 ⟨10, 10⟩]).bind (fun f =>
      (getObjects single f ⟨5, single (55 / 10)⟩).bind (fun a => (getObjects single f ⟨10, 10⟩).map (fun b => (a, b)))) = some ([1], [2]) := by
  decide +kernel

/-- The position of an agent that moves by `toroidal_transform`. -/
def Wrapped (rnd : Rat → Rat) (w h : Rat) (l : Pos) : Prop := ∃ u v : Rat, IsF32 u ∧ IsF32 v ∧ l = ⟨transform rnd u w, transform rnd v h⟩

theorem Wrapped.inField {rnd : Rat → Rat} (hr : Rounding rnd) {w h : Rat} (fw : IsF32 w) (fh : IsF32 h) (hw : 0 < w) (hh : 0 < h) {l : Pos}
    (hl : Wrapped rnd w h l) : InField w h l := by
  obtain ⟨u, v, hu, hv, rfl⟩ := hl
  obtain ⟨h1, h2⟩ := transform_range hr hu fw hw
  obtain ⟨h3, h4⟩ := transform_range hr hv fh hh
  exact ⟨h1, h2, h3, h4⟩

/-- **C175.** A program all whose positions are wrapped with `toroidal_transform` never panics in single precision, whatever the singles are that it wraps, and
every wrapped position shows the objects placed in its cell. -/
theorem C175_wrapped_positions (rnd : Rat → Rat) (hr : Rounding rnd) (w h d : Rat) (t : Bool) (hd : 0 < d) (hw : d ≤ w) (hh : d ≤ h) (fw : IsF32 w) (fh : IsF32 h)
    (hcells : (cellsAlong rnd w d + 1) * (cellsAlong rnd h d + 1) ≤ 2 ^ 24) :
    ∃ cell : Pos → Int × Int, Squares cell d ∧ ∀ hist : List (FieldOp O),
      (∀ o l, FieldOp.place o l ∈ hist ∨ FieldOp.remove o l ∈ hist → Wrapped rnd w h l) →
      ∃ f, run rnd (new rnd w h d t) hist = some f ∧ ∀ p, Wrapped rnd w h p →
        getObjects rnd f p = some (published cell hist p) ∧
        getObjectsUnbuffered rnd f p = some (written cell hist p) ∧
        numObjectsAtLocation rnd f p = some (published cell hist p).length := by
  obtain ⟨cell, h1, h2⟩ := C173_history_partial (O := O) rnd hr w h d t hd hw hh hcells
  refine ⟨cell, h1, ?_⟩
  intro hist hin
  have inf : ∀ l, Wrapped rnd w h l → InField w h l := fun l hl => hl.inField hr fw fh (lt_of_lt_of_le hd hw) (lt_of_lt_of_le hd hh)
  obtain ⟨f, h3, h4⟩ := h2 hist (by
    intro op hop
    cases op with
    | place o l => exact inf l (hin o l (Or.inl hop))
    | remove o l => exact inf l (hin o l (Or.inr hop))
    | update => trivial
    | lazyUpdate => trivial)
  exact ⟨f, h3, fun p hp => h4 p (inf p hp)⟩

/-- Positions that cross the seam by any amount, also by less than a unit in the last place, are stored. -/
example : (run single (new single 10 10 1 true) [.lazyUpdate, .place 1 ⟨transform single (-1 / 2 ^ 30) 10, transform single 25 10⟩,
      .place 2 ⟨transform single (-3 / 2) 10, transform single 5 10⟩]).bind (fun f =>
      (getObjects single f ⟨transform single (-1 / 2 ^ 30) 10, transform single 5 10⟩).bind (fun a =>
        (getObjects single f ⟨transform single (17 / 2) 10, transform single 5 10⟩).map (fun b => (a, b)))) = some ([1], [2]) := by
  decide +kernel

end Verif.Single
