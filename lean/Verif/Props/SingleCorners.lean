import Verif.Props.SingleSearch

/-! C180: the locations a continuous field hands out, when positions are singles. -/

namespace Verif.Single

open Grid Torus
open Field2D (FieldOp InField)

variable {O : Type} [BEq O]

/-- The lower corner of cell `(i, j)`. -/
def exactCorner (d : Rat) (i j : Nat) : Pos := ⟨i * d, j * d⟩

/-- The single that stands for it. -/
def roundedCorner (rnd : Rat → Rat) (d : Rat) (i j : Nat) : Pos := ⟨rnd (i * d), rnd (j * d)⟩

theorem keeps_nat {rnd : Rat → Rat} (hr : Rounding rnd) {i : Nat} (h : i ≤ 2 ^ 24) : rnd i = i := by
  have := hr.keeps (isF32_int (n := i) (by omega) (by exact_mod_cast h))
  exact_mod_cast this

theorem cell_exact {rnd : Rat → Rat} (hr : Rounding rnd) {d : Rat} (hd : 0 < d) {i : Nat} (h : i ≤ 2 ^ 24) :
    (rnd (i * d / d)).floor = i := by
  rw [mul_div_assoc, div_self hd.ne', mul_one, keeps_nat hr h]
  exact_mod_cast Rat.floor_intCast (i : Int)

/-- The cells along one side are fewer than 2^23 if there are two along the other. -/
theorem along_small {rnd : Rat → Rat} (hr : Rounding rnd) {w h d : Rat} (hd : 0 < d) (hw : d ≤ w) (hh : d ≤ h)
    (hcells : (cellsAlong rnd w d + 1) * (cellsAlong rnd h d + 1) ≤ 2 ^ 24) :
    0 ≤ cellsAlong rnd w d ∧ cellsAlong rnd w d < 2 ^ 23 ∧ 0 ≤ cellsAlong rnd h d ∧ cellsAlong rnd h d < 2 ^ 23 := by
  have one : ∀ w : Rat, d ≤ w → 1 ≤ cellsAlong rnd w d := by
    intro w hw
    have := width_pos hr hd hw
    unfold cellsAlong
    have h1 : (0 : Int) < (rnd (w / d)).ceil := Rat.lt_ceil_iff.2 (by push_cast; exact this)
    omega
  have a := one w hw
  have b := one h hh
  generalize cellsAlong rnd w d = A at *
  generalize cellsAlong rnd h d = B at *
  refine ⟨by omega, by nlinarith, by omega, by nlinarith⟩

/-- The rounded corner is in its cell or in the one before. -/
theorem cell_rounded {rnd : Rat → Rat} (hr : Rounding rnd) {d : Rat} (hd : 1 / 2 ^ 40 ≤ d) {i : Nat} (h : i < 2 ^ 23) :
    (rnd (rnd (i * d) / d)).floor = i ∨ (rnd (rnd (i * d) / d)).floor + 1 = i := by
  have dpos : 0 < d := lt_of_lt_of_le (by norm_num) hd
  rcases Nat.eq_zero_or_pos i with rfl | hi
  · left
    have h0 : rnd 0 = 0 := by
      have := keeps_nat hr (i := 0) (by norm_num)
      exact_mod_cast this
    simp only [Nat.cast_zero, zero_mul, h0, zero_div]
    rfl
  have hn := hr.near (i * d)
  have hid : 0 ≤ (i : Rat) * d := by positivity
  rw [abs_of_nonneg hid, abs_le] at hn
  have hi' : (i : Rat) ≤ 2 ^ 23 - 1 := by
    have : i ≤ 2 ^ 23 - 1 := by omega
    have h2 : ((i : Nat) : Rat) ≤ ((2 ^ 23 - 1 : Nat) : Rat) := by exact_mod_cast this
    norm_num at h2 ⊢
    exact h2
  have tiny : (1 : Rat) / 2 ^ 150 ≤ d / 2 ^ 110 := by
    rw [div_le_div_iff₀ (by norm_num) (by norm_num)]
    have : (1 / 2 ^ 40 : Rat) * 2 ^ 150 ≤ d * 2 ^ 150 := mul_le_mul_of_nonneg_right hd (by norm_num)
    calc (1 : Rat) * 2 ^ 110 = 1 / 2 ^ 40 * 2 ^ 150 := by norm_num
      _ ≤ _ := this
  have hi1 : (i : Rat) * d / 2 ^ 24 ≤ (2 ^ 23 - 1) * d / 2 ^ 24 := by
    apply div_le_div_of_nonneg_right _ (by norm_num)
    exact mul_le_mul_of_nonneg_right hi' dpos.le
  have up : rnd (i * d) / d ≤ i + 1 / 2 := by
    rw [div_le_iff₀ dpos]
    have : (2 ^ 23 - 1) * d / 2 ^ 24 + d / 2 ^ 110 ≤ d / 2 := by
      have : (2 ^ 23 - 1 : Rat) * d / 2 ^ 24 + d / 2 ^ 110 = d * ((2 ^ 23 - 1) / 2 ^ 24 + 1 / 2 ^ 110) := by ring
      rw [this]
      have : d * ((2 ^ 23 - 1) / 2 ^ 24 + 1 / 2 ^ 110 : Rat) ≤ d * (1 / 2) := mul_le_mul_of_nonneg_left (by norm_num) dpos.le
      linarith
    linarith
  have lo : (i : Rat) - 1 / 2 ≤ rnd (i * d) / d := by
    rw [le_div_iff₀ dpos]
    have : (2 ^ 23 - 1) * d / 2 ^ 24 + d / 2 ^ 110 ≤ d / 2 := by
      have : (2 ^ 23 - 1 : Rat) * d / 2 ^ 24 + d / 2 ^ 110 = d * ((2 ^ 23 - 1) / 2 ^ 24 + 1 / 2 ^ 110) := by ring
      rw [this]
      have : d * ((2 ^ 23 - 1) / 2 ^ 24 + 1 / 2 ^ 110 : Rat) ≤ d * (1 / 2) := mul_le_mul_of_nonneg_left (by norm_num) dpos.le
      linarith
    linarith
  have fu : IsF32 ((i : Rat) + 1 / 2) := by
    refine ⟨2 * i + 1, -1, ?_, by norm_num, ?_⟩
    · rw [abs_of_nonneg (by omega)]; omega
    · push_cast; norm_num; ring
  have fl : IsF32 ((i : Rat) - 1 / 2) := by
    refine ⟨2 * i - 1, -1, ?_, by norm_num, ?_⟩
    · rw [abs_of_nonneg (by omega)]; omega
    · push_cast; norm_num; ring
  have up' := hr.mono _ _ up
  have lo' := hr.mono _ _ lo
  rw [hr.keeps fu] at up'
  rw [hr.keeps fl] at lo'
  have g1 : (rnd (rnd (i * d) / d)).floor < (i : Int) + 1 := by
    have := Rat.floor_le (a := rnd (rnd (i * d) / d))
    have h2 : (((rnd (rnd (i * d) / d)).floor : Int) : Rat) < ((i + 1 : Int) : Rat) := by push_cast; linarith
    exact_mod_cast h2
  have g2 : (i : Int) - 1 ≤ (rnd (rnd (i * d) / d)).floor := Rat.le_floor_iff.2 (by push_cast; linarith)
  omega

/-- What the bags hold after a program, in terms of the corners. -/
theorem bags_after {rnd : Rat → Rat} (hr : Rounding rnd) {w h d : Rat} (t : Bool) (hd : 0 < d) (hw : d ≤ w) (hh : d ≤ h)
    (hcells : (cellsAlong rnd w d + 1) * (cellsAlong rnd h d + 1) ≤ 2 ^ 24) (hist : List (FieldOp O)) (hin : ∀ op ∈ hist, op.InField w h) :
    ∃ f, run rnd (new rnd w h d t) hist = some f ∧ f.discretization = d ∧ f.dw = cellsAlong rnd w d + 1 ∧ f.dh = cellsAlong rnd h d + 1 ∧
      Big f.dw f.dh f.rbags ∧ Big f.dw f.dh f.bags ∧
      ∀ i j : Nat, (i : Int) ≤ cellsAlong rnd w d → (j : Int) ≤ cellsAlong rnd h d →
        vecGet f.rbags f.dh ⟨i, j⟩ = some (published (cellOf rnd d) hist (exactCorner d i j)) ∧
        vecGet f.bags f.dh ⟨i, j⟩ = some (written (cellOf rnd d) hist (exactCorner d i j)) := by
  obtain ⟨f, h1, h2, h3, h4, h5, h6⟩ := shows_image hr t hd hw hh hcells hist hin
  obtain ⟨s1, s2, s3, s4⟩ := along_small hr hd hw hh hcells
  have hdw : f.dw = cellsAlong rnd w d + 1 := by
    have := h6.wf.dw
    rw [h6.width, h6.disc, div_one] at this
    exact this
  have hdh : f.dh = cellsAlong rnd h d + 1 := by
    have := h6.wf.dh
    rw [h6.height, h6.disc, div_one] at this
    exact this
  refine ⟨f, h1, h2, hdw, hdh, h6.wf.r.big, h6.wf.b.big, ?_⟩
  intro i j hi hj
  have hr' : InRange f.dw f.dh ⟨i, j⟩ := by rw [hdw, hdh]; unfold InRange; dsimp only; omega
  have hc : Field2D.discretize 1 (image rnd d (exactCorner d i j)) = ⟨i, j⟩ := by
    rw [← discretize_image]
    unfold discretize exactCorner
    simp only
    rw [cell_exact hr hd (by omega), cell_exact hr hd (by omega)]
  have e : Field2D.discretize 1 (Field2D.notDiscretize 1 ⟨i, j⟩) = Field2D.discretize 1 (image rnd d (exactCorner d i j)) := by
    rw [hc, Field2D.discretize_notDiscretize (by norm_num)]
  have r1 : vecGet f.rbags f.dh ⟨i, j⟩ = _ := h6.read ⟨i, j⟩ hr'
  have r2 : vecGet f.bags f.dh ⟨i, j⟩ = _ := h6.write ⟨i, j⟩ hr'
  rw [r1, r2, ← published_image, ← written_image, Field2D.objsPublished_congr _ e, Field2D.objsWritten_congr _ e]
  exact ⟨rfl, rfl⟩

theorem mem_cells_nat {w h : Int} (c : Loc) : c ∈ cells (w + 1) (h + 1) ↔ ∃ i j : Nat, (i : Int) ≤ w ∧ (j : Int) ≤ h ∧ c = ⟨i, j⟩ := by
  rw [mem_cells]
  constructor
  · rintro ⟨h1, h2, h3, h4⟩
    obtain ⟨x, y⟩ := c
    dsimp only at *
    obtain ⟨i, rfl⟩ := Int.eq_ofNat_of_zero_le h1
    obtain ⟨j, rfl⟩ := Int.eq_ofNat_of_zero_le h3
    exact ⟨i, j, by omega, by omega, rfl⟩
  · rintro ⟨i, j, h1, h2, rfl⟩
    unfold InRange; dsimp only; omega

theorem corner_model {rnd : Rat → Rat} (hr : Rounding rnd) {d : Rat} {i j : Nat} (hi : i ≤ 2 ^ 24) (hj : j ≤ 2 ^ 24) :
    notDiscretize rnd d ⟨i, j⟩ = roundedCorner rnd d i j := by
  unfold notDiscretize roundedCorner
  have a := keeps_nat hr hi
  have b := keeps_nat hr hj
  simp only [Int.cast_natCast, a, b]

/-- **C180 (partial).** In single precision `get_empty_bags` returns the rounded lower corners of exactly the cells that hold no published object, and
`iter_objects` and `iter_objects_unbuffered` call their function with the rounded lower corner of the cell of the object. The cell of such a corner, as far as
`get_objects` is concerned, is the cell meant or the one before it along an axis; it is the cell meant if the corner is not rounded. Missing: that it is always
the cell meant; false by `C180_not_empty_partial`. -/
theorem C180_corners_partial (rnd : Rat → Rat) (hr : Rounding rnd) (w h d : Rat) (t : Bool) (hd : 1 / 2 ^ 40 ≤ d) (hw : d ≤ w) (hh : d ≤ h)
    (hcells : (cellsAlong rnd w d + 1) * (cellsAlong rnd h d + 1) ≤ 2 ^ 24) :
    ∃ cell : Pos → Int × Int, Squares cell d ∧
      (∀ i j : Nat, (i : Int) ≤ cellsAlong rnd w d → (j : Int) ≤ cellsAlong rnd h d → cell (exactCorner d i j) = (↑i, ↑j) ∧
        ((cell (roundedCorner rnd d i j)).1 = i ∨ (cell (roundedCorner rnd d i j)).1 + 1 = i) ∧
        ((cell (roundedCorner rnd d i j)).2 = j ∨ (cell (roundedCorner rnd d i j)).2 + 1 = j) ∧
        (IsF32 (i * d) → (cell (roundedCorner rnd d i j)).1 = i) ∧ (IsF32 (j * d) → (cell (roundedCorner rnd d i j)).2 = j)) ∧
      ∀ hist : List (FieldOp O), (∀ op ∈ hist, op.InField w h) →
      ∃ f es all now, run rnd (new rnd w h d t) hist = some f ∧
        (∀ p, InField w h p → getObjects rnd f p = some (published cell hist p)) ∧
        getEmptyBags rnd f = some es ∧ iterObjects rnd f = some all ∧ iterObjectsUnbuffered rnd f = some now ∧
        (∀ p, p ∈ es ↔ ∃ i j : Nat, (i : Int) ≤ cellsAlong rnd w d ∧ (j : Int) ≤ cellsAlong rnd h d ∧ p = roundedCorner rnd d i j ∧
          published cell hist (exactCorner d i j) = []) ∧
        (∀ p o, (p, o) ∈ all ↔ ∃ i j : Nat, (i : Int) ≤ cellsAlong rnd w d ∧ (j : Int) ≤ cellsAlong rnd h d ∧ p = roundedCorner rnd d i j ∧
          o ∈ published cell hist (exactCorner d i j)) ∧
        (∀ p o, (p, o) ∈ now ↔ ∃ i j : Nat, (i : Int) ≤ cellsAlong rnd w d ∧ (j : Int) ≤ cellsAlong rnd h d ∧ p = roundedCorner rnd d i j ∧
          o ∈ written cell hist (exactCorner d i j)) := by
  have dpos : 0 < d := lt_of_lt_of_le (by norm_num) hd
  obtain ⟨s1, s2, s3, s4⟩ := along_small hr dpos hw hh hcells
  refine ⟨cellOf rnd d, squares_cellOf hr dpos, ?_, ?_⟩
  · intro i j hi hj
    refine ⟨?_, cell_rounded hr hd (by omega), cell_rounded hr hd (by omega), ?_, ?_⟩
    · unfold cellOf discretize exactCorner
      simp only
      rw [cell_exact hr dpos (by omega), cell_exact hr dpos (by omega)]
    · intro hf
      show (rnd (rnd (i * d) / d)).floor = i
      rw [hr.keeps hf, cell_exact hr dpos (by omega)]
    · intro hf
      show (rnd (rnd (j * d) / d)).floor = j
      rw [hr.keeps hf, cell_exact hr dpos (by omega)]
  · intro hist hin
    obtain ⟨f, h1, h2, h3, h4, h5, h6, h7⟩ := bags_after hr t dpos hw hh hcells hist hin
    have hget : ∀ p, InField w h p → getObjects rnd f p = some (published (cellOf rnd d) hist p) := by
      intro p hp
      have hx : 0 ≤ (rnd (p.x / d)).floor ∧ (rnd (p.x / d)).floor ≤ cellsAlong rnd w d := by
        refine ⟨Rat.le_floor_iff.2 (by push_cast; exact hr.nonneg (div_nonneg hp.1 dpos.le)), ?_⟩
        have a := Rat.floor_le (a := rnd (p.x / d))
        have b := Rat.le_ceil (x := rnd (w / d))
        have c := hr.mono _ _ (div_le_div_of_nonneg_right hp.2.1 dpos.le)
        have : (((rnd (p.x / d)).floor : Int) : Rat) ≤ ((rnd (w / d)).ceil : Int) := by linarith
        exact_mod_cast this
      have hy : 0 ≤ (rnd (p.y / d)).floor ∧ (rnd (p.y / d)).floor ≤ cellsAlong rnd h d := by
        refine ⟨Rat.le_floor_iff.2 (by push_cast; exact hr.nonneg (div_nonneg hp.2.2.1 dpos.le)), ?_⟩
        have a := Rat.floor_le (a := rnd (p.y / d))
        have b := Rat.le_ceil (x := rnd (h / d))
        have c := hr.mono _ _ (div_le_div_of_nonneg_right hp.2.2.2 dpos.le)
        have : (((rnd (p.y / d)).floor : Int) : Rat) ≤ ((rnd (h / d)).ceil : Int) := by linarith
        exact_mod_cast this
      obtain ⟨i, hi⟩ := Int.eq_ofNat_of_zero_le hx.1
      obtain ⟨j, hj⟩ := Int.eq_ofNat_of_zero_le hy.1
      have e : discretize rnd d p = ⟨i, j⟩ := by unfold discretize; rw [hi, hj]
      unfold getObjects
      rw [h2, e, (h7 i j (by omega) (by omega)).1]
      congr 1
      rw [← published_image, ← published_image]
      apply Field2D.objsPublished_congr
      rw [← discretize_image, ← discretize_image, e]
      unfold discretize exactCorner
      simp only
      rw [cell_exact hr dpos (by omega), cell_exact hr dpos (by omega)]
    refine ⟨f, _, _, _, h1, hget, collect_spec _ (cells_isSome h5), collect_spec _ (cells_isSome h5), collect_spec _ (cells_isSome h6), ?_, ?_, ?_⟩
    · intro p
      rw [List.mem_flatMap]
      constructor
      · rintro ⟨c, hc, hp⟩
        rw [h3, h4] at hc
        obtain ⟨i, j, hi, hj, rfl⟩ := (mem_cells_nat c).1 hc
        rw [(h7 i j hi hj).1, h2] at hp
        simp only [Option.map_some, Option.getD_some] at hp
        split at hp
        · rename_i hemp
          rw [List.mem_singleton, corner_model hr (by omega) (by omega)] at hp
          exact ⟨i, j, hi, hj, hp, by simpa using hemp⟩
        · exact absurd hp (by simp)
      · rintro ⟨i, j, hi, hj, rfl, he⟩
        refine ⟨⟨i, j⟩, by rw [h3, h4]; exact (mem_cells_nat _).2 ⟨i, j, hi, hj, rfl⟩, ?_⟩
        rw [(h7 i j hi hj).1, h2, he, corner_model hr (by omega) (by omega)]
        simp
    · intro p o
      rw [List.mem_flatMap]
      constructor
      · rintro ⟨c, hc, hp⟩
        rw [h3, h4] at hc
        obtain ⟨i, j, hi, hj, rfl⟩ := (mem_cells_nat c).1 hc
        rw [(h7 i j hi hj).1, h2] at hp
        simp only [Option.map_some, Option.getD_some, List.mem_map] at hp
        obtain ⟨o', ho, he⟩ := hp
        rw [corner_model hr (by omega) (by omega)] at he
        cases he
        exact ⟨i, j, hi, hj, rfl, ho⟩
      · rintro ⟨i, j, hi, hj, rfl, he⟩
        refine ⟨⟨i, j⟩, by rw [h3, h4]; exact (mem_cells_nat _).2 ⟨i, j, hi, hj, rfl⟩, ?_⟩
        rw [(h7 i j hi hj).1, h2, corner_model hr (by omega) (by omega)]
        simpa using he
    · intro p o
      rw [List.mem_flatMap]
      constructor
      · rintro ⟨c, hc, hp⟩
        rw [h3, h4] at hc
        obtain ⟨i, j, hi, hj, rfl⟩ := (mem_cells_nat c).1 hc
        rw [(h7 i j hi hj).2, h2] at hp
        simp only [Option.map_some, Option.getD_some, List.mem_map] at hp
        obtain ⟨o', ho, he⟩ := hp
        rw [corner_model hr (by omega) (by omega)] at he
        cases he
        exact ⟨i, j, hi, hj, rfl, ho⟩
      · rintro ⟨i, j, hi, hj, rfl, he⟩
        refine ⟨⟨i, j⟩, by rw [h3, h4]; exact (mem_cells_nat _).2 ⟨i, j, hi, hj, rfl⟩, ?_⟩
        rw [(h7 i j hi hj).2, h2, corner_model hr (by omega) (by omega)]
        simpa using he

/-- Multiples of a short discretization are singles: whole numbers, halves, quarters and so on. -/
theorem multiple_isF32 {d : Rat} {m : Nat} {e : Int} (he : -149 ≤ e) (hd : d = m * 2 ^ e) {i : Nat} (h : i * m ≤ 2 ^ 24) : IsF32 (i * d) := by
  refine ⟨(i * m : Nat), e, ?_, he, ?_⟩
  · rw [abs_of_nonneg (by omega)]; exact_mod_cast h
  · rw [hd]; push_cast; ring

/-- **C180, for discretizations whose multiples are singles.** Whatever the generator draws, `get_random_empty_bag` returns a location at which `get_objects`
shows nothing, or `None` if all cells are occupied; and `iter_objects` names a location at which `get_objects` shows the object. -/
theorem C180_unrounded_partial (rnd : Rat → Rat) (hr : Rounding rnd) (w h d : Rat) (t : Bool) (hd : 1 / 2 ^ 40 ≤ d) (hw : d ≤ w) (hh : d ≤ h)
    (hcells : (cellsAlong rnd w d + 1) * (cellsAlong rnd h d + 1) ≤ 2 ^ 24)
    (hx : ∀ i : Nat, (i : Int) ≤ cellsAlong rnd w d → IsF32 (i * d)) (hy : ∀ j : Nat, (j : Int) ≤ cellsAlong rnd h d → IsF32 (j * d))
    (hist : List (FieldOp O)) (hin : ∀ op ∈ hist, op.InField w h) (genRange : Nat → Nat) (hgen : ∀ n, 0 < n → genRange n < n) :
    ∃ f r all, run rnd (new rnd w h d t) hist = some f ∧ getRandomEmptyBag rnd f genRange = some r ∧ iterObjects rnd f = some all ∧
      (∀ p, r = some p → InField w h p → getObjects rnd f p = some []) ∧
      (r = none → ∀ i j : Nat, (i : Rat) * d ≤ w → (j : Rat) * d ≤ h → ∃ o os, getObjects rnd f ⟨i * d, j * d⟩ = some (o :: os)) ∧
      ∀ p o, (p, o) ∈ all → InField w h p → ∃ os, getObjects rnd f p = some os ∧ o ∈ os := by
  have dpos : 0 < d := lt_of_lt_of_le (by norm_num) hd
  obtain ⟨cell, _, hc, H⟩ := C180_corners_partial (O := O) rnd hr w h d t hd hw hh hcells
  obtain ⟨f, es, all, now, h1, h2, h3, h4, _, h6, h7, _⟩ := H hist hin
  have same : ∀ i j : Nat, (i : Int) ≤ cellsAlong rnd w d → (j : Int) ≤ cellsAlong rnd h d →
      roundedCorner rnd d i j = exactCorner d i j := by
    intro i j hi hj
    unfold roundedCorner exactCorner
    rw [hr.keeps (hx i hi), hr.keeps (hy j hj)]
  have along : ∀ (w : Rat) (i : Nat), (i : Rat) * d ≤ w → (i : Int) ≤ 2 ^ 23 → (i : Int) ≤ cellsAlong rnd w d := by
    intro w i hi hs
    have a : (i : Rat) ≤ w / d := by rwa [le_div_iff₀ dpos]
    have b := hr.mono _ _ a
    rw [keeps_nat hr (by omega)] at b
    have c := Rat.le_ceil (x := rnd (w / d))
    have : ((i : Int) : Rat) ≤ ((rnd (w / d)).ceil : Int) := by push_cast; linarith
    exact_mod_cast this
  have hiter : ∀ p o, (p, o) ∈ all → InField w h p → ∃ os, getObjects rnd f p = some os ∧ o ∈ os := by
    intro p o hp hpf
    obtain ⟨i, j, hi, hj, rfl, ho⟩ := (h7 p o).1 hp
    rw [same i j hi hj] at hpf ⊢
    exact ⟨_, h2 _ hpf, ho⟩
  cases es with
  | nil =>
    refine ⟨f, none, all, h1, by unfold getRandomEmptyBag; rw [h3], h4, by simp, ?_, hiter⟩
    intro _ i j hi hj
    have small : ∀ (w : Rat) (i : Nat), (i : Rat) * d ≤ w → cellsAlong rnd w d < 2 ^ 23 → (i : Int) ≤ 2 ^ 23 := by
      intro w i hi hw
      by_contra hcon
      have h23 : ((2 ^ 23 : Nat) : Rat) * d ≤ w := by
        have : ((2 ^ 23 : Nat) : Rat) ≤ i := by
          have : 2 ^ 23 ≤ i := by omega
          exact_mod_cast this
        nlinarith
      have := along w (2 ^ 23) h23 (by norm_num)
      norm_num at this hw
      omega
    obtain ⟨_, s2, _, s4⟩ := along_small hr dpos hw hh hcells
    have hi' := along w i hi (small w i hi s2)
    have hj' := along h j hj (small h j hj s4)
    have hne : published cell hist (exactCorner d i j) ≠ [] := by
      intro he
      exact absurd ((h6 _).2 ⟨i, j, hi', hj', rfl, he⟩) (by simp)
    have hf : InField w h (exactCorner d i j) := by
      unfold InField exactCorner
      refine ⟨by positivity, hi, by positivity, hj⟩
    have := h2 _ hf
    obtain ⟨o, os, e⟩ := List.exists_cons_of_ne_nil hne
    exact ⟨o, os, this.trans (congrArg some e)⟩
  | cons b bs =>
    have hlt := hgen (b :: bs).length (by simp)
    refine ⟨f, some ((b :: bs)[genRange (b :: bs).length]), all, h1, ?_, h4, ?_, by simp, hiter⟩
    · unfold getRandomEmptyBag
      rw [h3]
      dsimp only
      rw [List.getElem?_eq_getElem hlt]
    · intro p hp hpf
      obtain rfl := Option.some.inj hp
      obtain ⟨i, j, hi, hj, e, he⟩ := (h6 _).1 (List.getElem_mem hlt)
      rw [h2 _ hpf, e, same i j hi hj, he]

/-- The multiples of one half up to 4000 cells are singles. -/
example : ∀ i : Nat, i ≤ 4000 → IsF32 (i * (1 / 2)) := fun i h =>
  multiple_isF32 (m := 1) (e := -1) (by norm_num) (by norm_num) (by omega)

/-- **C180 (negation).** With cells of side 0.9 one object in the cell from 1.8 on makes `get_empty_bags` return 2.7 as a free place, and `get_objects` at that place
shows the object. -/
theorem C180_not_empty_partial : ∃ (f : Field2D.Field Nat) (p : Pos) (es : List Pos),
    run single (new single 9 9 (single (9 / 10)) true) [.lazyUpdate, .place 1 ⟨2, 0⟩] = some f ∧ InField 9 9 p ∧
    getEmptyBags single f = some es ∧ p ∈ es ∧ getObjects single f p = some [1] := by
  refine ⟨((run single (new single 9 9 (single (9 / 10)) true) [.lazyUpdate, .place 1 ⟨2, 0⟩]).getD (new single 1 1 1 true)),
    ⟨single (3 * single (9 / 10)), 0⟩,
    ((getEmptyBags single ((run single (new single 9 9 (single (9 / 10)) true) [.lazyUpdate, .place 1 ⟨2, 0⟩]).getD (new single 1 1 1 true))).getD []),
    ?_, ?_, ?_, ?_, ?_⟩
  all_goals decide +kernel

/-- **C180 (negation).** In the same field `iter_objects` calls its function for an object in the cell from 2.7 on with a location at which `get_objects` shows
nothing. -/
theorem C180_not_there_partial : ∃ (f : Field2D.Field Nat) (p : Pos),
    run single (new single 9 9 (single (9 / 10)) true) [.lazyUpdate, .place 1 ⟨3, 0⟩] = some f ∧ InField 9 9 p ∧
    iterObjects single f = some [(p, 1)] ∧ getObjects single f p = some [] := by
  refine ⟨((run single (new single 9 9 (single (9 / 10)) true) [.lazyUpdate, .place 1 ⟨3, 0⟩]).getD (new single 1 1 1 true)),
    ⟨single (3 * single (9 / 10)), 0⟩, ?_, ?_, ?_, ?_⟩
  all_goals decide +kernel

/-- The field of the negations meets the hypotheses of `C180_corners_partial`. -/
example : 1 / 2 ^ 40 ≤ single (9 / 10) ∧ single (9 / 10) ≤ 9 ∧ (cellsAlong single 9 (single (9 / 10)) + 1) * (cellsAlong single 9 (single (9 / 10)) + 1) = 121 := by
  decide +kernel

end Verif.Single
