import Verif.Spec.SingleField
import Verif.Model.SingleField
import Verif.Lemmas.Single
import Verif.Props.Field2D

/-!
The field in single precision behaves as an exact field with cells of side 1 on the rounded quotients.
-/

set_option linter.unusedSectionVars false

namespace Verif.Single

open Grid Torus
open Field2D (FieldOp InField)

variable {O : Type} [BEq O]

/-- The rounded quotients. -/
def image (rnd : Rat → Rat) (d : Rat) (p : Pos) : Pos := ⟨rnd (p.x / d), rnd (p.y / d)⟩

/-- The exact field on the rounded quotients. -/
def imageField (rnd : Rat → Rat) (f : Field2D.Field O) : Field2D.Field O :=
  { f with width := rnd (f.width / f.discretization), height := rnd (f.height / f.discretization), discretization := 1 }

/-- The call with the rounded quotients. -/
def imageOp (rnd : Rat → Rat) (d : Rat) : FieldOp O → FieldOp O
  | .place o l => .place o (image rnd d l)
  | .remove o l => .remove o (image rnd d l)
  | .update => .update
  | .lazyUpdate => .lazyUpdate

theorem discretize_image (rnd : Rat → Rat) (d : Rat) (p : Pos) : discretize rnd d p = Field2D.discretize 1 (image rnd d p) := by
  unfold discretize Field2D.discretize image
  simp

theorem exec_discretization {rnd : Rat → Rat} {f g : Field2D.Field O} {op : FieldOp O} (h : exec rnd f op = some g) :
    g.discretization = f.discretization := by
  cases op with
  | place o l =>
    simp only [exec, setObjectLocation] at h
    split at h
    · cases h
    · obtain ⟨v, _, rfl⟩ := Option.map_eq_some_iff.1 h; rfl
  | remove o l =>
    simp only [exec, removeObjectLocation] at h
    split at h
    · cases h
    · split at h
      · cases h; rfl
      · split at h
        · obtain ⟨v, _, rfl⟩ := Option.map_eq_some_iff.1 h; rfl
        · split at h
          · cases h
          · obtain ⟨v, _, rfl⟩ := Option.map_eq_some_iff.1 h; rfl
  | update => cases h; rfl
  | lazyUpdate =>
    simp only [exec, Field2D.lazyUpdate] at h
    split at h
    · cases h; rfl
    · split at h
      · cases h
      · cases h; rfl

theorem exec_image (rnd : Rat → Rat) (f : Field2D.Field O) (op : FieldOp O) :
    (exec rnd f op).map (imageField rnd) = Field2D.exec (imageField rnd f) (imageOp rnd f.discretization op) := by
  cases op with
  | place o l =>
    simp only [exec, Field2D.exec, imageOp, setObjectLocation, Field2D.setObjectLocation, discretize_image]
    simp only [imageField]
    cases vecGet f.bags f.dh (Field2D.discretize 1 (image rnd f.discretization l)) with
    | none => rfl
    | some b => simp only [Option.map_map, Function.comp_def, imageField]; rfl
  | remove o l =>
    simp only [exec, Field2D.exec, imageOp, removeObjectLocation, Field2D.removeObjectLocation, discretize_image]
    simp only [imageField]
    cases vecGet f.bags f.dh (Field2D.discretize 1 (image rnd f.discretization l)) with
    | none => rfl
    | some b =>
      dsimp only
      split_ifs <;> simp only [*, Option.map_map, Function.comp_def, imageField, Option.map_some, Option.map_none, if_true, if_false, Bool.false_eq_true]
  | update => rfl
  | lazyUpdate =>
    simp only [exec, Field2D.exec, imageOp, Field2D.lazyUpdate]
    simp only [imageField]
    split_ifs <;> simp only [*, imageField, Option.map_some, Option.map_none, if_true, if_false, Bool.false_eq_true]

theorem run_discretization {rnd : Rat → Rat} {f g : Field2D.Field O} {hist : List (FieldOp O)} (h : run rnd f hist = some g) :
    g.discretization = f.discretization := by
  induction hist generalizing g with
  | nil => cases h; rfl
  | cons op hist ih =>
    obtain ⟨f', h1, h2⟩ := Option.bind_eq_some_iff.1 h
    rw [exec_discretization h2, ih h1]

theorem run_image (rnd : Rat → Rat) (f : Field2D.Field O) (hist : List (FieldOp O)) :
    (run rnd f hist).map (imageField rnd) = Field2D.run (imageField rnd f) (hist.map (imageOp rnd f.discretization)) := by
  induction hist with
  | nil => rfl
  | cons op hist ih =>
    simp only [run, Field2D.run, List.map_cons]
    rw [← ih]
    cases h : run rnd f hist with
    | none => rfl
    | some g =>
      show (exec rnd g op).map (imageField rnd) = Field2D.exec (imageField rnd g) (imageOp rnd f.discretization op)
      rw [exec_image, run_discretization h]

/-- Whole numbers up to 2^24 are singles. -/
theorem isF32_int {n : Int} (h0 : 0 ≤ n) (h : n ≤ 2 ^ 24) : IsF32 n :=
  ⟨n, 0, by rwa [abs_of_nonneg h0], by norm_num, by simp⟩

/-- With at most 2^24 cells `new` makes one bag per cell. -/
theorem bagsMade_eq {rnd : Rat → Rat} (hr : Rounding rnd) {w h d : Rat} (hw : 0 < w) (hh : 0 < h) (hd : 0 < d)
    (hcells : (cellsAlong rnd w d + 1) * (cellsAlong rnd h d + 1) ≤ 2 ^ 24) :
    bagsMade rnd w h d = ((cellsAlong rnd w d + 1) * (cellsAlong rnd h d + 1)).toNat := by
  have pos : ∀ w : Rat, 0 < w → 0 ≤ cellsAlong rnd w d := by
    intro w hw
    have := hr.nonneg (show 0 ≤ w / d by positivity)
    unfold cellsAlong
    have h1 : ((-1 : Int)) < (rnd (w / d)).ceil := Rat.lt_ceil_iff.2 (by push_cast; linarith)
    omega
  have hw1 := pos w hw
  have hh1 := pos h hh
  unfold bagsMade
  generalize cellsAlong rnd w d = A at *
  generalize cellsAlong rnd h d = B at *
  have hA : A + 1 ≤ 2 ^ 24 := by nlinarith
  have hB : B + 1 ≤ 2 ^ 24 := by nlinarith
  have e1 : rnd ((A : Rat) + 1) = ((A + 1 : Int) : Rat) := by
    have := hr.keeps (isF32_int (show 0 ≤ A + 1 by omega) hA)
    push_cast at *
    exact this
  have e2 : rnd ((B : Rat) + 1) = ((B + 1 : Int) : Rat) := by
    have := hr.keeps (isF32_int (show 0 ≤ B + 1 by omega) hB)
    push_cast at *
    exact this
  rw [e1, e2, ← Int.cast_mul, hr.keeps (isF32_int (by positivity) hcells)]
  rw [show (((A + 1) * (B + 1) : Int) : Rat).floor = (A + 1) * (B + 1) from Rat.floor_intCast _]

theorem image_new {rnd : Rat → Rat} (hr : Rounding rnd) {w h d : Rat} (t : Bool) (hw : 0 < w) (hh : 0 < h) (hd : 0 < d)
    (hcells : (cellsAlong rnd w d + 1) * (cellsAlong rnd h d + 1) ≤ 2 ^ 24) :
    imageField rnd (new rnd w h d t : Field2D.Field O) = Field2D.new (rnd (w / d)) (rnd (h / d)) 1 t := by
  unfold imageField new Field2D.new
  rw [bagsMade_eq hr hw hh hd hcells]
  simp only [div_one]
  rfl

theorem image_inField {rnd : Rat → Rat} (hr : Rounding rnd) {w h d : Rat} (hd : 0 < d) {p : Pos} (hp : InField w h p) :
    InField (rnd (w / d)) (rnd (h / d)) (image rnd d p) := by
  obtain ⟨h1, h2, h3, h4⟩ := hp
  exact ⟨hr.nonneg (div_nonneg h1 hd.le), hr.mono _ _ (div_le_div_of_nonneg_right h2 hd.le), hr.nonneg (div_nonneg h3 hd.le),
    hr.mono _ _ (div_le_div_of_nonneg_right h4 hd.le)⟩

/-- The cell of a position. -/
def cellOf (rnd : Rat → Rat) (d : Rat) (p : Pos) : Int × Int := ((discretize rnd d p).x, (discretize rnd d p).y)

theorem sameSquare_image (rnd : Rat → Rat) (d : Rat) (p q : Pos) :
    Field2D.sameSquare 1 (image rnd d p) (image rnd d q) = decide (cellOf rnd d p = cellOf rnd d q) := by
  unfold Field2D.sameSquare cellOf discretize image
  simp only [div_one, Prod.mk.injEq]
  rw [Bool.decide_and]
  rfl

theorem written_image (rnd : Rat → Rat) (d : Rat) (hist : List (FieldOp O)) (q : Pos) :
    Field2D.objsWritten 1 (hist.map (imageOp rnd d)) (image rnd d q) = written (cellOf rnd d) hist q := by
  induction hist with
  | nil => rfl
  | cons op hist ih => cases op <;> simp [Field2D.objsWritten, written, imageOp, sameSquare_image, ih]

theorem published_image (rnd : Rat → Rat) (d : Rat) (hist : List (FieldOp O)) (q : Pos) :
    Field2D.objsPublished 1 (hist.map (imageOp rnd d)) (image rnd d q) = published (cellOf rnd d) hist q := by
  induction hist with
  | nil => rfl
  | cons op hist ih => cases op <;> simp [Field2D.objsPublished, published, imageOp, ih, written_image]

end Verif.Single
