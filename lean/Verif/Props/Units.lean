import Verif.Spec.Units
import Mathlib.Algebra.Order.Field.Rat
import Mathlib.Tactic.Ring
import Mathlib.Tactic.Linarith
import Mathlib.Tactic.FieldSimp

/-!
C247: the unit of length does not matter.
-/

namespace Verif.Field2D

open Torus Grid

variable {O : Type} [BEq O]

theorem fmod_rescale {c : ℚ} (hc : 0 < c) (v m : ℚ) : fmod (c * v) (c * m) = c * fmod v m := by
  unfold fmod
  rw [mul_div_mul_left _ _ hc.ne']
  by_cases h : 0 ≤ v / m
  · rw [if_pos h, if_pos h]
    ring
  · rw [if_neg h, if_neg h]
    ring

theorem mul_lt_mul_iff {c : ℚ} (hc : 0 < c) (a b : ℚ) : c * a < c * b ↔ a < b := by
  constructor
  · intro h; nlinarith
  · intro h; nlinarith

theorem mul_le_mul_iff {c : ℚ} (hc : 0 < c) (a b : ℚ) : c * a ≤ c * b ↔ a ≤ b := by
  constructor
  · intro h; nlinarith
  · intro h; nlinarith

theorem transform_rescale {c : ℚ} (hc : 0 < c) (v m : ℚ) :
    toroidalTransform (c * v) (c * m) = c * toroidalTransform v m := by
  unfold toroidalTransform
  have h1 : (c * v ≥ 0 ∧ c * v < c * m) ↔ (v ≥ 0 ∧ v < m) := by
    rw [mul_lt_mul_iff hc]
    constructor <;> rintro ⟨h, h'⟩ <;> refine ⟨?_, h'⟩ <;> nlinarith
  have h2 : c * fmod v m < 0 ↔ fmod v m < 0 := by
    constructor <;> intro h <;> nlinarith
  rw [fmod_rescale hc]
  simp only [h1, h2]
  split_ifs <;> ring

theorem toroidalDistance_rescale {c : ℚ} (hc : 0 < c) (a b m : ℚ) :
    toroidalDistance (c * a) (c * b) (c * m) = c * toroidalDistance a b m := by
  unfold toroidalDistance
  rw [transform_rescale hc, transform_rescale hc]
  have e1 : c * a - c * b = c * (a - b) := by ring
  have e2 : -(c * m / 2) = c * (-(m / 2)) := by ring
  have e3 : c * m / 2 = c * (m / 2) := by ring
  have e4 : (c * toroidalTransform a m - c * toroidalTransform b m) * 2 =
      c * ((toroidalTransform a m - toroidalTransform b m) * 2) := by ring
  have e5 : -(c * m) = c * (-m) := by ring
  rw [e1, e2, e3, e4, e5]
  simp only [gt_iff_lt, mul_le_mul_iff hc, mul_lt_mul_iff hc]
  split_ifs <;> ring

theorem diff_rescale {c : ℚ} (hc : 0 < c) (t : Bool) (a b m : ℚ) :
    diff t (c * a) (c * b) (c * m) = c * diff t a b m := by
  unfold diff
  rw [toroidalDistance_rescale hc]
  split_ifs <;> ring

theorem distSq_rescale {c : ℚ} (hc : 0 < c) (p q : Pos) (w h : ℚ) (t : Bool) :
    distSq (rescale c p) (rescale c q) (c * w) (c * h) t = c * (c * distSq p q w h t) := by
  unfold distSq rescale
  dsimp only
  rw [diff_rescale hc, diff_rescale hc]
  ring

theorem distSq_rescale_le {c : ℚ} (hc : 0 < c) (p q : Pos) (w h r : ℚ) (t : Bool) :
    distSq (rescale c p) (rescale c q) (c * w) (c * h) t ≤ c * r * (c * r) ↔ distSq p q w h t ≤ r * r := by
  rw [distSq_rescale hc, show c * r * (c * r) = c * (c * (r * r)) by ring, mul_le_mul_iff hc, mul_le_mul_iff hc]

theorem min_rescale {c : ℚ} (hc : 0 < c) (a b : ℚ) : min (c * a) (c * b) = c * min a b := by
  by_cases h : a ≤ b
  · rw [min_eq_left h, min_eq_left ((mul_le_mul_iff hc a b).2 h)]
  · have h' : b ≤ a := le_of_lt (not_le.1 h)
    rw [min_eq_right h', min_eq_right ((mul_le_mul_iff hc b a).2 h')]

theorem checkCircle_rescale {c : ℚ} (hc : 0 < c) (b : Loc) (d w h : ℚ) (p : Pos) (r : ℚ) (t : Bool) :
    checkCircle b (c * d) (c * w) (c * h) (rescale c p) (c * r) t = checkCircle b d w h p r t := by
  have e : ∀ (i : Int), (i : ℚ) * (c * d) = c * (i * d) := fun i => by ring
  have e' : ∀ (i : Int) (m : ℚ), min ((i : ℚ) * (c * d) + c * d) (c * m) = c * min (i * d + d) m := fun i m => by
    rw [← min_rescale hc]
    congr 1
    ring
  have c1 : cornerNW b (c * d) = rescale c (cornerNW b d) := by simp only [cornerNW, rescale, e]
  have c2 : cornerNE b (c * d) (c * h) = rescale c (cornerNE b d h) := by simp only [cornerNE, rescale, e']; rw [e]
  have c3 : cornerSW b (c * d) (c * w) = rescale c (cornerSW b d w) := by simp only [cornerSW, rescale, e']; rw [e]
  have c4 : cornerSE b (c * d) (c * w) (c * h) = rescale c (cornerSE b d w h) := by simp only [cornerSE, rescale, e']
  unfold checkCircle
  simp only [gt_iff_lt, ← not_le, c1, c2, c3, c4, distSq_rescale_le hc]

/-- The field in the new unit. -/
def Field.rescale (c : ℚ) (f : Field O) : Field O :=
  { f with width := c * f.width, height := c * f.height, discretization := c * f.discretization }

theorem discretize_rescale {c : ℚ} (hc : 0 < c) (d : ℚ) (p : Pos) :
    discretize (c * d) (Field2D.rescale c p) = discretize d p := by
  unfold discretize Field2D.rescale
  rw [mul_div_mul_left _ _ hc.ne', mul_div_mul_left _ _ hc.ne']

theorem notDiscretize_rescale (c : ℚ) (d : ℚ) (l : Loc) :
    notDiscretize (c * d) l = Field2D.rescale c (notDiscretize d l) := by
  unfold notDiscretize Field2D.rescale
  simp only [Pos.mk.injEq]
  constructor <;> ring

omit [BEq O] in
theorem new_rescale {c : ℚ} (hc : 0 < c) (w h d : ℚ) (t : Bool) :
    (new (c * w) (c * h) (c * d) t : Field O) = (new w h d t).rescale c := by
  unfold new Field.rescale
  rw [mul_div_mul_left _ _ hc.ne', mul_div_mul_left _ _ hc.ne']

theorem exec_rescale {c : ℚ} (hc : 0 < c) (f : Field O) (op : FieldOp O) :
    exec (f.rescale c) (op.rescale c) = (exec f op).map (Field.rescale c) := by
  cases op with
  | place o l =>
    simp only [FieldOp.rescale, exec, setObjectLocation]
    simp only [Field.rescale, discretize_rescale hc]
    cases h : vecGet f.bags f.dh (discretize f.discretization l) with
    | none => rfl
    | some b =>
      dsimp only
      cases vecSet f.bags f.dh (discretize f.discretization l) (b ++ [o]) <;> rfl
  | remove o l =>
    simp only [FieldOp.rescale, exec, removeObjectLocation]
    simp only [Field.rescale, discretize_rescale hc]
    cases h : vecGet f.bags f.dh (discretize f.discretization l) with
    | none => rfl
    | some b =>
      dsimp only
      split_ifs
      · rfl
      · cases vecSet f.bags f.dh (discretize f.discretization l) (b.filter (fun x => x != o)) <;> rfl
      · rfl
      · cases vecSet f.bags f.dh (discretize f.discretization l) (b.filter (fun x => x != o)) <;> rfl
  | update => rfl
  | lazyUpdate =>
    simp only [FieldOp.rescale, exec, lazyUpdate]
    by_cases h1 : f.densityCheck = true
    · rw [if_pos h1, if_pos (show (f.rescale c).densityCheck = true from h1)]
      rfl
    · rw [if_neg h1, if_neg (show ¬ (f.rescale c).densityCheck = true from h1)]
      by_cases h2 : (f.dw * f.dh).toNat = 0
      · rw [if_pos h2, if_pos (show ((f.rescale c).dw * (f.rescale c).dh).toNat = 0 from h2)]
        rfl
      · rw [if_neg h2, if_neg (show ¬ ((f.rescale c).dw * (f.rescale c).dh).toNat = 0 from h2)]
        rfl

theorem run_rescale {c : ℚ} (hc : 0 < c) (f : Field O) (hist : List (FieldOp O)) :
    run (f.rescale c) (hist.map (FieldOp.rescale c)) = (run f hist).map (Field.rescale c) := by
  induction hist with
  | nil => rfl
  | cons op hist ih =>
    simp only [List.map_cons, run, ih]
    cases run f hist with
    | none => rfl
    | some g => exact exec_rescale hc g op

omit [BEq O] in
theorem scan_rescale {c : ℚ} (hc : 0 < c) (f : Field O) (keep : Loc → O → Bool) (cs : List Loc) :
    scan (f.rescale c) keep cs = scan f keep cs := by
  have hb : ∀ l, bagId (f.rescale c) l = bagId f l := by
    intro l
    unfold bagId Field.rescale
    simp only [mul_div_mul_left _ _ hc.ne']
  induction cs with
  | nil => rfl
  | cons l cs ih =>
    simp only [scan, hb, ih]
    rfl

omit [BEq O] in
theorem searchCells_rescale {c : ℚ} (hc : 0 < c) (f : Field O) (loc : Pos) (r : ℚ) :
    searchCells (f.rescale c) (rescale c loc) (c * r) = searchCells f loc r := by
  unfold searchCells Field.rescale
  simp only [discretize_rescale hc, mul_div_mul_left _ _ hc.ne']

omit [BEq O] in
theorem keepExact_rescale {c : ℚ} (hc : 0 < c) (f : Field O) (locOf : O → Pos) (loc : Pos) (r : ℚ) (b : Loc) (o : O) :
    keepExact (f.rescale c) (fun o => rescale c (locOf o)) (rescale c loc) (c * r) b o = keepExact f locOf loc r b o := by
  unfold keepExact Field.rescale
  simp only [checkCircle_rescale hc, distSq_rescale_le hc]

theorem collect_map {E A B : Type} (v : List E) (k : Int) (g : A → B) (f : Loc → E → List A) (f' : Loc → E → List B)
    (h : ∀ c e, f' c e = (f c e).map g) (cs : List Loc) : collect v k f' cs = (collect v k f cs).map (List.map g) := by
  induction cs with
  | nil => rfl
  | cons l cs ih =>
    simp only [collect, ih]
    cases vecGet v k l with
    | none => rfl
    | some e =>
      dsimp only
      cases collect v k f cs with
      | none => rfl
      | some r => simp [h]

theorem answers_rescale {c : ℚ} (hc : 0 < c) (f : Field O) : f.answers.Same c (f.rescale c).answers := by
  have h0 : ∀ r : ℚ, c * r ≤ 0 ↔ r ≤ 0 := fun r => by
    have := mul_le_mul_iff hc r 0
    rwa [mul_zero] at this
  constructor
  · intro locOf loc r
    show getNeighborsWithinDistance _ _ _ _ = getNeighborsWithinDistance _ _ _ _
    unfold getNeighborsWithinDistance
    simp only [h0, searchCells_rescale hc, scan_rescale hc]
    congr 2
    funext b o
    exact keepExact_rescale hc f locOf loc r b o
  · intro loc r
    show getNeighborsWithinRelaxDistance _ _ _ = getNeighborsWithinRelaxDistance _ _ _
    unfold getNeighborsWithinRelaxDistance
    simp only [h0, searchCells_rescale hc, scan_rescale hc]
  · intro loc
    show vecGet f.rbags f.dh (discretize (c * f.discretization) (rescale c loc)) = _
    rw [discretize_rescale hc]
    rfl
  · intro loc
    show vecGet f.bags f.dh (discretize (c * f.discretization) (rescale c loc)) = _
    rw [discretize_rescale hc]
    rfl
  · intro loc
    show (vecGet f.rbags f.dh (discretize (c * f.discretization) (rescale c loc))).map _ = _
    rw [discretize_rescale hc]
    rfl
  · refine collect_map _ _ _ _ _ ?_ _
    intro l e
    show e.map (fun o => (notDiscretize (c * f.discretization) l, o)) = _
    rw [notDiscretize_rescale, List.map_map]
    rfl
  · refine collect_map _ _ _ _ _ ?_ _
    intro l e
    show e.map (fun o => (notDiscretize (c * f.discretization) l, o)) = _
    rw [notDiscretize_rescale, List.map_map]
    rfl
  · refine collect_map _ _ _ _ _ ?_ _
    intro l e
    show (if e.isEmpty then [notDiscretize (c * f.discretization) l] else []) = _
    rw [notDiscretize_rescale]
    split_ifs <;> rfl

/-- **C247 (exact numbers).** A program that measures all lengths in another unit - sizes, discretization, positions and
distances - goes through the same states and gets the same answers, on every field. -/
theorem C247_exact_partial (c w h d : ℚ) (t : Bool) (hc : 0 < c) (hist : List (FieldOp O)) :
    SameRuns c ((run (new w h d t) hist).map Field.answers)
      ((run (new (c * w) (c * h) (c * d) t) (hist.map (FieldOp.rescale c))).map Field.answers) := by
  rw [new_rescale hc, run_rescale hc]
  cases run (new w h d t) hist with
  | none => trivial
  | some f => exact answers_rescale hc f

-- a field of 10 by 10 in a unit of one third: the object is found and the answers name the same objects
example : ((run (new 10 10 2 true) [.lazyUpdate, .place 7 ⟨9, 9⟩, .place 8 ⟨5, 5⟩]).map
      (fun f => f.answers.near (fun o => if o = 7 then ⟨9, 9⟩ else ⟨5, 5⟩) ⟨9, 8⟩ 3)) = some (some [7]) ∧
    ((run (new 30 30 6 true) [.lazyUpdate, .place 7 ⟨27, 27⟩, .place 8 ⟨15, 15⟩]).map
      (fun f => f.answers.near (fun o => if o = 7 then ⟨27, 27⟩ else ⟨15, 15⟩) ⟨27, 24⟩ 9)) = some (some [7]) := by
  decide +kernel

end Verif.Field2D
