import Verif.Props.Mutual
import Verif.Spec.Homogeneous

/-!
C244: the neighbours of an object do not depend on where in the field they are. True of moves by whole squares inside
the field; false of other moves and across the seam of a torus.
-/

set_option linter.unusedSectionVars false

namespace Verif.Field2D

open Grid Torus

variable {O : Type} [BEq O]

theorem seen_shift {t : Bool} {k m c c' s : Int} (hc : 0 ≤ c) (hm : c < m) (hc' : 0 ≤ c')
    (hm' : c' < m) (gc : 0 ≤ c + s) (gm : c + s < m) (gc' : 0 ≤ c' + s) (gm' : c' + s < m)
    (h : seen t k m c c') : seen t k m (c + s) (c' + s) := by
  obtain ⟨n, h1, h2, h3⟩ := h
  unfold window at h1 h2
  have key : (c' - k ≤ c ∧ c ≤ c' + k) → seen t k m (c + s) (c' + s) := by
    intro hh
    refine ⟨c' + s, ?_, ?_, tT_of_range gc' gm'⟩
    · unfold window; cases t
      · simp only [Bool.false_eq_true, if_false]; omega
      · simp only [if_true]; omega
    · unfold window; cases t
      · simp only [Bool.false_eq_true, if_false]; omega
      · simp only [if_true]; omega
  cases t
  · simp only [Bool.false_eq_true, if_false] at h1 h2
    obtain ⟨a1, a2, a3, a4, a5⟩ := tT_spec (n := n) (size := m) (by omega)
    rw [h3] at a3
    obtain ⟨b1, b2, b3, b4, b5⟩ := tT_spec (n := n + s) (size := m) (by omega)
    have hmod : (n + s) % m = c' + s := by
      have : (c' + s - (n + s)) % m = 0 := by rw [show c' + s - (n + s) = c' - n by omega]; exact a3
      rw [← Int.emod_eq_emod_iff_emod_sub_eq_zero.2 this, Int.emod_eq_of_lt gc' gm']
    by_cases hz : tT (n + s) m = m
    · -- a negative multiple of m: then the cell is 0 and in reach itself
      obtain ⟨hneg, h0⟩ := b4.1 hz
      rw [hmod] at h0
      refine ⟨0, ?_, ?_, ?_⟩
      · unfold window; simp only [Bool.false_eq_true, if_false]; omega
      · unfold window; simp only [Bool.false_eq_true, if_false]; omega
      · rw [tT_of_range (Int.le_refl 0) (by omega), h0]
    · refine ⟨n + s, ?_, ?_, ?_⟩
      · unfold window; simp only [Bool.false_eq_true, if_false]; omega
      · unfold window; simp only [Bool.false_eq_true, if_false]; omega
      · have h5 : (tT (n + s) m) % m = (n + s) % m := Int.emod_eq_emod_iff_emod_sub_eq_zero.2 b3
        rw [hmod, Int.emod_eq_of_lt b1 (by omega)] at h5
        exact h5
  · simp only [if_true] at h1 h2
    have hn : tT n m = n := tT_of_range (by omega) (by omega)
    rw [hn] at h3
    subst h3
    exact key (by omega)

theorem floor_shift {d x : ℚ} (hd : 0 < d) (i : Int) : ((x + i * d) / d).floor = (x / d).floor + i := by
  rw [add_div, mul_div_assoc, div_self hd.ne', mul_one]
  apply Int.le_antisymm
  · have h := Rat.floor_le (x / d + i)
    have : (x / d + i).floor - i ≤ (x / d).floor := Rat.le_floor_iff.2 (by push_cast; linarith)
    omega
  · have h := Rat.floor_le (x / d)
    exact Rat.le_floor_iff.2 (by push_cast; linarith)

theorem discretize_moved {d : ℚ} (hd : 0 < d) {v : Pos} {i j : Int} (hi : v.x = i * d) (hj : v.y = j * d) (p : Pos) :
    discretize d (moved v p) = ⟨(discretize d p).x + i, (discretize d p).y + j⟩ := by
  unfold discretize moved
  dsimp only
  rw [hi, hj, floor_shift hd, floor_shift hd]

theorem sameSquare_moved {d : ℚ} (hd : 0 < d) {v : Pos} (hv : WholeSquares d v) (p q : Pos) :
    sameSquare d (moved v p) (moved v q) = sameSquare d p q := by
  obtain ⟨i, j, hi, hj⟩ := hv
  unfold sameSquare moved
  dsimp only
  rw [hi, hj, floor_shift hd, floor_shift hd, floor_shift hd, floor_shift hd, Bool.eq_iff_iff]
  simp only [Bool.and_eq_true, beq_iff_eq]
  omega

theorem objsWritten_moved {d : ℚ} (hd : 0 < d) {v : Pos} (hv : WholeSquares d v) (hist : List (FieldOp O)) (q : Pos) :
    objsWritten d (hist.map (FieldOp.moved v)) (moved v q) = objsWritten d hist q := by
  induction hist with
  | nil => rfl
  | cons op hist ih =>
    cases op <;> simp only [List.map_cons, FieldOp.moved, objsWritten, ih, sameSquare_moved hd hv]

theorem objsPublished_moved {d : ℚ} (hd : 0 < d) {v : Pos} (hv : WholeSquares d v) (hist : List (FieldOp O)) (q : Pos) :
    objsPublished d (hist.map (FieldOp.moved v)) (moved v q) = objsPublished d hist q := by
  induction hist with
  | nil => rfl
  | cons op hist ih =>
    cases op <;> simp only [List.map_cons, FieldOp.moved, objsPublished, ih, objsWritten_moved hd hv]

theorem carries_moved {locOf : O → Pos} {hist : List (FieldOp O)} (h : CarriesLocation locOf hist) (v : Pos) :
    CarriesLocation (fun o => moved v (locOf o)) (hist.map (FieldOp.moved v)) := by
  intro o l hm
  obtain ⟨op, h1, h2⟩ := List.mem_map.1 hm
  cases op with
  | place o' l' =>
    simp only [FieldOp.moved] at h2
    injection h2 with e1 e2
    subst e1
    dsimp only
    rw [h o' l' h1, e2]
  | remove o' l' => simp only [FieldOp.moved] at h2; cases h2
  | update => simp only [FieldOp.moved] at h2; cases h2
  | lazyUpdate => simp only [FieldOp.moved] at h2; cases h2

theorem cell_range {d x w : ℚ} (hd : 0 < d) (h0 : 0 ≤ x) (h1 : x < w) : 0 ≤ (x / d).floor ∧ (x / d).floor < (w / d).ceil :=
  ⟨Rat.le_floor_iff.2 (by push_cast; positivity), floor_lt_ceil hd h1⟩

theorem seen_moved {t : Bool} {d x y w a k : ℚ} (hd : 0 < d) {i : Int} (ha : a = i * d) (hx : 0 ≤ x ∧ x < w)
    (hy : 0 ≤ y ∧ y < w) (gx : 0 ≤ x + a ∧ x + a < w) (gy : 0 ≤ y + a ∧ y + a < w) :
    seen t (k / d).floor (w / d).ceil ((x + a) / d).floor ((y + a) / d).floor ↔
      seen t (k / d).floor (w / d).ceil (x / d).floor (y / d).floor := by
  have c1 := cell_range hd hx.1 hx.2
  have c2 := cell_range hd hy.1 hy.2
  have c3 := cell_range hd gx.1 gx.2
  have c4 := cell_range hd gy.1 gy.2
  rw [ha, floor_shift hd] at c3 c4
  rw [ha, floor_shift hd, floor_shift hd]
  constructor
  · intro hs
    have := seen_shift (s := -i) c3.1 c3.2 c4.1 c4.2 (by omega) (by omega) (by omega) (by omega) hs
    rwa [Int.add_neg_cancel_right, Int.add_neg_cancel_right] at this
  · exact seen_shift c1.1 c1.2 c2.1 c2.2 c3.1 c3.2 c4.1 c4.2

/-- **C244**, the search by cells. If everything is moved by whole squares, the objects off the upper borders (before
and after) that are found from a position are the same. -/
theorem C244_relaxed_partial (w h d : ℚ) (t : Bool) (hw : 0 < w) (hh : 0 < h) (hd : 0 < d) (v : Pos)
    (hv : WholeSquares d v) (hist : List (FieldOp O)) (hin : ∀ op ∈ hist, op.InField w h)
    (hin' : ∀ op ∈ hist.map (FieldOp.moved v), op.InField w h) (locOf : O → Pos) (hloc : CarriesLocation locOf hist)
    (loc : Pos) (hl : OffBorder w h loc) (hl' : OffBorder w h (moved v loc)) (dist : ℚ) :
    ∃ f f', run (new w h d t) hist = some f ∧ run (new w h d t) (hist.map (FieldOp.moved v)) = some f' ∧
      SameAnswers (fun o => OffBorder w h (locOf o) ∧ OffBorder w h (moved v (locOf o)))
        (getNeighborsWithinRelaxDistance f loc dist) (getNeighborsWithinRelaxDistance f' (moved v loc) dist) := by
  obtain ⟨f, h1, hs⟩ := shows_run t hw hh hd hist hin
  obtain ⟨f', h1', hs'⟩ := shows_run t hw hh hd (hist.map (FieldOp.moved v)) hin'
  refine ⟨f, f', h1, h1', ?_⟩
  unfold SameAnswers getNeighborsWithinRelaxDistance
  by_cases hdist : dist ≤ 0
  · exact ⟨[], [], if_pos hdist, if_pos hdist, fun _ _ => Iff.rfl⟩
  · obtain ⟨r, e1, m1⟩ := mem_scan hd hin hloc hs (fun _ _ => true) loc dist
    obtain ⟨r', e2, m2⟩ := mem_scan hd hin' (carries_moved hloc v) hs' (fun _ _ => true) (moved v loc) dist
    refine ⟨r, r', (if_neg hdist).trans e1, (if_neg hdist).trans e2, ?_⟩
    rintro o ⟨oo, oo'⟩
    rw [m1, m2]
    rw [objsPublished_moved hd hv]
    obtain ⟨i, j, hi, hj⟩ := hv
    unfold discretize moved
    dsimp only
    rw [seen_moved hd hi ⟨hl.1, hl.2.1⟩ ⟨oo.1, oo.2.1⟩ ⟨hl'.1, hl'.2.1⟩ ⟨oo'.1, oo'.2.1⟩,
      seen_moved hd hj ⟨hl.2.2.1, hl.2.2.2⟩ ⟨oo.2.2.1, oo.2.2.2⟩ ⟨hl'.2.2.1, hl'.2.2.2⟩ ⟨oo'.2.2.1, oo'.2.2.2⟩]

theorem within_both_moved (t : Bool) (w h : ℚ) (v p q : Pos) (r : ℚ) :
    Within t w h (moved v p) (moved v q) r ↔ Within t w h p q r := by
  unfold Within moved
  dsimp only
  rw [show p.x + v.x - (q.x + v.x) = p.x - q.x by ring, show p.y + v.y - (q.y + v.y) = p.y - q.y by ring]

theorem corner_whole {d x w : ℚ} (hd : 0 < d) {m : Int} (hm : w = m * d) (hx : x < w) :
    min ((x / d).floor * d + d) w = (x / d).floor * d + d := by
  apply min_eq_left
  have h1 : (x / d).floor < m := by
    have a := Rat.floor_le (x / d)
    have b : x / d < m := by rw [div_lt_iff₀ hd, ← hm]; exact hx
    have : ((x / d).floor : ℚ) < m := lt_of_le_of_lt a b
    exact_mod_cast this
  have h2 : ((x / d).floor : ℚ) + 1 ≤ m := by exact_mod_cast h1
  rw [hm]
  nlinarith

theorem corner_moved {t : Bool} {w h d : ℚ} (hd : 0 < d) {mw mh : Int} (hmw : w = mw * d) (hmh : h = mh * d) {v : Pos}
    (hv : WholeSquares d v) {p q : Pos} (hp : OffBorder w h p) (hp' : OffBorder w h (moved v p)) (r : ℚ) :
    CornerWithin t w h d (moved v p) (moved v q) r ↔ CornerWithin t w h d p q r := by
  obtain ⟨i, j, hi, hj⟩ := hv
  unfold CornerWithin
  rw [corner_whole hd hmw hp.2.1, corner_whole hd hmh hp.2.2.2, corner_whole hd hmw hp'.2.1,
    corner_whole hd hmh hp'.2.2.2]
  have fx : ((moved v p).x / d).floor = (p.x / d).floor + i := by
    unfold moved; dsimp only; rw [hi, floor_shift hd]
  have fy : ((moved v p).y / d).floor = (p.y / d).floor + j := by
    unfold moved; dsimp only; rw [hj, floor_shift hd]
  rw [fx, fy]
  push_cast
  constructor
  · rintro ⟨c, cx, cy, cw⟩
    refine ⟨⟨c.x - v.x, c.y - v.y⟩, ?_, ?_, ?_⟩
    · dsimp only; rw [hi]; rcases cx with e | e
      · left; rw [e]; ring
      · right; rw [e]; ring
    · dsimp only; rw [hj]; rcases cy with e | e
      · left; rw [e]; ring
      · right; rw [e]; ring
    · rw [← within_both_moved t w h v]
      unfold moved at cw ⊢
      dsimp only at cw ⊢
      rw [sub_add_cancel, sub_add_cancel]
      exact cw
  · rintro ⟨c, cx, cy, cw⟩
    refine ⟨moved v c, ?_, ?_, (within_both_moved t w h v c q r).2 cw⟩
    · unfold moved; dsimp only; rw [hi]; rcases cx with e | e
      · left; rw [e]; ring
      · right; rw [e]; ring
    · unfold moved; dsimp only; rw [hj]; rcases cy with e | e
      · left; rw [e]; ring
      · right; rw [e]; ring

/-- **C244**, the exact search, of fields whose sides are whole multiples of the discretization. On a torus this is
shown for distances with `2 * dist < w - d` and `2 * dist < h - d`. -/
theorem C244_exact_partial (w h d : ℚ) (t : Bool) (hw : 0 < w) (hh : 0 < h) (hd : 0 < d) (mw mh : Int)
    (hmw : w = mw * d) (hmh : h = mh * d) (v : Pos)
    (hv : WholeSquares d v) (hist : List (FieldOp O)) (hin : ∀ op ∈ hist, op.InField w h)
    (hin' : ∀ op ∈ hist.map (FieldOp.moved v), op.InField w h) (locOf : O → Pos) (hloc : CarriesLocation locOf hist)
    (loc : Pos) (hl : OffBorder w h loc) (hl' : OffBorder w h (moved v loc)) (dist : ℚ)
    (hsmall : t = true → 2 * dist < w - d ∧ 2 * dist < h - d) :
    ∃ f f', run (new w h d t) hist = some f ∧ run (new w h d t) (hist.map (FieldOp.moved v)) = some f' ∧
      SameAnswers (fun o => OffBorder w h (locOf o) ∧ OffBorder w h (moved v (locOf o)))
        (getNeighborsWithinDistance f locOf loc dist)
        (getNeighborsWithinDistance f' (fun o => moved v (locOf o)) (moved v loc) dist) := by
  obtain ⟨f, h1, hs⟩ := shows_run t hw hh hd hist hin
  obtain ⟨f', h1', hs'⟩ := shows_run t hw hh hd (hist.map (FieldOp.moved v)) hin'
  refine ⟨f, f', h1, h1', ?_⟩
  unfold SameAnswers getNeighborsWithinDistance
  by_cases hdist : dist ≤ 0
  · exact ⟨[], [], if_pos hdist, if_pos hdist, fun _ _ => Iff.rfl⟩
  · have hpos : 0 < dist := lt_of_not_ge hdist
    obtain ⟨r, e1, m1⟩ := mem_scan hd hin hloc hs (keepExact f locOf loc dist) loc dist
    obtain ⟨r', e2, m2⟩ := mem_scan hd hin' (carries_moved hloc v) hs'
      (keepExact f' (fun o => moved v (locOf o)) (moved v loc) dist) (moved v loc) dist
    refine ⟨r, r', (if_neg hdist).trans e1, (if_neg hdist).trans e2, ?_⟩
    rintro o ⟨oo, oo'⟩
    have inF : ∀ p, OffBorder w h p → InField w h p := fun p hp => ⟨hp.1, hp.2.1.le, hp.2.2.1, hp.2.2.2.le⟩
    have k1 := keepExact_cases hw hh hd hs.disc hs.width hs.height hs.tor locOf loc dist hpos hsmall o (inF _ oo)
    have k2 := keepExact_cases hw hh hd hs'.disc hs'.width hs'.height hs'.tor (fun o => moved v (locOf o)) (moved v loc)
      dist hpos hsmall o (inF _ oo')
    rw [m1, m2, k1, k2]
    rw [objsPublished_moved hd hv, within_both_moved, corner_moved hd hmw hmh hv oo oo']
    obtain ⟨i, j, hi, hj⟩ := hv
    unfold discretize moved
    dsimp only
    rw [seen_moved hd hi ⟨hl.1, hl.2.1⟩ ⟨oo.1, oo.2.1⟩ ⟨hl'.1, hl'.2.1⟩ ⟨oo'.1, oo'.2.1⟩,
      seen_moved hd hj ⟨hl.2.2.1, hl.2.2.2⟩ ⟨oo.2.2.1, oo.2.2.2⟩ ⟨hl'.2.2.1, hl'.2.2.2⟩ ⟨oo'.2.2.1, oo'.2.2.2⟩]

/-- Two objects beside each other. -/
def demoPair (p q : Pos) : List (FieldOp Nat) := [.lazyUpdate, .place 1 p, .place 2 q]

/-- Where they are. -/
def demoAt (p q : Pos) (o : Nat) : Pos := if o = 1 then p else q

/-- The answers of both searches of the first object for the second. -/
def demoSees (w h d : ℚ) (t : Bool) (p q : Pos) (dist : ℚ) : Option (Bool × Bool) :=
  match run (new w h d t) (demoPair p q) with
  | none => none
  | some f =>
    match getNeighborsWithinRelaxDistance f p dist, getNeighborsWithinDistance f (demoAt p q) p dist with
    | some r, some r' => some (r.contains 2, r'.contains 2)
    | _, _ => none

/-- **C244** is false of moves by parts of a square: half a square to the right the objects are in different squares
and no longer neighbours, with either search. -/
theorem C244_square_negation_partial (t : Bool) :
    demoSees 10 10 1 t ⟨1/10, 0⟩ ⟨4/5, 0⟩ (9/10) = some (true, true) ∧
    demoSees 10 10 1 t (moved ⟨1/2, 0⟩ ⟨1/10, 0⟩) (moved ⟨1/2, 0⟩ ⟨4/5, 0⟩) (9/10) = some (false, false) := by
  cases t <;> refine ⟨?_, ?_⟩ <;> decide +kernel

/-- **C244** is false across the seam of a torus: one square to the left the first object comes to the other side and
does not see the second any more, with either search. -/
theorem C244_seam_negation_partial :
    demoSees 10 10 1 true ⟨1/2, 1/2⟩ ⟨3/2, 1/2⟩ 2 = some (true, true) ∧
    SamePlace 10 10 ⟨19/2, 1/2⟩ (moved ⟨-1, 0⟩ ⟨1/2, 1/2⟩) ∧
    demoSees 10 10 1 true ⟨19/2, 1/2⟩ (moved ⟨-1, 0⟩ ⟨3/2, 1/2⟩) 2 = some (false, false) := by
  refine ⟨by decide +kernel, ⟨1, 0, ?_, ?_⟩, by decide +kernel⟩ <;> unfold moved <;> norm_num

/-- **C244** is false of the exact search if the last square is cut by the border: there an object is found that in
any other square is not. -/
theorem C244_cut_negation_partial (t : Bool) :
    demoSees 25 25 10 t ⟨14, 14⟩ ⟨14, 13⟩ 3 = some (true, false) ∧
    demoSees 25 25 10 t (moved ⟨10, 10⟩ ⟨14, 14⟩) (moved ⟨10, 10⟩ ⟨14, 13⟩) 3 = some (true, true) := by
  cases t <;> refine ⟨?_, ?_⟩ <;> decide +kernel

/-- A case that meets the hypotheses: moved three squares to the right and one up, the object sees the other one. -/
example : WholeSquares 1 ⟨3, 1⟩ ∧
    (∀ op ∈ demoPair ⟨1/2, 1/2⟩ ⟨3/2, 1/2⟩, op.InField 10 10) ∧
    (∀ op ∈ (demoPair ⟨1/2, 1/2⟩ ⟨3/2, 1/2⟩).map (FieldOp.moved ⟨3, 1⟩), op.InField 10 10) ∧
    CarriesLocation (demoAt ⟨1/2, 1/2⟩ ⟨3/2, 1/2⟩) (demoPair ⟨1/2, 1/2⟩ ⟨3/2, 1/2⟩) ∧
    demoSees 10 10 1 true ⟨1/2, 1/2⟩ ⟨3/2, 1/2⟩ 2 = some (true, true) ∧
    demoSees 10 10 1 true (moved ⟨3, 1⟩ ⟨1/2, 1/2⟩) (moved ⟨3, 1⟩ ⟨3/2, 1/2⟩) 2 = some (true, true) := by
  refine ⟨⟨3, 1, by norm_num, by norm_num⟩, by decide +kernel, by decide +kernel, ?_, by decide +kernel, by decide +kernel⟩
  intro o l hm
  simp only [demoPair, List.mem_cons, FieldOp.place.injEq, List.not_mem_nil, or_false, reduceCtorEq, false_or] at hm
  rcases hm with ⟨rfl, rfl⟩ | ⟨rfl, rfl⟩ <;> rfl

end Verif.Field2D
