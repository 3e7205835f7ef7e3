import Verif.Props.Units
import Verif.Lemmas.Single
import Verif.Model.SingleField
import Mathlib.Tactic.Positivity

/-!
C247 in single precision: units that differ by a power of two.
-/

namespace Verif.Single

open Torus Grid
open Field2D (Answers SameRuns FieldOp rescale min_rescale fmod_rescale mul_le_mul_iff mul_lt_mul_iff collect_map)

/-- Multiples of `2 ^ -e`. -/
def Multiple (e : Nat) (x : ℚ) : Prop := ∃ n : Int, x = n * (2 : ℚ) ^ (-(e : Int))

theorem Multiple.add {e : Nat} {x y : ℚ} (hx : Multiple e x) (hy : Multiple e y) : Multiple e (x + y) := by
  obtain ⟨n, rfl⟩ := hx
  obtain ⟨k, rfl⟩ := hy
  exact ⟨n + k, by push_cast; ring⟩

theorem Multiple.neg {e : Nat} {x : ℚ} (hx : Multiple e x) : Multiple e (-x) := by
  obtain ⟨n, rfl⟩ := hx
  exact ⟨-n, by push_cast; ring⟩

theorem Multiple.sub {e : Nat} {x y : ℚ} (hx : Multiple e x) (hy : Multiple e y) : Multiple e (x - y) := by
  rw [sub_eq_add_neg]
  exact hx.add hy.neg

theorem Multiple.int {e : Nat} (i : Int) : Multiple e (i : ℚ) := by
  refine ⟨i * 2 ^ e, ?_⟩
  push_cast
  rw [zpow_neg, zpow_natCast, mul_assoc, mul_inv_cancel₀ (by positivity), mul_one]

theorem Multiple.times {e : Nat} {x : ℚ} (hx : Multiple e x) (i : Int) : Multiple e (i * x) := by
  obtain ⟨n, rfl⟩ := hx
  exact ⟨i * n, by push_cast; ring⟩

theorem Multiple.mul {e e' : Nat} {x y : ℚ} (hx : Multiple e x) (hy : Multiple e' y) : Multiple (e + e') (x * y) := by
  obtain ⟨n, rfl⟩ := hx
  obtain ⟨k, rfl⟩ := hy
  refine ⟨n * k, ?_⟩
  push_cast
  rw [show (-((e : Int) + e')) = -(e : Int) + -(e' : Int) by ring, zpow_add₀ (by norm_num)]
  ring

theorem Multiple.weaken {e e' : Nat} (h : e ≤ e') {x : ℚ} (hx : Multiple e x) : Multiple e' x := by
  obtain ⟨n, rfl⟩ := hx
  refine ⟨n * 2 ^ (e' - e), ?_⟩
  push_cast
  rw [mul_assoc, ← zpow_natCast, ← zpow_add₀ (by norm_num)]
  congr 2
  omega

theorem Multiple.half {e : Nat} {x : ℚ} (hx : Multiple e x) : Multiple (e + 1) (x / 2) := by
  obtain ⟨n, rfl⟩ := hx
  refine ⟨n, ?_⟩
  push_cast
  rw [show (-((e : Int) + 1)) = -(e : Int) + -1 by ring, zpow_add₀ (by norm_num)]
  norm_num
  ring

theorem Multiple.ge {e : Nat} {x : ℚ} (hx : Multiple e x) (h0 : 0 < x) : (2 : ℚ) ^ (-(e : Int)) ≤ x := by
  obtain ⟨n, rfl⟩ := hx
  have hp : (0 : ℚ) < (2 : ℚ) ^ (-(e : Int)) := two_zpow_pos _
  have hn : 0 < n := by
    by_contra h
    have : (n : ℚ) ≤ 0 := by exact_mod_cast not_lt.1 h
    nlinarith
  have : (1 : ℚ) ≤ n := by exact_mod_cast hn
  nlinarith

theorem Multiple.scale {e : Nat} {x : ℚ} (hx : Multiple e x) (k : Nat) : Multiple e (2 ^ k * x) := by
  have := hx.times (2 ^ k)
  push_cast at this
  exact this

/-- Rounding keeps multiples. -/
theorem single_multiple_pos {e : Nat} {x : ℚ} (h0 : 0 < x) (hx : Multiple e x) : Multiple e (single x) := by
  by_cases h : lastBit x < -(e : Int)
  · have hk : single x = x := by
      obtain ⟨n, hn⟩ := hx
      rw [single_pos h0]
      have : x / (2 : ℚ) ^ lastBit x = ((n * 2 ^ (-(e : Int) - lastBit x).toNat : Int) : ℚ) := by
        rw [div_eq_iff (two_zpow_pos _).ne', hn]
        push_cast
        rw [← hn, mul_assoc, ← zpow_natCast, ← zpow_add₀ (by norm_num), Int.toNat_of_nonneg (by omega), sub_add_cancel]
        exact hn
      rw [this, roundEven_int, ← this, div_mul_cancel₀ _ (two_zpow_pos _).ne']
    rw [hk]
    exact hx
  · rw [single_pos h0]
    refine ⟨roundEven (x / (2 : ℚ) ^ lastBit x) * 2 ^ (lastBit x + e).toNat, ?_⟩
    push_cast
    rw [mul_assoc, ← zpow_natCast, ← zpow_add₀ (by norm_num)]
    congr 2
    omega

theorem single_multiple {e : Nat} {x : ℚ} (hx : Multiple e x) : Multiple e (single x) := by
  rcases lt_trichotomy x 0 with h | h | h
  · have := single_multiple_pos (x := -x) (by linarith) hx.neg
    rw [single_odd] at this
    simpa using this.neg
  · rw [h, single_zero, ← h]
    exact hx
  · exact single_multiple_pos h hx

theorem log_scale (k : Nat) {x : ℚ} (h0 : 0 < x) : Int.log 2 (2 ^ k * x) = Int.log 2 x + k := by
  have hp : (0 : ℚ) < 2 ^ k := by positivity
  have hx : (0 : ℚ) < 2 ^ k * x := by positivity
  have h1 := Int.zpow_log_le_self (b := 2) (by norm_num) h0
  have h2 := Int.lt_zpow_succ_log_self (b := 2) (by norm_num) x
  push_cast at h1 h2
  refine le_antisymm ?_ ?_
  · rw [← Int.lt_add_one_iff, ← Int.lt_zpow_iff_log_lt (by norm_num) hx]
    push_cast
    rw [show Int.log 2 x + (k : Int) + 1 = (k : Int) + (Int.log 2 x + 1) by ring, zpow_add₀ (by norm_num), zpow_natCast]
    nlinarith
  · rw [← Int.zpow_le_iff_le_log (by norm_num) hx]
    push_cast
    rw [show Int.log 2 x + (k : Int) = (k : Int) + Int.log 2 x by ring, zpow_add₀ (by norm_num), zpow_natCast]
    nlinarith

theorem log_multiple {e : Nat} {x : ℚ} (hx : Multiple e x) (h0 : 0 < x) : -(e : Int) ≤ Int.log 2 x := by
  rw [← Int.zpow_le_iff_le_log (by norm_num) h0]
  push_cast
  exact hx.ge h0

theorem single_scale_pos (k : Nat) {x : ℚ} (h0 : 0 < x) (hx : Multiple 126 x) : single (2 ^ k * x) = 2 ^ k * single x := by
  have hl := log_multiple hx h0
  push_cast at hl
  have hb : lastBit x = Int.log 2 x - 23 := max_eq_left (by omega)
  have hb' : lastBit (2 ^ k * x) = lastBit x + k := by
    rw [hb]
    unfold lastBit
    rw [log_scale k h0, max_eq_left (by omega)]
    ring
  have hp : (0 : ℚ) < 2 ^ k := by positivity
  rw [single_pos h0, single_pos (by positivity), hb', zpow_add₀ (by norm_num), zpow_natCast]
  have : 2 ^ k * x / ((2 : ℚ) ^ lastBit x * 2 ^ k) = x / (2 : ℚ) ^ lastBit x := by
    rw [mul_comm ((2 : ℚ) ^ lastBit x), mul_div_mul_left _ _ hp.ne']
  rw [this]
  ring

/-- Rounding commutes with a change of the unit by a power of two, as long as nothing is too small. -/
theorem single_scale (k : Nat) {x : ℚ} (hx : Multiple 126 x) : single (2 ^ k * x) = 2 ^ k * single x := by
  rcases lt_trichotomy x 0 with h | h | h
  · have := single_scale_pos k (x := -x) (by linarith) hx.neg
    rw [single_odd, show (2 : ℚ) ^ k * -x = -(2 ^ k * x) by ring, single_odd] at this
    linarith
  · rw [h, mul_zero, single_zero, mul_zero]
  · exact single_scale_pos k h hx

theorem root_scale (k : Nat) {s : ℚ} (hs : Multiple 126 s) : root (2 ^ k * (2 ^ k * s)) = 2 ^ k * root s := by
  have hp : (0 : ℚ) < 2 ^ k := by positivity
  by_cases h : s ≤ 0
  · unfold root
    rw [if_pos h, if_pos (mul_nonpos_of_nonneg_of_nonpos hp.le (mul_nonpos_of_nonneg_of_nonpos hp.le h)), mul_zero]
  have h0 : 0 < s := not_le.1 h
  have hl := log_multiple hs h0
  push_cast at hl
  have hb : rootBit s = Int.log 2 s / 2 - 23 := max_eq_left (by omega)
  have hb' : rootBit (2 ^ k * (2 ^ k * s)) = rootBit s + k := by
    rw [hb]
    unfold rootBit
    rw [log_scale k (by positivity), log_scale k h0]
    have : (Int.log 2 s + (k : Int) + k) / 2 = Int.log 2 s / 2 + k := by omega
    rw [this, max_eq_left (by omega)]
    ring
  unfold root
  rw [if_neg h, if_neg (by have : 0 < 2 ^ k * (2 ^ k * s) := by positivity
                           exact not_le.2 this), hb', zpow_add₀ (by norm_num), zpow_natCast]
  have hz : (0 : ℚ) < (2 : ℚ) ^ rootBit s := two_zpow_pos _
  have : 2 ^ k * (2 ^ k * s) / ((2 : ℚ) ^ rootBit s * 2 ^ k * ((2 : ℚ) ^ rootBit s * 2 ^ k)) =
      s / ((2 : ℚ) ^ rootBit s * (2 : ℚ) ^ rootBit s) := by
    rw [show (2 : ℚ) ^ rootBit s * 2 ^ k * ((2 : ℚ) ^ rootBit s * 2 ^ k) =
      2 ^ k * (2 ^ k * ((2 : ℚ) ^ rootBit s * (2 : ℚ) ^ rootBit s)) by ring, mul_div_mul_left _ _ hp.ne',
      mul_div_mul_left _ _ hp.ne']
  rw [this]
  ring

/-- The lengths of C247 in single precision. -/
abbrev Fine (x : ℚ) : Prop := Multiple 50 x

theorem Multiple.round {e : Nat} {x : ℚ} (h : Multiple e x) : Multiple e (single x) := single_multiple h

theorem Multiple.scale_single (k : Nat) {x : ℚ} (h : Multiple 50 x) : single (2 ^ k * x) = 2 ^ k * single x :=
  single_scale k (h.weaken (by norm_num))

theorem fmod_fine {v m : ℚ} (hv : Fine v) (hm : Fine m) : Fine (fmod v m) := by
  unfold fmod
  split_ifs
  · rw [mul_comm m]
    exact hv.sub (hm.times _)
  · rw [mul_comm m]
    exact hv.sub (hm.times _)

theorem pow_pos' (k : Nat) : (0 : ℚ) < 2 ^ k := by positivity

theorem transform_fine {v m : ℚ} (hv : Fine v) (hm : Fine m) : Fine (transform single v m) := by
  unfold transform
  split_ifs
  · exact hv
  · exact ((fmod_fine hv hm).add hm).round
  · exact fmod_fine hv hm

theorem transform_scale (k : Nat) {v m : ℚ} (hv : Fine v) (hm : Fine m) :
    transform single (2 ^ k * v) (2 ^ k * m) = 2 ^ k * transform single v m := by
  have hc := pow_pos' k
  unfold transform
  have h1 : ((2 : ℚ) ^ k * v ≥ 0 ∧ (2 : ℚ) ^ k * v < 2 ^ k * m) ↔ (v ≥ 0 ∧ v < m) := by
    rw [mul_lt_mul_iff hc]
    constructor <;> rintro ⟨h, h'⟩ <;> refine ⟨?_, h'⟩ <;> nlinarith
  have h2 : (2 : ℚ) ^ k * fmod v m < 0 ↔ fmod v m < 0 := by
    constructor <;> intro h <;> nlinarith
  rw [fmod_rescale hc]
  simp only [h1, h2]
  rw [← mul_add, ((fmod_fine hv hm).add hm).scale_single]
  split_ifs <;> rfl

theorem apart_fine {a b m : ℚ} (ha : Fine a) (hb : Fine b) (hm : Fine m) : Fine (apart single a b m) :=
  ((transform_fine ha hm).sub (transform_fine hb hm)).round

theorem apart_scale (k : Nat) {a b m : ℚ} (ha : Fine a) (hb : Fine b) (hm : Fine m) :
    apart single (2 ^ k * a) (2 ^ k * b) (2 ^ k * m) = 2 ^ k * apart single a b m := by
  unfold apart
  rw [transform_scale k ha hm, transform_scale k hb hm, ← mul_sub,
    ((transform_fine ha hm).sub (transform_fine hb hm)).scale_single]

theorem toroidalDist_fine {a b m : ℚ} (ha : Fine a) (hb : Fine b) (hm : Fine m) : Fine (toroidalDist single a b m) := by
  unfold toroidalDist
  split_ifs
  · exact (ha.sub hb).round
  · exact ((apart_fine ha hb hm).sub hm).round
  · exact ((apart_fine ha hb hm).add hm).round
  · exact apart_fine ha hb hm

theorem toroidalDist_scale (k : Nat) {a b m : ℚ} (ha : Fine a) (hb : Fine b) (hm : Fine m) :
    toroidalDist single (2 ^ k * a) (2 ^ k * b) (2 ^ k * m) = 2 ^ k * toroidalDist single a b m := by
  have hc := pow_pos' k
  have e1 : single ((2 : ℚ) ^ k * a - 2 ^ k * b) = 2 ^ k * single (a - b) := by
    rw [← mul_sub, (ha.sub hb).scale_single]
  have e2 : single ((2 : ℚ) ^ k * m / 2) = 2 ^ k * single (m / 2) := by
    rw [mul_div_assoc, single_scale k (hm.half.weaken (by norm_num))]
  have hap := apart_fine ha hb hm
  have e3 : single ((2 : ℚ) ^ k * apart single a b m * 2) = 2 ^ k * single (apart single a b m * 2) := by
    rw [mul_assoc, show apart single a b m * 2 = ((2 : Int) : ℚ) * apart single a b m by push_cast; ring,
      (hap.times 2).scale_single]
  have e4 : single ((2 : ℚ) ^ k * apart single a b m - 2 ^ k * m) = 2 ^ k * single (apart single a b m - m) := by
    rw [← mul_sub, (hap.sub hm).scale_single]
  have e5 : single ((2 : ℚ) ^ k * apart single a b m + 2 ^ k * m) = 2 ^ k * single (apart single a b m + m) := by
    rw [← mul_add, (hap.add hm).scale_single]
  unfold toroidalDist
  rw [apart_scale k ha hb hm, e1, e2, e3, e4, e5]
  rw [show -((2 : ℚ) ^ k * single (m / 2)) = 2 ^ k * -single (m / 2) by ring,
    show -((2 : ℚ) ^ k * m) = 2 ^ k * -m by ring]
  simp only [gt_iff_lt, mul_le_mul_iff hc, mul_lt_mul_iff hc]
  split_ifs <;> rfl

theorem coordDiff_fine (t : Bool) {a b m : ℚ} (ha : Fine a) (hb : Fine b) (hm : Fine m) :
    Fine (coordDiff single t a b m) := by
  unfold coordDiff
  split_ifs
  · exact toroidalDist_fine ha hb hm
  · exact (ha.sub hb).round

theorem coordDiff_scale (k : Nat) (t : Bool) {a b m : ℚ} (ha : Fine a) (hb : Fine b) (hm : Fine m) :
    coordDiff single t (2 ^ k * a) (2 ^ k * b) (2 ^ k * m) = 2 ^ k * coordDiff single t a b m := by
  unfold coordDiff
  rw [toroidalDist_scale k ha hb hm, ← mul_sub, (ha.sub hb).scale_single]
  split_ifs <;> rfl

theorem dist_scale (k : Nat) (t : Bool) {p q : Pos} {w h : ℚ} (hpx : Fine p.x) (hpy : Fine p.y) (hqx : Fine q.x)
    (hqy : Fine q.y) (hw : Fine w) (hh : Fine h) :
    dist single root (rescale (2 ^ k) p) (rescale (2 ^ k) q) (2 ^ k * w) (2 ^ k * h) t = 2 ^ k * dist single root p q w h t := by
  have square : ∀ {x : ℚ}, Fine x → single (2 ^ k * x * (2 ^ k * x)) = 2 ^ k * (2 ^ k * single (x * x)) ∧
      Multiple 100 (single (x * x)) := by
    intro x hx
    have h1 : Multiple 100 (x * x) := hx.mul hx
    have h2 : Multiple 126 (x * x) := h1.weaken (by norm_num)
    refine ⟨?_, single_multiple h1⟩
    rw [show (2 : ℚ) ^ k * x * (2 ^ k * x) = 2 ^ k * (2 ^ k * (x * x)) by ring, single_scale k (h2.scale k), single_scale k h2]
  unfold dist
  dsimp only [rescale]
  rw [coordDiff_scale k t hpx hqx hw, coordDiff_scale k t hpy hqy hh]
  obtain ⟨e1, m1⟩ := square (coordDiff_fine t hpx hqx hw)
  obtain ⟨e2, m2⟩ := square (coordDiff_fine t hpy hqy hh)
  have m3 := m1.add m2
  have m4 : Multiple 126 _ := m3.weaken (by norm_num)
  rw [e1, e2, ← mul_add, ← mul_add, single_scale k (m4.scale k), single_scale k m4]
  exact root_scale k ((single_multiple m3).weaken (by norm_num))

theorem lowEnd_fine (i : Int) {d : ℚ} (hd : Fine d) : Fine (lowEnd single i d) := by
  unfold lowEnd
  have : Multiple 0 (single (i : ℚ)) := single_multiple (Multiple.int i)
  have h := this.mul hd
  rw [Nat.zero_add] at h
  exact single_multiple h

theorem lowEnd_scale (k : Nat) (i : Int) {d : ℚ} (hd : Fine d) : lowEnd single i (2 ^ k * d) = 2 ^ k * lowEnd single i d := by
  unfold lowEnd
  have : Multiple 0 (single (i : ℚ)) := single_multiple (Multiple.int i)
  have h := this.mul hd
  rw [Nat.zero_add] at h
  rw [mul_left_comm, single_scale k (h.weaken (by norm_num))]

theorem min_fine {a b : ℚ} (ha : Fine a) (hb : Fine b) : Fine (min a b) := by
  by_cases h : a ≤ b
  · rw [min_eq_left h]; exact ha
  · rw [min_eq_right (le_of_lt (not_le.1 h))]; exact hb

theorem highEnd_fine (i : Int) {d m : ℚ} (hd : Fine d) (hm : Fine m) : Fine (highEnd single i d m) :=
  min_fine ((lowEnd_fine i hd).add hd).round hm

theorem highEnd_scale (k : Nat) (i : Int) {d m : ℚ} (hd : Fine d) :
    highEnd single i (2 ^ k * d) (2 ^ k * m) = 2 ^ k * highEnd single i d m := by
  unfold highEnd
  rw [lowEnd_scale k i hd, ← mul_add, ((lowEnd_fine i hd).add hd).scale_single, min_rescale (pow_pos' k)]

theorem checkCircle_scale (k : Nat) (b : Loc) {d w h : ℚ} {p : Pos} (r : ℚ) (t : Bool) (hd : Fine d) (hw : Fine w)
    (hh : Fine h) (hpx : Fine p.x) (hpy : Fine p.y) :
    checkCircle single root b (2 ^ k * d) (2 ^ k * w) (2 ^ k * h) (rescale (2 ^ k) p) (2 ^ k * r) t =
      checkCircle single root b d w h p r t := by
  have hc := pow_pos' k
  have lx := lowEnd_fine b.x hd
  have ly := lowEnd_fine b.y hd
  have ux := highEnd_fine b.x hd hw
  have uy := highEnd_fine b.y hd hh
  have corner : ∀ x y : ℚ, Fine x → Fine y →
      dist single root ⟨2 ^ k * x, 2 ^ k * y⟩ (rescale (2 ^ k) p) (2 ^ k * w) (2 ^ k * h) t =
        2 ^ k * dist single root ⟨x, y⟩ p w h t :=
    fun x y hx hy => dist_scale k t (p := ⟨x, y⟩) hx hy hpx hpy hw hh
  unfold checkCircle
  rw [lowEnd_scale k _ hd, lowEnd_scale k _ hd, highEnd_scale k _ hd, highEnd_scale k _ hd, corner _ _ lx ly,
    corner _ _ lx uy, corner _ _ ux ly, corner _ _ ux uy]
  simp only [gt_iff_lt, mul_le_mul_iff hc, mul_lt_mul_iff hc]

variable {O : Type} [BEq O]

theorem discretize_scale (k : Nat) (d : ℚ) (p : Pos) :
    discretize single (2 ^ k * d) (rescale (2 ^ k) p) = discretize single d p := by
  unfold discretize rescale
  dsimp only
  rw [mul_div_mul_left _ _ (pow_pos' k).ne', mul_div_mul_left _ _ (pow_pos' k).ne']

theorem cellsAlong_scale (k : Nat) (w d : ℚ) : cellsAlong single (2 ^ k * w) (2 ^ k * d) = cellsAlong single w d := by
  unfold cellsAlong
  rw [mul_div_mul_left _ _ (pow_pos' k).ne']

theorem notDiscretize_scale (k : Nat) {d : ℚ} (hd : Fine d) (l : Loc) :
    notDiscretize single (2 ^ k * d) l = rescale (2 ^ k) (notDiscretize single d l) := by
  have h1 := lowEnd_scale k l.x hd
  have h2 := lowEnd_scale k l.y hd
  unfold lowEnd at h1 h2
  unfold notDiscretize rescale
  rw [h1, h2]

omit [BEq O] in
theorem new_scale (k : Nat) (w h d : ℚ) (t : Bool) :
    (new single (2 ^ k * w) (2 ^ k * h) (2 ^ k * d) t : Field2D.Field O) = (new single w h d t).rescale (2 ^ k) := by
  unfold new Field2D.Field.rescale bagsMade
  rw [cellsAlong_scale, cellsAlong_scale]

theorem exec_scale (k : Nat) (f : Field2D.Field O) (op : FieldOp O) :
    exec single (f.rescale (2 ^ k)) (op.rescale (2 ^ k)) = (exec single f op).map (Field2D.Field.rescale (2 ^ k)) := by
  cases op with
  | place o l =>
    simp only [FieldOp.rescale, exec, setObjectLocation]
    simp only [Field2D.Field.rescale, discretize_scale]
    cases h : vecGet f.bags f.dh (discretize single f.discretization l) with
    | none => rfl
    | some b =>
      dsimp only
      cases vecSet f.bags f.dh (discretize single f.discretization l) (b ++ [o]) <;> rfl
  | remove o l =>
    simp only [FieldOp.rescale, exec, removeObjectLocation]
    simp only [Field2D.Field.rescale, discretize_scale]
    cases h : vecGet f.bags f.dh (discretize single f.discretization l) with
    | none => rfl
    | some b =>
      dsimp only
      split_ifs
      · rfl
      · cases vecSet f.bags f.dh (discretize single f.discretization l) (b.filter (fun x => x != o)) <;> rfl
      · rfl
      · cases vecSet f.bags f.dh (discretize single f.discretization l) (b.filter (fun x => x != o)) <;> rfl
  | update => rfl
  | lazyUpdate => exact Field2D.exec_rescale (pow_pos' k) f .lazyUpdate

theorem run_scale (k : Nat) (f : Field2D.Field O) (hist : List (FieldOp O)) :
    run single (f.rescale (2 ^ k)) (hist.map (FieldOp.rescale (2 ^ k))) = (run single f hist).map (Field2D.Field.rescale (2 ^ k)) := by
  induction hist with
  | nil => rfl
  | cons op hist ih =>
    simp only [List.map_cons, run, ih]
    cases run single f hist with
    | none => rfl
    | some g => exact exec_scale k g op

omit [BEq O] in
theorem scan_scale (k : Nat) (f : Field2D.Field O) (keep : Loc → O → Bool) (cs : List Loc) :
    scan single (f.rescale (2 ^ k)) keep cs = scan single f keep cs := by
  have hb : ∀ l, bagId single (f.rescale (2 ^ k)) l = bagId single f l := by
    intro l
    unfold bagId Field2D.Field.rescale
    simp only [cellsAlong_scale]
  induction cs with
  | nil => rfl
  | cons l cs ih =>
    simp only [scan, hb, ih]
    rfl

omit [BEq O] in
theorem searchCells_scale (k : Nat) (f : Field2D.Field O) (loc : Pos) (r : ℚ) :
    searchCells single (f.rescale (2 ^ k)) (rescale (2 ^ k) loc) (2 ^ k * r) = searchCells single f loc r := by
  unfold searchCells Field2D.Field.rescale
  simp only [discretize_scale, cellsAlong_scale, mul_div_mul_left _ _ (pow_pos' k).ne']

omit [BEq O] in
theorem exec_sizes [BEq O] {f g : Field2D.Field O} {op : FieldOp O} (h : exec single f op = some g) :
    g.width = f.width ∧ g.height = f.height ∧ g.discretization = f.discretization := by
  cases op with
  | place o l =>
    simp only [exec, setObjectLocation] at h
    cases h1 : vecGet f.bags f.dh (discretize single f.discretization l) with
    | none => rw [h1] at h; cases h
    | some b =>
      rw [h1] at h
      simp only [Option.map_eq_some_iff] at h
      obtain ⟨v, _, rfl⟩ := h
      exact ⟨rfl, rfl, rfl⟩
  | remove o l =>
    simp only [exec, removeObjectLocation] at h
    cases h1 : vecGet f.bags f.dh (discretize single f.discretization l) with
    | none => rw [h1] at h; cases h
    | some b =>
      rw [h1] at h
      simp only at h
      split_ifs at h
      · cases h; exact ⟨rfl, rfl, rfl⟩
      · simp only [Option.map_eq_some_iff] at h
        obtain ⟨v, _, rfl⟩ := h
        exact ⟨rfl, rfl, rfl⟩
      · simp only [Option.map_eq_some_iff] at h
        obtain ⟨v, _, rfl⟩ := h
        exact ⟨rfl, rfl, rfl⟩
  | update => cases h; exact ⟨rfl, rfl, rfl⟩
  | lazyUpdate =>
    simp only [exec, Field2D.lazyUpdate] at h
    split_ifs at h
    · cases h; exact ⟨rfl, rfl, rfl⟩
    · cases h; exact ⟨rfl, rfl, rfl⟩

theorem run_sizes (f : Field2D.Field O) : ∀ (hist : List (FieldOp O)) {g : Field2D.Field O}, run single f hist = some g →
    g.width = f.width ∧ g.height = f.height ∧ g.discretization = f.discretization := by
  intro hist
  induction hist with
  | nil => intro g h; cases h; exact ⟨rfl, rfl, rfl⟩
  | cons op hist ih =>
    intro g h
    simp only [run, Option.bind_eq_some_iff] at h
    obtain ⟨g', h1, h2⟩ := h
    obtain ⟨a1, a2, a3⟩ := ih h1
    obtain ⟨b1, b2, b3⟩ := exec_sizes h2
    exact ⟨b1.trans a1, b2.trans a2, b3.trans a3⟩

/-- **C247 (single precision).** Units that differ by a power of two: for sizes, positions and distances that are multiples of
2^-50 all answers are the same, in every program (numbers that would overflow are not modelled). -/
theorem C247_powers_of_two_partial (k : Nat) (w h d : ℚ) (t : Bool) (hw : Multiple 50 w) (hh : Multiple 50 h)
    (hd : Multiple 50 d) (hist : List (FieldOp O)) :
    (run single (new single w h d t) hist = none ∧
      run single (new single (2 ^ k * w) (2 ^ k * h) (2 ^ k * d) t) (hist.map (FieldOp.rescale (2 ^ k))) = none) ∨
    ∃ f g, run single (new single w h d t) hist = some f ∧
      run single (new single (2 ^ k * w) (2 ^ k * h) (2 ^ k * d) t) (hist.map (FieldOp.rescale (2 ^ k))) = some g ∧
      (∀ (locOf : O → Pos) (loc : Pos) (r : ℚ), (∀ o, Multiple 50 (locOf o).x ∧ Multiple 50 (locOf o).y) →
        Multiple 50 loc.x → Multiple 50 loc.y →
        getNeighborsWithinDistance single root g (fun o => rescale (2 ^ k) (locOf o)) (rescale (2 ^ k) loc) (2 ^ k * r) =
          getNeighborsWithinDistance single root f locOf loc r) ∧
      (∀ (loc : Pos) (r : ℚ), getNeighborsWithinRelaxDistance single g (rescale (2 ^ k) loc) (2 ^ k * r) =
        getNeighborsWithinRelaxDistance single f loc r) ∧
      (∀ loc : Pos, getObjects single g (rescale (2 ^ k) loc) = getObjects single f loc ∧
        getObjectsUnbuffered single g (rescale (2 ^ k) loc) = getObjectsUnbuffered single f loc ∧
        numObjectsAtLocation single g (rescale (2 ^ k) loc) = numObjectsAtLocation single f loc) ∧
      iterObjects single g = (iterObjects single f).map (List.map (fun e => (rescale (2 ^ k) e.1, e.2))) ∧
      iterObjectsUnbuffered single g = (iterObjectsUnbuffered single f).map (List.map (fun e => (rescale (2 ^ k) e.1, e.2))) ∧
      getEmptyBags single g = (getEmptyBags single f).map (List.map (rescale (2 ^ k))) := by
  have hc := pow_pos' k
  rw [new_scale, run_scale]
  cases hr : run single (new single w h d t) hist with
  | none => exact Or.inl ⟨rfl, rfl⟩
  | some f =>
    obtain ⟨s1, s2, s3⟩ := run_sizes _ hist hr
    have fw : Fine f.width := by rw [s1]; exact hw
    have fh : Fine f.height := by rw [s2]; exact hh
    have fd : Fine f.discretization := by rw [s3]; exact hd
    have h0 : ∀ r : ℚ, (2 : ℚ) ^ k * r ≤ 0 ↔ r ≤ 0 := fun r => by
      have := mul_le_mul_iff hc r 0
      rwa [mul_zero] at this
    refine Or.inr ⟨f, f.rescale (2 ^ k), rfl, rfl, ?_, ?_, ?_, ?_, ?_, ?_⟩
    · intro locOf loc r hl hx hy
      unfold getNeighborsWithinDistance
      simp only [h0, searchCells_scale, scan_scale]
      congr 2
      funext b o
      unfold keepExact
      have e1 := checkCircle_scale k b r f.toroidal fd fw fh hx hy
      have e2 := dist_scale k f.toroidal hx hy (hl o).1 (hl o).2 fw fh
      show decide ((checkCircle single root b (2 ^ k * f.discretization) (2 ^ k * f.width) (2 ^ k * f.height) (rescale (2 ^ k) loc)
        (2 ^ k * r) f.toroidal = 0 ∧ dist single root (rescale (2 ^ k) loc) (rescale (2 ^ k) (locOf o)) (2 ^ k * f.width)
        (2 ^ k * f.height) f.toroidal ≤ 2 ^ k * r) ∨ checkCircle single root b (2 ^ k * f.discretization) (2 ^ k * f.width)
        (2 ^ k * f.height) (rescale (2 ^ k) loc) (2 ^ k * r) f.toroidal = 1) = _
      simp only [e1, e2, mul_le_mul_iff hc]
    · intro loc r
      unfold getNeighborsWithinRelaxDistance
      simp only [h0, searchCells_scale, scan_scale]
    · intro loc
      unfold getObjects getObjectsUnbuffered numObjectsAtLocation Field2D.Field.rescale
      simp only [discretize_scale, and_self]
    · refine collect_map _ _ _ _ _ ?_ _
      intro l e
      show e.map (fun o => (notDiscretize single (2 ^ k * f.discretization) l, o)) = _
      rw [notDiscretize_scale k fd, List.map_map]
      rfl
    · refine collect_map _ _ _ _ _ ?_ _
      intro l e
      show e.map (fun o => (notDiscretize single (2 ^ k * f.discretization) l, o)) = _
      rw [notDiscretize_scale k fd, List.map_map]
      rfl
    · refine collect_map _ _ _ _ _ ?_ _
      intro l e
      show (if e.isEmpty then [notDiscretize single (2 ^ k * f.discretization) l] else []) = _
      rw [notDiscretize_scale k fd]
      split_ifs <;> rfl

example : Multiple 50 10 ∧ Multiple 50 2 ∧ Multiple 50 (1 / 1024) ∧
    (run single (new single 10 10 2 true) [.lazyUpdate, .place 7 ⟨9, 9⟩, .place 8 ⟨5, 5⟩]).bind
      (fun f => getNeighborsWithinDistance single root f (fun o => if o = 7 then ⟨9, 9⟩ else ⟨5, 5⟩) ⟨9, 8⟩ 3) = some [7] ∧
    (run single (new single 40 40 8 true) [.lazyUpdate, .place 7 ⟨36, 36⟩, .place 8 ⟨20, 20⟩]).bind
      (fun f => getNeighborsWithinDistance single root f (fun o => if o = 7 then ⟨36, 36⟩ else ⟨20, 20⟩) ⟨36, 32⟩ 12) = some [7] := by
  refine ⟨⟨10 * 2 ^ 50, by norm_num⟩, ⟨2 * 2 ^ 50, by norm_num⟩, ⟨2 ^ 40, by norm_num⟩, ?_, ?_⟩ <;> decide +kernel

/-- **C247** is false of the code for other factors: in a unit of one tenth the same object, at numbers that are ten times as
large and all exact, is no longer found. -/
theorem C247_ten_negation_partial : ∃ f g : Field2D.Field Nat,
    run single (new single 10 10 5 false) [.lazyUpdate, .place 7 ⟨2, 3 / 4096⟩] = some f ∧
    run single (new single (10 * 10) (10 * 10) (10 * 5) false) ([.lazyUpdate, .place 7 ⟨2, 3 / 4096⟩].map (FieldOp.rescale 10)) =
      some g ∧
    getNeighborsWithinDistance single root f (fun _ => ⟨2, 3 / 4096⟩) ⟨0, 0⟩ 2 = some [7] ∧
    getNeighborsWithinDistance single root g (fun _ => rescale 10 ⟨2, 3 / 4096⟩) (rescale 10 ⟨0, 0⟩) (10 * 2) = some [] := by
  refine ⟨(run single (new single 10 10 5 false) [.lazyUpdate, .place 7 ⟨2, 3 / 4096⟩]).getD (new single 1 1 1 true),
    (run single (new single (10 * 10) (10 * 10) (10 * 5) false) ([.lazyUpdate, .place 7 ⟨2, 3 / 4096⟩].map
      (FieldOp.rescale 10))).getD (new single 1 1 1 true), ?_, ?_, ?_, ?_⟩ <;> decide +kernel

/-- **C247** is false of the code for very small numbers too, where squares vanish: in a field of size 2^-79 an object half a
field away is found at any distance; the same field in a unit of 2^-80 does not show it. -/
theorem C247_small_negation_partial : ∃ f g : Field2D.Field Nat,
    run single (new single (1 / 604462909807314587353088) (1 / 604462909807314587353088) (1 / 604462909807314587353088) false) [.lazyUpdate, .place 7 ⟨1 / 1208925819614629174706176, 0⟩] = some f ∧
    run single (new single (1208925819614629174706176 * (1 / 604462909807314587353088)) (1208925819614629174706176 * (1 / 604462909807314587353088)) (1208925819614629174706176 * (1 / 604462909807314587353088)) false)
      ([.lazyUpdate, .place 7 ⟨1 / 1208925819614629174706176, 0⟩].map (FieldOp.rescale 1208925819614629174706176)) = some g ∧
    getNeighborsWithinDistance single root f (fun _ => ⟨1 / 1208925819614629174706176, 0⟩) ⟨0, 0⟩ (1 / 2417851639229258349412352) = some [7] ∧
    getNeighborsWithinDistance single root g (fun _ => rescale 1208925819614629174706176 ⟨1 / 1208925819614629174706176, 0⟩) (rescale 1208925819614629174706176 ⟨0, 0⟩) (1208925819614629174706176 * (1 / 2417851639229258349412352)) =
      some [] := by
  refine ⟨(run single (new single (1 / 604462909807314587353088) (1 / 604462909807314587353088) (1 / 604462909807314587353088) false) [.lazyUpdate, .place 7 ⟨1 / 1208925819614629174706176, 0⟩]).getD (new single 1 1 1 true),
    (run single (new single (1208925819614629174706176 * (1 / 604462909807314587353088)) (1208925819614629174706176 * (1 / 604462909807314587353088)) (1208925819614629174706176 * (1 / 604462909807314587353088)) false)
      ([.lazyUpdate, .place 7 ⟨1 / 1208925819614629174706176, 0⟩].map (FieldOp.rescale 1208925819614629174706176))).getD (new single 1 1 1 true), ?_, ?_, ?_, ?_⟩ <;> decide +kernel

end Verif.Single
