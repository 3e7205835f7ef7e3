import Verif.Props.Field2D
import Verif.Props.SingleTorus
import Verif.Spec.Metric
import Mathlib.Analysis.Real.Sqrt
import Mathlib.Data.Rat.Cast.Order

/-!
C242: distances in a field, plain or toroidal, form a metric that does not depend on where the origin is. True of the
exact values; single precision spoils the triangle inequality by rounding and the distance 0 by underflow.
-/

namespace Verif.Torus

open Field2D

/-- `distance`, the square root of `distSq` (src/engine/fields/field_2d.rs:974-986). -/
noncomputable def distance (w h : ℚ) (tor : Bool) (p q : Pos) : ℝ := Real.sqrt ((distSq p q w h tor : ℚ) : ℝ)

/-- Differences that agree up to whole turns give distances of equal length. -/
theorem toroidalDistance_sq_congr {a b a' b' dim : ℚ} (hd : 0 < dim) (k : ℤ) (h : a' - b' = a - b + k * dim) :
    toroidalDistance a' b' dim * toroidalDistance a' b' dim = toroidalDistance a b dim * toroidalDistance a b dim := by
  obtain ⟨i, hi⟩ := toroidalDistance_cong (a := a) (b := b) hd
  obtain ⟨j, hj⟩ := toroidalDistance_cong (a := a') (b := b') hd
  apply le_antisymm
  · have := toroidalDistance_min (a := a') (b := b') hd (i - k)
    have e : a' - b' + ((i - k : ℤ) : ℚ) * dim = toroidalDistance a b dim := by rw [hi, h]; push_cast; ring
    rwa [e] at this
  · have := toroidalDistance_min (a := a) (b := b) hd (j + k)
    have e : a - b + ((j + k : ℤ) : ℚ) * dim = toroidalDistance a' b' dim := by rw [hj, h]; push_cast; ring
    rwa [e] at this

theorem toroidalDistance_triangle {a b c dim : ℚ} (hd : 0 < dim) :
    |toroidalDistance a c dim| ≤ |toroidalDistance a b dim + toroidalDistance b c dim| := by
  obtain ⟨i, hi⟩ := toroidalDistance_cong (a := a) (b := b) hd
  obtain ⟨j, hj⟩ := toroidalDistance_cong (a := b) (b := c) hd
  have := toroidalDistance_min (a := a) (b := c) hd (i + j)
  have e : a - c + ((i + j : ℤ) : ℚ) * dim = toroidalDistance a b dim + toroidalDistance b c dim := by
    rw [hi, hj]; push_cast; ring
  rw [e] at this
  exact abs_le_abs_of_sq_le_sq (by simpa [sq] using this)
where
  abs_le_abs_of_sq_le_sq {x y : ℚ} (h : x ^ 2 ≤ y ^ 2) : |x| ≤ |y| := sq_le_sq.1 h

/-- The triangle inequality along one axis, of plain and toroidal fields. -/
theorem diff_triangle (tor : Bool) {a b c dim : ℚ} (hd : 0 < dim) :
    |diff tor a c dim| ≤ |diff tor a b dim + diff tor b c dim| := by
  unfold diff
  cases tor
  · simp only [Bool.false_eq_true, if_false]; rw [show a - b + (b - c) = a - c by ring]
  · simp only [if_true]; exact toroidalDistance_triangle hd

/-- Minkowski's inequality in the plane. -/
theorem minkowski (x y x' y' : ℝ) :
    Real.sqrt ((x + x') ^ 2 + (y + y') ^ 2) ≤ Real.sqrt (x ^ 2 + y ^ 2) + Real.sqrt (x' ^ 2 + y' ^ 2) := by
  have hr := Real.sqrt_nonneg (x ^ 2 + y ^ 2)
  have hs := Real.sqrt_nonneg (x' ^ 2 + y' ^ 2)
  have er := Real.sq_sqrt (show (0 : ℝ) ≤ x ^ 2 + y ^ 2 by positivity)
  have es := Real.sq_sqrt (show (0 : ℝ) ≤ x' ^ 2 + y' ^ 2 by positivity)
  generalize Real.sqrt (x ^ 2 + y ^ 2) = r at *
  generalize Real.sqrt (x' ^ 2 + y' ^ 2) = s at *
  apply Real.sqrt_le_iff.2
  refine ⟨by positivity, ?_⟩
  have key : x * x' + y * y' ≤ r * s := by
    apply le_of_sq_le_sq' (by positivity)
    have : (x * x' + y * y') ^ 2 + (x * y' - y * x') ^ 2 = r ^ 2 * s ^ 2 := by rw [er, es]; ring
    nlinarith [sq_nonneg (x * y' - y * x')]
  nlinarith
where
  le_of_sq_le_sq' {a b : ℝ} (hb : 0 ≤ b) (h : a ^ 2 ≤ b ^ 2) : a ≤ b := le_trans (le_abs_self a) (abs_le_of_sq_le_sq h hb)

theorem distSq_nonneg (p q : Pos) (w h : ℚ) (tor : Bool) : 0 ≤ distSq p q w h tor := by
  unfold distSq; nlinarith [mul_self_nonneg (diff tor p.x q.x w), mul_self_nonneg (diff tor p.y q.y h)]

/-- Distance 0 is the same place. -/
theorem distSq_zero {p q : Pos} {w h : ℚ} (tor : Bool) (hw : 0 < w) (hh : 0 < h) :
    distSq p q w h tor = 0 ↔ if tor then SamePlace w h p q else p = q := by
  have zero : distSq p q w h tor = 0 ↔ diff tor p.x q.x w = 0 ∧ diff tor p.y q.y h = 0 := by
    unfold distSq
    constructor
    · intro he
      have a := mul_self_nonneg (diff tor p.x q.x w)
      have b := mul_self_nonneg (diff tor p.y q.y h)
      exact ⟨mul_self_eq_zero.1 (by linarith), mul_self_eq_zero.1 (by linarith)⟩
    · rintro ⟨a, b⟩; rw [a, b]; ring
  rw [zero]
  unfold diff
  cases tor
  · simp only [Bool.false_eq_true, if_false]
    obtain ⟨px, py⟩ := p
    obtain ⟨qx, qy⟩ := q
    simp only [Pos.mk.injEq, sub_eq_zero]
  · simp only [if_true]
    have one : ∀ {a b dim : ℚ}, 0 < dim → (toroidalDistance a b dim = 0 ↔ ∃ k : ℤ, a = b + k * dim) := by
      intro a b dim hd
      constructor
      · intro he
        obtain ⟨k, hk⟩ := toroidalDistance_cong (a := a) (b := b) hd
        refine ⟨-k, ?_⟩
        rw [he] at hk
        push_cast; linarith
      · rintro ⟨k, hk⟩
        have := toroidalDistance_min (a := a) (b := b) hd (-k)
        have e : a - b + ((-k : ℤ) : ℚ) * dim = 0 := by rw [hk]; push_cast; ring
        rw [e] at this
        exact mul_self_eq_zero.1 (le_antisymm (by simpa using this) (mul_self_nonneg _))
    rw [one hw, one hh]
    unfold SamePlace
    constructor
    · rintro ⟨⟨k, hk⟩, ⟨m, hm⟩⟩; exact ⟨k, m, hk, hm⟩
    · rintro ⟨k, m, hk, hm⟩; exact ⟨⟨k, hk⟩, ⟨m, hm⟩⟩

/-- **C242**, exact values. The distances of a plain and of a toroidal field form a metric; on the torus the places at
distance 0 are those that differ by whole turns. Positions outside the field are allowed. -/
theorem C242_metric_partial (w h : ℚ) (hw : 0 < w) (hh : 0 < h) :
    IsMetric (distance w h true) (SamePlace w h) ∧ IsMetric (distance w h false) (fun p q => p = q) := by
  have zero : ∀ tor p q, distance w h tor p q = 0 ↔ if tor then SamePlace w h p q else p = q := by
    intro tor p q
    unfold distance
    rw [Real.sqrt_eq_zero (by exact_mod_cast distSq_nonneg p q w h tor), ← distSq_zero tor hw hh]
    norm_cast
  have symm : ∀ tor p q, distance w h tor p q = distance w h tor q p := by
    intro tor p q; unfold distance; rw [distSq_symm p q tor hw hh]
  have tri : ∀ tor p q r, distance w h tor p r ≤ distance w h tor p q + distance w h tor q r := by
    intro tor p q r
    unfold distance
    have ex : ∀ p q : Pos, ((distSq p q w h tor : ℚ) : ℝ) =
        ((diff tor p.x q.x w : ℚ) : ℝ) ^ 2 + ((diff tor p.y q.y h : ℚ) : ℝ) ^ 2 := by
      intro p q; unfold distSq; push_cast; ring
    rw [ex p q, ex q r]
    refine le_trans ?_ (minkowski _ _ _ _)
    apply Real.sqrt_le_sqrt
    rw [ex p r]
    have sqle : ∀ {u v : ℚ}, |u| ≤ |v| → (u : ℝ) ^ 2 ≤ (v : ℝ) ^ 2 := by
      intro u v huv; exact_mod_cast sq_le_sq.2 huv
    have hx := sqle (diff_triangle tor (a := p.x) (b := q.x) (c := r.x) hw)
    have hy := sqle (diff_triangle tor (a := p.y) (b := q.y) (c := r.y) hh)
    push_cast at hx hy
    linarith
  refine ⟨⟨fun p q => Real.sqrt_nonneg _, fun p q => ?_, symm true, tri true⟩,
    ⟨fun p q => Real.sqrt_nonneg _, fun p q => ?_, symm false, tri false⟩⟩
  · simpa using zero true p q
  · simpa using zero false p q

/-- **C242**, exact values. Moving both positions by the same vector changes no distance, and on a torus moving either
by whole turns changes none. -/
theorem C242_homogeneous_partial (w h : ℚ) (hw : 0 < w) (hh : 0 < h) (tor : Bool) (p q v : Pos) :
    distance w h tor (moved v p) (moved v q) = distance w h tor p q ∧
      ∀ p', SamePlace w h p' p → distance w h true p' q = distance w h true p q := by
  unfold distance
  constructor
  · congr 2
    unfold distSq diff moved
    cases tor
    · simp only [Bool.false_eq_true, if_false]; ring
    · simp only [if_true]
      rw [toroidalDistance_sq_congr (a := p.x) (b := q.x) hw 0 (by push_cast; ring),
        toroidalDistance_sq_congr (a := p.y) (b := q.y) hh 0 (by push_cast; ring)]
  · rintro p' ⟨k, m, hk, hm⟩
    congr 2
    unfold distSq diff
    simp only [if_true]
    rw [toroidalDistance_sq_congr (a := p.x) (b := q.x) hw k (by rw [hk]; ring),
      toroidalDistance_sq_congr (a := p.y) (b := q.y) hh m (by rw [hm]; ring)]

/-- **C242**, exact values. On a torus no two places are further apart than half its diagonal, in a plain field no two
positions of the field further than its diagonal. -/
theorem C242_diameter_partial (w h : ℚ) (hw : 0 < w) (hh : 0 < h) (p q : Pos) :
    distance w h true p q ≤ Real.sqrt (w ^ 2 + h ^ 2) / 2 ∧
      (InField w h p → InField w h q → distance w h false p q ≤ Real.sqrt (w ^ 2 + h ^ 2)) := by
  unfold distance
  constructor
  · rw [Real.sqrt_le_left (by positivity), div_pow, Real.sq_sqrt (by positivity)]
    have : distSq p q w h true ≤ (w ^ 2 + h ^ 2) / 4 := by
      unfold distSq diff
      simp only [if_true]
      obtain ⟨a1, a2⟩ := toroidalDistance_bound (a := p.x) (b := q.x) hw
      obtain ⟨b1, b2⟩ := toroidalDistance_bound (a := p.y) (b := q.y) hh
      nlinarith
    have : ((distSq p q w h true : ℚ) : ℝ) ≤ (((w ^ 2 + h ^ 2) / 4 : ℚ) : ℝ) := by exact_mod_cast this
    push_cast at this
    linarith
  · rintro ⟨p1, p2, p3, p4⟩ ⟨q1, q2, q3, q4⟩
    apply Real.sqrt_le_sqrt
    have : distSq p q w h false ≤ w ^ 2 + h ^ 2 := by
      unfold distSq diff
      simp only [Bool.false_eq_true, if_false]
      nlinarith [abs_le.2 ⟨(by linarith : -w ≤ p.x - q.x), (by linarith : p.x - q.x ≤ w)⟩]
    exact_mod_cast this

/-- A torus on which the distances are not the straight ones: the positions 1 and 9 of 10 are 2 apart. -/
example : distance 10 10 true ⟨1, 0⟩ ⟨9, 0⟩ = 2 ∧ distance 10 10 false ⟨1, 0⟩ ⟨9, 0⟩ = 8 ∧
    SamePlace 10 10 ⟨11, -3⟩ ⟨1, 7⟩ := by
  refine ⟨?_, ?_, ⟨1, -1, by norm_num, by norm_num⟩⟩
  · unfold distance
    rw [show distSq ⟨1, 0⟩ ⟨9, 0⟩ 10 10 true = 4 by decide +kernel, Real.sqrt_eq_iff_mul_self_eq_of_pos (by norm_num)]
    norm_num
  · unfold distance
    rw [show distSq ⟨1, 0⟩ ⟨9, 0⟩ 10 10 false = 64 by decide +kernel, Real.sqrt_eq_iff_mul_self_eq_of_pos (by norm_num)]
    norm_num

end Verif.Torus

namespace Verif.Single

open Torus

/-- **C242**, single precision: swapping the positions changes nothing. -/
theorem C242_single_symmetric_partial (rnd root : Rat → Rat) (hr : Rounding rnd) (w h : Rat) (hw : 0 < w) (hh : 0 < h)
    (tor : Bool) (p q : Pos) : dist rnd root p q w h tor = dist rnd root q p w h tor := by
  have one : ∀ a b dim : Rat, 0 < dim → coordDiff rnd tor b a dim = -coordDiff rnd tor a b dim := by
    intro a b dim hd
    unfold coordDiff
    cases tor
    · simp only [Bool.false_eq_true, if_false]; rw [← hr.odd]; congr 1; ring
    · simp only [if_true]; exact C172_antisymmetric rnd hr a b dim hd
  unfold dist
  rw [one p.x q.x w hw, one p.y q.y h hh, neg_mul_neg, neg_mul_neg]

/-- **C242**, single precision, along one axis of a torus: the triangle inequality holds up to a rounding error. -/
theorem C242_single_triangle_partial (rnd : Rat → Rat) (hr : Rounding rnd) (a b c dim : Rat) (ha : IsF32 a) (hb : IsF32 b)
    (hc : IsF32 c) (hd : IsF32 dim) (hd2 : IsF32 (dim / 2)) (h0 : 0 < dim) :
    |toroidalDist rnd a c dim| ≤ |toroidalDist rnd a b dim| + |toroidalDist rnd b c dim| +
      12 * (dim / 2 ^ 24 + 1 / 2 ^ 150) := by
  obtain ⟨_, i, hi⟩ := C172_half_turn rnd hr a b dim ha hb hd hd2 h0
  obtain ⟨_, j, hj⟩ := C172_half_turn rnd hr b c dim hb hc hd hd2 h0
  have h1 := (C172_shortest_way rnd hr a c dim ha hc hd hd2 h0).1 (i + j)
  have e : a - c + ((i + j : Int) : Rat) * dim = (a - b + i * dim) + (b - c + j * dim) := by push_cast; ring
  rw [e] at h1
  have h2 := abs_add_le (a - b + i * dim) (b - c + j * dim)
  have h3 : |a - b + i * dim| ≤ |toroidalDist rnd a b dim| + 4 * (dim / 2 ^ 24 + 1 / 2 ^ 150) := by
    have := abs_sub_abs_le_abs_sub (a - b + i * dim) (toroidalDist rnd a b dim)
    rw [abs_sub_comm] at this
    linarith
  have h4 : |b - c + j * dim| ≤ |toroidalDist rnd b c dim| + 4 * (dim / 2 ^ 24 + 1 / 2 ^ 150) := by
    have := abs_sub_abs_le_abs_sub (b - c + j * dim) (toroidalDist rnd b c dim)
    rw [abs_sub_comm] at this
    linarith
  linarith

/-- **C242** is false in single precision: the detour over `q` is shorter than the straight way by a rounding error; and
two different positions are at distance 0, the square of the difference being too small for a single. -/
theorem C242_single_negation_partial :
    (∃ p q r : Pos, (IsF32 p.x ∧ IsF32 q.x ∧ IsF32 r.x ∧ p.y = 0 ∧ q.y = 0 ∧ r.y = 0) ∧ ∀ tor,
      dist single root p q 100 100 tor + dist single root q r 100 100 tor < dist single root p r 100 100 tor) ∧
    (∃ p q : Pos, IsF32 p.x ∧ IsF32 q.x ∧ p ≠ q ∧ ∀ tor, dist single root p q 100 100 tor = 0) := by
  refine ⟨⟨⟨5242877 / 1048576, 0⟩, ⟨5, 0⟩, ⟨37, 0⟩, ⟨?_, ?_, ?_, rfl, rfl, rfl⟩, ?_⟩,
    ⟨⟨1 / 2 ^ 80, 0⟩, ⟨0, 0⟩, ⟨1, -80, by norm_num, by norm_num, by norm_num⟩, ⟨0, 0, by norm_num, by norm_num, by norm_num⟩,
      by decide +kernel, ?_⟩⟩
  · exact ⟨5242877, -20, by norm_num, by norm_num, by norm_num⟩
  · exact ⟨5, 0, by norm_num, by norm_num, by norm_num⟩
  · exact ⟨37, 0, by norm_num, by norm_num, by norm_num⟩
  · intro tor; cases tor <;> decide +kernel
  · intro tor; cases tor <;> decide +kernel

end Verif.Single
