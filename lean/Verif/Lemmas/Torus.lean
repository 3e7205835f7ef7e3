import Verif.Model.Torus
import Mathlib.Data.Rat.Floor
import Mathlib.Tactic.Linarith
import Mathlib.Tactic.Ring
import Mathlib.Tactic.FieldSimp
import Mathlib.Tactic.Positivity

/-! Lemmas about toroidal coordinates. -/

namespace Verif.Torus

/-- `x` and `y` differ by a whole number of `dim`. -/
def Cong (dim x y : ℚ) : Prop := ∃ k : ℤ, x = y + k * dim

theorem Cong.refl {dim : ℚ} (x : ℚ) : Cong dim x x := ⟨0, by simp⟩

theorem Cong.symm {dim x y : ℚ} (h : Cong dim x y) : Cong dim y x := by
  obtain ⟨k, hk⟩ := h
  exact ⟨-k, by rw [hk]; push_cast; ring⟩

theorem Cong.trans {dim x y z : ℚ} (h : Cong dim x y) (h' : Cong dim y z) : Cong dim x z := by
  obtain ⟨k, hk⟩ := h
  obtain ⟨j, hj⟩ := h'
  exact ⟨k + j, by rw [hk, hj]; push_cast; ring⟩

theorem Cong.sub {dim x y z w : ℚ} (h : Cong dim x y) (h' : Cong dim z w) : Cong dim (x - z) (y - w) := by
  obtain ⟨k, hk⟩ := h
  obtain ⟨j, hj⟩ := h'
  exact ⟨k - j, by rw [hk, hj]; push_cast; ring⟩

theorem Cong.add {dim x y z w : ℚ} (h : Cong dim x y) (h' : Cong dim z w) : Cong dim (x + z) (y + w) := by
  obtain ⟨k, hk⟩ := h
  obtain ⟨j, hj⟩ := h'
  exact ⟨k + j, by rw [hk, hj]; push_cast; ring⟩

theorem cong_shift {dim : ℚ} (x : ℚ) : Cong dim (x + dim) x := ⟨1, by simp⟩

/-- Two congruent values closer than one period are equal. -/
theorem Cong.eq_of_lt {dim x y : ℚ} (hd : 0 < dim) (h : Cong dim x y) (h1 : x - y < dim) (h2 : -dim < x - y) :
    x = y := by
  obtain ⟨k, hk⟩ := h
  have hx : x - y = k * dim := by rw [hk]; ring
  rw [hx] at h1 h2
  have k1 : (k : ℚ) < 1 := by
    by_contra hc
    have : (1 : ℚ) ≤ k := not_lt.1 hc
    nlinarith
  have k2 : (-1 : ℚ) < k := by
    by_contra hc
    have : (k : ℚ) ≤ -1 := not_lt.1 hc
    nlinarith
  have k1' : k < 1 := by exact_mod_cast k1
  have k2' : -1 < k := by exact_mod_cast k2
  have : k = 0 := by omega
  rw [this] at hx
  simp at hx
  linarith

theorem fmod_spec {val dim : ℚ} (hd : 0 < dim) :
    Cong dim (fmod val dim) val ∧ -dim < fmod val dim ∧ fmod val dim < dim ∧ (0 ≤ val → 0 ≤ fmod val dim) := by
  have hv : val = val / dim * dim := by field_simp
  unfold fmod
  split
  · rename_i h
    have h1 := Rat.floor_le (val / dim)
    have h2 := Rat.lt_floor_add_one (val / dim)
    push_cast at h2
    generalize (val / dim).floor = k at *
    generalize val / dim = q at *
    subst hv
    refine ⟨⟨-k, by push_cast; ring⟩, ?_, ?_, ?_⟩
    · nlinarith
    · nlinarith
    · intro _; nlinarith
  · rename_i h
    have h1 := Rat.le_ceil (x := val / dim)
    have h2 := Rat.ceil_lt (x := val / dim)
    generalize (val / dim).ceil = k at *
    generalize val / dim = q at *
    have hneg : q < 0 := not_le.1 h
    subst hv
    refine ⟨⟨-k, by push_cast; ring⟩, ?_, ?_, ?_⟩
    · nlinarith
    · nlinarith
    · intro hc; nlinarith

theorem toroidalTransform_range {val dim : ℚ} (hd : 0 < dim) :
    0 ≤ toroidalTransform val dim ∧ toroidalTransform val dim < dim := by
  obtain ⟨_, h2, h3, _⟩ := fmod_spec (val := val) hd
  unfold toroidalTransform
  split
  · rename_i h; exact h
  · split
    · rename_i h; constructor <;> linarith
    · rename_i h; exact ⟨not_lt.1 h, h3⟩

theorem toroidalTransform_cong {val dim : ℚ} (hd : 0 < dim) : Cong dim (toroidalTransform val dim) val := by
  obtain ⟨h1, _, _, _⟩ := fmod_spec (val := val) hd
  unfold toroidalTransform
  split
  · exact Cong.refl _
  · split
    · exact (cong_shift _).trans h1
    · exact h1

theorem toroidalTransform_unique {val dim r : ℚ} (hd : 0 < dim) (h0 : 0 ≤ r) (h1 : r < dim) (hc : Cong dim r val) :
    r = toroidalTransform val dim := by
  obtain ⟨a, b⟩ := toroidalTransform_range (val := val) hd
  exact (hc.trans (toroidalTransform_cong hd).symm).eq_of_lt hd (by linarith) (by linarith)

theorem toroidalDistance_cong {a b dim : ℚ} (hd : 0 < dim) : Cong dim (toroidalDistance a b dim) (a - b) := by
  have h : Cong dim (toroidalTransform a dim - toroidalTransform b dim) (a - b) :=
    (toroidalTransform_cong hd).sub (toroidalTransform_cong hd)
  unfold toroidalDistance
  split
  · exact Cong.refl _
  · split
    · refine Cong.trans ⟨-1, ?_⟩ h; push_cast; ring
    · split
      · exact (cong_shift _).trans h
      · exact h

theorem toroidalDistance_bound {a b dim : ℚ} (hd : 0 < dim) :
    -(dim / 2) ≤ toroidalDistance a b dim ∧ toroidalDistance a b dim ≤ dim / 2 := by
  obtain ⟨a1, a2⟩ := toroidalTransform_range (val := a) hd
  obtain ⟨b1, b2⟩ := toroidalTransform_range (val := b) hd
  unfold toroidalDistance
  split
  · assumption
  · split
    · constructor <;> linarith
    · split
      · constructor <;> linarith
      · constructor <;> linarith

/-- A representative strictly closer than half a period is the toroidal distance. -/
theorem toroidalDistance_eq {a b dim r : ℚ} (hd : 0 < dim) (hc : Cong dim r (a - b)) (h1 : -(dim / 2) < r)
    (h2 : r < dim / 2) : toroidalDistance a b dim = r := by
  obtain ⟨b1, b2⟩ := toroidalDistance_bound (a := a) (b := b) hd
  exact ((toroidalDistance_cong hd).trans hc.symm).eq_of_lt hd (by linarith) (by linarith)

theorem toroidalTransform_congr {a a' dim : ℚ} (hd : 0 < dim) (h : Cong dim a a') :
    toroidalTransform a dim = toroidalTransform a' dim := by
  obtain ⟨a1, a2⟩ := toroidalTransform_range (val := a) hd
  exact toroidalTransform_unique hd a1 a2 ((toroidalTransform_cong hd).trans h)

/-! ### Convexity -/

/-- The square of a value between two others is at most one of their squares. -/
theorem sq_between {u v p r : ℚ} (h1 : u ≤ p) (h2 : p ≤ v) (hu : u * u ≤ r) (hv : v * v ≤ r) : p * p ≤ r := by
  rcases le_total 0 p with h | h
  · nlinarith
  · nlinarith

/-- If the four corner sums are bounded, so is any point sum. -/
theorem corners_bound {u v p u' v' q r : ℚ} (h1 : u ≤ p) (h2 : p ≤ v) (h1' : u' ≤ q) (h2' : q ≤ v')
    (a : u * u + u' * u' ≤ r) (b : u * u + v' * v' ≤ r) (c : v * v + u' * u' ≤ r) (d : v * v + v' * v' ≤ r) :
    p * p + q * q ≤ r := by
  have e1 : p * p ≤ r - u' * u' := sq_between h1 h2 (by linarith) (by linarith)
  have e2 : p * p ≤ r - v' * v' := sq_between h1 h2 (by linarith) (by linarith)
  have e3 : q * q ≤ r - p * p := sq_between h1' h2' (by linarith) (by linarith)
  linarith

/-- On the circle: if both ends of an arc shorter than `d` are within `r < (dim - d) / 2` of `b`, the
signed distances of the arc's points lie between those of the ends. -/
theorem toroidal_arc {lo hi p b dim d r : ℚ} (hd : 0 < dim) (hlen : hi - lo ≤ d) (h1 : lo ≤ p) (h2 : p ≤ hi)
    (hr : 2 * r < dim - d)
    (hu : -r ≤ toroidalDistance lo b dim ∧ toroidalDistance lo b dim ≤ r)
    (hv : -r ≤ toroidalDistance hi b dim ∧ toroidalDistance hi b dim ≤ r) :
    toroidalDistance lo b dim ≤ toroidalDistance p b dim ∧ toroidalDistance p b dim ≤ toroidalDistance hi b dim := by
  have cu := toroidalDistance_cong (a := lo) (b := b) hd
  have cv := toroidalDistance_cong (a := hi) (b := b) hd
  generalize hU : toroidalDistance lo b dim = u at *
  generalize hV : toroidalDistance hi b dim = v at *
  have hvu : v = u + (hi - lo) := by
    have : Cong dim v (u + (hi - lo)) := by
      refine cv.trans ?_
      have := cu.symm.add (Cong.refl (dim := dim) (hi - lo))
      refine Cong.trans ?_ this
      exact ⟨0, by push_cast; ring⟩
    exact this.eq_of_lt hd (by linarith) (by linarith)
  have hp : toroidalDistance p b dim = u + (p - lo) := by
    apply toroidalDistance_eq hd
    · have := cu.add (Cong.refl (dim := dim) (p - lo))
      refine this.trans ⟨0, by push_cast; ring⟩
    · linarith
    · linarith
  rw [hp]
  constructor <;> linarith

end Verif.Torus
