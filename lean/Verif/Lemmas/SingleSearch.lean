import Verif.Props.SingleTorus
import Verif.Props.SingleField

/-! Lemmas about distances and cells in single precision. -/

set_option linter.unusedSectionVars false

namespace Verif.Single

open Grid Torus
open Field2D (FieldOp InField)

/-! ### distances -/

theorem unround {rnd : Rat → Rat} (hr : Rounding rnd) {v : Rat} (hv : 0 ≤ v) : v ≤ (rnd v + 1 / 2 ^ 150) * (1 + 2 / 2 ^ 24) := by
  have h := hr.near v
  rw [abs_of_nonneg hv, abs_le] at h
  have h1 := h.1
  linarith

theorem rounded_le {rnd : Rat → Rat} (hr : Rounding rnd) {v : Rat} (hv : 0 ≤ v) : rnd v ≤ v * (1 + 1 / 2 ^ 24) + 1 / 2 ^ 150 := by
  have h := hr.near v
  rw [abs_of_nonneg hv, abs_le] at h
  have h2 := h.2
  linarith

/-- If the computed norm is at most `dis`, the exact norm is hardly longer. -/
theorem norm_sound {rnd root : Rat → Rat} (hr : Rounding rnd) (hq : Root root) {x y dis : Rat} (hdis : 0 ≤ dis)
    (h : root (rnd (rnd (x * x) + rnd (y * y))) ≤ dis) :
    x * x + y * y ≤ (dis * (1 + 1 / 2 ^ 20) + 1 / 2 ^ 72) * (dis * (1 + 1 / 2 ^ 20) + 1 / 2 ^ 72) := by
  have hx := unround hr (mul_self_nonneg x)
  have hy := unround hr (mul_self_nonneg y)
  have hx0 := hr.nonneg (mul_self_nonneg x)
  have hy0 := hr.nonneg (mul_self_nonneg y)
  have hs := unround hr (add_nonneg hx0 hy0)
  have hs0 := hr.nonneg (add_nonneg hx0 hy0)
  generalize rnd (x * x) = a at *
  generalize rnd (y * y) = b at *
  generalize rnd (a + b) = s at *
  have hz0 : 0 ≤ dis * (1 + 4 / 2 ^ 24) + 1 / 2 ^ 147 := by positivity
  have hn := hr.near (dis * (1 + 4 / 2 ^ 24) + 1 / 2 ^ 147)
  rw [abs_of_nonneg hz0, abs_le] at hn
  obtain ⟨n1, n2⟩ := hn
  have hy1 := hr.lands (dis * (1 + 4 / 2 ^ 24) + 1 / 2 ^ 147)
  have hy2 := hr.nonneg hz0
  generalize rnd (dis * (1 + 4 / 2 ^ 24) + 1 / 2 ^ 147) = z at *
  have hgt : dis < z := by linarith
  have hup : z ≤ dis * (1 + 6 / 2 ^ 24) + 1 / 2 ^ 146 := by linarith
  have hlt : s ≤ z * z := by
    by_contra hc
    have := hq.below s z hs0 hy1 hy2 (le_of_lt (lt_of_not_ge hc))
    linarith
  have hzz : z * z ≤ (dis * (1 + 6 / 2 ^ 24) + 1 / 2 ^ 146) * (dis * (1 + 6 / 2 ^ 24) + 1 / 2 ^ 146) := mul_self_le_mul_self hy2 hup
  have hsum : x * x + y * y ≤ s * (1 + 5 / 2 ^ 24) + 5 / 2 ^ 150 := by linarith
  have hdd := mul_self_nonneg dis
  nlinarith

/-- If the exact norm is at most a little less than `dis`, the computed norm is at most `dis`. -/
theorem norm_complete {rnd root : Rat → Rat} (hr : Rounding rnd) (hq : Root root) {x y dis : Rat} (hf : IsF32 dis) (hdis : 0 ≤ dis)
    (hpos : 0 ≤ dis * (1 - 1 / 2 ^ 20) - 1 / 2 ^ 72)
    (h : x * x + y * y ≤ (dis * (1 - 1 / 2 ^ 20) - 1 / 2 ^ 72) * (dis * (1 - 1 / 2 ^ 20) - 1 / 2 ^ 72)) :
    root (rnd (rnd (x * x) + rnd (y * y))) ≤ dis := by
  have hx := rounded_le hr (mul_self_nonneg x)
  have hy := rounded_le hr (mul_self_nonneg y)
  have hx0 := hr.nonneg (mul_self_nonneg x)
  have hy0 := hr.nonneg (mul_self_nonneg y)
  have hs := rounded_le hr (add_nonneg hx0 hy0)
  have hs0 := hr.nonneg (add_nonneg hx0 hy0)
  generalize rnd (x * x) = a at *
  generalize rnd (y * y) = b at *
  generalize rnd (a + b) = s at *
  refine hq.above s dis hs0 hf hdis ?_
  have hxy : 0 ≤ x * x + y * y := add_nonneg (mul_self_nonneg x) (mul_self_nonneg y)
  have hsum : s ≤ (x * x + y * y) * (1 + 3 / 2 ^ 24) + 4 / 2 ^ 150 := by linarith
  have hdd := mul_self_nonneg dis
  nlinarith

theorem norm_grow {x y X Y E e : Rat} (hE : 0 ≤ E) (he : 0 ≤ e) (h : X * X + Y * Y ≤ E * E) (hx : |x| ≤ |X| + e) (hy : |y| ≤ |Y| + e) :
    x * x + y * y ≤ (E + 2 * e) * (E + 2 * e) := by
  have h1 : x * x = |x| * |x| := (abs_mul_abs_self x).symm
  have h2 : y * y = |y| * |y| := (abs_mul_abs_self y).symm
  have h3 : X * X = |X| * |X| := (abs_mul_abs_self X).symm
  have h4 : Y * Y = |Y| * |Y| := (abs_mul_abs_self Y).symm
  have a := abs_nonneg x
  have b := abs_nonneg y
  have c := abs_nonneg X
  have d := abs_nonneg Y
  have hX : |X| ≤ E := abs_le_of_sq_le_sq' (by nlinarith [mul_self_nonneg Y]) hE |> abs_le.2
  have hY : |Y| ≤ E := abs_le_of_sq_le_sq' (by nlinarith [mul_self_nonneg X]) hE |> abs_le.2
  rw [h1, h2]
  rw [h3, h4] at h
  have e1 := mul_self_le_mul_self a hx
  have e2 := mul_self_le_mul_self b hy
  nlinarith

/-- The error of one coordinate of a distance on a field of size `dim`. -/
def coordErr (dim : Rat) : Rat := 4 * (dim / 2 ^ 24 + 1 / 2 ^ 150)

theorem coordErr_nonneg {dim : Rat} (h : 0 < dim) : 0 ≤ coordErr dim := by unfold coordErr; positivity

theorem isF32_half {x : Rat} (h : IsF32 x) (hb : 1 / 2 ^ 40 ≤ x) : IsF32 (x / 2) := by
  obtain ⟨m, e, h1, h2, h3⟩ := h
  rcases lt_or_eq_of_le h2 with h | h
  · refine ⟨m, e - 1, h1, by omega, ?_⟩
    rw [h3, zpow_sub₀ (by norm_num), zpow_one]; ring
  · exfalso
    rw [← h] at h3
    have hm : (m : Rat) ≤ 2 ^ 24 := by
      have h7 : (m : Rat) ≤ ((2 ^ 24 : Int) : Rat) := by exact_mod_cast le_trans (le_abs_self m) h1
      push_cast at h7
      exact h7
    have hz := two_zpow_pos (-149)
    have h4 : x ≤ 2 ^ 24 * (2 : Rat) ^ (-149 : Int) := by rw [h3]; exact mul_le_mul_of_nonneg_right hm hz.le
    have h5 : (2 : Rat) ^ 24 * (2 : Rat) ^ (-149 : Int) < 1 / 2 ^ 40 := by norm_num
    exact absurd hb (not_le.2 (lt_of_le_of_lt h4 h5))

/-- One coordinate of a computed distance is as long as the exact one up to `coordErr`. -/
theorem coord_near {rnd : Rat → Rat} (hr : Rounding rnd) (tor : Bool) {a b dim : Rat} (ha : IsF32 a) (hb : IsF32 b) (hd : IsF32 dim)
    (hbig : 1 / 2 ^ 40 ≤ dim) (hab : |a - b| ≤ 4 * dim) :
    |coordDiff rnd tor a b dim| ≤ |diff tor a b dim| + coordErr dim ∧ |diff tor a b dim| ≤ |coordDiff rnd tor a b dim| + coordErr dim := by
  have h0 : 0 < dim := lt_of_lt_of_le (by norm_num) hbig
  cases tor
  · simp only [coordDiff, diff, Bool.false_eq_true, if_false]
    have hn := hr.near_le hab
    have e : 4 * dim / 2 ^ 24 + 1 / 2 ^ 150 ≤ coordErr dim := by
      unfold coordErr
      have : (0 : Rat) ≤ 1 / 2 ^ 150 := by positivity
      linarith
    have h1 := abs_abs_sub_abs_le_abs_sub (rnd (a - b)) (a - b)
    have h2 := (abs_le.1 (le_trans h1 hn))
    constructor <;> linarith [h2.1, h2.2]
  · simp only [coordDiff, diff, if_true]
    obtain ⟨h1, k, h2⟩ := C172_shortest_way rnd hr a b dim ha hb hd (isF32_half hd hbig) h0
    obtain ⟨j, hj⟩ := toroidalDistance_cong (a := a) (b := b) h0
    have h3 := h1 j
    rw [← hj] at h3
    have h4 := toroidalDistance_min (a := a) (b := b) h0 k
    have h5 : |toroidalDistance a b dim| ≤ |a - b + k * dim| := abs_le_abs_of_sq h4
    exact ⟨h3, by unfold coordErr; linarith⟩
where
  abs_le_abs_of_sq {u v : Rat} (h : u * u ≤ v * v) : |u| ≤ |v| := by
    rw [← abs_mul_abs_self u, ← abs_mul_abs_self v] at h
    exact abs_le_of_mul_self h
  abs_le_of_mul_self {u v : Rat} (h : |u| * |u| ≤ |v| * |v|) : |u| ≤ |v| := by
    by_contra hc
    have := lt_of_not_ge hc
    have := abs_nonneg v
    nlinarith

/-- The radius within which the exact distance lies if the computed distance is at most `dis`. -/
def outer (w h dis : Rat) : Rat := dis * (1 + 1 / 2 ^ 20) + 1 / 2 ^ 72 + 2 * (coordErr w + coordErr h)

/-- An exact distance below this radius is computed to be at most `dis`. -/
def inner (w h dis : Rat) : Rat := dis * (1 - 1 / 2 ^ 20) - 1 / 2 ^ 72 - 2 * (coordErr w + coordErr h)

theorem dist_sound {rnd root : Rat → Rat} (hr : Rounding rnd) (hq : Root root) (tor : Bool) {p q : Pos} {w h dis : Rat}
    (hpx : IsF32 p.x) (hpy : IsF32 p.y) (hqx : IsF32 q.x) (hqy : IsF32 q.y) (hw : IsF32 w) (hh : IsF32 h) (hw0 : 1 / 2 ^ 40 ≤ w) (hh0 : 1 / 2 ^ 40 ≤ h)
    (hx : |p.x - q.x| ≤ 4 * w) (hy : |p.y - q.y| ≤ 4 * h) (hdis : 0 ≤ dis) (hle : dist rnd root p q w h tor ≤ dis) :
    distSq p q w h tor ≤ outer w h dis * outer w h dis := by
  have ew := coordErr_nonneg (lt_of_lt_of_le (by norm_num) hw0 : 0 < w)
  have eh := coordErr_nonneg (lt_of_lt_of_le (by norm_num) hh0 : 0 < h)
  have h1 := norm_sound hr hq hdis hle
  obtain ⟨_, c1⟩ := coord_near hr tor hpx hqx hw hw0 hx
  obtain ⟨_, c2⟩ := coord_near hr tor hpy hqy hh hh0 hy
  exact norm_grow (by positivity) (add_nonneg ew eh) h1 (by linarith) (by linarith)

theorem dist_complete {rnd root : Rat → Rat} (hr : Rounding rnd) (hq : Root root) (tor : Bool) {p q : Pos} {w h dis : Rat}
    (hpx : IsF32 p.x) (hpy : IsF32 p.y) (hqx : IsF32 q.x) (hqy : IsF32 q.y) (hw : IsF32 w) (hh : IsF32 h) (hw0 : 1 / 2 ^ 40 ≤ w) (hh0 : 1 / 2 ^ 40 ≤ h)
    (hx : |p.x - q.x| ≤ 4 * w) (hy : |p.y - q.y| ≤ 4 * h) (hf : IsF32 dis) (hdis : 0 ≤ dis) (hin : 0 ≤ inner w h dis)
    (hle : distSq p q w h tor ≤ inner w h dis * inner w h dis) : dist rnd root p q w h tor ≤ dis := by
  have ew := coordErr_nonneg (lt_of_lt_of_le (by norm_num) hw0 : 0 < w)
  have eh := coordErr_nonneg (lt_of_lt_of_le (by norm_num) hh0 : 0 < h)
  obtain ⟨c1, _⟩ := coord_near hr tor hpx hqx hw hw0 hx
  obtain ⟨c2, _⟩ := coord_near hr tor hpy hqy hh hh0 hy
  have h1 := norm_grow hin (add_nonneg ew eh) hle (x := coordDiff rnd tor p.x q.x w) (y := coordDiff rnd tor p.y q.y h) (by linarith) (by linarith)
  rw [show inner w h dis + 2 * (coordErr w + coordErr h) = dis * (1 - 1 / 2 ^ 20) - 1 / 2 ^ 72 by unfold inner; ring] at h1
  refine norm_complete hr hq hf hdis ?_ h1
  unfold inner at hin
  linarith

/-! ### cells -/

/-- How far a cell computed in single precision is from its square. -/
def cellErr (w d : Rat) : Rat := 8 * ((w + d) / 2 ^ 24)

theorem isF32_min {x y : Rat} (hx : IsF32 x) (hy : IsF32 y) : IsF32 (min x y) := by
  rcases min_choice x y with h | h <;> rw [h] <;> assumption

/-- The ends of the cell of `x`, up to `cellErr`. -/
theorem cell_ends {rnd : Rat → Rat} (hr : Rounding rnd) {w d x : Rat} (hd : 1 / 2 ^ 40 ≤ d) (hx : 0 ≤ x) (hxw : x ≤ w)
    (hcells : (rnd (x / d)).floor ≤ 2 ^ 24) :
    lowEnd rnd (rnd (x / d)).floor d ≤ x + cellErr w d ∧ x - d - cellErr w d ≤ lowEnd rnd (rnd (x / d)).floor d ∧ 0 ≤ lowEnd rnd (rnd (x / d)).floor d ∧
      x ≤ highEnd rnd (rnd (x / d)).floor d w + cellErr w d ∧ 0 ≤ highEnd rnd (rnd (x / d)).floor d w ∧
      highEnd rnd (rnd (x / d)).floor d w - lowEnd rnd (rnd (x / d)).floor d ≤ d + cellErr w d := by
  have hd0 : 0 < d := lt_of_lt_of_le (by norm_num) hd
  have hi0 : (0 : Int) ≤ (rnd (x / d)).floor := Rat.le_floor_iff.2 (by push_cast; exact hr.nonneg (by positivity))
  obtain ⟨s1, s2⟩ := floor_slack hr hd0 hx
  unfold slack at s1 s2
  unfold highEnd lowEnd
  rw [hr.keeps (isF32_int hi0 hcells)]
  have hi0' : (0 : Rat) ≤ (rnd (x / d)).floor := by exact_mod_cast hi0
  generalize ((rnd (x / d)).floor : Rat) = i at *
  have hid : 0 ≤ i * d := by positivity
  have hl0 := hr.nonneg hid
  have n1 := hr.near (i * d)
  rw [abs_of_nonneg hid, abs_le] at n1
  obtain ⟨n1a, n1b⟩ := n1
  generalize rnd (i * d) = lo at *
  have hld : 0 ≤ lo + d := by linarith
  have n2 := hr.near (lo + d)
  rw [abs_of_nonneg hld, abs_le] at n2
  obtain ⟨n2a, n2b⟩ := n2
  have hh0 := hr.nonneg hld
  generalize rnd (lo + d) = hi at *
  have e2 : (i + 1) * d = i * d + d := by ring
  rw [e2] at s2
  generalize i * d = id' at *
  unfold cellErr
  refine ⟨by linarith, by linarith, hl0, ?_, le_min hh0 (by linarith), ?_⟩
  · rcases min_choice hi w with h | h <;> rw [h]
    · linarith
    · linarith
  · have := min_le_left hi w
    linarith

/-- The allowance for rounding in a search: a relative error of the distance and the sizes. -/
def allowance (w h d dis : Rat) : Rat := (dis + w + h + d) / 2 ^ 18

theorem outer_le {w h d dis : Rat} (hd : 1 / 2 ^ 40 ≤ d) (hw : d ≤ w) (hh : d ≤ h) (hdis : 0 ≤ dis) :
    outer w h dis + 2 * (cellErr w d + cellErr h d) ≤ dis + allowance w h d dis := by
  unfold outer cellErr coordErr allowance
  linarith

theorem inner_ge {w h d dis : Rat} (hd : 1 / 2 ^ 40 ≤ d) (hw : d ≤ w) (hh : d ≤ h) (hdis : 0 ≤ dis) :
    dis - allowance w h d dis + 3 * (cellErr w d + cellErr h d) / 2 ≤ inner w h dis := by
  unfold inner cellErr coordErr allowance
  linarith

theorem abs_diff_le_of_sq {u v : Rat} (h : u * u ≤ v * v) : |u| ≤ |v| := by
  rw [← abs_mul_abs_self u, ← abs_mul_abs_self v] at h
  by_contra hc
  have := lt_of_not_ge hc
  have := abs_nonneg v
  nlinarith

/-- Moving a point changes its distance by at most as much. -/
theorem diff_move (tor : Bool) (p c b : Rat) {dim : Rat} (h0 : 0 < dim) : |diff tor p b dim| ≤ |diff tor c b dim| + |p - c| := by
  cases tor
  · simp only [diff, Bool.false_eq_true, if_false]
    calc |p - b| = |(c - b) + (p - c)| := by congr 1; ring
      _ ≤ _ := abs_add_le _ _
  · simp only [diff, if_true]
    obtain ⟨k, hk⟩ := toroidalDistance_cong (a := c) (b := b) h0
    have h1 := abs_diff_le_of_sq (toroidalDistance_min (a := p) (b := b) h0 k)
    refine le_trans h1 ?_
    calc |p - b + k * dim| = |toroidalDistance c b dim + (p - c)| := by rw [hk]; congr 1; ring
      _ ≤ _ := abs_add_le _ _

/-- The straight way is not shorter than the distance. -/
theorem diff_le (tor : Bool) (a b : Rat) {dim : Rat} (h0 : 0 < dim) : |diff tor a b dim| ≤ |a - b| := by
  cases tor
  · simp only [diff, Bool.false_eq_true, if_false]; exact le_refl _
  · simp only [diff, if_true]
    have h1 := abs_diff_le_of_sq (toroidalDistance_min (a := a) (b := b) h0 0)
    simpa using h1

/-- A point between the ends of an interval, close to `p`. -/
theorem exists_between {lo hi p e : Rat} (he : 0 ≤ e) (h1 : lo ≤ p + e) (h2 : p ≤ hi + e) :
    ∃ c, |p - c| ≤ e ∧ (lo ≤ c ∧ c ≤ hi ∨ hi ≤ c ∧ c ≤ lo) := by
  by_cases a : p < lo
  · refine ⟨lo, ?_, ?_⟩
    · rw [abs_of_nonpos (by linarith)]; linarith
    · rcases le_total lo hi with h | h
      · exact Or.inl ⟨le_refl _, h⟩
      · exact Or.inr ⟨h, le_refl _⟩
  · by_cases b : hi < p
    · refine ⟨hi, ?_, ?_⟩
      · rw [abs_of_nonneg (by linarith)]; linarith
      · rcases le_total lo hi with h | h
        · exact Or.inl ⟨h, le_refl _⟩
        · exact Or.inr ⟨le_refl _, h⟩
    · exact ⟨p, by rw [sub_self, abs_zero]; exact he, Or.inl ⟨not_lt.1 a, not_lt.1 b⟩⟩

/-- The signed distance of a point between two near points lies between theirs. -/
theorem diff_between (tor : Bool) {lo hi c b dim len r : Rat} (h0 : 0 < dim) (hlen : hi - lo ≤ len) (hlen' : lo - hi ≤ len)
    (hc : lo ≤ c ∧ c ≤ hi ∨ hi ≤ c ∧ c ≤ lo) (hr : tor = true → 2 * r < dim - len) (hl : |diff tor lo b dim| ≤ r) (hh : |diff tor hi b dim| ≤ r) :
    diff tor lo b dim ≤ diff tor c b dim ∧ diff tor c b dim ≤ diff tor hi b dim ∨ diff tor hi b dim ≤ diff tor c b dim ∧ diff tor c b dim ≤ diff tor lo b dim := by
  rw [abs_le] at hl hh
  cases tor
  · simp only [diff, Bool.false_eq_true, if_false] at *
    rcases hc with ⟨a, b⟩ | ⟨a, b⟩
    · left; constructor <;> linarith
    · right; constructor <;> linarith
  · simp only [diff, if_true] at *
    rcases hc with ⟨a, b⟩ | ⟨a, b⟩
    · left; exact toroidal_arc h0 hlen a b (hr trivial) hl hh
    · right; exact toroidal_arc h0 hlen' a b (hr trivial) hh hl

theorem corners_bound' {u v p u' v' q r : Rat} (h : u ≤ p ∧ p ≤ v ∨ v ≤ p ∧ p ≤ u) (h' : u' ≤ q ∧ q ≤ v' ∨ v' ≤ q ∧ q ≤ u')
    (a : u * u + u' * u' ≤ r) (b : u * u + v' * v' ≤ r) (c : v * v + u' * u' ≤ r) (d : v * v + v' * v' ≤ r) : p * p + q * q ≤ r := by
  rcases h with ⟨h1, h2⟩ | ⟨h1, h2⟩ <;> rcases h' with ⟨h3, h4⟩ | ⟨h3, h4⟩
  · exact corners_bound h1 h2 h3 h4 a b c d
  · exact corners_bound h1 h2 h3 h4 b a d c
  · exact corners_bound h1 h2 h3 h4 c d a b
  · exact corners_bound h1 h2 h3 h4 d c b a

theorem abs_le_of_norm {u v r : Rat} (hr : 0 ≤ r) (h : u * u + v * v ≤ r * r) : |u| ≤ r ∧ |v| ≤ r := by
  obtain ⟨h1, h2⟩ := Field2D.abs_of_sq hr h
  exact ⟨abs_le.2 h1, abs_le.2 h2⟩

/-- The position and the sizes of a search in single precision. -/
structure Fits (rnd : Rat → Rat) (w h d : Rat) (p : Pos) : Prop where
  inField : InField w h p
  x : IsF32 p.x
  y : IsF32 p.y
  cellX : (rnd (p.x / d)).floor ≤ 2 ^ 24
  cellY : (rnd (p.y / d)).floor ≤ 2 ^ 24

/-- A point near a rectangle whose four corners are within `R`. -/
theorem near_rectangle (tor : Bool) {w h R sw sh lenx leny lx hx ly hy : Rat} {p loc : Pos} (wpos : 0 < w) (hpos : 0 < h) (hR : 0 ≤ R) (hsw : 0 ≤ sw)
    (hsh : 0 ≤ sh) (a1 : lx ≤ p.x + sw) (a4 : p.x ≤ hx + sw) (b1 : ly ≤ p.y + sh) (b4 : p.y ≤ hy + sh) (lx1 : hx - lx ≤ lenx) (lx2 : lx - hx ≤ lenx)
    (ly1 : hy - ly ≤ leny) (ly2 : ly - hy ≤ leny) (hsmall : tor = true → 2 * R < w - lenx ∧ 2 * R < h - leny)
    (d1 : distSq ⟨lx, ly⟩ loc w h tor ≤ R * R) (d2 : distSq ⟨lx, hy⟩ loc w h tor ≤ R * R)
    (d3 : distSq ⟨hx, ly⟩ loc w h tor ≤ R * R) (d4 : distSq ⟨hx, hy⟩ loc w h tor ≤ R * R) :
    distSq p loc w h tor ≤ (R + 2 * (sw + sh)) * (R + 2 * (sw + sh)) := by
  unfold distSq at *
  dsimp only at d1 d2 d3 d4
  obtain ⟨cx, ex, hcx⟩ := exists_between hsw a1 a4
  obtain ⟨cy, ey, hcy⟩ := exists_between hsh b1 b4
  obtain ⟨n1, n2⟩ := abs_le_of_norm hR d1
  obtain ⟨n3, n4⟩ := abs_le_of_norm hR d4
  have kx := diff_between tor wpos lx1 lx2 hcx (fun ht => (hsmall ht).1) n1 n3
  have ky := diff_between tor hpos ly1 ly2 hcy (fun ht => (hsmall ht).2) n2 n4
  have hcen := corners_bound' kx ky d1 d2 d3 d4
  have mx := diff_move tor p.x cx loc.x wpos
  have my := diff_move tor p.y cy loc.y hpos
  exact norm_grow hR (add_nonneg hsw hsh) hcen (by linarith) (by linarith)

theorem check_one {rnd root : Rat → Rat} {b : Loc} {d w h dis : Rat} {loc : Pos} {tor : Bool} (hc : checkCircle rnd root b d w h loc dis tor = 1) :
    dist rnd root ⟨lowEnd rnd b.x d, lowEnd rnd b.y d⟩ loc w h tor ≤ dis ∧ dist rnd root ⟨lowEnd rnd b.x d, highEnd rnd b.y d h⟩ loc w h tor ≤ dis ∧
      dist rnd root ⟨highEnd rnd b.x d w, lowEnd rnd b.y d⟩ loc w h tor ≤ dis ∧
      dist rnd root ⟨highEnd rnd b.x d w, highEnd rnd b.y d h⟩ loc w h tor ≤ dis := by
  unfold checkCircle at hc
  split at hc
  · assumption
  · split at hc
    · exact absurd hc (by decide)
    · exact absurd hc (by decide)

theorem abs_near {a b w s : Rat} (h1 : 0 ≤ a) (h2 : a ≤ w + s) (h3 : 0 ≤ b) (h4 : b ≤ w) (hs : s ≤ w) : |a - b| ≤ 4 * w := by
  rw [abs_le]; constructor <;> linarith

/-- If all computed corners of the cell of `p` are within `dis`, so is `p`, up to the allowance. -/
theorem full_cell {rnd root : Rat → Rat} (hr : Rounding rnd) (hq : Root root) (tor : Bool) {w h d dis : Rat} (hd : 1 / 2 ^ 40 ≤ d) (hw : d ≤ w) (hh : d ≤ h)
    (fw : IsF32 w) (fh : IsF32 h) {p loc : Pos} (hp : Fits rnd w h d p) (hl : Fits rnd w h d loc) (hdis : 0 ≤ dis)
    (hsmall : tor = true → 2 * (dis + allowance w h d dis) + d + allowance w h d dis < w ∧ 2 * (dis + allowance w h d dis) + d + allowance w h d dis < h)
    (hc : checkCircle rnd root (discretize rnd d p) d w h loc dis tor = 1) :
    distSq p loc w h tor ≤ (dis + allowance w h d dis) * (dis + allowance w h d dis) := by
  have hw0 : 1 / 2 ^ 40 ≤ w := le_trans hd hw
  have hh0 : 1 / 2 ^ 40 ≤ h := le_trans hd hh
  have wpos : 0 < w := lt_of_lt_of_le (by norm_num) hw0
  have hpos : 0 < h := lt_of_lt_of_le (by norm_num) hh0
  have dpos : 0 < d := lt_of_lt_of_le (by norm_num) hd
  obtain ⟨p1, p2, p3, p4⟩ := hp.inField
  obtain ⟨l1, l2, l3, l4⟩ := hl.inField
  obtain ⟨a1, a2, a3, a4, a5, a6⟩ := cell_ends hr hd p1 p2 hp.cellX
  obtain ⟨b1, b2, b3, b4, b5, b6⟩ := cell_ends hr hd p3 p4 hp.cellY
  have sw : 0 ≤ cellErr w d := by unfold cellErr; positivity
  have sh : 0 ≤ cellErr h d := by unfold cellErr; positivity
  have sw' : cellErr w d ≤ w := by unfold cellErr; linarith only [hw, wpos]
  have sh' : cellErr h d ≤ h := by unfold cellErr; linarith only [hh, hpos]
  have sa : 2 * cellErr w d ≤ allowance w h d dis := by unfold cellErr allowance; linarith only [hdis, wpos, hpos, dpos]
  have sb : 2 * cellErr h d ≤ allowance w h d dis := by unfold cellErr allowance; linarith only [hdis, wpos, hpos, dpos]
  have hall := outer_le hd hw hh hdis
  have h3 : highEnd rnd (rnd (p.x / d)).floor d w ≤ w := min_le_right _ w
  have h4 : highEnd rnd (rnd (p.y / d)).floor d h ≤ h := min_le_right _ h
  have f1 : IsF32 (lowEnd rnd (rnd (p.x / d)).floor d) := hr.lands _
  have f2 : IsF32 (lowEnd rnd (rnd (p.y / d)).floor d) := hr.lands _
  have f3 : IsF32 (highEnd rnd (rnd (p.x / d)).floor d w) := isF32_min (hr.lands _) fw
  have f4 : IsF32 (highEnd rnd (rnd (p.y / d)).floor d h) := isF32_min (hr.lands _) fh
  obtain ⟨c1, c2, c3, c4⟩ := check_one hc
  simp only [discretize] at c1 c2 c3 c4
  generalize lowEnd rnd (rnd (p.x / d)).floor d = lx at *
  generalize lowEnd rnd (rnd (p.y / d)).floor d = ly at *
  generalize highEnd rnd (rnd (p.x / d)).floor d w = hx at *
  generalize highEnd rnd (rnd (p.y / d)).floor d h = hy at *
  have glx := abs_near (w := w) a3 (by linarith only [a1, p2] : _ ≤ w + cellErr w d) l1 l2 sw'
  have ghx := abs_near (w := w) a5 (by linarith only [h3, sw] : _ ≤ w + cellErr w d) l1 l2 sw'
  have gly := abs_near (w := h) b3 (by linarith only [b1, p4] : _ ≤ h + cellErr h d) l3 l4 sh'
  have ghy := abs_near (w := h) b5 (by linarith only [h4, sh] : _ ≤ h + cellErr h d) l3 l4 sh'
  have d1 := dist_sound (p := ⟨lx, ly⟩) hr hq tor f1 f2 hl.x hl.y fw fh hw0 hh0 glx gly hdis c1
  have d2 := dist_sound (p := ⟨lx, hy⟩) hr hq tor f1 f4 hl.x hl.y fw fh hw0 hh0 glx ghy hdis c2
  have d3 := dist_sound (p := ⟨hx, ly⟩) hr hq tor f3 f2 hl.x hl.y fw fh hw0 hh0 ghx gly hdis c3
  have d4 := dist_sound (p := ⟨hx, hy⟩) hr hq tor f3 f4 hl.x hl.y fw fh hw0 hh0 ghx ghy hdis c4
  have hR : 0 ≤ outer w h dis := by unfold outer coordErr; positivity
  have hfin := near_rectangle tor wpos hpos hR sw sh a1 a4 b1 b4 (lenx := d + 2 * cellErr w d) (leny := d + 2 * cellErr h d)
    (by linarith only [a6, sw]) (by linarith only [a1, a4, sw, dpos]) (by linarith only [b6, sh]) (by linarith only [b1, b4, sh, dpos])
    (fun ht => ⟨by have := (hsmall ht).1; linarith only [this, hall, sa, sw, sh], by have := (hsmall ht).2; linarith only [this, hall, sb, sw, sh]⟩)
    d1 d2 d3 d4
  exact le_trans hfin (mul_self_le_mul_self (by linarith only [hR, sw, sh]) hall)

end Verif.Single
