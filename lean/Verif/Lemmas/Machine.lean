import Verif.Model.MachineField
import Verif.Model.SingleField
import Verif.Lemmas.SingleField
import Verif.Props.SingleSearch
import Verif.Props.DenseI32

/-!
As long as nothing overflows, the machine arithmetic is the rounded arithmetic of `Verif.Model.SingleField`.
-/

set_option linter.unusedSectionVars false

namespace Verif.Machine

open Grid
open Torus (Pos fmod)
open Single (Rounding)
open DenseI32 (Mode fit)

theorem pow_le_largest : (2 : Rat) ^ 127 ≤ largest := by unfold largest; norm_num

theorem rnd_pow {rnd : Rat → Rat} (hr : Rounding rnd) {x : Rat} (k : Nat) (h : |x| ≤ 2 ^ k) : |rnd x| ≤ 2 ^ k := by
  have hk : Single.IsF32 ((2 : Rat) ^ k) := ⟨1, k, by norm_num, by omega, by simp⟩
  rw [abs_le] at h ⊢
  constructor
  · have := hr.mono _ _ h.1
    rwa [hr.odd, hr.keeps hk] at this
  · have := hr.mono _ _ h.2
    rwa [hr.keeps hk] at this

theorem ofRat_of {rnd : Rat → Rat} (hr : Rounding rnd) {x : Rat} (h : |x| ≤ 2 ^ 127) : ofRat rnd x = .fin (rnd x) := by
  have h1 := abs_le.1 (le_trans (rnd_pow hr 127 h) pow_le_largest)
  unfold ofRat
  rw [if_neg (not_lt.2 h1.2), if_neg (not_lt.2 h1.1)]

theorem add_of {rnd : Rat → Rat} (hr : Rounding rnd) {x y : Rat} (h : |x + y| ≤ 2 ^ 127) : add rnd (.fin x) (.fin y) = .fin (rnd (x + y)) := ofRat_of hr h

theorem sub_of {rnd : Rat → Rat} (hr : Rounding rnd) {x y : Rat} (h : |x - y| ≤ 2 ^ 127) : sub rnd (.fin x) (.fin y) = .fin (rnd (x - y)) := by
  rw [sub_eq_add_neg] at *
  exact ofRat_of hr h

theorem mul_of {rnd : Rat → Rat} (hr : Rounding rnd) {x y : Rat} (h : |x * y| ≤ 2 ^ 127) : mul rnd (.fin x) (.fin y) = .fin (rnd (x * y)) := ofRat_of hr h

theorem div_of {rnd : Rat → Rat} (hr : Rounding rnd) {x y : Rat} (hy : y ≠ 0) (h : |x / y| ≤ 2 ^ 127) : div rnd (.fin x) (.fin y) = .fin (rnd (x / y)) := by
  show (if y = 0 then _ else ofRat rnd (x / y)) = _
  rw [if_neg hy]
  exact ofRat_of hr h

theorem abs_sub_le' {x y : Rat} {a b : Rat} (hx : |x| ≤ a) (hy : |y| ≤ b) : |x - y| ≤ a + b := by
  rw [abs_le] at *
  constructor <;> linarith [hx.1, hx.2, hy.1, hy.2]

theorem abs_add_le' {x y : Rat} {a b : Rat} (hx : |x| ≤ a) (hy : |y| ≤ b) : |x + y| ≤ a + b := by
  rw [abs_le] at *
  constructor <;> linarith [hx.1, hx.2, hy.1, hy.2]

theorem abs_mul_le' {x y : Rat} {a b : Rat} (hx : |x| ≤ a) (hy : |y| ≤ b) : |x * y| ≤ a * b := by
  rw [abs_mul]
  exact mul_le_mul hx hy (abs_nonneg _) (le_trans (abs_nonneg _) hx)

theorem abs_fmod {v dim : Rat} (h0 : 0 < dim) : |fmod v dim| ≤ dim := by
  obtain ⟨_, h1, h2, _⟩ := Torus.fmod_spec (val := v) h0
  rw [abs_le]
  exact ⟨h1.le, h2.le⟩

theorem transform_small {rnd : Rat → Rat} (hr : Rounding rnd) {v dim : Rat} (h0 : 0 < dim) (k : Nat) (hd : dim ≤ 2 ^ k) : |Single.transform rnd v dim| ≤ 2 ^ (k + 1) := by
  have hk : (2 : Rat) ^ k ≤ 2 ^ (k + 1) := pow_le_pow_right₀ (by norm_num) (by omega)
  have e : (2 : Rat) ^ k + 2 ^ k = 2 ^ (k + 1) := by rw [pow_succ]; ring
  unfold Single.transform
  split_ifs with h1 h2
  · rw [abs_of_nonneg h1.1]; linarith [h1.2]
  · apply rnd_pow hr
    rw [← e]
    exact abs_add_le' (le_trans (abs_fmod h0) hd) (by rw [abs_of_pos h0]; exact hd)
  · exact le_trans (abs_fmod h0) (by linarith)

theorem transform_of {rnd : Rat → Rat} (hr : Rounding rnd) (v : Rat) {dim : Rat} (h0 : 0 < dim) (hd : dim ≤ 2 ^ 126) :
    transform rnd (.fin v) (.fin dim) = .fin (Single.transform rnd v dim) := by
  have hrem : rem (.fin v) (.fin dim) = .fin (fmod v dim) := if_neg h0.ne'
  have hadd : add rnd (.fin (fmod v dim)) (.fin dim) = .fin (rnd (fmod v dim + dim)) := by
    apply add_of hr
    have := abs_add_le' (abs_fmod (v := v) h0) (le_of_eq (abs_of_pos h0))
    refine le_trans this ?_
    have : (2 : Rat) ^ 127 = 2 ^ 126 + 2 ^ 126 := by norm_num
    linarith
  unfold transform Single.transform
  rw [hrem, hadd]
  simp only [le, lt, Bool.and_eq_true, decide_eq_true_eq]
  split_ifs <;> rfl

theorem apart_of {rnd : Rat → Rat} (hr : Rounding rnd) (u v : Rat) {dim : Rat} (h0 : 0 < dim) (hd : dim ≤ 2 ^ 56) :
    apart rnd (.fin u) (.fin v) (.fin dim) = .fin (Single.apart rnd u v dim) ∧ |Single.apart rnd u v dim| ≤ 2 ^ 58 := by
  have hd' : dim ≤ 2 ^ 126 := le_trans hd (by norm_num)
  have h1 := transform_small hr (v := u) h0 56 hd
  have h2 := transform_small hr (v := v) h0 56 hd
  have h3 : |Single.transform rnd u dim - Single.transform rnd v dim| ≤ 2 ^ 58 := le_trans (abs_sub_le' h1 h2) (by norm_num)
  unfold apart Single.apart
  rw [transform_of hr u h0 hd', transform_of hr v h0 hd']
  exact ⟨sub_of hr (le_trans h3 (by norm_num)), rnd_pow hr 58 h3⟩

theorem toroidalDist_of {rnd : Rat → Rat} (hr : Rounding rnd) {u v dim : Rat} (h0 : 0 < dim) (hd : dim ≤ 2 ^ 56) (hu : |u| ≤ 2 ^ 56) (hv : |v| ≤ 2 ^ 56) :
    toroidalDist rnd (.fin u) (.fin v) (.fin dim) = .fin (Single.toroidalDist rnd u v dim) ∧ |Single.toroidalDist rnd u v dim| ≤ 2 ^ 59 := by
  obtain ⟨ha, hb⟩ := apart_of hr u v h0 hd
  have hs : |u - v| ≤ 2 ^ 57 := le_trans (abs_sub_le' hu hv) (by norm_num)
  have hdim : |dim| ≤ 2 ^ 56 := by rw [abs_of_pos h0]; exact hd
  have e1 : sub rnd (.fin u) (.fin v) = .fin (rnd (u - v)) := sub_of hr (le_trans hs (by norm_num))
  have e2 : div rnd (.fin dim) (.fin 2) = .fin (rnd (dim / 2)) := by
    apply div_of hr (by norm_num)
    rw [abs_div]
    norm_num
    norm_num at hdim
    linarith
  have e3 : mul rnd (.fin (Single.apart rnd u v dim)) (.fin 2) = .fin (rnd (Single.apart rnd u v dim * 2)) := by
    apply mul_of hr
    exact le_trans (abs_mul_le' hb (le_refl _)) (by norm_num)
  have e4 : |Single.apart rnd u v dim - dim| ≤ 2 ^ 59 := le_trans (abs_sub_le' hb hdim) (by norm_num)
  have e5 : |Single.apart rnd u v dim + dim| ≤ 2 ^ 59 := le_trans (abs_add_le' hb hdim) (by norm_num)
  have e6 : sub rnd (.fin (Single.apart rnd u v dim)) (.fin dim) = .fin (rnd (Single.apart rnd u v dim - dim)) := sub_of hr (le_trans e4 (by norm_num))
  have e7 : add rnd (.fin (Single.apart rnd u v dim)) (.fin dim) = .fin (rnd (Single.apart rnd u v dim + dim)) := add_of hr (le_trans e5 (by norm_num))
  constructor
  · unfold toroidalDist Single.toroidalDist
    rw [ha, e1, e2, e3, e6, e7]
    simp only [le, lt, abs, neg, decide_eq_true_eq, abs_le, gt_iff_lt]
    split_ifs <;> rfl
  · unfold Single.toroidalDist
    split_ifs
    · exact rnd_pow hr 59 (le_trans hs (by norm_num))
    · exact rnd_pow hr 59 e4
    · exact rnd_pow hr 59 e5
    · exact le_trans hb (by norm_num)

theorem coordDiff_of {rnd : Rat → Rat} (hr : Rounding rnd) (tor : Bool) {u v dim : Rat} (h0 : 0 < dim) (hd : dim ≤ 2 ^ 56) (hu : |u| ≤ 2 ^ 56) (hv : |v| ≤ 2 ^ 56) :
    coordDiff rnd tor (.fin u) (.fin v) (.fin dim) = .fin (Single.coordDiff rnd tor u v dim) ∧ |Single.coordDiff rnd tor u v dim| ≤ 2 ^ 59 := by
  have hs : |u - v| ≤ 2 ^ 57 := le_trans (abs_sub_le' hu hv) (by norm_num)
  cases tor with
  | true => exact toroidalDist_of hr h0 hd hu hv
  | false => exact ⟨sub_of hr (le_trans hs (by norm_num)), rnd_pow hr 59 (le_trans hs (by norm_num))⟩

/-- A position without infinities and NaN. -/
def ofPos (p : Pos) : PosF := ⟨.fin p.x, .fin p.y⟩

/-- Coordinates far from overflow. -/
def Small (p : Pos) : Prop := |p.x| ≤ 2 ^ 56 ∧ |p.y| ≤ 2 ^ 56

theorem dist_of {rnd : Rat → Rat} (root : Rat → Rat) (hr : Rounding rnd) (tor : Bool) {p q : Pos} {w h : Rat} (hw : 0 < w) (hh : 0 < h) (hw' : w ≤ 2 ^ 56)
    (hh' : h ≤ 2 ^ 56) (hp : Small p) (hq : Small q) :
    dist rnd root (ofPos p) (ofPos q) (.fin w) (.fin h) tor = .fin (Single.dist rnd root p q w h tor) := by
  obtain ⟨a1, a2⟩ := coordDiff_of hr tor hw hw' hp.1 hq.1
  obtain ⟨b1, b2⟩ := coordDiff_of hr tor hh hh' hp.2 hq.2
  unfold dist Single.dist ofPos
  rw [a1, b1]
  generalize Single.coordDiff rnd tor p.x q.x w = x at *
  generalize Single.coordDiff rnd tor p.y q.y h = y at *
  have h1 : |x * x| ≤ 2 ^ 118 := le_trans (abs_mul_le' a2 a2) (by norm_num)
  have h2 : |y * y| ≤ 2 ^ 118 := le_trans (abs_mul_le' b2 b2) (by norm_num)
  rw [mul_of hr (le_trans h1 (by norm_num)), mul_of hr (le_trans h2 (by norm_num)),
    add_of hr (le_trans (abs_add_le' (rnd_pow hr 118 h1) (rnd_pow hr 118 h2)) (by norm_num))]
  show (if _ then _ else _) = _
  rw [if_neg]
  exact not_lt.2 (hr.nonneg (add_nonneg (hr.nonneg (mul_self_nonneg _)) (hr.nonneg (mul_self_nonneg _))))

theorem lowEnd_of {rnd : Rat → Rat} (hr : Rounding rnd) {i : Int} {d : Rat} (h0 : 0 < d) (hd : d ≤ 2 ^ 30) (hi : |i| ≤ 2 ^ 24) :
    lowEnd rnd i (.fin d) = .fin (Single.lowEnd rnd i d) ∧ |Single.lowEnd rnd i d| ≤ 2 ^ 54 := by
  have hi' : |(i : Rat)| ≤ 2 ^ 24 := by exact_mod_cast hi
  have hd' : |d| ≤ 2 ^ 30 := by rw [abs_of_pos h0]; exact hd
  have h1 : |rnd i * d| ≤ 2 ^ 54 := le_trans (abs_mul_le' (rnd_pow hr 24 hi') hd') (by norm_num)
  unfold lowEnd Single.lowEnd
  rw [ofRat_of hr (le_trans hi' (by norm_num))]
  exact ⟨mul_of hr (le_trans h1 (by norm_num)), rnd_pow hr 54 h1⟩

theorem min_of (a b : Rat) : min (.fin a) (.fin b) = .fin (Min.min a b) := by
  show (if decide (b < a) = true then F.fin b else F.fin a) = _
  simp only [decide_eq_true_eq]
  split_ifs with h
  · rw [min_eq_right h.le]
  · rw [min_eq_left (not_lt.1 h)]

theorem highEnd_of {rnd : Rat → Rat} (hr : Rounding rnd) {i : Int} {d dim : Rat} (h0 : 0 < d) (hd : d ≤ 2 ^ 30) (hi : |i| ≤ 2 ^ 24) (hdim0 : 0 < dim)
    (hdim : dim ≤ 2 ^ 30) :
    highEnd rnd i (.fin d) (.fin dim) = .fin (Single.highEnd rnd i d dim) ∧ |Single.highEnd rnd i d dim| ≤ 2 ^ 56 := by
  obtain ⟨h1, h2⟩ := lowEnd_of hr h0 hd hi
  have hd' : |d| ≤ 2 ^ 30 := by rw [abs_of_pos h0]; exact hd
  have h3 : |Single.lowEnd rnd i d + d| ≤ 2 ^ 56 := le_trans (abs_add_le' h2 hd') (by norm_num)
  unfold highEnd Single.highEnd
  rw [h1, add_of hr (le_trans h3 (by norm_num)), min_of]
  refine ⟨rfl, ?_⟩
  have h4 := rnd_pow hr 56 h3
  rcases min_choice (rnd (Single.lowEnd rnd i d + d)) dim with h | h
  · rw [h]; exact h4
  · rw [h, abs_of_pos hdim0]; exact le_trans hdim (by norm_num)

theorem checkCircle_of {rnd : Rat → Rat} (root : Rat → Rat) (hr : Rounding rnd) (tor : Bool) {b : Loc} {d w h dis : Rat} {loc : Pos} (h0 : 0 < d) (hw : d ≤ w)
    (hh : d ≤ h) (hw' : w ≤ 2 ^ 30) (hh' : h ≤ 2 ^ 30) (hx : |b.x| ≤ 2 ^ 24) (hy : |b.y| ≤ 2 ^ 24) (hl : Small loc) :
    checkCircle rnd root b (.fin d) (.fin w) (.fin h) (ofPos loc) (.fin dis) tor = Single.checkCircle rnd root b d w h loc dis tor := by
  have wpos := lt_of_lt_of_le h0 hw
  have hpos := lt_of_lt_of_le h0 hh
  have w56 : w ≤ 2 ^ 56 := le_trans hw' (by norm_num)
  have h56 : h ≤ 2 ^ 56 := le_trans hh' (by norm_num)
  obtain ⟨a1, a2⟩ := lowEnd_of hr h0 (le_trans hw hw') hx
  obtain ⟨b1, b2⟩ := lowEnd_of hr h0 (le_trans hw hw') hy
  obtain ⟨c1, c2⟩ := highEnd_of hr h0 (le_trans hw hw') hx wpos hw'
  obtain ⟨d1, d2⟩ := highEnd_of hr h0 (le_trans hw hw') hy hpos hh'
  have a3 : |Single.lowEnd rnd b.x d| ≤ 2 ^ 56 := le_trans a2 (by norm_num)
  have b3 : |Single.lowEnd rnd b.y d| ≤ 2 ^ 56 := le_trans b2 (by norm_num)
  unfold checkCircle Single.checkCircle
  rw [a1, b1, c1, d1]
  have q1 := dist_of (p := ⟨Single.lowEnd rnd b.x d, Single.lowEnd rnd b.y d⟩) root hr tor wpos hpos w56 h56 ⟨a3, b3⟩ hl
  have q2 := dist_of (p := ⟨Single.lowEnd rnd b.x d, Single.highEnd rnd b.y d h⟩) root hr tor wpos hpos w56 h56 ⟨a3, d2⟩ hl
  have q3 := dist_of (p := ⟨Single.highEnd rnd b.x d w, Single.lowEnd rnd b.y d⟩) root hr tor wpos hpos w56 h56 ⟨c2, b3⟩ hl
  have q4 := dist_of (p := ⟨Single.highEnd rnd b.x d w, Single.highEnd rnd b.y d h⟩) root hr tor wpos hpos w56 h56 ⟨c2, d2⟩ hl
  rw [ofPos] at q1 q2 q3 q4
  rw [q1, q2, q3, q4]
  simp only [le, lt, Bool.and_eq_true, decide_eq_true_eq, and_assoc, gt_iff_lt]

theorem floor_int (n : Int) : ((n : Rat)).floor = n := Rat.floor_intCast n

theorem ceil_int (n : Int) : ((n : Rat)).ceil = n := Rat.ceil_intCast n

theorem toI32_int {n : Int} (h1 : -2 ^ 31 ≤ n) (h2 : n < 2 ^ 31) : toI32 (.fin n) = n := by
  show Max.max (-2 ^ 31) (Min.min (if (0 : Rat) ≤ (n : Rat) then (n : Rat).floor else (n : Rat).ceil) (2 ^ 31 - 1)) = n
  rw [floor_int, ceil_int, ite_self]
  omega

/-! ### the field -/

variable {O : Type} [BEq O]

/-- A field whose sizes are numbers. -/
def ofField (f : Field2D.Field O) : FieldF O :=
  { rbags := f.rbags, bags := f.bags, nagents := f.nagents, width := .fin f.width, height := .fin f.height, discretization := .fin f.discretization,
    toroidal := f.toroidal, dh := f.dh, dw := f.dw, density := f.density, densityCheck := f.densityCheck }

/-- A call at a position that is a number. -/
def ofOp : Field2D.FieldOp O → OpF O
  | .place o l => .place o (ofPos l)
  | .remove o l => .remove o (ofPos l)
  | .update => .update
  | .lazyUpdate => .lazyUpdate

/-- The fields considered: at most 2^24 cells and sides up to 2^30. -/
structure Ordinary (rnd : Rat → Rat) (w h d : Rat) : Prop where
  pos : 0 < d
  dw : d ≤ w
  dh : d ≤ h
  wide : w ≤ 2 ^ 30
  high : h ≤ 2 ^ 30
  cells : (Single.cellsAlong rnd w d + 1) * (Single.cellsAlong rnd h d + 1) ≤ 2 ^ 24

theorem Ordinary.flip {rnd : Rat → Rat} {w h d : Rat} (ho : Ordinary rnd w h d) : Ordinary rnd h w d :=
  ⟨ho.pos, ho.dh, ho.dw, ho.high, ho.wide, by rw [mul_comm]; exact ho.cells⟩

theorem one_le_cells {rnd : Rat → Rat} (hr : Rounding rnd) {w d : Rat} (hd : 0 < d) (hw : d ≤ w) : 1 ≤ Single.cellsAlong rnd w d := by
  have h1 := Single.width_pos hr hd hw
  unfold Single.cellsAlong
  have : (0 : Int) < (rnd (w / d)).ceil := Rat.lt_ceil_iff.2 (by exact_mod_cast h1)
  omega

theorem cells_lt {rnd : Rat → Rat} (hr : Rounding rnd) {w h d : Rat} (ho : Ordinary rnd w h d) : Single.cellsAlong rnd w d < 2 ^ 24 := by
  have h1 := one_le_cells hr ho.pos ho.dw
  have h2 := one_le_cells hr ho.pos ho.dh
  have h3 := ho.cells
  nlinarith

theorem quotient_le {rnd : Rat → Rat} (hr : Rounding rnd) {w h d : Rat} (ho : Ordinary rnd w h d) : w / d ≤ 2 ^ 24 := by
  by_contra hc
  have hc := (lt_of_not_ge hc).le
  have h1 := hr.mono _ _ hc
  rw [hr.keeps ⟨1, 24, by norm_num, by norm_num, by norm_num⟩] at h1
  have h2 := cells_lt hr ho
  unfold Single.cellsAlong at h2
  have h3 := Rat.le_ceil (x := rnd (w / d))
  have h4 : (((rnd (w / d)).ceil : Int) : Rat) < 2 ^ 24 := by exact_mod_cast h2
  linarith

theorem cellsAlong_of {rnd : Rat → Rat} (hr : Rounding rnd) {w h d : Rat} (ho : Ordinary rnd w h d) :
    cellsAlong rnd (.fin w) (.fin d) = .fin (Single.cellsAlong rnd w d : Int) ∧ toI32 (cellsAlong rnd (.fin w) (.fin d)) = Single.cellsAlong rnd w d := by
  have hq := quotient_le hr ho
  have h0 : 0 ≤ w / d := div_nonneg (le_trans ho.pos.le ho.dw) ho.pos.le
  have e : cellsAlong rnd (.fin w) (.fin d) = .fin (Single.cellsAlong rnd w d : Int) := by
    unfold cellsAlong
    rw [div_of hr ho.pos.ne' (by rw [abs_of_nonneg h0]; exact le_trans hq (by norm_num))]
    rfl
  refine ⟨e, ?_⟩
  rw [e]
  have h1 := one_le_cells hr ho.pos ho.dw
  have h2 := cells_lt hr ho
  exact toI32_int (by omega) (by omega)

theorem cell_of {rnd : Rat → Rat} (hr : Rounding rnd) {w h d : Rat} (ho : Ordinary rnd w h d) {x : Rat} (h0 : 0 ≤ x) (hx : x ≤ w) :
    toI32 (floor (div rnd (.fin x) (.fin d))) = (rnd (x / d)).floor ∧ 0 ≤ (rnd (x / d)).floor ∧ (rnd (x / d)).floor ≤ Single.cellsAlong rnd w d := by
  have hq := quotient_le hr ho
  have hxd : 0 ≤ x / d := div_nonneg h0 ho.pos.le
  have hle : x / d ≤ w / d := div_le_div_of_nonneg_right hx ho.pos.le
  rw [div_of hr ho.pos.ne' (by rw [abs_of_nonneg hxd]; exact le_trans (le_trans hle hq) (by norm_num))]
  have hn : 0 ≤ (rnd (x / d)).floor := Rat.le_floor_iff.2 (by push_cast; exact hr.nonneg hxd)
  have hm : (rnd (x / d)).floor ≤ Single.cellsAlong rnd w d := by
    have a := Rat.floor_le (a := rnd (x / d))
    have b := Rat.le_ceil (x := rnd (w / d))
    have c := hr.mono _ _ hle
    have : (((rnd (x / d)).floor : Int) : Rat) ≤ ((rnd (w / d)).ceil : Int) := by linarith
    unfold Single.cellsAlong
    exact_mod_cast this
  have hl := cells_lt hr ho
  exact ⟨toI32_int (by omega) (by omega), hn, hm⟩

open Field2D (InField) in
theorem discretize_of {rnd : Rat → Rat} (hr : Rounding rnd) {w h d : Rat} (ho : Ordinary rnd w h d) {p : Pos} (hp : InField w h p) :
    discretize rnd (.fin d) (ofPos p) = Single.discretize rnd d p ∧
      InRange (Single.cellsAlong rnd w d + 1) (Single.cellsAlong rnd h d + 1) (Single.discretize rnd d p) := by
  obtain ⟨h1, h2, h3, h4⟩ := hp
  obtain ⟨a1, a2, a3⟩ := cell_of hr ho h1 h2
  obtain ⟨b1, b2, b3⟩ := cell_of hr ho.flip h3 h4
  unfold discretize Single.discretize ofPos
  rw [a1, b1]
  exact ⟨rfl, a2, Int.lt_add_one_of_le a3, b2, Int.lt_add_one_of_le b3⟩

/-- The field is one of the sizes. -/
structure Sized (rnd : Rat → Rat) (w h d : Rat) (f : Field2D.Field O) : Prop where
  width : f.width = w
  height : f.height = h
  disc : f.discretization = d
  dw : f.dw = Single.cellsAlong rnd w d + 1
  dh : f.dh = Single.cellsAlong rnd h d + 1

theorem new_sized (rnd : Rat → Rat) (w h d : Rat) (t : Bool) : Sized rnd w h d (Single.new rnd w h d t : Field2D.Field O) := ⟨rfl, rfl, rfl, rfl, rfl⟩

theorem exec_sized {rnd : Rat → Rat} {w h d : Rat} {f g : Field2D.Field O} {op : Field2D.FieldOp O} (hs : Sized rnd w h d f)
    (he : Single.exec rnd f op = some g) : Sized rnd w h d g := by
  obtain ⟨s1, s2, s3, s4, s5⟩ := hs
  cases op with
  | place o l =>
    simp only [Single.exec, Single.setObjectLocation] at he
    split at he
    · cases he
    · obtain ⟨v, _, rfl⟩ := Option.map_eq_some_iff.1 he; exact ⟨s1, s2, s3, s4, s5⟩
  | remove o l =>
    simp only [Single.exec, Single.removeObjectLocation] at he
    split at he
    · cases he
    · split at he
      · cases he; exact ⟨s1, s2, s3, s4, s5⟩
      · split at he
        · obtain ⟨v, _, rfl⟩ := Option.map_eq_some_iff.1 he; exact ⟨s1, s2, s3, s4, s5⟩
        · split at he
          · cases he
          · obtain ⟨v, _, rfl⟩ := Option.map_eq_some_iff.1 he; exact ⟨s1, s2, s3, s4, s5⟩
  | update => cases he; exact ⟨s1, s2, s3, s4, s5⟩
  | lazyUpdate =>
    simp only [Single.exec, Field2D.lazyUpdate] at he
    split at he
    · cases he; exact ⟨s1, s2, s3, s4, s5⟩
    · split at he
      · cases he
      · cases he; exact ⟨s1, s2, s3, s4, s5⟩

theorem area_small {rnd : Rat → Rat} {w h d : Rat} (ho : Ordinary rnd w h d) :
    (Single.cellsAlong rnd w d + 1) * (Single.cellsAlong rnd h d + 1) < 2 ^ 31 := lt_of_le_of_lt ho.cells (by norm_num)

theorem vecGet_of {α : Type} {rnd : Rat → Rat} (hr : Rounding rnd) (m : Mode) {w h d : Rat} (ho : Ordinary rnd w h d) (v : List α) {p : Pos} (hp : Field2D.InField w h p) :
    DenseI32.vecGet m v (Single.cellsAlong rnd h d + 1) (discretize rnd (.fin d) (ofPos p)) =
      Grid.vecGet v (Single.cellsAlong rnd h d + 1) (Single.discretize rnd d p) := by
  obtain ⟨a, b⟩ := discretize_of hr ho hp
  rw [a]
  exact DenseI32.vecGet_of m (area_small ho) v b

theorem vecSet_of {α : Type} {rnd : Rat → Rat} (hr : Rounding rnd) (m : Mode) {w h d : Rat} (ho : Ordinary rnd w h d) (v : List α) (x : α) {p : Pos} (hp : Field2D.InField w h p) :
    DenseI32.vecSet m v (Single.cellsAlong rnd h d + 1) (discretize rnd (.fin d) (ofPos p)) x =
      Grid.vecSet v (Single.cellsAlong rnd h d + 1) (Single.discretize rnd d p) x := by
  obtain ⟨a, b⟩ := discretize_of hr ho hp
  rw [a]
  exact DenseI32.vecSet_of m (area_small ho) v b x

theorem exec_of {rnd : Rat → Rat} (hr : Rounding rnd) (m : Mode) {w h d : Rat} (ho : Ordinary rnd w h d) {f g : Field2D.Field O} {op : Field2D.FieldOp O}
    (hs : Sized rnd w h d f) (hop : op.InField w h) (he : Single.exec rnd f op = some g) : exec rnd m (ofField f) (ofOp op) = some (ofField g) := by
  obtain ⟨s1, s2, s3, s4, s5⟩ := hs
  cases op with
  | place o l =>
    show setObjectLocation rnd m (ofField f) o (ofPos l) = _
    simp only [Single.exec, Single.setObjectLocation, s3, s5] at he
    unfold setObjectLocation
    simp only [ofField, s3, s5]
    rw [vecGet_of hr m ho f.bags hop]
    split at he
    · cases he
    · rename_i b hb
      obtain ⟨v, hv, rfl⟩ := Option.map_eq_some_iff.1 he
      rw [hb]
      simp only
      rw [vecSet_of hr m ho f.bags _ hop, hv]
      simp
  | remove o l =>
    show removeObjectLocation rnd m (ofField f) o (ofPos l) = _
    simp only [Single.exec, Single.removeObjectLocation, s3, s5] at he
    unfold removeObjectLocation
    simp only [ofField, s3, s5]
    rw [vecGet_of hr m ho f.bags hop]
    split at he
    · cases he
    · rename_i b hb
      rw [hb]
      simp only
      split at he
      · rename_i hbe
        cases he
        rw [if_pos hbe]
        simp [s3, s5]
      · rename_i hbe
        rw [if_neg hbe, vecSet_of hr m ho f.bags _ hop]
        split at he
        · rename_i hc
          obtain ⟨v, hv, rfl⟩ := Option.map_eq_some_iff.1 he
          rw [if_pos hc, hv]
          simp
        · rename_i hc
          split at he
          · cases he
          · rename_i hlt
            obtain ⟨v, hv, rfl⟩ := Option.map_eq_some_iff.1 he
            have hu : usub m f.nagents (b.length - (b.filter (fun x => x != o)).length) = some (f.nagents - (b.length - (b.filter (fun x => x != o)).length)) := by
              cases m
              · exact if_neg hlt
              · show some (if _ then _ else _) = _
                rw [if_neg hlt]
            rw [if_neg hc, hu, hv]
            simp
  | update => cases he; rfl
  | lazyUpdate =>
    show lazyUpdate m (ofField f) = _
    have hw1 := one_le_cells hr ho.pos ho.dw
    have hh1 := one_le_cells hr ho.pos ho.dh
    have hpos : 0 < (Single.cellsAlong rnd w d + 1) * (Single.cellsAlong rnd h d + 1) := Int.mul_pos (by omega) (by omega)
    have harea : area m (ofField f) = some ((f.dw * f.dh).toNat) := by
      unfold area
      show (fit m (f.dw * f.dh)).map _ = _
      rw [s4, s5, DenseI32.fit_of m (by omega) (area_small ho), Option.map_some, if_neg (by omega)]
    simp only [Single.exec, Field2D.lazyUpdate] at he
    unfold lazyUpdate
    rw [harea]
    split at he
    · rename_i hc
      cases he
      rw [if_pos (show (ofField f).densityCheck = true from hc)]
      rfl
    · rename_i hc
      rw [if_neg (show ¬ (ofField f).densityCheck = true from hc)]
      split at he
      · cases he
      · rename_i hz
        cases he
        simp only
        rw [if_neg hz]
        unfold emptyBags
        rw [if_pos]
        · rfl
        · have := ho.cells
          rw [s4, s5]
          omega

theorem run_of {rnd : Rat → Rat} (hr : Rounding rnd) (m : Mode) {w h d : Rat} (ho : Ordinary rnd w h d) {f : Field2D.Field O} (hs : Sized rnd w h d f) :
    ∀ (hist : List (Field2D.FieldOp O)) {g : Field2D.Field O}, (∀ op ∈ hist, op.InField w h) → Single.run rnd f hist = some g →
      run rnd m (ofField f) (hist.map ofOp) = some (ofField g) ∧ Sized rnd w h d g := by
  intro hist
  induction hist with
  | nil => intro g _ he; cases he; exact ⟨rfl, hs⟩
  | cons op hist ih =>
    intro g hin he
    obtain ⟨f', h1, h2⟩ := Option.bind_eq_some_iff.1 (show (Single.run rnd f hist).bind _ = some g from he)
    obtain ⟨a, b⟩ := ih (fun op hop => hin op (List.mem_cons_of_mem _ hop)) h1
    refine ⟨?_, exec_sized b h2⟩
    show (run rnd m (ofField f) (hist.map ofOp)).bind _ = _
    rw [a]
    exact exec_of hr m ho b (hin op List.mem_cons_self) h2

theorem new_of {rnd : Rat → Rat} (hr : Rounding rnd) (m : Mode) {w h d : Rat} (ho : Ordinary rnd w h d) (t : Bool) :
    new rnd m (.fin w) (.fin h) (.fin d) t = some (ofField (Single.new rnd w h d t : Field2D.Field O)) := by
  obtain ⟨a1, a2⟩ := cellsAlong_of hr ho
  obtain ⟨b1, b2⟩ := cellsAlong_of hr ho.flip
  have hw1 := one_le_cells hr ho.pos ho.dw
  have hh1 := one_le_cells hr ho.pos ho.dh
  have hw2 := cells_lt hr ho
  have hh2 := cells_lt hr ho.flip
  have wpos := lt_of_lt_of_le ho.pos ho.dw
  have hpos := lt_of_lt_of_le ho.pos ho.dh
  have hbags : bagsMade rnd (.fin w) (.fin h) (.fin d) = Single.bagsMade rnd w h d := by
    have small : ∀ n : Int, 1 ≤ n → n < 2 ^ 24 → |((n : Rat) + 1)| ≤ 2 ^ 24 := by
      intro n h1 h2
      have h3 : (1 : Rat) ≤ n := by exact_mod_cast h1
      rw [abs_of_nonneg (by linarith)]
      exact_mod_cast (by omega : n + 1 ≤ 2 ^ 24)
    have k1 := small _ hw1 hw2
    have k2 := small _ hh1 hh2
    have k3 : |rnd ((Single.cellsAlong rnd w d : Int) + 1) * rnd ((Single.cellsAlong rnd h d : Int) + 1)| ≤ 2 ^ 48 :=
      le_trans (abs_mul_le' (rnd_pow hr 24 k1) (rnd_pow hr 24 k2)) (by norm_num)
    unfold bagsMade
    rw [a1, b1, add_of hr (le_trans k1 (by norm_num)), add_of hr (le_trans k2 (by norm_num)), mul_of hr (le_trans k3 (by norm_num))]
    have e := Single.bagsMade_eq hr wpos hpos ho.pos ho.cells
    have hc := ho.cells
    show Min.min (Single.bagsMade rnd w h d) (2 ^ 64 - 1) = _
    omega
  have e := Single.bagsMade_eq hr wpos hpos ho.pos ho.cells
  have hc := ho.cells
  unfold new emptyBags
  rw [hbags, a2, b2, DenseI32.fit_of m (by omega) (by omega), DenseI32.fit_of m (by omega) (by omega), if_pos (by omega)]
  rfl

/-! ### searches -/

/-- The ends of the search fit in an `i32`: `c` is the cell of the searched position along an axis, `k` the distance in cells. -/
def FitsAlong (t : Bool) (c k : Int) : Prop := if t then c + Min.min k (2 ^ 31 - 1) < 2 ^ 31 else c + Min.min k (2 ^ 31 - 1) + 1 < 2 ^ 31

theorem window_of (m : Mode) (t : Bool) {c k maxC : Int} (hc : 0 ≤ c) (hc' : c ≤ 2 ^ 24) (hd : 0 ≤ k) (hf : FitsAlong t c k) (hm : 1 ≤ maxC) (hm' : maxC ≤ 2 ^ 24) :
    window m t c (Min.min k (2 ^ 31 - 1)) maxC = some (Field2D.window t c k maxC) ∧ (Field2D.window t c k maxC).2 < 2 ^ 31 - 1 ∧ 0 ≤ (Field2D.window t c k maxC).2 := by
  unfold FitsAlong at hf
  unfold window Field2D.window
  cases t
  · simp only [Bool.false_eq_true, if_false] at hf ⊢
    rw [DenseI32.fit_of m (by omega) (by omega), DenseI32.fit_of m (by omega) (by omega)]
    simp only [Option.some.injEq, Prod.mk.injEq]
    omega
  · simp only [if_true] at hf ⊢
    rw [DenseI32.fit_of m (by omega) (by omega), DenseI32.fit_of m (by omega) (by omega), DenseI32.fit_of m (by omega) (by omega)]
    simp only [Option.map_some, Option.some.injEq, Prod.mk.injEq]
    omega

theorem upTo_eq (lo hi : Int) : upTo lo (hi + 1) = Field2D.irange lo hi := rfl

theorem pairs_of (m : Mode) {wx wy : Int × Int} (h1 : 0 ≤ wx.2) (h2 : wx.2 < 2 ^ 31 - 1) (h3 : 0 ≤ wy.2) (h4 : wy.2 < 2 ^ 31 - 1) :
    pairs m wx wy = some ((Field2D.irange wx.1 wx.2).flatMap (fun i => (Field2D.irange wy.1 wy.2).map (fun j => ⟨i, j⟩))) := by
  unfold pairs
  rw [DenseI32.fit_of m (by omega) (by omega), DenseI32.fit_of m (by omega) (by omega)]
  simp only [Option.map_some, upTo_eq]
  split_ifs with h
  · have : Field2D.irange wx.1 wx.2 = [] := by
      unfold Field2D.irange
      rw [show (wx.2 + 1 - wx.1).toNat = 0 by omega]
      rfl
    rw [this]
    rfl
  · rfl

theorem tTransform_of (m : Mode) {n size : Int} (h1 : 1 ≤ size) (h2 : size ≤ 2 ^ 24) :
    tTransform m n size = Torus.tTransform n size ∧ ∀ r, Torus.tTransform n size = some r → 0 ≤ r ∧ r ≤ size := by
  unfold tTransform Torus.tTransform
  have a := Int.tmod_lt_of_pos n (show 0 < size by omega)
  have b : 0 ≤ n → 0 ≤ n.tmod size := fun h => Int.tmod_nonneg size h
  have c : n < 0 → -size < n.tmod size ∧ n.tmod size ≤ 0 := by
    intro h
    have e : n.tmod size = -((-n).tmod size) := by rw [Int.neg_tmod, neg_neg]
    have u := Int.tmod_lt_of_pos (-n) (show 0 < size by omega)
    have v := Int.tmod_nonneg (a := -n) size (by omega)
    omega
  rw [if_neg (show ¬ (size = 0 ∨ (n = -2 ^ 31 ∧ size = -1)) by omega), if_neg (show ¬ size = 0 by omega)]
  split_ifs with h
  · exact ⟨rfl, fun r hr => by obtain rfl := Option.some.inj hr; have := b h; omega⟩
  · have := c (by omega)
    refine ⟨DenseI32.fit_of m (by omega) (by omega), fun r hr => ?_⟩
    obtain rfl := Option.some.inj hr
    omega

theorem bagId_of {rnd : Rat → Rat} (hr : Rounding rnd) (m : Mode) {w h d : Rat} (ho : Ordinary rnd w h d) {f : Field2D.Field O} (hs : Sized rnd w h d f) (c : Loc) :
    bagId rnd m (ofField f) c = Single.bagId rnd f c ∧ ∀ b, Single.bagId rnd f c = some b →
      InRange (Single.cellsAlong rnd w d + 1) (Single.cellsAlong rnd h d + 1) b := by
  have hw1 := one_le_cells hr ho.pos ho.dw
  have hh1 := one_le_cells hr ho.pos ho.dh
  have hw2 := cells_lt hr ho
  have hh2 := cells_lt hr ho.flip
  obtain ⟨a1, a2⟩ := tTransform_of m (n := c.x) hw1 hw2.le
  obtain ⟨b1, b2⟩ := tTransform_of m (n := c.y) hh1 hh2.le
  constructor
  · unfold bagId Single.bagId
    simp only [ofField, hs.width, hs.height, hs.disc]
    rw [(cellsAlong_of hr ho).2, (cellsAlong_of hr ho.flip).2, a1, b1]
    cases Torus.tTransform c.x (Single.cellsAlong rnd w d) <;> cases Torus.tTransform c.y (Single.cellsAlong rnd h d) <;> rfl
  · intro b hb
    unfold Single.bagId at hb
    rw [hs.width, hs.height, hs.disc] at hb
    split at hb
    · rename_i x y hx hy
      obtain rfl := Option.some.inj hb
      have := a2 x hx
      have := b2 y hy
      exact ⟨by show 0 ≤ x; omega, by show x < _ + 1; omega, by show 0 ≤ y; omega, by show y < _ + 1; omega⟩
    · cases hb

theorem mem_of_vecGet {α : Type} {v : List α} {dh : Int} {b : Loc} {x : α} (h : Grid.vecGet v dh b = some x) : x ∈ v := by
  unfold Grid.vecGet at h
  split at h
  · exact List.mem_of_getElem? h
  · cases h

theorem scan_of {rnd : Rat → Rat} (hr : Rounding rnd) (m : Mode) {w h d : Rat} (ho : Ordinary rnd w h d) {f : Field2D.Field O} (hs : Sized rnd w h d f)
    (keep keep' : Loc → O → Bool) (hk : ∀ b, InRange (Single.cellsAlong rnd w d + 1) (Single.cellsAlong rnd h d + 1) b → ∀ l ∈ f.rbags, ∀ o ∈ l, keep b o = keep' b o)
    (cs : List Loc) : scan rnd m (ofField f) keep cs = Single.scan rnd f keep' cs := by
  induction cs with
  | nil => rfl
  | cons c cs ih =>
    obtain ⟨a, b⟩ := bagId_of hr m ho hs c
    unfold scan Single.scan
    rw [a, ih]
    cases hb : Single.bagId rnd f c with
    | none => rfl
    | some bag =>
      have hin := b bag hb
      have e : DenseI32.vecGet m (ofField f).rbags (ofField f).dh bag = Grid.vecGet f.rbags f.dh bag := by
        show DenseI32.vecGet m f.rbags f.dh bag = _
        rw [hs.dh]
        exact DenseI32.vecGet_of m (area_small ho) f.rbags hin
      simp only
      rw [e]
      cases hv : Grid.vecGet f.rbags f.dh bag with
      | none => rfl
      | some l =>
        simp only
        rw [List.filter_congr (fun o ho => hk bag hin l (mem_of_vecGet hv) o ho)]

open Field2D (InField)

theorem Small.of_inField {w h : Rat} (hw : w ≤ 2 ^ 30) (hh : h ≤ 2 ^ 30) {p : Pos} (hp : InField w h p) : Small p := by
  obtain ⟨h1, h2, h3, h4⟩ := hp
  refine ⟨?_, ?_⟩
  · rw [abs_of_nonneg h1]; exact le_trans (le_trans h2 hw) (by norm_num)
  · rw [abs_of_nonneg h3]; exact le_trans (le_trans h4 hh) (by norm_num)

/-- The distance in cells, saturated at the largest `i32`. -/
theorem cells_of {rnd : Rat → Rat} (hr : Rounding rnd) {dis d : Rat} (hd : 0 < d) (h0 : 0 ≤ dis) :
    toI32 (floor (div rnd (.fin dis) (.fin d))) = Min.min (rnd (dis / d)).floor (2 ^ 31 - 1) ∧ 0 ≤ (rnd (dis / d)).floor := by
  have hq0 : 0 ≤ dis / d := div_nonneg h0 hd.le
  have hq := hr.nonneg hq0
  have hn : 0 ≤ (rnd (dis / d)).floor := Rat.le_floor_iff.2 (by push_cast; exact hq)
  refine ⟨?_, hn⟩
  show toI32 (floor (if d = 0 then _ else ofRat rnd (dis / d))) = _
  rw [if_neg hd.ne']
  have hl : (2 : Rat) ^ 31 ≤ largest := le_trans (by norm_num) pow_le_largest
  unfold ofRat
  split_ifs with c1 c2
  · have : (2 : Int) ^ 31 ≤ (rnd (dis / d)).floor := Rat.le_floor_iff.2 (by push_cast; linarith)
    show (2 ^ 31 - 1 : Int) = _
    omega
  · have : (0 : Rat) < 2 ^ 31 := by norm_num
    linarith
  · show Max.max (-2 ^ 31) (Min.min (if (0 : Rat) ≤ ((rnd (dis / d)).floor : Rat) then ((rnd (dis / d)).floor : Rat).floor else ((rnd (dis / d)).floor : Rat).ceil) (2 ^ 31 - 1)) = _
    rw [floor_int, ceil_int, ite_self]
    omega

/-- The ends of the search around `loc` fit in an `i32`. -/
def Fits (rnd : Rat → Rat) (t : Bool) (d : Rat) (loc : Pos) (dis : Rat) : Prop :=
  FitsAlong t (Single.discretize rnd d loc).x (rnd (dis / d)).floor ∧ FitsAlong t (Single.discretize rnd d loc).y (rnd (dis / d)).floor

theorem searchCells_of {rnd : Rat → Rat} (hr : Rounding rnd) (m : Mode) {w h d : Rat} (ho : Ordinary rnd w h d) {f : Field2D.Field O} (hs : Sized rnd w h d f)
    {loc : Pos} (hl : InField w h loc) {dis : Rat} (h0 : 0 < dis) (hdis : Fits rnd f.toroidal d loc dis) :
    searchCells rnd m (ofField f) (ofPos loc) (.fin dis) = some (Single.searchCells rnd f loc dis) := by
  obtain ⟨a, b⟩ := discretize_of hr ho hl
  have hw1 := one_le_cells hr ho.pos ho.dw
  have hh1 := one_le_cells hr ho.pos ho.dh
  have hw2 := cells_lt hr ho
  have hh2 := cells_lt hr ho.flip
  obtain ⟨e, hn⟩ := cells_of hr ho.pos h0.le
  obtain ⟨i1, i2, i3, i4⟩ := b
  obtain ⟨x1, x2, x3⟩ := window_of m f.toroidal i1 (by omega) hn hdis.1 hw1 hw2.le
  obtain ⟨y1, y2, y3⟩ := window_of m f.toroidal i3 (by omega) hn hdis.2 hh1 hh2.le
  unfold searchCells Single.searchCells
  simp only [ofField, hs.width, hs.height, hs.disc]
  rw [a, e, (cellsAlong_of hr ho).2, (cellsAlong_of hr ho.flip).2, x1, y1]
  exact pairs_of m x3 x2 y3 y2

/-- Up to 2^31 - 2^25 cells the ends fit wherever the position is. -/
theorem fits_of {rnd : Rat → Rat} (hr : Rounding rnd) {w h d : Rat} (ho : Ordinary rnd w h d) (t : Bool) {loc : Pos} (hl : InField w h loc) {dis : Rat}
    (hdis : dis / d ≤ 2 ^ 31 - 2 ^ 25) : Fits rnd t d loc dis := by
  obtain ⟨-, i1, i2, i3, i4⟩ := discretize_of hr ho hl
  have hw2 := cells_lt hr ho
  have hh2 := cells_lt hr ho.flip
  have h1 := hr.mono _ _ hdis
  rw [hr.keeps (x := 2 ^ 31 - 2 ^ 25) ⟨2 ^ 6 - 1, 25, by norm_num, by norm_num, by norm_num⟩] at h1
  have hm : (rnd (dis / d)).floor ≤ 2 ^ 31 - 2 ^ 25 := by
    have h2 := Rat.floor_le (a := rnd (dis / d))
    have : (((rnd (dis / d)).floor : Int) : Rat) ≤ 2 ^ 31 - 2 ^ 25 := by linarith
    exact_mod_cast this
  unfold Fits FitsAlong
  cases t <;> simp only [Bool.false_eq_true, if_false, if_true] <;> omega

theorem relaxed_of {rnd : Rat → Rat} (hr : Rounding rnd) (m : Mode) {w h d : Rat} (ho : Ordinary rnd w h d) {f : Field2D.Field O} (hs : Sized rnd w h d f)
    {loc : Pos} (hl : InField w h loc) {dis : Rat} (hdis : 0 < dis → Fits rnd f.toroidal d loc dis) :
    getNeighborsWithinRelaxDistance rnd m (ofField f) (ofPos loc) (.fin dis) = Single.getNeighborsWithinRelaxDistance rnd f loc dis := by
  unfold getNeighborsWithinRelaxDistance Single.getNeighborsWithinRelaxDistance
  simp only [le, decide_eq_true_eq]
  split_ifs with h
  · rfl
  · rw [searchCells_of hr m ho hs hl (lt_of_not_ge h) (hdis (lt_of_not_ge h))]
    exact scan_of hr m ho hs _ _ (fun _ _ _ _ _ _ => rfl) _

theorem exact_of {rnd : Rat → Rat} (root : Rat → Rat) (hr : Rounding rnd) (m : Mode) {w h d : Rat} (ho : Ordinary rnd w h d) {f : Field2D.Field O}
    (hs : Sized rnd w h d f) {locOf : O → Pos} (hloc : ∀ l ∈ f.rbags, ∀ o ∈ l, Small (locOf o)) {loc : Pos} (hl : InField w h loc) {dis : Rat} (hdis : 0 < dis → Fits rnd f.toroidal d loc dis) :
    getNeighborsWithinDistance rnd root m (ofField f) (fun o => ofPos (locOf o)) (ofPos loc) (.fin dis) =
      Single.getNeighborsWithinDistance rnd root f locOf loc dis := by
  unfold getNeighborsWithinDistance Single.getNeighborsWithinDistance
  simp only [le, decide_eq_true_eq]
  split_ifs with h
  · rfl
  · rw [searchCells_of hr m ho hs hl (lt_of_not_ge h) (hdis (lt_of_not_ge h))]
    refine scan_of hr m ho hs _ _ ?_ _
    intro b hb l hmem o hmem'
    have hw2 := cells_lt hr ho
    have hh2 := cells_lt hr ho.flip
    have small := Small.of_inField ho.wide ho.high hl
    have wpos := lt_of_lt_of_le ho.pos ho.dw
    have hpos := lt_of_lt_of_le ho.pos ho.dh
    obtain ⟨i1, i2, i3, i4⟩ := hb
    have e1 := checkCircle_of (b := b) (dis := dis) root hr f.toroidal ho.pos ho.dw ho.dh ho.wide ho.high (by rw [abs_of_nonneg i1]; omega)
      (by rw [abs_of_nonneg i3]; omega) small
    have e2 := dist_of root hr f.toroidal wpos hpos (le_trans ho.wide (by norm_num)) (le_trans ho.high (by norm_num)) small (hloc l hmem o hmem')
    unfold keepExact Single.keepExact
    simp only [ofField, hs.width, hs.height, hs.disc]
    rw [e1, e2]
    simp only [le, Bool.decide_or, Bool.decide_and]

/-- Every object in a bag was placed. -/
def Placed (f : Field2D.Field O) (hist : List (Field2D.FieldOp O)) : Prop :=
  ∀ b, b ∈ f.bags ∨ b ∈ f.rbags → ∀ o ∈ b, ∃ l, Field2D.FieldOp.place o l ∈ hist

theorem mem_vecSet {α : Type} {v v' : List α} {dh : Int} {c : Loc} {x y : α} (h : Grid.vecSet v dh c x = some v') (hy : y ∈ v') : y ∈ v ∨ y = x := by
  unfold Grid.vecSet at h
  split at h
  · obtain rfl := Option.some.inj h
    exact List.mem_or_eq_of_mem_set hy
  · cases h

theorem run_placed {rnd : Rat → Rat} {w h d : Rat} {t : Bool} : ∀ (hist : List (Field2D.FieldOp O)) {g : Field2D.Field O},
    Single.run rnd (Single.new rnd w h d t) hist = some g → Placed g hist := by
  intro hist
  induction hist with
  | nil =>
    intro g he
    obtain rfl := Option.some.inj he
    intro b hb o ho
    have : b = [] := by rcases hb with hb | hb <;> exact (List.mem_replicate.1 hb).2
    rw [this] at ho
    cases ho
  | cons op hist ih =>
    intro g he
    obtain ⟨f, h1, h2⟩ := Option.bind_eq_some_iff.1 (show (Single.run rnd _ hist).bind _ = some g from he)
    have hp := ih h1
    have up : ∀ b, b ∈ f.bags ∨ b ∈ f.rbags → ∀ o ∈ b, ∃ l, Field2D.FieldOp.place o l ∈ op :: hist := by
      intro b hb o ho
      obtain ⟨l, hl⟩ := hp b hb o ho
      exact ⟨l, List.mem_cons_of_mem _ hl⟩
    cases op with
    | place o l =>
      simp only [Single.exec, Single.setObjectLocation] at h2
      split at h2
      · cases h2
      · rename_i b0 hb0
        obtain ⟨v, hv, rfl⟩ := Option.map_eq_some_iff.1 h2
        intro b hb o' ho'
        rcases hb with hb | hb
        · rcases mem_vecSet hv hb with hb | rfl
          · exact up b (Or.inl hb) o' ho'
          · rcases List.mem_append.1 ho' with ho' | ho'
            · exact up b0 (Or.inl (mem_of_vecGet hb0)) o' ho'
            · rw [List.mem_singleton.1 ho']
              exact ⟨l, List.mem_cons_self⟩
        · exact up b (Or.inr hb) o' ho'
    | remove o l =>
      simp only [Single.exec, Single.removeObjectLocation] at h2
      split at h2
      · cases h2
      · rename_i b0 hb0
        have fin : ∀ v, Grid.vecSet f.bags f.dh (Single.discretize rnd f.discretization l) (b0.filter (fun x => x != o)) = some v →
            ∀ b, b ∈ v ∨ b ∈ f.rbags → ∀ o' ∈ b, ∃ l', Field2D.FieldOp.place o' l' ∈ Field2D.FieldOp.remove o l :: hist := by
          intro v hv b hb o' ho'
          rcases hb with hb | hb
          · rcases mem_vecSet hv hb with hb | rfl
            · exact up b (Or.inl hb) o' ho'
            · exact up b0 (Or.inl (mem_of_vecGet hb0)) o' (List.mem_filter.1 ho').1
          · exact up b (Or.inr hb) o' ho'
        split at h2
        · cases h2; exact up
        · split at h2
          · obtain ⟨v, hv, rfl⟩ := Option.map_eq_some_iff.1 h2
            exact fin v hv
          · split at h2
            · cases h2
            · obtain ⟨v, hv, rfl⟩ := Option.map_eq_some_iff.1 h2
              exact fin v hv
    | update => cases h2; exact up
    | lazyUpdate =>
      simp only [Single.exec, Field2D.lazyUpdate] at h2
      split at h2
      · cases h2
        intro b hb o ho
        rcases hb with hb | hb
        · obtain ⟨_, _, rfl⟩ := List.mem_map.1 hb
          cases ho
        · exact up b (Or.inl hb) o ho
      · split at h2
        · cases h2
        · cases h2
          intro b hb o ho
          rcases hb with hb | hb
          · rw [(List.mem_replicate.1 hb).2] at ho
            cases ho
          · exact up b (Or.inl hb) o ho

end Verif.Machine
