import Verif.Spec.Field2D
import Verif.Lemmas.Torus
import Verif.Lemmas.Grid
import Verif.Lemmas.ObjectGrid
import Mathlib.Data.List.Perm.Subperm

/-! Lemmas about the continuous field. -/

set_option linter.unusedSectionVars false

namespace Verif.Torus

/-! ### t_transform -/

/-- The value of `t_transform` when it does not panic. -/
def tT (n size : Int) : Int := if n ≥ 0 then n.tmod size else n.tmod size + size

theorem tTransform_eq {n size : Int} (hs : size ≠ 0) : tTransform n size = some (tT n size) := by
  unfold tTransform tT
  rw [if_neg hs]
  split <;> rfl

theorem tT_spec {n size : Int} (hs : 0 < size) :
    0 ≤ tT n size ∧ tT n size ≤ size ∧ (tT n size - n) % size = 0 ∧
      (tT n size = size ↔ n < 0 ∧ n % size = 0) ∧ (0 ≤ n → tT n size = n % size) := by
  unfold tT
  split
  · rename_i h
    rw [Int.tmod_eq_emod_of_nonneg h]
    have h1 := Int.emod_nonneg n (b := size) (by omega)
    have h2 := Int.emod_lt_of_pos n hs
    refine ⟨h1, by omega, ?_, by omega, fun _ => rfl⟩
    rw [Int.emod_sub_emod, Int.sub_self, Int.zero_emod]
  · rename_i h
    have hn : 0 ≤ -n := by omega
    have e : n.tmod size = -((-n) % size) := by
      rw [show n = -(-n) by omega, Int.neg_tmod, Int.tmod_eq_emod_of_nonneg hn]; simp
    rw [e]
    have h1 := Int.emod_nonneg (-n) (b := size) (by omega)
    have h2 := Int.emod_lt_of_pos (-n) hs
    refine ⟨by omega, by omega, ?_, ?_, by omega⟩
    · have hd : (-n) % size = -n - size * (-n / size) := by
        have := Int.mul_ediv_add_emod (-n) size; omega
      rw [hd, show -(-n - size * (-n / size)) + size - n = size * (-n / size + 1) by ring]
      exact Int.mul_emod_right _ _
    · have : (-n) % size = 0 ↔ n % size = 0 := by
        rw [← Int.dvd_iff_emod_eq_zero, ← Int.dvd_iff_emod_eq_zero, Int.dvd_neg]
      omega

theorem tT_of_range {n size : Int} (h1 : 0 ≤ n) (h2 : n < size) : tT n size = n := by
  unfold tT
  rw [if_pos h1, Int.tmod_eq_of_lt h1 h2]

theorem tT_inj {n m size : Int} (hs : 0 < size) (h : tT n size = tT m size) (h1 : n - m < size) (h2 : m - n < size) :
    n = m := by
  obtain ⟨_, _, a, _, _⟩ := tT_spec (n := n) hs
  obtain ⟨_, _, b, _, _⟩ := tT_spec (n := m) hs
  rw [← h] at b
  have : (m - n) % size = 0 := by
    have := Int.dvd_sub (Int.dvd_of_emod_eq_zero a) (Int.dvd_of_emod_eq_zero b)
    rw [show tT n size - n - (tT n size - m) = m - n by ring] at this
    exact Int.emod_eq_zero_of_dvd this
  obtain ⟨k, hk⟩ := Int.dvd_of_emod_eq_zero this
  have k1 : k < 1 := by
    by_contra hc
    have : size * 1 ≤ size * k := Int.mul_le_mul_of_nonneg_left (by omega) (by omega)
    omega
  have k2 : -1 < k := by
    by_contra hc
    have : size * k ≤ size * (-1) := Int.mul_le_mul_of_nonneg_left (by omega) (by omega)
    omega
  have : k = 0 := by omega
  subst this
  omega

/-! ### distances -/

theorem toroidalDistance_min {a b dim : ℚ} (hd : 0 < dim) (k : ℤ) :
    toroidalDistance a b dim * toroidalDistance a b dim ≤ (a - b + k * dim) * (a - b + k * dim) := by
  obtain ⟨h1, h2⟩ := toroidalDistance_bound (a := a) (b := b) hd
  obtain ⟨j, hj⟩ := (toroidalDistance_cong (a := a) (b := b) hd).symm
  generalize toroidalDistance a b dim = t at *
  rw [hj, show t + (j : ℚ) * dim + k * dim = t + ((j + k : ℤ) : ℚ) * dim by push_cast; ring]
  generalize j + k = n
  rcases lt_trichotomy n 0 with hn | hn | hn
  · have : (n : ℚ) ≤ -1 := by exact_mod_cast (by omega : n ≤ -1)
    have h3 : t + n * dim ≤ -(dim / 2) := by nlinarith
    nlinarith
  · subst hn; simp
  · have : (1 : ℚ) ≤ n := by exact_mod_cast (by omega : 1 ≤ n)
    have h3 : dim / 2 ≤ t + n * dim := by nlinarith
    nlinarith

theorem toroidalDistance_sq_symm {a b dim : ℚ} (hd : 0 < dim) :
    toroidalDistance a b dim * toroidalDistance a b dim = toroidalDistance b a dim * toroidalDistance b a dim := by
  obtain ⟨k, hk⟩ := toroidalDistance_cong (a := a) (b := b) hd
  obtain ⟨j, hj⟩ := toroidalDistance_cong (a := b) (b := a) hd
  apply le_antisymm
  · have := toroidalDistance_min (a := a) (b := b) hd (-j)
    rw [hj]
    push_cast at this
    nlinarith
  · have := toroidalDistance_min (a := b) (b := a) hd (-k)
    rw [hk]
    push_cast at this
    nlinarith

end Verif.Torus

namespace Verif.Field2D

open Grid Torus

variable {O : Type} [BEq O]

theorem distSq_symm (p q : Pos) {w h : ℚ} (tor : Bool) (hw : 0 < w) (hh : 0 < h) :
    distSq p q w h tor = distSq q p w h tor := by
  unfold distSq diff
  cases tor
  · simp only [Bool.false_eq_true, if_false]; ring
  · simp only [if_true]
    rw [toroidalDistance_sq_symm hw, toroidalDistance_sq_symm (a := p.y) hh]

theorem within_iff (p q : Pos) {w h : ℚ} (tor : Bool) (hw : 0 < w) (hh : 0 < h) (r : ℚ) :
    distSq p q w h tor ≤ r * r ↔ Within tor w h p q r := by
  unfold distSq Within diff
  cases tor
  · simp
  · simp only [if_true]
    constructor
    · intro hle
      obtain ⟨k, hk⟩ := toroidalDistance_cong (a := p.x) (b := q.x) hw
      obtain ⟨m, hm⟩ := toroidalDistance_cong (a := p.y) (b := q.y) hh
      rw [hk, hm] at hle
      exact ⟨k, m, hle⟩
    · rintro ⟨k, m, hle⟩
      have a := toroidalDistance_min (a := p.x) (b := q.x) hw k
      have b := toroidalDistance_min (a := p.y) (b := q.y) hh m
      linarith

/-! ### cells -/

theorem floor_div_eq {x d : ℚ} (hd : 0 < d) (i : Int) : (x / d).floor = i ↔ i * d ≤ x ∧ x < (i + 1) * d := by
  constructor
  · rintro rfl
    have h1 := Rat.floor_le (x / d)
    have h2 := Rat.lt_floor_add_one (x / d)
    push_cast at h2
    exact ⟨(le_div_iff₀ hd).1 h1, (div_lt_iff₀ hd).1 h2⟩
  · rintro ⟨h1, h2⟩
    have a : i ≤ (x / d).floor := Rat.le_floor_iff.2 ((le_div_iff₀ hd).2 h1)
    have b : (x / d).floor < i + 1 := Rat.floor_lt_iff.2 (by push_cast; exact (div_lt_iff₀ hd).2 h2)
    omega

theorem sameSquare_iff {d : ℚ} (hd : 0 < d) (p q : Pos) : sameSquare d p q = true ↔ SameSquare d p q := by
  unfold sameSquare SameSquare
  simp only [Bool.and_eq_true, beq_iff_eq]
  constructor
  · rintro ⟨h1, h2⟩
    obtain ⟨a1, a2⟩ := (floor_div_eq hd _).1 (rfl : (p.x / d).floor = (p.x / d).floor)
    obtain ⟨b1, b2⟩ := (floor_div_eq hd _).1 h1.symm
    obtain ⟨c1, c2⟩ := (floor_div_eq hd _).1 (rfl : (p.y / d).floor = (p.y / d).floor)
    obtain ⟨d1, d2⟩ := (floor_div_eq hd _).1 h2.symm
    exact ⟨_, _, ⟨a1, a2, b1, b2⟩, ⟨c1, c2, d1, d2⟩⟩
  · rintro ⟨i, j, ⟨a1, a2, b1, b2⟩, ⟨c1, c2, d1, d2⟩⟩
    rw [(floor_div_eq hd i).2 ⟨a1, a2⟩, (floor_div_eq hd i).2 ⟨b1, b2⟩, (floor_div_eq hd j).2 ⟨c1, c2⟩,
      (floor_div_eq hd j).2 ⟨d1, d2⟩]
    exact ⟨rfl, rfl⟩

theorem sameSquare_discretize (d : ℚ) (p q : Pos) : sameSquare d p q = true ↔ discretize d q = discretize d p := by
  unfold sameSquare discretize
  simp only [Bool.and_eq_true, beq_iff_eq, Loc.mk.injEq]
  exact ⟨fun h => ⟨h.1.symm, h.2.symm⟩, fun h => ⟨h.1.symm, h.2.symm⟩⟩

theorem discretize_inRange {w h d : ℚ} (hd : 0 < d) {p : Pos} (hp : InField w h p) :
    InRange ((w / d).ceil + 1) ((h / d).ceil + 1) (discretize d p) := by
  have key : ∀ x w : ℚ, 0 ≤ x → x ≤ w → 0 ≤ (x / d).floor ∧ (x / d).floor < (w / d).ceil + 1 := by
    intro x w h0 h1
    constructor
    · exact Rat.le_floor_iff.2 (by push_cast; positivity)
    · have a := Rat.floor_le (x / d)
      have b := Rat.le_ceil (x := w / d)
      have c : x / d ≤ w / d := by gcongr
      have : ((x / d).floor : ℚ) ≤ ((w / d).ceil : ℚ) := by linarith
      have : (x / d).floor ≤ (w / d).ceil := by exact_mod_cast this
      omega
  obtain ⟨h1, h2, h3, h4⟩ := hp
  obtain ⟨a, b⟩ := key p.x w h1 h2
  obtain ⟨c, e⟩ := key p.y h h3 h4
  exact ⟨a, b, c, e⟩

theorem discretize_notDiscretize {d : ℚ} (hd : 0 < d) (c : Loc) : discretize d (notDiscretize d c) = c := by
  unfold discretize notDiscretize
  dsimp only
  rw [mul_div_assoc, mul_div_assoc, div_self (ne_of_gt hd), mul_one, mul_one, Rat.floor_intCast, Rat.floor_intCast]

/-! ### shape -/

/-- The number of objects in a vector of bags. -/
def total (v : List (List O)) : Nat := (v.map List.length).sum

/-- The shape of every field made by `new` with positive sizes. -/
structure WF (f : Field O) : Prop where
  d : 0 < f.discretization
  w : 0 < f.width
  h : 0 < f.height
  dw : f.dw = (f.width / f.discretization).ceil + 1
  dh : f.dh = (f.height / f.discretization).ceil + 1
  r : Sized f.dw f.dh f.rbags
  b : Sized f.dw f.dh f.bags
  count : f.densityCheck = false → f.nagents = total f.bags

theorem ceil_pos {w d : ℚ} (hw : 0 < w) (hd : 0 < d) : 0 < (w / d).ceil := by
  rw [Rat.lt_ceil_iff]; push_cast; positivity

theorem wf_new {w h d : ℚ} (t : Bool) (hw : 0 < w) (hh : 0 < h) (hd : 0 < d) : WF (new w h d t : Field O) := by
  have h1 := ceil_pos hw hd
  have h2 := ceil_pos hh hd
  refine ⟨hd, hw, hh, rfl, rfl, ?_, ?_, ?_⟩
  · simp [Sized, new]
  · simp [Sized, new]
  · intro _
    simp [new, total]

theorem total_set {v : List (List O)} {i : Nat} {a b : List O} (h : v[i]? = some a) :
    total (v.set i b) + a.length = total v + b.length := by
  induction v generalizing i with
  | nil => simp at h
  | cons x v ih =>
    cases i with
    | zero =>
      simp at h; subst h
      simp [total]; omega
    | succ i =>
      have := ih (i := i) (by simpa using h)
      simp only [total, List.set_cons_succ, List.map_cons, List.sum_cons] at *
      omega

/-- Writing one bag. -/
theorem write_bag {f : Field O} (hf : WF f) {c : Loc} (hc : InRange f.dw f.dh c) (a b : List O)
    (ha : vecGet f.bags f.dh c = some a) :
    ∃ v, vecSet f.bags f.dh c b = some v ∧ Sized f.dw f.dh v ∧ total v + a.length = total f.bags + b.length ∧
      ∀ c', InRange f.dw f.dh c' → vecGet v f.dh c' = if c' = c then some b else vecGet f.bags f.dh c' := by
  obtain ⟨v, h1, h2, h3⟩ := vecSet_some hf.b.big hc b
  refine ⟨v, h1, ?_, ?_, h3⟩
  · have := hf.b; unfold Sized at *; rw [h2]; exact this
  · have h0 := (index_range hc).1
    unfold vecSet at h1
    split at h1
    · have := Option.some.inj h1
      rw [← this]
      apply total_set
      unfold vecGet at ha
      rw [if_pos h0] at ha
      exact ha
    · exact absurd h1 (by simp)

/-- What a field holds per cell. -/
structure Shows (f : Field O) (w h d : ℚ) (t : Bool) (pub cur : Loc → List O) : Prop where
  wf : WF f
  width : f.width = w
  height : f.height = h
  disc : f.discretization = d
  tor : f.toroidal = t
  read : ∀ c, InRange f.dw f.dh c → vecGet f.rbags f.dh c = some (pub c)
  write : ∀ c, InRange f.dw f.dh c → vecGet f.bags f.dh c = some (cur c)

theorem shows_new {w h d : ℚ} (t : Bool) (hw : 0 < w) (hh : 0 < h) (hd : 0 < d) :
    Shows (new w h d t : Field O) w h d t (fun _ => []) (fun _ => []) := by
  have hwf : WF (new w h d t : Field O) := wf_new t hw hh hd
  refine ⟨hwf, rfl, rfl, rfl, rfl, ?_, ?_⟩
  · intro c hc; exact vecGet_replicate hwf.r hc
  · intro c hc; exact vecGet_replicate hwf.b hc

theorem inRange_of {f : Field O} (hf : WF f) {p : Pos} (hp : InField f.width f.height p) :
    InRange f.dw f.dh (discretize f.discretization p) := by
  rw [hf.dw, hf.dh]; exact discretize_inRange hf.d hp

theorem shows_place {f : Field O} {w h d : ℚ} {t : Bool} {pub cur : Loc → List O} (hs : Shows f w h d t pub cur)
    (o : O) (l : Pos) (hl : InField w h l) :
    ∃ f', setObjectLocation f o l = some f' ∧ f'.densityCheck = f.densityCheck ∧ f'.density = f.density ∧
      Shows f' w h d t pub (fun c => if c = discretize d l then cur c ++ [o] else cur c) := by
  obtain ⟨rfl, rfl, rfl, rfl⟩ : f.width = w ∧ f.height = h ∧ f.discretization = d ∧ f.toroidal = t :=
    ⟨hs.width, hs.height, hs.disc, hs.tor⟩
  have hc := inRange_of hs.wf hl
  obtain ⟨v, h1, h2, h3, h4⟩ := write_bag hs.wf hc (cur (discretize f.discretization l))
    (cur (discretize f.discretization l) ++ [o]) (hs.write _ hc)
  unfold setObjectLocation
  rw [hs.write _ hc]
  dsimp only
  rw [h1]
  refine ⟨_, rfl, rfl, rfl,
    ⟨⟨hs.wf.d, hs.wf.w, hs.wf.h, hs.wf.dw, hs.wf.dh, hs.wf.r, h2, ?_⟩, rfl, rfl, rfl, rfl, hs.read, ?_⟩⟩
  · intro hd
    have hd' : f.densityCheck = false := hd
    show (if f.densityCheck then f.nagents else f.nagents + 1) = total v
    rw [if_neg (by simp [hd']), hs.wf.count hd']
    simp at h3
    omega
  · intro c hcr
    show vecGet v f.dh c = _
    rw [h4 c hcr]
    split
    · rename_i he; rw [he]
    · exact hs.write c hcr

theorem shows_remove {f : Field O} {w h d : ℚ} {t : Bool} {pub cur : Loc → List O} (hs : Shows f w h d t pub cur)
    (o : O) (l : Pos) (hl : InField w h l) :
    ∃ f', removeObjectLocation f o l = some f' ∧ f'.densityCheck = f.densityCheck ∧ f'.density = f.density ∧
      Shows f' w h d t pub (fun c => if c = discretize d l then (cur c).filter (fun x => x != o) else cur c) := by
  obtain ⟨rfl, rfl, rfl, rfl⟩ : f.width = w ∧ f.height = h ∧ f.discretization = d ∧ f.toroidal = t :=
    ⟨hs.width, hs.height, hs.disc, hs.tor⟩
  have hc := inRange_of hs.wf hl
  obtain ⟨v, h1, h2, h3, h4⟩ := write_bag hs.wf hc (cur (discretize f.discretization l))
    ((cur (discretize f.discretization l)).filter (fun x => x != o)) (hs.write _ hc)
  have hle : ((cur (discretize f.discretization l)).filter (fun x => x != o)).length ≤
      (cur (discretize f.discretization l)).length := List.length_filter_le _ _
  have hbag : ∀ c, InRange f.dw f.dh c → vecGet v f.dh c =
      some (if c = discretize f.discretization l then (cur c).filter (fun x => x != o) else cur c) := by
    intro c hcr
    rw [h4 c hcr]
    split
    · rename_i he; rw [he]
    · exact hs.write c hcr
  unfold removeObjectLocation
  rw [hs.write _ hc]
  dsimp only
  by_cases hemp : (cur (discretize f.discretization l)).isEmpty
  · rw [if_pos hemp]
    refine ⟨f, rfl, rfl, rfl, ⟨hs.wf, rfl, rfl, rfl, rfl, hs.read, ?_⟩⟩
    intro c hcr
    rw [hs.write c hcr]
    split
    · rename_i he
      rw [← he] at hemp
      have : cur c = [] := by simpa using hemp
      rw [this]; rfl
    · rfl
  · rw [if_neg hemp]
    cases hd : f.densityCheck with
    | true =>
      rw [if_pos rfl, h1]
      refine ⟨_, rfl, rfl, rfl, ⟨⟨hs.wf.d, hs.wf.w, hs.wf.h, hs.wf.dw, hs.wf.dh, hs.wf.r, h2, ?_⟩,
        rfl, rfl, rfl, rfl, hs.read, hbag⟩⟩
      intro hd'
      exact absurd hd' (by simp)
    | false =>
      have hcnt := hs.wf.count hd
      rw [if_neg (by simp)]
      rw [if_neg (by omega), h1]
      refine ⟨_, rfl, rfl, rfl, ⟨⟨hs.wf.d, hs.wf.w, hs.wf.h, hs.wf.dw, hs.wf.dh, hs.wf.r, h2, ?_⟩,
        rfl, rfl, rfl, rfl, hs.read, hbag⟩⟩
      intro _
      show f.nagents - _ = total v
      omega

theorem cells_pos {f : Field O} (hf : WF f) : 0 < (f.dw * f.dh).toNat := by
  have h1 := ceil_pos hf.w hf.d
  have h2 := ceil_pos hf.h hf.d
  have : 0 < f.dw * f.dh := by rw [hf.dw, hf.dh]; exact Int.mul_pos (by omega) (by omega)
  omega

theorem shows_lazy {f : Field O} {w h d : ℚ} {t : Bool} {pub cur : Loc → List O} (hs : Shows f w h d t pub cur) :
    ∃ f', lazyUpdate f = some f' ∧ f'.densityCheck = true ∧
      f'.density = (if f.densityCheck then f.density else f.nagents / (f.dw * f.dh).toNat) ∧
      Shows f' w h d t cur (fun _ => []) := by
  unfold lazyUpdate
  cases hd : f.densityCheck with
  | true =>
    rw [if_pos rfl]
    refine ⟨_, rfl, rfl, rfl, ⟨⟨hs.wf.d, hs.wf.w, hs.wf.h, hs.wf.dw, hs.wf.dh, hs.wf.b, sized_map hs.wf.r _, ?_⟩,
      hs.width, hs.height, hs.disc, hs.tor, hs.write, ?_⟩⟩
    · intro hd'
      exact absurd hd' (by simp)
    · intro c hc
      show vecGet (f.rbags.map (fun _ => [])) f.dh c = _
      rw [vecGet_map, hs.read c hc]; rfl
  | false =>
    have hz := cells_pos hs.wf
    rw [if_neg (by simp), if_neg (by omega)]
    have hsz : Sized f.dw f.dh (List.replicate (f.dw * f.dh).toNat ([] : List O)) := by simp [Sized]
    refine ⟨_, rfl, rfl, by simp, ⟨⟨hs.wf.d, hs.wf.w, hs.wf.h, hs.wf.dw, hs.wf.dh, hs.wf.b, hsz, ?_⟩,
      hs.width, hs.height, hs.disc, hs.tor, hs.write, ?_⟩⟩
    · intro hd'; exact absurd hd' (by simp)
    · intro c hc; exact vecGet_replicate hsz hc

/-! ### search -/

/-- The cell read for the search cell `c`. -/
def wrapped (f : Field O) (c : Loc) : Loc :=
  ⟨tT c.x (f.width / f.discretization).ceil, tT c.y (f.height / f.discretization).ceil⟩

/-- The published bag of a cell (empty if out of range). -/
def bagOf (f : Field O) (c : Loc) : List O := (vecGet f.rbags f.dh c).getD []

theorem bagId_eq {f : Field O} (hf : WF f) (c : Loc) : bagId f c = some (wrapped f c) := by
  unfold bagId wrapped
  rw [tTransform_eq (ne_of_gt (ceil_pos hf.w hf.d)), tTransform_eq (ne_of_gt (ceil_pos hf.h hf.d))]

theorem wrapped_inRange {f : Field O} (hf : WF f) (c : Loc) : InRange f.dw f.dh (wrapped f c) := by
  obtain ⟨a1, a2, _, _, _⟩ := tT_spec (n := c.x) (ceil_pos hf.w hf.d)
  obtain ⟨b1, b2, _, _, _⟩ := tT_spec (n := c.y) (ceil_pos hf.h hf.d)
  refine ⟨a1, ?_, b1, ?_⟩
  · rw [hf.dw]; dsimp only [wrapped]; omega
  · rw [hf.dh]; dsimp only [wrapped]; omega

theorem scan_eq {f : Field O} (hf : WF f) (keep : Loc → O → Bool) (cs : List Loc) :
    scan f keep cs = some (cs.flatMap (fun c => (bagOf f (wrapped f c)).filter (keep (wrapped f c)))) := by
  induction cs with
  | nil => rfl
  | cons c cs ih =>
    obtain ⟨b, hb⟩ := vecGet_some hf.r.big (wrapped_inRange hf c)
    rw [scan, bagId_eq hf]
    dsimp only
    rw [hb]
    dsimp only
    rw [ih]
    simp [bagOf, hb]

theorem mem_irange {lo hi i : Int} : i ∈ irange lo hi ↔ lo ≤ i ∧ i ≤ hi := by
  unfold irange
  rw [List.mem_map]
  constructor
  · rintro ⟨k, hk, rfl⟩
    rw [List.mem_range] at hk
    omega
  · rintro ⟨h1, h2⟩
    exact ⟨(i - lo).toNat, List.mem_range.2 (by omega), by omega⟩

theorem nodup_irange (lo hi : Int) : (irange lo hi).Nodup := by
  unfold irange
  refine List.Nodup.map ?_ List.nodup_range
  intro a b hab
  dsimp only at hab
  omega

theorem mem_searchCells {f : Field O} {loc : Pos} {dist : ℚ} {c : Loc} :
    c ∈ searchCells f loc dist ↔
      ((window f.toroidal (discretize f.discretization loc).x (dist / f.discretization).floor
        (f.width / f.discretization).ceil).1 ≤ c.x ∧
      c.x ≤ (window f.toroidal (discretize f.discretization loc).x (dist / f.discretization).floor
        (f.width / f.discretization).ceil).2) ∧
      ((window f.toroidal (discretize f.discretization loc).y (dist / f.discretization).floor
        (f.height / f.discretization).ceil).1 ≤ c.y ∧
      c.y ≤ (window f.toroidal (discretize f.discretization loc).y (dist / f.discretization).floor
        (f.height / f.discretization).ceil).2) := by
  unfold searchCells
  rw [List.mem_flatMap]
  constructor
  · rintro ⟨i, hi, hc⟩
    obtain ⟨j, hj, rfl⟩ := List.mem_map.1 hc
    exact ⟨mem_irange.1 hi, mem_irange.1 hj⟩
  · rintro ⟨h1, h2⟩
    exact ⟨c.x, mem_irange.2 h1, List.mem_map.2 ⟨c.y, mem_irange.2 h2, rfl⟩⟩

theorem nodup_searchCells (f : Field O) (loc : Pos) (dist : ℚ) : (searchCells f loc dist).Nodup := by
  unfold searchCells
  rw [List.nodup_flatMap]
  refine ⟨?_, ?_⟩
  · intro i _
    refine (nodup_irange _ _).map ?_
    intro a b hab
    simpa using hab
  · refine List.Pairwise.imp ?_ (nodup_irange _ _)
    intro a b hab l h1 h2
    obtain ⟨j, _, rfl⟩ := List.mem_map.1 h1
    obtain ⟨j', _, h'⟩ := List.mem_map.1 h2
    simp at h'
    exact hab h'.1.symm

/-- Every stored object is in the cell of the location it carries, which is inside the field. -/
def AtOwnLocation (f : Field O) (locOf : O → Pos) : Prop :=
  ∀ c, InRange f.dw f.dh c → ∀ o ∈ bagOf f c,
    InField f.width f.height (locOf o) ∧ discretize f.discretization (locOf o) = c

theorem check_cases (b : Loc) (d w h : ℚ) (loc : Pos) (dis : ℚ) (tor : Bool) :
    (checkCircle b d w h loc dis tor = 1 ↔
      distSq (cornerNW b d) loc w h tor ≤ dis * dis ∧ distSq (cornerNE b d h) loc w h tor ≤ dis * dis ∧
      distSq (cornerSW b d w) loc w h tor ≤ dis * dis ∧ distSq (cornerSE b d w h) loc w h tor ≤ dis * dis) ∧
    (checkCircle b d w h loc dis tor = -1 ↔
      distSq (cornerNW b d) loc w h tor > dis * dis ∧ distSq (cornerNE b d h) loc w h tor > dis * dis ∧
      distSq (cornerSW b d w) loc w h tor > dis * dis ∧ distSq (cornerSE b d w h) loc w h tor > dis * dis) ∧
    (checkCircle b d w h loc dis tor = 1 ∨ checkCircle b d w h loc dis tor = -1 ∨
      checkCircle b d w h loc dis tor = 0) := by
  unfold checkCircle
  by_cases h1 : distSq (cornerNW b d) loc w h tor ≤ dis * dis ∧ distSq (cornerNE b d h) loc w h tor ≤ dis * dis ∧
      distSq (cornerSW b d w) loc w h tor ≤ dis * dis ∧ distSq (cornerSE b d w h) loc w h tor ≤ dis * dis
  · rw [if_pos h1]
    refine ⟨⟨fun _ => h1, fun _ => rfl⟩, ⟨fun h => absurd h (by decide), fun h => ?_⟩, Or.inl rfl⟩
    exact absurd h.1 (not_lt.2 h1.1)
  · rw [if_neg h1]
    by_cases h2 : distSq (cornerNW b d) loc w h tor > dis * dis ∧ distSq (cornerNE b d h) loc w h tor > dis * dis ∧
        distSq (cornerSW b d w) loc w h tor > dis * dis ∧ distSq (cornerSE b d w h) loc w h tor > dis * dis
    · rw [if_pos h2]
      exact ⟨⟨fun h => absurd h (by decide), fun h => absurd h h1⟩, ⟨fun _ => h2, fun _ => rfl⟩, Or.inr (Or.inl rfl)⟩
    · rw [if_neg h2]
      exact ⟨⟨fun h => absurd h (by decide), fun h => absurd h h1⟩,
        ⟨fun h => absurd h (by decide), fun h => absurd h h2⟩, Or.inr (Or.inr rfl)⟩

/-- The bounds of the cell an in-field position lies in. -/
theorem cell_bounds {w h d : ℚ} (hd : 0 < d) {p : Pos} (hp : InField w h p) :
    (((discretize d p).x : ℚ) * d ≤ p.x ∧ p.x ≤ min ((discretize d p).x * d + d) w) ∧
    (((discretize d p).y : ℚ) * d ≤ p.y ∧ p.y ≤ min ((discretize d p).y * d + d) h) := by
  obtain ⟨h1, h2, h3, h4⟩ := hp
  obtain ⟨a1, a2⟩ := (floor_div_eq hd _).1 (rfl : (p.x / d).floor = (p.x / d).floor)
  obtain ⟨b1, b2⟩ := (floor_div_eq hd _).1 (rfl : (p.y / d).floor = (p.y / d).floor)
  unfold discretize
  dsimp only
  exact ⟨⟨a1, le_min (by linarith) h2⟩, ⟨b1, le_min (by linarith) h4⟩⟩

theorem abs_of_sq {u v r : ℚ} (hr : 0 ≤ r) (h : u * u + v * v ≤ r * r) : (-r ≤ u ∧ u ≤ r) ∧ (-r ≤ v ∧ v ≤ r) := by
  refine ⟨⟨?_, ?_⟩, ⟨?_, ?_⟩⟩ <;> by_contra hc <;> nlinarith [mul_self_nonneg u, mul_self_nonneg v]

/-- If the four corners of the cell of `p` are within `dist`, so is `p`. On a torus this needs the
distance to be small enough for the cell not to contain a point opposite to `loc`. -/
theorem full_cell_sound {w h d : ℚ} (hd : 0 < d) (hw : 0 < w) (hh : 0 < h) {p : Pos} (hp : InField w h p)
    (loc : Pos) (dist : ℚ) (hdist : 0 < dist) (tor : Bool)
    (hsmall : tor = true → 2 * dist < w - d ∧ 2 * dist < h - d)
    (hc : checkCircle (discretize d p) d w h loc dist tor = 1) : distSq p loc w h tor ≤ dist * dist := by
  obtain ⟨a, b, c, e⟩ := (check_cases _ _ _ _ _ _ _).1.1 hc
  obtain ⟨⟨x1, x2⟩, ⟨y1, y2⟩⟩ := cell_bounds hd hp
  unfold distSq cornerNW cornerNE cornerSW cornerSE at *
  dsimp only at a b c e
  have hlx : min (((discretize d p).x : ℚ) * d + d) w - ((discretize d p).x : ℚ) * d ≤ d := by
    have := min_le_left (((discretize d p).x : ℚ) * d + d) w; linarith
  have hly : min (((discretize d p).y : ℚ) * d + d) h - ((discretize d p).y : ℚ) * d ≤ d := by
    have := min_le_left (((discretize d p).y : ℚ) * d + d) h; linarith
  generalize min (((discretize d p).x : ℚ) * d + d) w = hx at *
  generalize min (((discretize d p).y : ℚ) * d + d) h = hy at *
  generalize ((discretize d p).x : ℚ) * d = lx at *
  generalize ((discretize d p).y : ℚ) * d = ly at *
  cases tor
  · simp only [diff, Bool.false_eq_true, if_false] at *
    exact corners_bound (by linarith : lx - loc.x ≤ p.x - loc.x) (by linarith : p.x - loc.x ≤ hx - loc.x)
      (by linarith : ly - loc.y ≤ p.y - loc.y) (by linarith : p.y - loc.y ≤ hy - loc.y) a b c e
  · obtain ⟨s1, s2⟩ := hsmall rfl
    simp only [diff, if_true] at *
    obtain ⟨u, _⟩ := abs_of_sq (le_of_lt hdist) a
    obtain ⟨u', v'⟩ := abs_of_sq (le_of_lt hdist) e
    obtain ⟨_, v⟩ := abs_of_sq (le_of_lt hdist) a
    obtain ⟨i1, i2⟩ := toroidal_arc hw hlx x1 x2 s1 u u'
    obtain ⟨j1, j2⟩ := toroidal_arc hh hly y1 y2 s2 v v'
    exact corners_bound i1 i2 j1 j2 a b c e

end Verif.Field2D
