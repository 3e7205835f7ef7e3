import Verif.Lemmas.SingleSearch

/-! C174: neighbourhood searches of the continuous field in single precision. -/

set_option linter.unusedSectionVars false

namespace Verif.Single

open Grid Torus
open Field2D (FieldOp InField Within CarriesLocation)

variable {O : Type} [BEq O]

/-! ### the loops -/

theorem bagId_image (rnd : Rat → Rat) (f : Field2D.Field O) (c : Loc) : bagId rnd f c = Field2D.bagId (imageField rnd f) c := by
  unfold bagId Field2D.bagId imageField cellsAlong
  simp only [div_one]
  split <;> simp_all

theorem scan_image (rnd : Rat → Rat) (f : Field2D.Field O) (keep : Loc → O → Bool) (cs : List Loc) :
    scan rnd f keep cs = Field2D.scan (imageField rnd f) keep cs := by
  induction cs with
  | nil => rfl
  | cons c cs ih =>
    simp only [scan, Field2D.scan, bagId_image, ih]
    rfl

theorem searchCells_image (rnd : Rat → Rat) (f : Field2D.Field O) (loc : Pos) (dis : Rat) :
    searchCells rnd f loc dis = Field2D.searchCells (imageField rnd f) (image rnd f.discretization loc) (rnd (dis / f.discretization)) := by
  unfold searchCells Field2D.searchCells
  rw [discretize_image]
  simp only [imageField, div_one, cellsAlong]

/-- What is known of the exact field on the rounded quotients after a program. -/
theorem shows_image {rnd : Rat → Rat} (hr : Rounding rnd) {w h d : Rat} (t : Bool) (hd : 0 < d) (hw : d ≤ w) (hh : d ≤ h)
    (hcells : (cellsAlong rnd w d + 1) * (cellsAlong rnd h d + 1) ≤ 2 ^ 24) (hist : List (FieldOp O)) (hin : ∀ op ∈ hist, op.InField w h) :
    ∃ f, run rnd (new rnd w h d t) hist = some f ∧ f.discretization = d ∧ f.width = w ∧ f.height = h ∧ f.toroidal = t ∧
      Field2D.Shows (imageField rnd f) (rnd (w / d)) (rnd (h / d)) 1 t
        (fun c => Field2D.objsPublished 1 (hist.map (imageOp rnd d)) (Field2D.notDiscretize 1 c))
        (fun c => Field2D.objsWritten 1 (hist.map (imageOp rnd d)) (Field2D.notDiscretize 1 c)) := by
  obtain ⟨f, h1, h2, h3, h4⟩ := run_new hr t hd hw hh hcells hist hin
  obtain ⟨g, h5, h6⟩ := Field2D.shows_run t (width_pos hr hd hw) (width_pos hr hd hh) (d := 1) (by norm_num) _ h4
  rw [h3] at h5
  obtain rfl := Option.some.inj h5
  refine ⟨f, h1, h2, ?_, ?_, h6.tor, h6⟩
  · exact (run_sizes h1).1
  · exact (run_sizes h1).2
where
  exec_sizes {rnd : Rat → Rat} {f g : Field2D.Field O} {op : FieldOp O} (h : exec rnd f op = some g) : g.width = f.width ∧ g.height = f.height := by
    cases op with
    | place o l =>
      simp only [exec, setObjectLocation] at h
      split at h
      · cases h
      · obtain ⟨v, _, rfl⟩ := Option.map_eq_some_iff.1 h; exact ⟨rfl, rfl⟩
    | remove o l =>
      simp only [exec, removeObjectLocation] at h
      split at h
      · cases h
      · split at h
        · cases h; exact ⟨rfl, rfl⟩
        · split at h
          · obtain ⟨v, _, rfl⟩ := Option.map_eq_some_iff.1 h; exact ⟨rfl, rfl⟩
          · split at h
            · cases h
            · obtain ⟨v, _, rfl⟩ := Option.map_eq_some_iff.1 h; exact ⟨rfl, rfl⟩
    | update => cases h; exact ⟨rfl, rfl⟩
    | lazyUpdate =>
      simp only [exec, Field2D.lazyUpdate] at h
      split at h
      · cases h; exact ⟨rfl, rfl⟩
      · split at h
        · cases h
        · cases h; exact ⟨rfl, rfl⟩
  run_sizes {rnd : Rat → Rat} {f g : Field2D.Field O} {hist : List (FieldOp O)} (h : run rnd f hist = some g) : g.width = f.width ∧ g.height = f.height := by
    induction hist generalizing g with
    | nil => cases h; exact ⟨rfl, rfl⟩
    | cons op hist ih =>
      obtain ⟨f', h1, h2⟩ := Option.bind_eq_some_iff.1 h
      obtain ⟨a, b⟩ := exec_sizes h2
      obtain ⟨a', b'⟩ := ih h1
      exact ⟨a.trans a', b.trans b'⟩

/-- An object in the bag of a cell was placed there, and is published there. -/
theorem mem_bag {rnd : Rat → Rat} {d : Rat} {hist : List (FieldOp O)} {c : Loc} {o : O}
    (ho : o ∈ Field2D.objsPublished 1 (hist.map (imageOp rnd d)) (Field2D.notDiscretize 1 c)) :
    ∃ l, FieldOp.place o l ∈ hist ∧ discretize rnd d l = c ∧ o ∈ published (cellOf rnd d) hist l := by
  obtain ⟨l', h1, h2⟩ := Field2D.mem_objsPublished ho
  obtain ⟨op, h3, h4⟩ := List.mem_map.1 h1
  cases op with
  | place o' l =>
    simp only [imageOp, FieldOp.place.injEq] at h4
    obtain ⟨rfl, rfl⟩ := h4
    rw [Field2D.sameSquare_discretize, Field2D.discretize_notDiscretize (by norm_num)] at h2
    refine ⟨l, h3, by rw [discretize_image, h2], ?_⟩
    rw [← published_image, ← Field2D.objsPublished_congr _ (p := Field2D.notDiscretize 1 c)]
    · exact ho
    · rw [Field2D.discretize_notDiscretize (by norm_num), h2]
  | remove o' l => cases h4
  | update => cases h4
  | lazyUpdate => cases h4

/-- The positions of the objects and the sizes of the field are singles. -/
structure Singles (w h : Rat) (hist : List (FieldOp O)) : Prop where
  w : IsF32 w
  h : IsF32 h
  positions : ∀ o l, FieldOp.place o l ∈ hist → IsF32 l.x ∧ IsF32 l.y

theorem cell_small {rnd : Rat → Rat} (hr : Rounding rnd) {w h d x : Rat} (hd : 0 < d) (hw : 0 < w) (hh : 0 < h) (hx : x ≤ w)
    (hcells : (cellsAlong rnd w d + 1) * (cellsAlong rnd h d + 1) ≤ 2 ^ 24) : (rnd (x / d)).floor ≤ 2 ^ 24 := by
  have h1 : (rnd (x / d)).floor ≤ cellsAlong rnd w d := by
    have a := Rat.floor_le (a := rnd (x / d))
    have b := Rat.le_ceil (x := rnd (w / d))
    have c := hr.mono _ _ (div_le_div_of_nonneg_right hx hd.le)
    have : (((rnd (x / d)).floor : Int) : Rat) ≤ ((rnd (w / d)).ceil : Int) := by linarith
    exact_mod_cast this
  have h2 : 0 ≤ cellsAlong rnd h d := by
    have := hr.nonneg (show 0 ≤ h / d by positivity)
    unfold cellsAlong
    have h1 : ((-1 : Int)) < (rnd (h / d)).ceil := Rat.lt_ceil_iff.2 (by push_cast; linarith)
    omega
  have h3 : 0 ≤ cellsAlong rnd w d := by
    have := hr.nonneg (show 0 ≤ w / d by positivity)
    unfold cellsAlong
    have h1 : ((-1 : Int)) < (rnd (w / d)).ceil := Rat.lt_ceil_iff.2 (by push_cast; linarith)
    omega
  nlinarith

theorem fits {rnd : Rat → Rat} (hr : Rounding rnd) {w h d : Rat} (hd : 0 < d) (hw : d ≤ w) (hh : d ≤ h)
    (hcells : (cellsAlong rnd w d + 1) * (cellsAlong rnd h d + 1) ≤ 2 ^ 24) {p : Pos} (hp : InField w h p) (hx : IsF32 p.x) (hy : IsF32 p.y) :
    Fits rnd w h d p :=
  ⟨hp, hx, hy, cell_small hr hd (by linarith) (by linarith) hp.2.1 hcells,
    cell_small (w := h) (h := w) hr hd (by linarith) (by linarith) hp.2.2.2 (by rw [mul_comm]; exact hcells)⟩

/-- **C174 (partial).** In single precision `get_neighbors_within_distance` never panics, returns only published objects, and every object it returns is within
the distance up to a relative rounding error of 2^-18 of the distance and the sizes. Missing: the exact distance; on a torus, large distances (C37). -/
theorem C174_sound_partial (rnd root : Rat → Rat) (hr : Rounding rnd) (hq : Root root) (w h d : Rat) (t : Bool) (hd : 1 / 2 ^ 40 ≤ d) (hw : d ≤ w) (hh : d ≤ h)
    (hcells : (cellsAlong rnd w d + 1) * (cellsAlong rnd h d + 1) ≤ 2 ^ 24) :
    ∃ cell : Pos → Int × Int, Squares cell d ∧ ∀ hist : List (FieldOp O), (∀ op ∈ hist, op.InField w h) → Singles w h hist →
      ∀ locOf : O → Pos, CarriesLocation locOf hist → ∀ loc : Pos, InField w h loc → IsF32 loc.x → IsF32 loc.y → ∀ dis : Rat,
      (t = true → 2 * (dis + allowance w h d dis) + d + allowance w h d dis < w ∧ 2 * (dis + allowance w h d dis) + d + allowance w h d dis < h) →
      ∃ f r, run rnd (new rnd w h d t) hist = some f ∧ getNeighborsWithinDistance rnd root f locOf loc dis = some r ∧
        ∀ o ∈ r, o ∈ published cell hist (locOf o) ∧ Within t w h (locOf o) loc (dis + allowance w h d dis) := by
  have dpos : 0 < d := lt_of_lt_of_le (by norm_num) hd
  refine ⟨cellOf rnd d, squares_cellOf hr dpos, ?_⟩
  intro hist hin hs locOf hloc loc hli hlx hly dis hsmall
  obtain ⟨f, h1, h2, h3, h4, h5, h6⟩ := shows_image hr t dpos hw hh hcells hist hin
  by_cases hdis : dis ≤ 0
  · exact ⟨f, [], h1, by unfold getNeighborsWithinDistance; rw [if_pos hdis], by simp⟩
  have hdis' : 0 < dis := lt_of_not_ge hdis
  refine ⟨f, _, h1, by unfold getNeighborsWithinDistance; rw [if_neg hdis, scan_image, Field2D.scan_eq h6.wf], ?_⟩
  intro o ho
  obtain ⟨c, _, hc⟩ := List.mem_flatMap.1 ho
  obtain ⟨hb, hk⟩ := List.mem_filter.1 hc
  have hrange := Field2D.wrapped_inRange h6.wf c
  rw [Field2D.bagOf_shows h6 hrange] at hb
  generalize Field2D.wrapped (imageField rnd f) c = b at *
  obtain ⟨l, m1, m2, m3⟩ := mem_bag hb
  have hlo := hloc o l m1
  rw [hlo]
  refine ⟨m3, ?_⟩
  have hinl : InField w h l := hin _ m1
  have fl := fits hr dpos hw hh hcells hinl (hs.positions o l m1).1 (hs.positions o l m1).2
  have floc := fits hr dpos hw hh hcells hli hlx hly
  have wpos : 0 < w := lt_of_lt_of_le dpos hw
  have hpos : 0 < h := lt_of_lt_of_le dpos hh
  rw [← Field2D.within_iff _ _ _ wpos hpos]
  unfold keepExact at hk
  rw [decide_eq_true_eq, h2, h3, h4, h5, hlo] at hk
  rcases hk with ⟨_, hk⟩ | hk
  · have hall := outer_le hd hw hh hdis'.le
    have sw : 0 ≤ cellErr w d := by unfold cellErr; positivity
    have sh : 0 ≤ cellErr h d := by unfold cellErr; positivity
    have hR : 0 ≤ outer w h dis := by unfold outer coordErr; positivity
    have gx : |loc.x - l.x| ≤ 4 * w :=
      abs_near (s := 0) hli.1 (by linarith only [hli.2.1]) hinl.1 hinl.2.1 wpos.le
    have gy : |loc.y - l.y| ≤ 4 * h :=
      abs_near (s := 0) hli.2.2.1 (by linarith only [hli.2.2.2]) hinl.2.2.1 hinl.2.2.2 hpos.le
    have := dist_sound hr hq t hlx hly fl.x fl.y hs.w hs.h (le_trans hd hw) (le_trans hd hh) gx gy hdis'.le hk
    rw [Field2D.distSq_symm _ _ _ wpos hpos]
    exact le_trans this (mul_self_le_mul_self hR (by linarith only [hall, sw, sh]))
  · rw [← m2] at hk
    exact full_cell hr hq t hd hw hh hs.w hs.h fl floc hdis'.le hsmall hk

/-! ### completeness -/

theorem quotient_near {rnd : Rat → Rat} (hr : Rounding rnd) {d x : Rat} (hd : 0 < d) (hx : 0 ≤ x) :
    x - slack d x ≤ rnd (x / d) * d ∧ rnd (x / d) * d ≤ x + slack d x := by
  have hn := hr.near (x / d)
  rw [abs_of_nonneg (div_nonneg hx hd.le), abs_le] at hn
  have e : (x / d / 2 ^ 24 + 1 / 2 ^ 150) * d = slack d x := by unfold slack; field_simp
  have e2 : x / d * d = x := by field_simp
  constructor
  · have := mul_le_mul_of_nonneg_right (show x / d - (x / d / 2 ^ 24 + 1 / 2 ^ 150) ≤ rnd (x / d) by linarith [hn.1]) hd.le
    rwa [sub_mul, e, e2] at this
  · have := mul_le_mul_of_nonneg_right (show rnd (x / d) ≤ x / d + (x / d / 2 ^ 24 + 1 / 2 ^ 150) by linarith [hn.2]) hd.le
    rwa [add_mul, e, e2] at this

/-- Near positions are in cells inside the search window. -/
theorem window_enough {rnd : Rat → Rat} (hr : Rounding rnd) {w h d dis a b : Rat} (hd : 1 / 2 ^ 40 ≤ d) (hw : d ≤ w) (hh : d ≤ h)
    (ha : 0 ≤ a) (haw : a ≤ w) (hb : 0 ≤ b) (hbw : b ≤ w) (hdis : 0 ≤ dis)
    (hle : |a - b| ≤ dis - d - allowance w h d dis) :
    (rnd (b / d)).floor - (rnd (dis / d)).floor ≤ (rnd (a / d)).floor ∧ (rnd (a / d)).floor ≤ (rnd (b / d)).floor + (rnd (dis / d)).floor := by
  have dpos : 0 < d := lt_of_lt_of_le (by norm_num) hd
  rw [abs_le] at hle
  obtain ⟨hle1, hle2⟩ := hle
  obtain ⟨a1, a2⟩ := floor_slack hr dpos ha
  obtain ⟨b1, b2⟩ := floor_slack hr dpos hb
  obtain ⟨c1, c2⟩ := floor_slack hr dpos hdis
  have s1 : slack d a + slack d b + slack d dis ≤ allowance w h d dis := by unfold slack allowance; linarith only [haw, hbw, hd, hw, hh, hdis]
  generalize (rnd (a / d)).floor = A at *
  generalize (rnd (b / d)).floor = B at *
  generalize (rnd (dis / d)).floor = C at *
  constructor
  · by_contra hc
    have : (A : Rat) + 1 ≤ B - C := by exact_mod_cast (by omega : A + 1 ≤ B - C)
    have := mul_le_mul_of_nonneg_right this dpos.le
    nlinarith only [this, a1, a2, b1, b2, c1, c2, s1, hle1, hle2, dpos]
  · by_contra hc
    have : (B : Rat) + C + 1 ≤ A := by exact_mod_cast (by omega : B + C + 1 ≤ A)
    have := mul_le_mul_of_nonneg_right this dpos.le
    nlinarith only [this, a1, a2, b1, b2, c1, c2, s1, hle1, hle2, dpos]

/-- A position clear of the upper border is in a cell that searches visit. -/
theorem below_border {rnd : Rat → Rat} (hr : Rounding rnd) {w h d dis x : Rat} (hd : 1 / 2 ^ 40 ≤ d) (hw : d ≤ w) (hh : d ≤ h) (hx : 0 ≤ x) (hdis : 0 ≤ dis)
    (hxw : x ≤ w - allowance w h d dis) : (rnd (x / d)).floor < cellsAlong rnd w d := by
  have dpos : 0 < d := lt_of_lt_of_le (by norm_num) hd
  obtain ⟨a1, _⟩ := floor_slack hr dpos hx
  obtain ⟨b1, _⟩ := quotient_near hr dpos (show 0 ≤ w by linarith)
  have hb := Rat.le_ceil (x := rnd (w / d))
  have s1 : slack d x + slack d w < allowance w h d dis := by
    have : x ≤ w := by
      have : 0 ≤ allowance w h d dis := div_nonneg (by linarith only [hw, hh, hdis, dpos]) (by norm_num)
      linarith
    unfold slack allowance; linarith only [this, hd, hw, hh, hdis]
  unfold cellsAlong
  have : (((rnd (x / d)).floor : Int) : Rat) * d < ((rnd (w / d)).ceil : Int) * d := by
    have := mul_le_mul_of_nonneg_right hb dpos.le
    linarith
  have := lt_of_mul_lt_mul_right this dpos.le
  exact_mod_cast this

theorem check_near {rnd root : Rat → Rat} {b : Loc} {d w h dis : Rat} {loc : Pos} {tor : Bool}
    (hc : dist rnd root ⟨lowEnd rnd b.x d, lowEnd rnd b.y d⟩ loc w h tor ≤ dis) :
    checkCircle rnd root b d w h loc dis tor = 1 ∨ checkCircle rnd root b d w h loc dis tor = 0 := by
  unfold checkCircle
  split_ifs with h1 h2
  · exact Or.inl rfl
  · exact absurd hc (not_le.2 h2.1)
  · exact Or.inr rfl

theorem distSq_le_straight (p q : Pos) (t : Bool) {w h r : Rat} (hw : 0 < w) (hh : 0 < h)
    (hle : (p.x - q.x) * (p.x - q.x) + (p.y - q.y) * (p.y - q.y) ≤ r) : distSq p q w h t ≤ r := by
  have sq : ∀ a b : Rat, |a| ≤ |b| → a * a ≤ b * b := by
    intro a b hab
    rw [← abs_mul_abs_self a, ← abs_mul_abs_self b]
    exact mul_self_le_mul_self (abs_nonneg a) hab
  have h1 := sq _ _ (diff_le t p.x q.x hw)
  have h2 := sq _ _ (diff_le t p.y q.y hh)
  unfold distSq
  linarith

/-- The lower corner of the cell of a near position is computed to be near, and so is the position. -/
theorem corner_near {rnd root : Rat → Rat} (hr : Rounding rnd) (hq : Root root) (t : Bool) {w h d dis : Rat} (hd : 1 / 2 ^ 40 ≤ d) (hw : d ≤ w) (hh : d ≤ h)
    (fw : IsF32 w) (fh : IsF32 h) (fdis : IsF32 dis) {p loc : Pos} (hp : Fits rnd w h d p) (hl : Fits rnd w h d loc)
    (hrad : 0 ≤ dis - 3 * d / 2 - allowance w h d dis) (hdis : 0 ≤ dis)
    (hsq : (p.x - loc.x) * (p.x - loc.x) + (p.y - loc.y) * (p.y - loc.y) ≤
      (dis - 3 * d / 2 - allowance w h d dis) * (dis - 3 * d / 2 - allowance w h d dis)) :
    dist rnd root ⟨lowEnd rnd (rnd (p.x / d)).floor d, lowEnd rnd (rnd (p.y / d)).floor d⟩ loc w h t ≤ dis ∧ dist rnd root loc p w h t ≤ dis := by
  have hw0 : 1 / 2 ^ 40 ≤ w := le_trans hd hw
  have hh0 : 1 / 2 ^ 40 ≤ h := le_trans hd hh
  have wpos : 0 < w := lt_of_lt_of_le (by norm_num) hw0
  have hpos : 0 < h := lt_of_lt_of_le (by norm_num) hh0
  have dpos : 0 < d := lt_of_lt_of_le (by norm_num) hd
  obtain ⟨p1, p2, p3, p4⟩ := hp.inField
  obtain ⟨l1, l2, l3, l4⟩ := hl.inField
  obtain ⟨a1, a2, a3, _⟩ := cell_ends hr hd p1 p2 hp.cellX
  obtain ⟨b1, b2, b3, _⟩ := cell_ends hr hd p3 p4 hp.cellY
  have sw : 0 ≤ cellErr w d := by unfold cellErr; positivity
  have sh : 0 ≤ cellErr h d := by unfold cellErr; positivity
  have sw' : cellErr w d ≤ w := by unfold cellErr; linarith only [hw, wpos]
  have sh' : cellErr h d ≤ h := by unfold cellErr; linarith only [hh, hpos]
  have hin := inner_ge hd hw hh hdis
  have f1 : IsF32 (lowEnd rnd (rnd (p.x / d)).floor d) := hr.lands _
  have f2 : IsF32 (lowEnd rnd (rnd (p.y / d)).floor d) := hr.lands _
  generalize lowEnd rnd (rnd (p.x / d)).floor d = lx at *
  generalize lowEnd rnd (rnd (p.y / d)).floor d = ly at *
  have hR : 0 ≤ inner w h dis := by linarith only [hin, hrad, sw, sh, dpos]
  constructor
  · have glx := abs_near (w := w) a3 (by linarith only [a1, p2] : _ ≤ w + cellErr w d) l1 l2 sw'
    have gly := abs_near (w := h) b3 (by linarith only [b1, p4] : _ ≤ h + cellErr h d) l3 l4 sh'
    refine dist_complete (p := ⟨lx, ly⟩) hr hq t f1 f2 hl.x hl.y fw fh hw0 hh0 glx gly fdis hdis hR ?_
    apply distSq_le_straight _ _ _ wpos hpos
    have hm := Field2D.move_bound (u := lx - p.x) (v := ly - p.y) (d := d + (cellErr w d + cellErr h d)) hrad (by linarith only [dpos, sw, sh]) hsq
      ⟨by linarith only [a2, sh], by linarith only [a1, dpos, sh]⟩ ⟨by linarith only [b2, sw], by linarith only [b1, dpos, sw]⟩
    rw [show p.x - loc.x + (lx - p.x) = lx - loc.x by ring, show p.y - loc.y + (ly - p.y) = ly - loc.y by ring] at hm
    exact le_trans hm (mul_self_le_mul_self (by linarith only [hrad, dpos, sw, sh]) (by linarith only [hin]))
  · have gx : |loc.x - p.x| ≤ 4 * w := abs_near (s := 0) l1 (by linarith only [l2]) p1 p2 wpos.le
    have gy : |loc.y - p.y| ≤ 4 * h := abs_near (s := 0) l3 (by linarith only [l4]) p3 p4 hpos.le
    refine dist_complete hr hq t hl.x hl.y hp.x hp.y fw fh hw0 hh0 gx gy fdis hdis hR ?_
    apply distSq_le_straight _ _ _ wpos hpos
    have := mul_self_le_mul_self hrad (by linarith only [hin, dpos, sw, sh] : dis - 3 * d / 2 - allowance w h d dis ≤ inner w h dis)
    nlinarith only [this, hsq]

/-- **C174 (partial), guaranteed radius.** Every published object that is clear of the upper borders by the rounding allowance and whose straight distance from
`loc` is at most `dis - 3 d / 2` less the allowance is returned. Missing: objects between this radius and the distance, across the seam, on the upper borders. -/
theorem C174_guaranteed_radius_partial (rnd root : Rat → Rat) (hr : Rounding rnd) (hq : Root root) (w h d : Rat) (t : Bool) (hd : 1 / 2 ^ 40 ≤ d) (hw : d ≤ w)
    (hh : d ≤ h) (hcells : (cellsAlong rnd w d + 1) * (cellsAlong rnd h d + 1) ≤ 2 ^ 24) :
    ∃ cell : Pos → Int × Int, Squares cell d ∧ ∀ hist : List (FieldOp O), (∀ op ∈ hist, op.InField w h) → IsF32 w → IsF32 h →
      ∀ (locOf : O → Pos) (loc : Pos), InField w h loc → IsF32 loc.x → IsF32 loc.y → ∀ dis : Rat, IsF32 dis →
      0 ≤ dis - 3 * d / 2 - allowance w h d dis → ∃ f r, run rnd (new rnd w h d t) hist = some f ∧
        getNeighborsWithinDistance rnd root f locOf loc dis = some r ∧
        ∀ o, o ∈ published cell hist (locOf o) → InField w h (locOf o) → IsF32 (locOf o).x → IsF32 (locOf o).y →
          (locOf o).x ≤ w - allowance w h d dis → (locOf o).y ≤ h - allowance w h d dis →
          Within false w h (locOf o) loc (dis - 3 * d / 2 - allowance w h d dis) → o ∈ r := by
  have dpos : 0 < d := lt_of_lt_of_le (by norm_num) hd
  have wpos : 0 < w := lt_of_lt_of_le dpos hw
  have hpos : 0 < h := lt_of_lt_of_le dpos hh
  refine ⟨cellOf rnd d, squares_cellOf hr dpos, ?_⟩
  intro hist hin fw fh locOf loc hli hlx hly dis fdis hrad
  obtain ⟨f, h1, h2, h3, h4, h5, h6⟩ := shows_image hr t dpos hw hh hcells hist hin
  have hdis : 0 < dis := by
    by_contra hc
    have hc := le_of_not_gt hc
    unfold allowance at hrad
    linarith only [hc, hrad, dpos, wpos, hpos]
  refine ⟨f, _, h1, by unfold getNeighborsWithinDistance; rw [if_neg (not_le.2 hdis), scan_image, Field2D.scan_eq h6.wf], ?_⟩
  intro o ho hio hox hoy hbx hby hwi
  have fo := fits hr dpos hw hh hcells hio hox hoy
  have fl := fits hr dpos hw hh hcells hli hlx hly
  have hsq : ((locOf o).x - loc.x) * ((locOf o).x - loc.x) + ((locOf o).y - loc.y) * ((locOf o).y - loc.y) ≤
      (dis - 3 * d / 2 - allowance w h d dis) * (dis - 3 * d / 2 - allowance w h d dis) := by simpa [Within] using hwi
  obtain ⟨nx, ny⟩ := abs_le_of_norm hrad hsq
  have hn : dis - 3 * d / 2 - allowance w h d dis ≤ dis - d - allowance w h d dis := by linarith only [dpos]
  obtain ⟨wx1, wx2⟩ := window_enough hr hd hw hh hio.1 hio.2.1 hli.1 hli.2.1 hdis.le (le_trans nx hn)
  have swap : allowance w h d dis = allowance h w d dis := by unfold allowance; ring
  obtain ⟨wy1, wy2⟩ := window_enough (w := h) (h := w) hr hd hh hw hio.2.2.1 hio.2.2.2 hli.2.2.1 hli.2.2.2 hdis.le (by rw [← swap]; exact le_trans ny hn)
  have lx := below_border hr hd hw hh hio.1 hdis.le hbx
  have ly := below_border (w := h) (h := w) hr hd hh hw hio.2.2.1 hdis.le (by rw [← swap]; exact hby)
  have zx : 0 ≤ (rnd ((locOf o).x / d)).floor := Rat.le_floor_iff.2 (by push_cast; exact hr.nonneg (div_nonneg hio.1 dpos.le))
  have zy : 0 ≤ (rnd ((locOf o).y / d)).floor := Rat.le_floor_iff.2 (by push_cast; exact hr.nonneg (div_nonneg hio.2.2.1 dpos.le))
  have hwr : Field2D.wrapped (imageField rnd f) (discretize rnd d (locOf o)) = discretize rnd d (locOf o) := by
    unfold Field2D.wrapped
    rw [h6.width, h6.height, h6.disc]
    simp only [div_one, discretize]
    unfold cellsAlong at lx ly
    rw [tT_of_range zx lx, tT_of_range zy ly]
  refine List.mem_flatMap.2 ⟨discretize rnd d (locOf o), ?_, ?_⟩
  · rw [searchCells_image, Field2D.mem_searchCells, h6.disc, h6.width, h6.height, h6.tor, h2, ← discretize_image]
    unfold Field2D.window
    simp only [div_one, discretize]
    unfold cellsAlong at lx ly
    cases t
    · simp only [Bool.false_eq_true, if_false]; omega
    · simp only [if_true]; omega
  · rw [hwr]
    refine List.mem_filter.2 ⟨?_, ?_⟩
    · have hrf : InRange (imageField rnd f).dw (imageField rnd f).dh (discretize rnd d (locOf o)) := by
        rw [← hwr]; exact Field2D.wrapped_inRange h6.wf _
      rw [Field2D.bagOf_shows h6 hrf]
      rw [← published_image] at ho
      rwa [Field2D.objsPublished_congr _ (q := image rnd d (locOf o))]
      rw [discretize_image, Field2D.discretize_notDiscretize (by norm_num)]
    · unfold keepExact
      rw [h2, h3, h4, h5, decide_eq_true_eq]
      obtain ⟨c1, c2⟩ := corner_near hr hq t hd hw hh fw fh fdis fo fl hrad hdis.le hsq
      rcases check_near (b := discretize rnd d (locOf o)) c1 with hc | hc
      · exact Or.inr hc
      · exact Or.inl ⟨hc, c2⟩

/-- **C174 (partial), the relaxed search.** It never panics, returns only published objects, and every one that is clear of the upper borders by the rounding
allowance and whose straight distance from `loc` is at most `dis - d` less the allowance. Missing: objects between this radius and the distance, across the seam,
on the upper borders. -/
theorem C174_relaxed_partial (rnd : Rat → Rat) (hr : Rounding rnd) (w h d : Rat) (t : Bool) (hd : 1 / 2 ^ 40 ≤ d) (hw : d ≤ w)
    (hh : d ≤ h) (hcells : (cellsAlong rnd w d + 1) * (cellsAlong rnd h d + 1) ≤ 2 ^ 24) :
    ∃ cell : Pos → Int × Int, Squares cell d ∧ ∀ hist : List (FieldOp O), (∀ op ∈ hist, op.InField w h) →
      ∀ (locOf : O → Pos) (loc : Pos), CarriesLocation locOf hist → InField w h loc → ∀ dis : Rat,
      0 ≤ dis - d - allowance w h d dis → ∃ f r, run rnd (new rnd w h d t) hist = some f ∧
        getNeighborsWithinRelaxDistance rnd f loc dis = some r ∧
        (∀ o ∈ r, o ∈ published cell hist (locOf o)) ∧
        ∀ o, o ∈ published cell hist (locOf o) → InField w h (locOf o) →
          (locOf o).x ≤ w - allowance w h d dis → (locOf o).y ≤ h - allowance w h d dis →
          Within false w h (locOf o) loc (dis - d - allowance w h d dis) → o ∈ r := by
  have dpos : 0 < d := lt_of_lt_of_le (by norm_num) hd
  have wpos : 0 < w := lt_of_lt_of_le dpos hw
  have hpos : 0 < h := lt_of_lt_of_le dpos hh
  refine ⟨cellOf rnd d, squares_cellOf hr dpos, ?_⟩
  intro hist hin locOf loc hloc hli dis hrad
  obtain ⟨f, h1, h2, h3, h4, h5, h6⟩ := shows_image hr t dpos hw hh hcells hist hin
  have hdis : 0 < dis := by
    by_contra hc
    have hc := le_of_not_gt hc
    unfold allowance at hrad
    linarith only [hc, hrad, dpos, wpos, hpos]
  refine ⟨f, _, h1, by unfold getNeighborsWithinRelaxDistance; rw [if_neg (not_le.2 hdis), scan_image, Field2D.scan_eq h6.wf], ?_, ?_⟩
  · intro o ho
    obtain ⟨c, _, hc⟩ := List.mem_flatMap.1 ho
    obtain ⟨hb, _⟩ := List.mem_filter.1 hc
    rw [Field2D.bagOf_shows h6 (Field2D.wrapped_inRange h6.wf c)] at hb
    obtain ⟨l, m1, _, m3⟩ := mem_bag hb
    rw [hloc o l m1]
    exact m3
  intro o ho hio hbx hby hwi
  have hsq : ((locOf o).x - loc.x) * ((locOf o).x - loc.x) + ((locOf o).y - loc.y) * ((locOf o).y - loc.y) ≤
      (dis - d - allowance w h d dis) * (dis - d - allowance w h d dis) := by simpa [Within] using hwi
  obtain ⟨nx, ny⟩ := abs_le_of_norm hrad hsq
  obtain ⟨wx1, wx2⟩ := window_enough hr hd hw hh hio.1 hio.2.1 hli.1 hli.2.1 hdis.le nx
  have swap : allowance w h d dis = allowance h w d dis := by unfold allowance; ring
  obtain ⟨wy1, wy2⟩ := window_enough (w := h) (h := w) hr hd hh hw hio.2.2.1 hio.2.2.2 hli.2.2.1 hli.2.2.2 hdis.le (by rw [← swap]; exact ny)
  have lx := below_border hr hd hw hh hio.1 hdis.le hbx
  have ly := below_border (w := h) (h := w) hr hd hh hw hio.2.2.1 hdis.le (by rw [← swap]; exact hby)
  have zx : 0 ≤ (rnd ((locOf o).x / d)).floor := Rat.le_floor_iff.2 (by push_cast; exact hr.nonneg (div_nonneg hio.1 dpos.le))
  have zy : 0 ≤ (rnd ((locOf o).y / d)).floor := Rat.le_floor_iff.2 (by push_cast; exact hr.nonneg (div_nonneg hio.2.2.1 dpos.le))
  have hwr : Field2D.wrapped (imageField rnd f) (discretize rnd d (locOf o)) = discretize rnd d (locOf o) := by
    unfold Field2D.wrapped
    rw [h6.width, h6.height, h6.disc]
    simp only [div_one, discretize]
    unfold cellsAlong at lx ly
    rw [tT_of_range zx lx, tT_of_range zy ly]
  refine List.mem_flatMap.2 ⟨discretize rnd d (locOf o), ?_, ?_⟩
  · rw [searchCells_image, Field2D.mem_searchCells, h6.disc, h6.width, h6.height, h6.tor, h2, ← discretize_image]
    unfold Field2D.window
    simp only [div_one, discretize]
    unfold cellsAlong at lx ly
    cases t
    · simp only [Bool.false_eq_true, if_false]; omega
    · simp only [if_true]; omega
  · rw [hwr]
    refine List.mem_filter.2 ⟨?_, ?_⟩
    · have hrf : InRange (imageField rnd f).dw (imageField rnd f).dh (discretize rnd d (locOf o)) := by
        rw [← hwr]; exact Field2D.wrapped_inRange h6.wf _
      rw [Field2D.bagOf_shows h6 hrf]
      rw [← published_image] at ho
      rwa [Field2D.objsPublished_congr _ (q := image rnd d (locOf o))]
      rw [discretize_image, Field2D.discretize_notDiscretize (by norm_num)]
    · rfl

/-- **C174** is false of the code, first way: the computed distance may be too short, so an object that is farther away than the distance is returned. -/
theorem C174_too_far_negation_partial :
    ∃ f : Field2D.Field Pos, run single (new single 10 10 1 false) [.lazyUpdate, .place (⟨1, 1 / 2 ^ 13⟩ : Pos) ⟨1, 1 / 2 ^ 13⟩] = some f ∧
      getNeighborsWithinDistance single root f id ⟨0, 0⟩ 1 = some [⟨1, 1 / 2 ^ 13⟩] ∧
      ¬ Within false 10 10 ⟨1, 1 / 2 ^ 13⟩ ⟨0, 0⟩ 1 := by
  refine ⟨((run single (new single 10 10 1 false) [.lazyUpdate, .place (⟨1, 1 / 2 ^ 13⟩ : Pos) ⟨1, 1 / 2 ^ 13⟩]).getD (new single 1 1 1 true)),
    by decide +kernel, by decide +kernel, ?_⟩
  rw [← Field2D.within_iff _ _ _ (by norm_num) (by norm_num)]
  decide +kernel

/-- **C174** is false of the code, second way: an agent of a torus that steps across the seam by less than half a unit in the last place and wraps its position
with `toroidal_transform` lands on the upper border, where no search finds it, not even from its own location. -/
theorem C174_seam_negation_partial :
    ∃ f : Field2D.Field Pos, run single (new single 10 10 1 true)
        [.lazyUpdate, .place (⟨transform single (-1 / 2 ^ 30) 10, 5⟩ : Pos) ⟨transform single (-1 / 2 ^ 30) 10, 5⟩] = some f ∧
      getNeighborsWithinDistance single root f id ⟨transform single (-1 / 2 ^ 30) 10, 5⟩ 3 = some [] ∧
      Within true 10 10 ⟨transform single (-1 / 2 ^ 30) 10, 5⟩ ⟨transform single (-1 / 2 ^ 30) 10, 5⟩ 3 := by
  refine ⟨((run single (new single 10 10 1 true) [.lazyUpdate,
      .place (⟨transform single (-1 / 2 ^ 30) 10, 5⟩ : Pos) ⟨transform single (-1 / 2 ^ 30) 10, 5⟩]).getD (new single 1 1 1 true)),
    by decide +kernel, by decide +kernel, ?_⟩
  rw [← Field2D.within_iff _ _ _ (by norm_num) (by norm_num)]
  decide +kernel

-- three objects of a 10 by 10 torus with cells of 0.7f32: the ones near the middle are found, the one beyond the distance is not
example : (run single (new single 10 10 (single (7 / 10)) true)
      [.lazyUpdate, .place (⟨single (33 / 10), 4⟩ : Pos) ⟨single (33 / 10), 4⟩, .place ⟨4, 5⟩ ⟨4, 5⟩, .place ⟨8, 8⟩ ⟨8, 8⟩]).bind
      (fun f => getNeighborsWithinDistance single root f id ⟨single (33 / 10), 4⟩ 2) =
    some [(⟨single (33 / 10), 4⟩ : Pos), ⟨4, 5⟩] := by decide +kernel

-- the hypotheses of the two theorems hold there
example : 1 / 2 ^ 40 ≤ single (7 / 10) ∧ single (7 / 10) ≤ 10 ∧
    (cellsAlong single 10 (single (7 / 10)) + 1) * (cellsAlong single 10 (single (7 / 10)) + 1) ≤ 2 ^ 24 ∧
    2 * (2 + allowance 10 10 (single (7 / 10)) 2) + single (7 / 10) + allowance 10 10 (single (7 / 10)) 2 < 10 ∧
    0 ≤ 2 - 3 * single (7 / 10) / 2 - allowance 10 10 (single (7 / 10)) 2 := by
  unfold allowance
  decide +kernel

end Verif.Single
