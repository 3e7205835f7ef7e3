import Verif.Spec.MutualMachine
import Verif.Props.Mutual
import Verif.Props.MachineMirror

/-!
C263: being neighbours is mutual, with machine floats, without and with the feature `parallel`. True of the search by cells for objects
whose cells are searched at all, and of the exact search if the circle treats both cells alike; false otherwise.
-/

set_option linter.unusedSectionVars false

namespace Verif.Machine

open Grid
open DenseI32 (Mode fit vecGet)

/-! ### Cells -/

theorem fit_in (m : Mode) {z : Int} (h1 : -2 ^ 31 ≤ z) (h2 : z < 2 ^ 31) : fit m z = some z := by
  cases m
  · exact if_pos ⟨h1, h2⟩
  · show some _ = some _
    congr 1
    omega

theorem window_in (m : Mode) (t : Bool) {c k M : Int} (hc : 0 ≤ c) (hM : c < M) (hk : 0 ≤ k) (hk' : k < 2 ^ 30) (hM' : M ≤ 2 ^ 30) :
    window m t c k M = some (Field2D.window t c k M) := by
  unfold window Field2D.window
  rw [fit_in m (by omega) (by omega), fit_in m (by omega) (by omega)]
  cases t
  · rfl
  · dsimp only
    rw [if_pos rfl, if_pos rfl, fit_in m (by omega) (by omega)]
    rfl

theorem tTransform_in (m : Mode) {n M : Int} (hM : 0 < M) (hM' : M ≤ 2 ^ 30) : tTransform m n M = some (Torus.tT n M) := by
  unfold tTransform Torus.tT
  rw [if_neg (by omega)]
  by_cases h : n ≥ 0
  · rw [if_pos h, if_pos h]
  · rw [if_neg h, if_neg h]
    have h1 := Int.lt_tmod_of_pos n hM
    have h2 : n.tmod M ≤ 0 := by
      have := Int.tmod_nonneg (a := -n) M (by omega)
      rw [Int.neg_tmod] at this
      omega
    exact fit_in m (by omega) (by omega)

theorem mem_upTo (lo hi n : Int) : n ∈ upTo lo hi ↔ lo ≤ n ∧ n < hi := by
  unfold upTo
  rw [List.mem_map]
  constructor
  · rintro ⟨k, hk, rfl⟩
    rw [List.mem_range] at hk
    omega
  · rintro ⟨h1, h2⟩
    exact ⟨(n - lo).toNat, by rw [List.mem_range]; omega, by omega⟩

theorem mem_pairs (m : Mode) {wx wy : Int × Int} (hx : fit m (wx.2 + 1) = some (wx.2 + 1)) (hy : fit m (wy.2 + 1) = some (wy.2 + 1)) :
    ∃ cs, pairs m wx wy = some cs ∧ ∀ c : Loc, c ∈ cs ↔ (wx.1 ≤ c.x ∧ c.x ≤ wx.2) ∧ (wy.1 ≤ c.y ∧ c.y ≤ wy.2) := by
  unfold pairs
  rw [hx, hy]
  dsimp only
  by_cases h : wx.2 + 1 ≤ wx.1
  · rw [if_pos h]
    refine ⟨[], rfl, fun c => ?_⟩
    constructor
    · intro hc; simp at hc
    · rintro ⟨h1, _⟩; omega
  · rw [if_neg h]
    refine ⟨_, rfl, fun c => ?_⟩
    rw [List.mem_flatMap]
    constructor
    · rintro ⟨i, hi, hc⟩
      obtain ⟨j, hj, rfl⟩ := List.mem_map.1 hc
      rw [mem_upTo] at hi hj
      dsimp only
      omega
    · rintro ⟨h1, h2⟩
      refine ⟨c.x, (mem_upTo _ _ _).2 (by omega), List.mem_map.2 ⟨c.y, (mem_upTo _ _ _).2 (by omega), rfl⟩⟩

theorem window_bounds (t : Bool) {c k M : Int} (hc : 0 ≤ c) (hM : c < M) (hk : 0 ≤ k) (hk' : k < 2 ^ 30) (hM' : M ≤ 2 ^ 30) :
    -2 ^ 31 ≤ (Field2D.window t c k M).2 + 1 ∧ (Field2D.window t c k M).2 + 1 < 2 ^ 31 := by
  unfold Field2D.window
  cases t
  · rw [if_neg (by decide)]; dsimp only; omega
  · rw [if_pos rfl]; dsimp only; omega

/-- The cells of both kinds of field: what is visited from a cell is, along each axis, what is seen from it. -/
theorem visited (m : Mode) (t : Bool) {cx cy k Mx My : Int} (hx : 0 ≤ cx ∧ cx < Mx) (hy : 0 ≤ cy ∧ cy < My) (hk : 0 ≤ k ∧ k < 2 ^ 30)
    (hMx : Mx ≤ 2 ^ 30) (hMy : My ≤ 2 ^ 30) :
    ∃ cs, (match window m t cx k Mx, window m t cy k My with
      | some wx, some wy => pairs m wx wy
      | _, _ => none) = some cs ∧
      ∀ b : Loc, (∃ c ∈ cs, tTransform m c.x Mx = some b.x ∧ tTransform m c.y My = some b.y) ↔
        Field2D.seen t k Mx cx b.x ∧ Field2D.seen t k My cy b.y := by
  have bx := window_bounds t hx.1 hx.2 hk.1 hk.2 hMx
  have bY := window_bounds t hy.1 hy.2 hk.1 hk.2 hMy
  rw [window_in m t hx.1 hx.2 hk.1 hk.2 hMx, window_in m t hy.1 hy.2 hk.1 hk.2 hMy]
  obtain ⟨cs, h1, h2⟩ := mem_pairs m (fit_in m bx.1 bx.2) (fit_in m bY.1 bY.2)
  refine ⟨cs, h1, fun b => ?_⟩
  constructor
  · rintro ⟨c, hc, e1, e2⟩
    rw [tTransform_in m (by omega) hMx] at e1
    rw [tTransform_in m (by omega) hMy] at e2
    obtain ⟨hc1, hc2⟩ := (h2 c).1 hc
    exact ⟨⟨c.x, hc1.1, hc1.2, Option.some.inj e1⟩, ⟨c.y, hc2.1, hc2.2, Option.some.inj e2⟩⟩
  · rintro ⟨⟨n, a1, a2, a3⟩, ⟨n', b1, b2, b3⟩⟩
    refine ⟨⟨n, n'⟩, (h2 _).2 ⟨⟨a1, a2⟩, ⟨b1, b2⟩⟩, ?_, ?_⟩
    · rw [tTransform_in m (by omega) hMx, a3]
    · rw [tTransform_in m (by omega) hMy, b3]

theorem tT_bounds {n M : Int} (hM : 0 < M) : 0 ≤ Torus.tT n M ∧ Torus.tT n M ≤ M := by
  obtain ⟨h1, h2, _⟩ := Torus.tT_spec (n := n) (size := M) hM
  exact ⟨h1, h2⟩

/-! ### Distances -/

theorem ofRat_odd {rnd : Rat → Rat} (ho : ∀ x, rnd (-x) = -rnd x) (q : Rat) : ofRat rnd (-q) = neg (ofRat rnd q) := by
  unfold ofRat
  rw [ho]
  have hl : (0 : Rat) < largest := by unfold largest; norm_num
  by_cases h1 : largest < rnd q
  · rw [if_pos h1, if_neg (by linarith), if_pos (by linarith)]; rfl
  · rw [if_neg h1]
    by_cases h2 : rnd q < -largest
    · rw [if_pos h2, if_pos (by linarith)]; rfl
    · rw [if_neg h2, if_neg (by linarith), if_neg (by linarith)]; rfl

theorem neg_neg (a : F) : neg (neg a) = a := by
  cases a with
  | nan => rfl
  | inf s => simp [neg]
  | fin q => simp [neg]

theorem add_neg_both {rnd : Rat → Rat} (ho : ∀ x, rnd (-x) = -rnd x) (a b : F) : add rnd (neg a) (neg b) = neg (add rnd a b) := by
  cases a <;> cases b
  case fin.fin p q => 
    show ofRat rnd (-p + -q) = neg (ofRat rnd (p + q))
    rw [← ofRat_odd ho]
    congr 1
    ring
  case inf.inf s t => cases s <;> cases t <;> rfl
  all_goals rfl

theorem sub_swap {rnd : Rat → Rat} (ho : ∀ x, rnd (-x) = -rnd x) (a b : F) : sub rnd a b = neg (sub rnd b a) := by
  unfold sub
  rw [← add_neg_both ho, neg_neg, addF_comm]

theorem mul_neg_both {rnd : Rat → Rat} (a : F) : mul rnd (neg a) (neg a) = mul rnd a a := by
  cases a with
  | nan => rfl
  | inf s => cases s <;> rfl
  | fin q =>
    show ofRat rnd (-q * -q) = ofRat rnd (q * q)
    rw [neg_mul_neg]

theorem mul_neg_two {rnd : Rat → Rat} (ho : ∀ x, rnd (-x) = -rnd x) (a : F) : mul rnd (neg a) (.fin 2) = neg (mul rnd a (.fin 2)) := by
  cases a with
  | nan => rfl
  | inf s => cases s <;> rfl
  | fin q =>
    show ofRat rnd (-q * 2) = neg (ofRat rnd (q * 2))
    rw [← ofRat_odd ho, neg_mul]

theorem abs_neg (a : F) : abs (neg a) = abs a := by
  cases a with
  | nan => rfl
  | inf s => rfl
  | fin q => show F.fin |(-q)| = F.fin |q|; rw [_root_.abs_neg]

theorem lt_neg (a b : F) : lt (neg a) (neg b) = lt b a := by
  cases a <;> cases b
  case fin.fin p q => 
    show decide (-p < -q) = decide (q < p)
    congr 1
    exact propext neg_lt_neg_iff
  case inf.inf s t => cases s <;> cases t <;> rfl
  case fin.inf q s => cases s <;> rfl
  case inf.fin s q => cases s <;> rfl
  all_goals rfl

/-- A width that is not negative cannot be on both sides. -/
theorem not_both {dim y : F} (hd : lt dim (.fin 0) = false) (h1 : lt dim y = true) : lt y (neg dim) = false := by
  cases dim with
  | nan => cases y <;> cases h1
  | inf s =>
    cases s
    · cases y <;> simp [lt] at h1
    · cases hd
  | fin q =>
    have hq : 0 ≤ q := by simpa [lt] using hd
    cases y with
    | nan => cases h1
    | inf s =>
      cases s
      · rfl
      · cases h1
    | fin p =>
      have hp : q < p := by simpa [lt] using h1
      show decide (p < -q) = false
      rw [decide_eq_false_iff_not]
      intro hc
      linarith

theorem toroidalDist_swap {rnd : Rat → Rat} (ho : ∀ x, rnd (-x) = -rnd x) {dim : F} (hd : lt dim (.fin 0) = false) (a b : F) :
    toroidalDist rnd a b dim = neg (toroidalDist rnd b a dim) := by
  have hap : apart rnd a b dim = neg (apart rnd b a dim) := sub_swap ho _ _
  unfold toroidalDist
  rw [sub_swap ho a b, abs_neg, hap, mul_neg_two ho]
  by_cases h1 : le (abs (sub rnd b a)) (div rnd dim (.fin 2)) = true
  · rw [if_pos h1, if_pos h1]
  · rw [if_neg h1, if_neg h1]
    have e1 : lt dim (neg (mul rnd (apart rnd b a dim) (.fin 2))) = lt (mul rnd (apart rnd b a dim) (.fin 2)) (neg dim) := by
      have := lt_neg (neg dim) (mul rnd (apart rnd b a dim) (.fin 2))
      rwa [neg_neg] at this
    have e2 : lt (neg (mul rnd (apart rnd b a dim) (.fin 2))) (neg dim) = lt dim (mul rnd (apart rnd b a dim) (.fin 2)) := lt_neg _ _
    rw [e1, e2]
    by_cases h2 : lt dim (mul rnd (apart rnd b a dim) (.fin 2)) = true
    · rw [if_neg (by rw [not_both hd h2]; decide), if_pos h2, if_pos h2]
      show add rnd (neg _) dim = neg (add rnd _ (neg dim))
      have := add_neg_both ho (apart rnd b a dim) (neg dim)
      rwa [neg_neg] at this
    · by_cases h3 : lt (mul rnd (apart rnd b a dim) (.fin 2)) (neg dim) = true
      · rw [if_pos h3, if_neg h2, if_pos h3]
        exact add_neg_both ho _ _
      · rw [if_neg h3, if_neg h2, if_neg h2, if_neg h3]

/-- The distance computed by the machine is symmetric. -/
theorem distF_swap {rnd : Rat → Rat} (ho : ∀ x, rnd (-x) = -rnd x) (root : Rat → Rat) {w h : F} (hw : lt w (.fin 0) = false)
    (hh : lt h (.fin 0) = false) (p q : PosF) (t : Bool) : dist rnd root p q w h t = dist rnd root q p w h t := by
  have key : ∀ a b dim : F, lt dim (.fin 0) = false → coordDiff rnd t a b dim = neg (coordDiff rnd t b a dim) := by
    intro a b dim hd
    unfold coordDiff
    cases t
    · rw [if_neg (by decide), if_neg (by decide)]; exact sub_swap ho a b
    · rw [if_pos rfl, if_pos rfl]; exact toroidalDist_swap ho hd a b
  unfold dist
  rw [key p.x q.x w hw, key p.y q.y h hh, mul_neg_both, mul_neg_both]

/-! ### The sequential field -/

variable {O : Type} [BEq O]

/-- The bag of a cell, empty if the access fails. -/
def bagAt (m : Mode) (f : FieldF O) (b : Loc) : List O := (vecGet m f.rbags f.dh b).getD []

theorem mem_scanF (rnd : Rat → Rat) (m : Mode) (f : FieldF O) (keep : Loc → O → Bool) (o : O) : ∀ (cs : List Loc) (r : List O),
    scan rnd m f keep cs = some r →
      (o ∈ r ↔ ∃ c ∈ cs, ∃ b, bagId rnd m f c = some b ∧ o ∈ bagAt m f b ∧ keep b o = true) := by
  intro cs
  induction cs with
  | nil => intro r h; cases h; simp
  | cons c cs ih =>
    intro r h
    rw [scan] at h
    cases hb : bagId rnd m f c with
    | none => rw [hb] at h; cases h
    | some b =>
      rw [hb] at h
      dsimp only at h
      cases hv : vecGet m f.rbags f.dh b with
      | none => rw [hv] at h; cases h
      | some bag =>
        rw [hv] at h
        obtain ⟨r', h1, rfl⟩ := Option.map_eq_some_iff.1 h
        rw [List.mem_append, ih r' h1, List.mem_filter]
        have hbag : bagAt m f b = bag := by unfold bagAt; rw [hv]; rfl
        constructor
        · rintro (⟨h2, h3⟩ | ⟨c', h2, h3⟩)
          · exact ⟨c, List.mem_cons_self, b, hb, by rw [hbag]; exact h2, h3⟩
          · exact ⟨c', List.mem_cons_of_mem _ h2, h3⟩
        · rintro ⟨c', h2, b', h3, h4, h5⟩
          rcases List.mem_cons.1 h2 with rfl | h2
          · rw [hb] at h3
            obtain rfl := Option.some.inj h3
            rw [hbag] at h4
            exact Or.inl ⟨h4, h5⟩
          · exact Or.inr ⟨c', h2, b', h3, h4, h5⟩

/-- What a search from `p` finds of an object that is in one cell only. -/
theorem found_iff (rnd : Rat → Rat) (m : Mode) (f : FieldF O) (keep : Loc → O → Bool) {p : PosF} {dis : F} {cell : Loc} {o : O}
    (hp : InCells rnd f.width f.height f.discretization p) (hr : SmallReach rnd f.width f.height f.discretization dis)
    (ho : OnlyIn rnd f.width f.height f.discretization (bagAt m f) cell o) {r : List O}
    (h : (searchCells rnd m f p dis).bind (scan rnd m f keep) = some r) :
    o ∈ r ↔ keep cell o = true ∧
      Field2D.seen f.toroidal (toI32 (floor (div rnd dis f.discretization))) (toI32 (cellsAlong rnd f.width f.discretization))
        (discretize rnd f.discretization p).x cell.x ∧
      Field2D.seen f.toroidal (toI32 (floor (div rnd dis f.discretization))) (toI32 (cellsAlong rnd f.height f.discretization))
        (discretize rnd f.discretization p).y cell.y := by
  obtain ⟨cs, h1, h2⟩ := visited m f.toroidal hp.1 hp.2 hr.1 hr.2.1 hr.2.2
  have h1' : searchCells rnd m f p dis = some cs := h1
  rw [h1', Option.bind_some] at h
  rw [mem_scanF rnd m f keep o cs r h]
  have hpos1 : 0 < toI32 (cellsAlong rnd f.width f.discretization) := by have := hp.1; omega
  have hpos2 : 0 < toI32 (cellsAlong rnd f.height f.discretization) := by have := hp.2; omega
  constructor
  · rintro ⟨c, hc, b, hb, hob, hk⟩
    unfold bagId at hb
    rw [tTransform_in m hpos1 hr.2.1, tTransform_in m hpos2 hr.2.2] at hb
    obtain rfl := Option.some.inj hb
    have b1 := tT_bounds (n := c.x) hpos1
    have b2 := tT_bounds (n := c.y) hpos2
    have hcell := (ho _ b1.1 b1.2 b2.1 b2.2).1 hob
    rw [hcell] at hk
    refine ⟨hk, (h2 cell).1 ⟨c, hc, ?_, ?_⟩⟩
    · rw [tTransform_in m hpos1 hr.2.1, ← hcell]
    · rw [tTransform_in m hpos2 hr.2.2, ← hcell]
  · rintro ⟨hk, hs⟩
    obtain ⟨c, hc, e1, e2⟩ := (h2 cell).2 hs
    have hb : bagId rnd m f c = some cell := by unfold bagId; rw [e1, e2]
    rw [tTransform_in m hpos1 hr.2.1] at e1
    rw [tTransform_in m hpos2 hr.2.2] at e2
    have b1 := tT_bounds (n := c.x) hpos1
    have b2 := tT_bounds (n := c.y) hpos2
    rw [Option.some.inj e1] at b1
    rw [Option.some.inj e2] at b2
    exact ⟨c, hc, cell, hb, (ho cell b1.1 b1.2 b2.1 b2.2).2 rfl, hk⟩

theorem seen_swap {rnd : Rat → Rat} {w h d : F} {t : Bool} {dis : F} {p q : PosF} (hp : InCells rnd w h d p) (hq : InCells rnd w h d q)
    (hr : SmallReach rnd w h d dis) :
    (Field2D.seen t (toI32 (floor (div rnd dis d))) (toI32 (cellsAlong rnd w d)) (discretize rnd d p).x (discretize rnd d q).x ∧
      Field2D.seen t (toI32 (floor (div rnd dis d))) (toI32 (cellsAlong rnd h d)) (discretize rnd d p).y (discretize rnd d q).y) ↔
    (Field2D.seen t (toI32 (floor (div rnd dis d))) (toI32 (cellsAlong rnd w d)) (discretize rnd d q).x (discretize rnd d p).x ∧
      Field2D.seen t (toI32 (floor (div rnd dis d))) (toI32 (cellsAlong rnd h d)) (discretize rnd d q).y (discretize rnd d p).y) :=
  ⟨fun hs => ⟨Field2D.seen_symm hr.1.1 hp.1.1 hp.1.2 hq.1.1 hq.1.2 hs.1, Field2D.seen_symm hr.1.1 hp.2.1 hp.2.2 hq.2.1 hq.2.2 hs.2⟩,
    fun hs => ⟨Field2D.seen_symm hr.1.1 hq.1.1 hq.1.2 hp.1.1 hp.1.2 hs.1, Field2D.seen_symm hr.1.1 hq.2.1 hq.2.2 hp.2.1 hp.2.2 hs.2⟩⟩

/-- **C263**, search by cells, full statement: with machine floats, if two objects are published at the positions they carry and the
searches from both positions come to an end, one finds the other exactly if it is found by it. Proved in debug and release builds, for
every field (whatever its history), every rounding and distance, for objects that lie in one cell each, one that the searches visit.
Missing: cells beyond, see `C263_border_negation_partial`. -/
theorem C263_relaxed_partial (rnd : Rat → Rat) (m : Mode) (f : FieldF O) {p q : PosF} {dis : F} {a b : O}
    (hp : InCells rnd f.width f.height f.discretization p) (hq : InCells rnd f.width f.height f.discretization q)
    (hr : SmallReach rnd f.width f.height f.discretization dis)
    (ha : OnlyIn rnd f.width f.height f.discretization (bagAt m f) (discretize rnd f.discretization p) a)
    (hb : OnlyIn rnd f.width f.height f.discretization (bagAt m f) (discretize rnd f.discretization q) b) {r r' : List O}
    (h : getNeighborsWithinRelaxDistance rnd m f p dis = some r) (h' : getNeighborsWithinRelaxDistance rnd m f q dis = some r') :
    b ∈ r ↔ a ∈ r' := by
  unfold getNeighborsWithinRelaxDistance at h h'
  by_cases hd : le dis (.fin 0) = true
  · rw [if_pos hd] at h h'
    cases h; cases h'
    simp
  · rw [if_neg hd] at h h'
    rw [found_iff rnd m f _ hp hr hb h, found_iff rnd m f _ hq hr ha h', seen_swap hp hq hr]

/-- **C263**, exact search: the same if `check_circle` says the same of the cell of each object seen from the other (both cut by the
circle, both inside or both outside), for a field whose sizes are not negative. Missing: other cells, see `C263_exact_negation_partial`. -/
theorem C263_exact_partial (rnd root : Rat → Rat) (hodd : ∀ x, rnd (-x) = -rnd x) (m : Mode) (f : FieldF O) (locOf : O → PosF)
    {dis : F} {a b : O} (hw : lt f.width (.fin 0) = false) (hh : lt f.height (.fin 0) = false)
    (hp : InCells rnd f.width f.height f.discretization (locOf a)) (hq : InCells rnd f.width f.height f.discretization (locOf b))
    (hr : SmallReach rnd f.width f.height f.discretization dis)
    (ha : OnlyIn rnd f.width f.height f.discretization (bagAt m f) (discretize rnd f.discretization (locOf a)) a)
    (hb : OnlyIn rnd f.width f.height f.discretization (bagAt m f) (discretize rnd f.discretization (locOf b)) b)
    (hc : checkCircle rnd root (discretize rnd f.discretization (locOf b)) f.discretization f.width f.height (locOf a) dis f.toroidal =
      checkCircle rnd root (discretize rnd f.discretization (locOf a)) f.discretization f.width f.height (locOf b) dis f.toroidal)
    {r r' : List O} (h : getNeighborsWithinDistance rnd root m f locOf (locOf a) dis = some r)
    (h' : getNeighborsWithinDistance rnd root m f locOf (locOf b) dis = some r') :
    b ∈ r ↔ a ∈ r' := by
  unfold getNeighborsWithinDistance at h h'
  by_cases hd : le dis (.fin 0) = true
  · rw [if_pos hd] at h h'
    cases h; cases h'
    simp
  · rw [if_neg hd] at h h'
    rw [found_iff rnd m f _ hp hr hb h, found_iff rnd m f _ hq hr ha h', seen_swap hp hq hr]
    unfold keepExact
    rw [hc, distF_swap hodd root hw hh]

end Verif.Machine

namespace Verif.ParMachine

open Grid DBDashMap Machine
open DenseI32 (Mode)

variable {O I : Type} [DecidableEq I]

/-- The published bag of a cell, empty if there is none. -/
def bagAt (f : PFieldF O I) (b : Loc) : List O := ((getRead f.fbag b).getD none).getD []

theorem mem_scanP (rnd : Rat → Rat) (m : Mode) (f : PFieldF O I) (keep : Loc → O → Bool) (o : O) : ∀ (cs : List Loc) (r : List O),
    scan rnd m f keep cs = some r →
      (o ∈ r ↔ ∃ c ∈ cs, ∃ b, bagId rnd m f c = some b ∧ o ∈ bagAt f b ∧ keep b o = true) := by
  intro cs
  induction cs with
  | nil => intro r h; cases h; simp
  | cons c cs ih =>
    intro r h
    rw [scan] at h
    cases hb : bagId rnd m f c with
    | none => rw [hb] at h; cases h
    | some b =>
      rw [hb] at h
      dsimp only at h
      cases hv : getRead f.fbag b with
      | none => rw [hv] at h; cases h
      | some ob =>
        rw [hv] at h
        cases ob with
        | none =>
          have hbag : bagAt f b = [] := by unfold bagAt; rw [hv]; rfl
          rw [ih r h]
          constructor
          · rintro ⟨c', h2, h3⟩
            exact ⟨c', List.mem_cons_of_mem _ h2, h3⟩
          · rintro ⟨c', h2, b', h3, h4, h5⟩
            rcases List.mem_cons.1 h2 with rfl | h2
            · rw [hb] at h3
              obtain rfl := Option.some.inj h3
              rw [hbag] at h4
              simp at h4
            · exact ⟨c', h2, b', h3, h4, h5⟩
        | some bag =>
          obtain ⟨r', h1, rfl⟩ := Option.map_eq_some_iff.1 h
          rw [List.mem_append, ih r' h1, List.mem_filter]
          have hbag : bagAt f b = bag := by unfold bagAt; rw [hv]; rfl
          constructor
          · rintro (⟨h2, h3⟩ | ⟨c', h2, h3⟩)
            · exact ⟨c, List.mem_cons_self, b, hb, by rw [hbag]; exact h2, h3⟩
            · exact ⟨c', List.mem_cons_of_mem _ h2, h3⟩
          · rintro ⟨c', h2, b', h3, h4, h5⟩
            rcases List.mem_cons.1 h2 with rfl | h2
            · rw [hb] at h3
              obtain rfl := Option.some.inj h3
              rw [hbag] at h4
              exact Or.inl ⟨h4, h5⟩
            · exact Or.inr ⟨c', h2, b', h3, h4, h5⟩

theorem found_iffP (rnd : Rat → Rat) (m : Mode) (f : PFieldF O I) (keep : Loc → O → Bool) {p : PosF} {dis : F} {cell : Loc} {o : O}
    (hp : InCells rnd f.width f.height f.discretization p) (hr : SmallReach rnd f.width f.height f.discretization dis)
    (ho : OnlyIn rnd f.width f.height f.discretization (bagAt f) cell o) {r : List O}
    (h : (searchCells rnd m f p dis).bind (scan rnd m f keep) = some r) :
    o ∈ r ↔ keep cell o = true ∧
      Field2D.seen f.toroidal (toI32 (floor (div rnd dis f.discretization))) (toI32 (cellsAlong rnd f.width f.discretization))
        (discretize rnd f.discretization p).x cell.x ∧
      Field2D.seen f.toroidal (toI32 (floor (div rnd dis f.discretization))) (toI32 (cellsAlong rnd f.height f.discretization))
        (discretize rnd f.discretization p).y cell.y := by
  obtain ⟨cs, h1, h2⟩ := visited m f.toroidal hp.1 hp.2 hr.1 hr.2.1 hr.2.2
  have h1' : searchCells rnd m f p dis = some cs := h1
  rw [h1', Option.bind_some] at h
  rw [mem_scanP rnd m f keep o cs r h]
  have hpos1 : 0 < toI32 (cellsAlong rnd f.width f.discretization) := by have := hp.1; omega
  have hpos2 : 0 < toI32 (cellsAlong rnd f.height f.discretization) := by have := hp.2; omega
  have t1 : ∀ n, tTransform m n (toI32 (ceil (div rnd f.width f.discretization))) =
      some (Torus.tT n (toI32 (cellsAlong rnd f.width f.discretization))) := fun n => tTransform_in m hpos1 hr.2.1
  have t2 : ∀ n, tTransform m n (toI32 (ceil (div rnd f.height f.discretization))) =
      some (Torus.tT n (toI32 (cellsAlong rnd f.height f.discretization))) := fun n => tTransform_in m hpos2 hr.2.2
  constructor
  · rintro ⟨c, hc, b, hb, hob, hk⟩
    unfold bagId at hb
    rw [t1, t2] at hb
    obtain rfl := Option.some.inj hb
    have b1 := tT_bounds (n := c.x) hpos1
    have b2 := tT_bounds (n := c.y) hpos2
    have hcell := (ho _ b1.1 b1.2 b2.1 b2.2).1 hob
    rw [hcell] at hk
    refine ⟨hk, (h2 cell).1 ⟨c, hc, ?_, ?_⟩⟩
    · rw [tTransform_in m hpos1 hr.2.1, ← hcell]
    · rw [tTransform_in m hpos2 hr.2.2, ← hcell]
  · rintro ⟨hk, hs⟩
    obtain ⟨c, hc, e1, e2⟩ := (h2 cell).2 hs
    have hb : bagId rnd m f c = some cell := by
      unfold bagId
      unfold cellsAlong at e1 e2
      rw [e1, e2]
    rw [tTransform_in m hpos1 hr.2.1] at e1
    rw [tTransform_in m hpos2 hr.2.2] at e2
    have b1 := tT_bounds (n := c.x) hpos1
    have b2 := tT_bounds (n := c.y) hpos2
    rw [Option.some.inj e1] at b1
    rw [Option.some.inj e2] at b2
    exact ⟨c, hc, cell, hb, (ho cell b1.1 b1.2 b2.1 b2.2).2 rfl, hk⟩

theorem bind_unit {α : Type} {c : Option Unit} {x : Option α} {r : α} (h : c.bind (fun _ => x) = some r) : x = some r := by
  cases c with
  | none => cases h
  | some _ => exact h

/-- **C263**, search by cells under the feature parallel. -/
theorem C263_parallel_relaxed_partial (rnd : Rat → Rat) (m : Mode) (size : Nat) (f : PFieldF O I) {p q : PosF} {dis : F} {a b : O}
    (hp : InCells rnd f.width f.height f.discretization p) (hq : InCells rnd f.width f.height f.discretization q)
    (hr : SmallReach rnd f.width f.height f.discretization dis)
    (ha : OnlyIn rnd f.width f.height f.discretization (bagAt f) (discretize rnd f.discretization p) a)
    (hb : OnlyIn rnd f.width f.height f.discretization (bagAt f) (discretize rnd f.discretization q) b) {r r' : List O}
    (h : getNeighborsWithinRelaxDistance rnd m size f p dis = some r)
    (h' : getNeighborsWithinRelaxDistance rnd m size f q dis = some r') :
    b ∈ r ↔ a ∈ r' := by
  have h := bind_unit h
  have h' := bind_unit h'
  by_cases hd : le dis (.fin 0) = true
  · rw [if_pos hd] at h h'
    cases h; cases h'
    simp
  · rw [if_neg hd] at h h'
    rw [found_iffP rnd m f _ hp hr hb h, found_iffP rnd m f _ hq hr ha h', seen_swap hp hq hr]

/-- **C263**, exact search under the feature parallel. -/
theorem C263_parallel_exact_partial (rnd root : Rat → Rat) (hodd : ∀ x, rnd (-x) = -rnd x) (m : Mode) (size : Nat) (f : PFieldF O I)
    (locOf : O → PosF) {dis : F} {a b : O} (hw : lt f.width (.fin 0) = false) (hh : lt f.height (.fin 0) = false)
    (hp : InCells rnd f.width f.height f.discretization (locOf a)) (hq : InCells rnd f.width f.height f.discretization (locOf b))
    (hr : SmallReach rnd f.width f.height f.discretization dis)
    (ha : OnlyIn rnd f.width f.height f.discretization (bagAt f) (discretize rnd f.discretization (locOf a)) a)
    (hb : OnlyIn rnd f.width f.height f.discretization (bagAt f) (discretize rnd f.discretization (locOf b)) b)
    (hc : checkCircle rnd root (discretize rnd f.discretization (locOf b)) f.discretization f.width f.height (locOf a) dis f.toroidal =
      checkCircle rnd root (discretize rnd f.discretization (locOf a)) f.discretization f.width f.height (locOf b) dis f.toroidal)
    {r r' : List O} (h : getNeighborsWithinDistance rnd root m size f locOf (locOf a) dis = some r)
    (h' : getNeighborsWithinDistance rnd root m size f locOf (locOf b) dis = some r') :
    b ∈ r ↔ a ∈ r' := by
  have h := bind_unit h
  have h' := bind_unit h'
  by_cases hd : le dis (.fin 0) = true
  · rw [if_pos hd] at h h'
    cases h; cases h'
    simp
  · rw [if_neg hd] at h h'
    rw [found_iffP rnd m f _ hp hr hb h, found_iffP rnd m f _ hq hr ha h', seen_swap hp hq hr]
    unfold keepExact
    rw [hc, distF_swap hodd root hw hh]

end Verif.ParMachine

namespace Verif.Machine

open Grid
open DenseI32 (Mode)

/-! ### Concrete fields, with the rounding of the hardware -/

/-- The location that a number carries in the examples: number `n` is at `(n, n)`. -/
def diagonal (n : Nat) : PosF := ⟨.fin n, .fin n⟩

/-- **C263** is false of the exact search: in a cell of size 10 the object at (4, 4) finds the one at (5, 5), which does not find it. -/
theorem C263_exact_negation_partial :
    (session Single.single .debug (.fin 20) (.fin 20) (.fin 10) false
        [.lazyUpdate, .place 5 (diagonal 5), .place 4 (diagonal 4)]).map (fun f =>
      (getNeighborsWithinDistance Single.single Single.root .debug f diagonal (diagonal 4) (.fin 6),
        getNeighborsWithinDistance Single.single Single.root .debug f diagonal (diagonal 5) (.fin 6))) = some (some [4, 5], some []) := by
  decide +kernel

/-- The single next below 6.9. -/
def belowBorder : F := .fin (3617587 / 524288)

/-- **C263** is false of positions inside the field whose cell the rounding puts beyond the last one: width and height are 6.9 and the
size of a cell 2.3 (both rounded to singles). The object just below the right border finds its neighbour on the left and is not found. -/
theorem C263_border_negation_partial :
    lt belowBorder (.fin (14470349 / 2097152)) = true ∧
    (session Single.single .debug (.fin (14470349 / 2097152)) (.fin (14470349 / 2097152)) (.fin (9646899 / 4194304)) false
        [.lazyUpdate, .place 2 ⟨.fin 6, .fin 1⟩, .place 1 ⟨belowBorder, .fin 1⟩]).map (fun f =>
      (getNeighborsWithinRelaxDistance Single.single .debug f ⟨belowBorder, .fin 1⟩ (.fin 3),
        getNeighborsWithinRelaxDistance Single.single .debug f ⟨.fin 6, .fin 1⟩ (.fin 3))) = some (some [2], some [2]) := by
  constructor <;> decide +kernel

/-- A torus with two objects in cells that are neighbours. -/
def twoCells : Option (FieldF Nat) :=
  session Single.single .release (.fin 8) (.fin 8) (.fin 2) true [.lazyUpdate, .place 3 (diagonal 3), .place 5 (diagonal 5)]

/-- The hypotheses hold, and each finds the other. -/
example : ∃ f, twoCells = some f ∧
      InCells Single.single f.width f.height f.discretization (diagonal 3) ∧
      InCells Single.single f.width f.height f.discretization (diagonal 5) ∧
      SmallReach Single.single f.width f.height f.discretization (.fin 3) ∧
      OnlyIn Single.single f.width f.height f.discretization (bagAt .release f) (discretize Single.single f.discretization (diagonal 3)) 3 ∧
      getNeighborsWithinRelaxDistance Single.single .release f (diagonal 3) (.fin 3) = some [3, 5] ∧
      getNeighborsWithinDistance Single.single Single.root .release f diagonal (diagonal 5) (.fin 3) = some [3, 5] := by
  have hs : twoCells.isSome = true := by decide +kernel
  have hall : (twoCells.map (fun f => (f.width, f.height, f.discretization))) = some (.fin 8, .fin 8, .fin 2) ∧
      (twoCells.bind (fun f => getNeighborsWithinRelaxDistance Single.single .release f (diagonal 3) (.fin 3))) = some [3, 5] ∧
      (twoCells.bind (fun f => getNeighborsWithinDistance Single.single Single.root .release f diagonal (diagonal 5) (.fin 3))) =
        some [3, 5] ∧
      (∀ i ∈ List.range 5, ∀ j ∈ List.range 5, twoCells.map (fun f => decide (3 ∈ bagAt .release f ⟨(i : Int), (j : Int)⟩)) =
        some (decide ((⟨(i : Int), (j : Int)⟩ : Loc) = discretize Single.single (.fin 2) (diagonal 3)))) := by
    refine ⟨?_, ?_, ?_, ?_⟩ <;> decide +kernel
  obtain ⟨f, hf⟩ := Option.isSome_iff_exists.1 hs
  rw [hf] at hall
  obtain ⟨h0, h1, h2, h3⟩ := hall
  have h0 := Option.some.inj h0
  injection h0 with e1 h0
  injection h0 with e2 e3
  refine ⟨f, hf, ?_, ?_, ?_, ?_, h1, h2⟩
  · rw [e1, e2, e3]; refine ⟨⟨?_, ?_⟩, ?_, ?_⟩ <;> decide +kernel
  · rw [e1, e2, e3]; refine ⟨⟨?_, ?_⟩, ?_, ?_⟩ <;> decide +kernel
  · rw [e1, e2, e3]; refine ⟨⟨?_, ?_⟩, ?_, ?_⟩ <;> decide +kernel
  · rw [e1, e2, e3]
    have e : toI32 (cellsAlong Single.single (.fin 8) (.fin 2)) = 4 := by decide +kernel
    rintro ⟨x, y⟩ a1 a2 a3 a4
    dsimp only at a1 a2 a3 a4
    rw [e] at a2 a4
    have := h3 x.toNat (by rw [List.mem_range]; omega) y.toNat (by rw [List.mem_range]; omega)
    rw [Int.toNat_of_nonneg a1, Int.toNat_of_nonneg a3] at this
    exact decide_eq_decide.1 (Option.some.inj this)

end Verif.Machine
