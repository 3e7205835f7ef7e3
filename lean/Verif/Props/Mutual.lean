import Verif.Props.Field2D
import Verif.Spec.Mutual

/-!
C241: being neighbours is mutual. True of the search by cells for objects off the upper borders; false of the exact
search, whose test of the corners looks at the cell of the object found and not at that of the one who asks.
-/

set_option linter.unusedSectionVars false

namespace Verif.Field2D

open Grid Torus

variable {O : Type} [BEq O]

/-- Along one axis, the cell `c'` is among those searched from `c`. -/
def seen (t : Bool) (k m c c' : Int) : Prop :=
  ∃ n, (window t c k m).1 ≤ n ∧ n ≤ (window t c k m).2 ∧ tT n m = c'

theorem seen_symm {t : Bool} {k m c c' : Int} (hk : 0 ≤ k) (hc : 0 ≤ c) (hm : c < m) (hc' : 0 ≤ c') (hm' : c' < m)
    (h : seen t k m c c') : seen t k m c' c := by
  obtain ⟨n, h1, h2, h3⟩ := h
  unfold window at h1 h2
  have key : (c' - k ≤ c ∧ c ≤ c' + k) → seen t k m c' c := by
    intro hh
    refine ⟨c, ?_, ?_, tT_of_range hc hm⟩
    · unfold window; cases t
      · simp only [Bool.false_eq_true, if_false]; omega
      · simp only [if_true]; omega
    · unfold window; cases t
      · simp only [Bool.false_eq_true, if_false]; omega
      · simp only [if_true]; omega
  cases t
  · simp only [Bool.false_eq_true, if_false] at h1 h2
    obtain ⟨a1, a2, a3, a4, a5⟩ := tT_spec (n := n) (size := m) (by omega)
    rw [h3] at a3
    obtain ⟨j, hj⟩ := Int.dvd_of_emod_eq_zero a3
    -- n = c' - m * j; look at c + m * j
    by_cases hz : 0 ≤ c + m * j
    · refine ⟨c + m * j, ?_, ?_, ?_⟩
      · unfold window; simp only [Bool.false_eq_true, if_false]; omega
      · unfold window; simp only [Bool.false_eq_true, if_false]; omega
      · obtain ⟨_, _, _, _, b5⟩ := tT_spec (n := c + m * j) (size := m) (by omega)
        rw [b5 hz, Int.add_mul_emod_self_left, Int.emod_eq_of_lt hc hm]
    · by_cases hzero : c = 0
      · -- the negative multiples of m are not sent to cell 0, but then cell 0 itself is in reach
        apply key
        subst hzero
        omega
      · refine ⟨c + m * j, ?_, ?_, ?_⟩
        · unfold window; simp only [Bool.false_eq_true, if_false]; omega
        · unfold window; simp only [Bool.false_eq_true, if_false]; omega
        · obtain ⟨b1, b2, b3, b4, _⟩ := tT_spec (n := c + m * j) (size := m) (by omega)
          have hmod : (c + m * j) % m = c := by rw [Int.add_mul_emod_self_left, Int.emod_eq_of_lt hc hm]
          have hne : tT (c + m * j) m ≠ m := by
            intro hc2
            have := (b4.1 hc2).2
            omega
          have h5 : (tT (c + m * j) m) % m = (c + m * j) % m := 
            Int.emod_eq_emod_iff_emod_sub_eq_zero.2 b3
          rw [hmod, Int.emod_eq_of_lt b1 (by omega)] at h5
          exact h5
  · simp only [if_true] at h1 h2
    have hn : tT n m = n := tT_of_range (by omega) (by omega)
    rw [hn] at h3
    subst h3
    exact key (by omega)

theorem floor_lt_ceil {d x w : ℚ} (hd : 0 < d) (h : x < w) : (x / d).floor < (w / d).ceil := by
  have a := Rat.floor_le (x / d)
  have b := Rat.le_ceil (x := w / d)
  have c : x / d < w / d := by gcongr
  have : ((x / d).floor : ℚ) < ((w / d).ceil : ℚ) := by linarith
  exact_mod_cast this

/-- A search that scans the cells in reach with the test `keep` finds the object `o` if its cell is seen and the test
says so. -/
theorem mem_scan {w h d : ℚ} {t : Bool} (hd : 0 < d) {hist : List (FieldOp O)}
    (hin : ∀ op ∈ hist, op.InField w h) {locOf : O → Pos} (hloc : CarriesLocation locOf hist) {f : Field O}
    (hs : Shows f w h d t (fun c => objsPublished d hist (notDiscretize d c))
      (fun c => objsWritten d hist (notDiscretize d c))) (keep : Loc → O → Bool) (loc : Pos) (dist : ℚ) :
    ∃ r, scan f keep (searchCells f loc dist) = some r ∧
      ∀ o, o ∈ r ↔ o ∈ objsPublished d hist (locOf o) ∧ keep (discretize d (locOf o)) o = true ∧
        seen t (dist / d).floor (w / d).ceil (discretize d loc).x (discretize d (locOf o)).x ∧
        seen t (dist / d).floor (h / d).ceil (discretize d loc).y (discretize d (locOf o)).y := by
  refine ⟨_, scan_eq hs.wf _ _, ?_⟩
  intro o
  have hown := atOwnLocation_run hd hin hloc hs
  simp only [List.mem_flatMap, List.mem_filter]
  constructor
  · rintro ⟨c, hc, hb, hk⟩
    have hr := wrapped_inRange hs.wf c
    obtain ⟨_, hf2⟩ := hown _ hr o hb
    rw [hs.disc] at hf2
    rw [mem_searchCells, hs.disc, hs.width, hs.height, hs.tor] at hc
    rw [bagOf_shows hs hr] at hb
    rw [← hf2] at hk
    refine ⟨?_, hk, ?_, ?_⟩
    · rwa [objsPublished_congr hist (q := locOf o) (by rw [discretize_notDiscretize hd, hf2])] at hb
    · refine ⟨c.x, hc.1.1, hc.1.2, ?_⟩
      rw [hf2]; unfold wrapped; rw [hs.width, hs.disc]
    · refine ⟨c.y, hc.2.1, hc.2.2, ?_⟩
      rw [hf2]; unfold wrapped; rw [hs.height, hs.disc]
  · rintro ⟨ho, hk, ⟨nx, x1, x2, x3⟩, ⟨ny, y1, y2, y3⟩⟩
    have hwr : wrapped f ⟨nx, ny⟩ = discretize d (locOf o) := by
      unfold wrapped
      rw [hs.width, hs.height, hs.disc]
      dsimp only
      rw [x3, y3]
    have hrf : InRange f.dw f.dh (discretize d (locOf o)) := by rw [← hwr]; exact wrapped_inRange hs.wf _
    refine ⟨⟨nx, ny⟩, ?_, ?_, ?_⟩
    · rw [mem_searchCells, hs.disc, hs.width, hs.height, hs.tor]
      exact ⟨⟨x1, x2⟩, ⟨y1, y2⟩⟩
    · rw [hwr, bagOf_shows hs hrf]
      rwa [objsPublished_congr hist (q := locOf o) (discretize_notDiscretize hd _)]
    · rw [hwr]; exact hk

theorem seen_both {w h d : ℚ} {t : Bool} (hd : 0 < d) {p q : Pos} (hp : OffBorder w h p) (hq : OffBorder w h q)
    {dist : ℚ} (hdist : 0 < dist)
    (hx : seen t (dist / d).floor (w / d).ceil (discretize d p).x (discretize d q).x)
    (hy : seen t (dist / d).floor (h / d).ceil (discretize d p).y (discretize d q).y) :
    seen t (dist / d).floor (w / d).ceil (discretize d q).x (discretize d p).x ∧
      seen t (dist / d).floor (h / d).ceil (discretize d q).y (discretize d p).y := by
  have hk : 0 ≤ (dist / d).floor := Rat.le_floor_iff.2 (by push_cast; positivity)
  have pos : ∀ x : ℚ, 0 ≤ x → 0 ≤ (x / d).floor := fun x hx => Rat.le_floor_iff.2 (by push_cast; positivity)
  exact ⟨seen_symm hk (pos _ hp.1) (floor_lt_ceil hd hp.2.1) (pos _ hq.1) (floor_lt_ceil hd hq.2.1) hx,
    seen_symm hk (pos _ hp.2.2.1) (floor_lt_ceil hd hp.2.2.2) (pos _ hq.2.2.1) (floor_lt_ceil hd hq.2.2.2) hy⟩

/-- **C241**, correct part. The search by cells is mutual for any two objects off the upper borders that are placed at
the locations they carry. -/
theorem C241_relaxed_partial (w h d : ℚ) (t : Bool) (hw : 0 < w) (hh : 0 < h) (hd : 0 < d)
    (hist : List (FieldOp O)) (hin : ∀ op ∈ hist, op.InField w h) (locOf : O → Pos)
    (hloc : CarriesLocation locOf hist) (dist : ℚ) (a b : O)
    (ha : a ∈ objsPublished d hist (locOf a)) (hb : b ∈ objsPublished d hist (locOf b))
    (oa : OffBorder w h (locOf a)) (ob : OffBorder w h (locOf b)) :
    ∃ f, run (new w h d t) hist = some f ∧
      Mutual (fun l => getNeighborsWithinRelaxDistance f l dist) locOf a b := by
  obtain ⟨f, h1, hs⟩ := shows_run t hw hh hd hist hin
  refine ⟨f, h1, ?_⟩
  unfold Mutual getNeighborsWithinRelaxDistance
  by_cases hdist : dist ≤ 0
  · refine ⟨[], [], if_pos hdist, if_pos hdist, by simp⟩
  · have hp : 0 < dist := lt_of_not_ge hdist
    obtain ⟨r, e1, m1⟩ := mem_scan hd hin hloc hs (fun _ _ => true) (locOf a) dist
    obtain ⟨r', e2, m2⟩ := mem_scan hd hin hloc hs (fun _ _ => true) (locOf b) dist
    refine ⟨r, r', (if_neg hdist).trans e1, (if_neg hdist).trans e2, ?_⟩
    rw [m1, m2]
    constructor
    · rintro ⟨_, _, hx, hy⟩; exact ⟨ha, rfl, seen_both hd oa ob hp hx hy⟩
    · rintro ⟨_, _, hx, hy⟩; exact ⟨hb, rfl, seen_both hd ob oa hp hx hy⟩

/-- The exact search finds an object at most if it is in a cell seen and, for small distances on a torus, within the
distance; conversely if moreover a corner of its cell is within the distance. -/
theorem keepExact_cases {f : Field O} {w h d : ℚ} {t : Bool} (hw : 0 < w) (hh : 0 < h) (hd : 0 < d)
    (e1 : f.discretization = d) (e2 : f.width = w) (e3 : f.height = h) (e4 : f.toroidal = t) (locOf : O → Pos)
    (loc : Pos) (dist : ℚ) (hpos : 0 < dist) (hsmall : t = true → 2 * dist < w - d ∧ 2 * dist < h - d) (o : O)
    (ho : InField w h (locOf o)) :
    keepExact f locOf loc dist (discretize d (locOf o)) o = true ↔
      Within t w h (locOf o) loc dist ∧ CornerWithin t w h d (locOf o) loc dist := by
  unfold keepExact
  rw [e1, e2, e3, e4, decide_eq_true_eq]
  obtain ⟨c1, c2, c3⟩ := check_cases (discretize d (locOf o)) d w h loc dist t
  have corner : CornerWithin t w h d (locOf o) loc dist ↔
      ¬ (checkCircle (discretize d (locOf o)) d w h loc dist t = -1) := by
    rw [c2]
    unfold cornerNW cornerNE cornerSW cornerSE discretize CornerWithin
    constructor
    · rintro ⟨⟨px, py⟩, e1, e2, e3⟩ ⟨n1, n2, n3, n4⟩
      dsimp only at e1 e2
      rw [← within_iff _ _ _ hw hh] at e3
      rcases e1 with rfl | rfl <;> rcases e2 with rfl | rfl
      · exact absurd e3 (not_le.2 n1)
      · exact absurd e3 (not_le.2 n2)
      · exact absurd e3 (not_le.2 n3)
      · exact absurd e3 (not_le.2 n4)
    · intro hn
      by_contra hcon
      apply hn
      refine ⟨?_, ?_, ?_, ?_⟩ <;> (apply lt_of_not_ge; intro hle; apply hcon)
      · exact ⟨⟨((locOf o).x / d).floor * d, ((locOf o).y / d).floor * d⟩, Or.inl rfl, Or.inl rfl, (within_iff _ _ _ hw hh _).1 hle⟩
      · exact ⟨⟨((locOf o).x / d).floor * d, min (((locOf o).y / d).floor * d + d) h⟩, Or.inl rfl, Or.inr rfl, (within_iff _ _ _ hw hh _).1 hle⟩
      · exact ⟨⟨min (((locOf o).x / d).floor * d + d) w, ((locOf o).y / d).floor * d⟩, Or.inr rfl, Or.inl rfl, (within_iff _ _ _ hw hh _).1 hle⟩
      · exact ⟨⟨min (((locOf o).x / d).floor * d + d) w, min (((locOf o).y / d).floor * d + d) h⟩, Or.inr rfl, Or.inr rfl, (within_iff _ _ _ hw hh _).1 hle⟩
  rw [corner, ← within_iff _ _ _ hw hh]
  constructor
  · rintro (⟨k1, k2⟩ | k1)
    · refine ⟨by rwa [distSq_symm _ _ _ hw hh] at k2, by rw [k1]; decide⟩
    · exact ⟨full_cell_sound hd hw hh ho loc dist hpos t hsmall k1, by rw [k1]; decide⟩
  · rintro ⟨k1, k2⟩
    rcases c3 with hc | hc | hc
    · exact Or.inr hc
    · exact absurd hc k2
    · exact Or.inl ⟨hc, by rwa [distSq_symm _ _ _ hw hh]⟩

/-- **C241**, the exact search. If `b` is found where `a` is, `a` is found where `b` is, provided that a corner of the
square of `a` is within the distance of `b`; and only then. On a torus this is shown for distances with
`2 * dist < w - d` and `2 * dist < h - d`. -/
theorem C241_exact_partial (w h d : ℚ) (t : Bool) (hw : 0 < w) (hh : 0 < h) (hd : 0 < d)
    (hist : List (FieldOp O)) (hin : ∀ op ∈ hist, op.InField w h) (locOf : O → Pos)
    (hloc : CarriesLocation locOf hist) (dist : ℚ) (hpos : 0 < dist)
    (hsmall : t = true → 2 * dist < w - d ∧ 2 * dist < h - d) (a b : O)
    (ha : a ∈ objsPublished d hist (locOf a)) (hb : b ∈ objsPublished d hist (locOf b))
    (oa : OffBorder w h (locOf a)) (ob : OffBorder w h (locOf b)) :
    ∃ f r r', run (new w h d t) hist = some f ∧ getNeighborsWithinDistance f locOf (locOf a) dist = some r ∧
      getNeighborsWithinDistance f locOf (locOf b) dist = some r' ∧
      (b ∈ r → (a ∈ r' ↔ CornerWithin t w h d (locOf a) (locOf b) dist)) ∧
      (a ∈ r' → (b ∈ r ↔ CornerWithin t w h d (locOf b) (locOf a) dist)) ∧
      (CornerWithin t w h d (locOf a) (locOf b) dist → CornerWithin t w h d (locOf b) (locOf a) dist →
        Mutual (fun l => getNeighborsWithinDistance f locOf l dist) locOf a b) := by
  obtain ⟨f, h1, hs⟩ := shows_run t hw hh hd hist hin
  have hdist : ¬ dist ≤ 0 := not_le.2 hpos
  have inF : ∀ p, OffBorder w h p → InField w h p := fun p hp => ⟨hp.1, hp.2.1.le, hp.2.2.1, hp.2.2.2.le⟩
  obtain ⟨r, e1, m1⟩ := mem_scan hd hin hloc hs (keepExact f locOf (locOf a) dist) (locOf a) dist
  obtain ⟨r', e2, m2⟩ := mem_scan hd hin hloc hs (keepExact f locOf (locOf b) dist) (locOf b) dist
  have g1 : getNeighborsWithinDistance f locOf (locOf a) dist = some r := by
    unfold getNeighborsWithinDistance; rw [if_neg hdist, e1]
  have g2 : getNeighborsWithinDistance f locOf (locOf b) dist = some r' := by
    unfold getNeighborsWithinDistance; rw [if_neg hdist, e2]
  have k1 := keepExact_cases hw hh hd hs.disc hs.width hs.height hs.tor locOf (locOf a) dist hpos hsmall b (inF _ ob)
  have k2 := keepExact_cases hw hh hd hs.disc hs.width hs.height hs.tor locOf (locOf b) dist hpos hsmall a (inF _ oa)
  have sym : ∀ p q, Within t w h p q dist → Within t w h q p dist := by
    intro p q hpq
    rw [← within_iff _ _ _ hw hh] at *
    rwa [distSq_symm _ _ _ hw hh]
  have A : b ∈ r → (a ∈ r' ↔ CornerWithin t w h d (locOf a) (locOf b) dist) := by
    rw [m1, m2, k1, k2]
    rintro ⟨_, ⟨hwi, _⟩, hx, hy⟩
    constructor
    · rintro ⟨_, ⟨_, hc⟩, _, _⟩; exact hc
    · intro hc; exact ⟨ha, ⟨sym _ _ hwi, hc⟩, seen_both hd oa ob hpos hx hy⟩
  have B : a ∈ r' → (b ∈ r ↔ CornerWithin t w h d (locOf b) (locOf a) dist) := by
    rw [m1, m2, k1, k2]
    rintro ⟨_, ⟨hwi, _⟩, hx, hy⟩
    constructor
    · rintro ⟨_, ⟨_, hc⟩, _, _⟩; exact hc
    · intro hc; exact ⟨hb, ⟨sym _ _ hwi, hc⟩, seen_both hd ob oa hpos hx hy⟩
  refine ⟨f, r, r', h1, g1, g2, A, B, ?_⟩
  intro c1 c2
  exact ⟨r, r', g1, g2, ⟨fun x => (A x).2 c1, fun x => (B x).2 c2⟩⟩

/-- Two objects in one cell of size 10, one near its corner and one in the middle. -/
def demoCorner : List (FieldOp Pos) := [.lazyUpdate, .place ⟨5, 5⟩ ⟨5, 5⟩, .place ⟨4, 4⟩ ⟨4, 4⟩]

/-- **C241** is false of the exact search: the object near the corner of the cell sees the one in the middle, which
does not see it. -/
theorem C241_exact_negation_partial :
    ∃ f : Field Pos, run (new 20 20 10 false) demoCorner = some f ∧
      getNeighborsWithinDistance f carried ⟨4, 4⟩ 6 = some [⟨4, 4⟩, ⟨5, 5⟩] ∧
      getNeighborsWithinDistance f carried ⟨5, 5⟩ 6 = some [] ∧
      ¬ Mutual (fun l => getNeighborsWithinDistance f carried l 6) carried ⟨4, 4⟩ ⟨5, 5⟩ := by
  have h1 : getNeighborsWithinDistance ((run (new 20 20 10 false) demoCorner).getD (new 1 1 1 true)) carried ⟨4, 4⟩ 6 =
      some [⟨4, 4⟩, ⟨5, 5⟩] := by decide +kernel
  have h2 : getNeighborsWithinDistance ((run (new 20 20 10 false) demoCorner).getD (new 1 1 1 true)) carried ⟨5, 5⟩ 6 =
      some [] := by decide +kernel
  refine ⟨((run (new 20 20 10 false) demoCorner).getD (new 1 1 1 true)), by decide +kernel, h1, h2, ?_⟩
  rintro ⟨r, r', e1, e2, e3⟩
  have e1' := h1.symm.trans e1
  have e2' := h2.symm.trans e2
  rw [← Option.some.inj e1', ← Option.some.inj e2'] at e3
  exact absurd (e3.1 (by simp)) (by simp)

/-- An object on the upper border and one beside it. -/
def demoBorder : List (FieldOp Pos) := [.lazyUpdate, .place ⟨10, 5⟩ ⟨10, 5⟩, .place ⟨9, 5⟩ ⟨9, 5⟩]

/-- **C241** is false of both searches on the upper border: the object there sees its neighbour and is not seen. -/
theorem C241_border_negation_partial :
    ∃ f : Field Pos, run (new 10 10 1 false) demoBorder = some f ∧
      ¬ Mutual (fun l => getNeighborsWithinRelaxDistance f l 2) carried ⟨10, 5⟩ ⟨9, 5⟩ ∧
      ¬ Mutual (fun l => getNeighborsWithinDistance f carried l 2) carried ⟨10, 5⟩ ⟨9, 5⟩ := by
  have h1 : getNeighborsWithinRelaxDistance ((run (new 10 10 1 false) demoBorder).getD (new 1 1 1 true)) ⟨10, 5⟩ 2 =
      some [⟨9, 5⟩] := by decide +kernel
  have h2 : getNeighborsWithinRelaxDistance ((run (new 10 10 1 false) demoBorder).getD (new 1 1 1 true)) ⟨9, 5⟩ 2 =
      some [⟨9, 5⟩] := by decide +kernel
  have h3 : getNeighborsWithinDistance ((run (new 10 10 1 false) demoBorder).getD (new 1 1 1 true)) carried ⟨10, 5⟩ 2 =
      some [⟨9, 5⟩] := by decide +kernel
  have h4 : getNeighborsWithinDistance ((run (new 10 10 1 false) demoBorder).getD (new 1 1 1 true)) carried ⟨9, 5⟩ 2 =
      some [⟨9, 5⟩] := by decide +kernel
  refine ⟨((run (new 10 10 1 false) demoBorder).getD (new 1 1 1 true)), by decide +kernel, ?_, ?_⟩
  · rintro ⟨r, r', e1, e2, e3⟩
    have e1' := h1.symm.trans e1
    have e2' := h2.symm.trans e2
    rw [← Option.some.inj e1', ← Option.some.inj e2'] at e3
    exact absurd (e3.1 (by simp)) (by decide +kernel)
  · rintro ⟨r, r', e1, e2, e3⟩
    have e1' := h3.symm.trans e1
    have e2' := h4.symm.trans e2
    rw [← Option.some.inj e1', ← Option.some.inj e2'] at e3
    exact absurd (e3.1 (by simp)) (by decide +kernel)

/-- A case that meets the hypotheses: two objects in different cells that see each other, also exactly. -/
example : (∀ op ∈ demoPositions, op.InField 10 10) ∧
    (⟨1/2, 1/2⟩ : Pos) ∈ objsPublished 1 demoPositions ⟨1/2, 1/2⟩ ∧
    (⟨3/2, 5/2⟩ : Pos) ∈ objsPublished 1 demoPositions ⟨3/2, 5/2⟩ ∧
    OffBorder 10 10 ⟨1/2, 1/2⟩ ∧ OffBorder 10 10 ⟨3/2, 5/2⟩ ∧
    CornerWithin true 10 10 1 ⟨1/2, 1/2⟩ ⟨3/2, 5/2⟩ 3 ∧ CornerWithin true 10 10 1 ⟨3/2, 5/2⟩ ⟨1/2, 1/2⟩ 3 ∧
    ((run (new 10 10 1 true) demoPositions).bind (fun f => getNeighborsWithinDistance f carried ⟨1/2, 1/2⟩ 3)) =
      some [⟨1/2, 1/2⟩, ⟨3/2, 5/2⟩] := by
  refine ⟨by decide +kernel, by decide +kernel, by decide +kernel, by unfold OffBorder; norm_num,
    by unfold OffBorder; norm_num, ?_, ?_, by decide +kernel⟩
  · refine ⟨⟨1, 1⟩, Or.inr (by decide +kernel), Or.inr (by decide +kernel), ?_⟩
    rw [← within_iff _ _ _ (by norm_num) (by norm_num)]
    decide +kernel
  · refine ⟨⟨1, 2⟩, Or.inl (by decide +kernel), Or.inl (by decide +kernel), ?_⟩
    rw [← within_iff _ _ _ (by norm_num) (by norm_num)]
    decide +kernel

end Verif.Field2D
