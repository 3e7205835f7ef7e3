import Verif.Props.Torus
import Mathlib.Data.List.Flatten

/-!
The continuous field (C35-C40, C43, C74, C75). Programs are lists of calls, newest first, on a field made by
`Field2D::new(w, h, d, t)` with positive sizes.
-/

set_option linter.unusedSectionVars false

namespace Verif.Field2D

open Grid Torus

variable {O : Type} [BEq O]

/-! ### C36 -/

/-- **C36.** A position of the field, borders included, has a storage index inside both buffers. -/
theorem C36_index_in_storage (w h d : ℚ) (t : Bool) (hw : 0 < w) (hh : 0 < h) (hd : 0 < d) (p : Pos)
    (hp : InField w h p) :
    0 ≤ (discretize d p).x * (new w h d t : Field O).dh + (discretize d p).y ∧
      (discretize d p).x * (new w h d t : Field O).dh + (discretize d p).y < (new w h d t : Field O).rbags.length ∧
      (new w h d t : Field O).bags.length = (new w h d t : Field O).rbags.length := by
  have hf : WF (new w h d t : Field O) := wf_new t hw hh hd
  have hr : InRange (new w h d t : Field O).dw (new w h d t : Field O).dh (discretize d p) := inRange_of hf hp
  obtain ⟨h1, h2⟩ := index_range hr
  refine ⟨h1, ?_, rfl⟩
  have := hf.r
  unfold Sized at this
  omega

/-- **C36.** Two positions of the field use the same storage index exactly when they are in the same
`d` by `d` square. -/
theorem C36_same_storage_iff_same_square (w h d : ℚ) (t : Bool) (hw : 0 < w) (hh : 0 < h) (hd : 0 < d) (p q : Pos)
    (hp : InField w h p) (hq : InField w h q) :
    ((discretize d p).x * (new w h d t : Field O).dh + (discretize d p).y =
      (discretize d q).x * (new w h d t : Field O).dh + (discretize d q).y) ↔ SameSquare d p q := by
  have hf : WF (new w h d t : Field O) := wf_new t hw hh hd
  rw [← sameSquare_iff hd, sameSquare_discretize]
  have hr : InRange (new w h d t : Field O).dw (new w h d t : Field O).dh (discretize d p) := inRange_of hf hp
  have hr' : InRange (new w h d t : Field O).dw (new w h d t : Field O).dh (discretize d q) := inRange_of hf hq
  constructor
  · intro he
    exact (index_inj hr hr' he).symm
  · intro he; rw [he]

example : InField 10 10 ⟨10, 3⟩ ∧ discretize 3 ⟨10, 3⟩ = ⟨3, 1⟩ ∧ (new 10 10 3 true : Field Nat).rbags.length = 25 := by
  refine ⟨⟨by decide +kernel, by decide +kernel, by decide +kernel, by decide +kernel⟩, by decide +kernel, by decide +kernel⟩

/-! ### C35 -/

theorem objsWritten_congr {d : ℚ} (hist : List (FieldOp O)) {p q : Pos} (h : discretize d p = discretize d q) :
    objsWritten d hist p = objsWritten d hist q := by
  have key : ∀ l, sameSquare d l p = sameSquare d l q := by
    intro l
    rw [Bool.eq_iff_iff, sameSquare_discretize, sameSquare_discretize, h]
  induction hist with
  | nil => rfl
  | cons op hist ih => cases op <;> simp only [objsWritten, key, ih]

theorem objsPublished_congr {d : ℚ} (hist : List (FieldOp O)) {p q : Pos}
    (h : discretize d p = discretize d q) : objsPublished d hist p = objsPublished d hist q := by
  induction hist with
  | nil => rfl
  | cons op hist ih => cases op <;> simp only [objsPublished, ih, objsWritten_congr _ h]

theorem shows_run {w h d : ℚ} (t : Bool) (hw : 0 < w) (hh : 0 < h) (hd : 0 < d) (hist : List (FieldOp O))
    (hin : ∀ op ∈ hist, op.InField w h) :
    ∃ f, run (new w h d t) hist = some f ∧ Shows f w h d t
      (fun c => objsPublished d hist (notDiscretize d c)) (fun c => objsWritten d hist (notDiscretize d c)) := by
  induction hist with
  | nil => exact ⟨_, rfl, shows_new t hw hh hd⟩
  | cons op hist ih =>
    obtain ⟨f, h1, h2⟩ := ih (fun op hop => hin op (List.mem_cons_of_mem _ hop))
    have hop := hin op List.mem_cons_self
    have key : ∀ (l : Pos) (c : Loc), (c = discretize d l) = (sameSquare d l (notDiscretize d c) = true) := by
      intro l c
      rw [sameSquare_discretize, discretize_notDiscretize hd]
    rw [run, h1]
    cases op with
    | place o l =>
      obtain ⟨f', e, _, _, hs⟩ := shows_place h2 o l hop
      refine ⟨f', e, ?_⟩
      simp only [key] at hs
      exact hs
    | remove o l =>
      obtain ⟨f', e, _, _, hs⟩ := shows_remove h2 o l hop
      refine ⟨f', e, ?_⟩
      simp only [key] at hs
      exact hs
    | update => exact ⟨f, rfl, h2⟩
    | lazyUpdate =>
      obtain ⟨f', e, _, _, hs⟩ := shows_lazy h2
      exact ⟨f', e, hs⟩

/-- **C35.** After any program the reads return exactly the objects of the square of `p`, in placement
order: `get_objects` those of the last lazy_update, `get_objects_unbuffered` those of the current step. No
call of the program panics. -/
theorem C35_field_history (w h d : ℚ) (t : Bool) (hw : 0 < w) (hh : 0 < h) (hd : 0 < d) (hist : List (FieldOp O))
    (hin : ∀ op ∈ hist, op.InField w h) :
    ∃ f, run (new w h d t) hist = some f ∧ ∀ p, InField w h p →
      getObjects f p = some (objsPublished d hist p) ∧
      getObjectsUnbuffered f p = some (objsWritten d hist p) ∧
      numObjectsAtLocation f p = some (objsPublished d hist p).length := by
  obtain ⟨f, h1, h2⟩ := shows_run t hw hh hd hist hin
  refine ⟨f, h1, ?_⟩
  intro p hp
  have hr : InRange f.dw f.dh (discretize d p) := by
    have := inRange_of h2.wf (p := p) (by rw [h2.width, h2.height]; exact hp)
    rwa [h2.disc] at this
  have e : discretize d (notDiscretize d (discretize d p)) = discretize d p := discretize_notDiscretize hd _
  have e1 := objsPublished_congr hist e
  have e2 := objsWritten_congr hist e
  have r := h2.read _ hr
  have v := h2.write _ hr
  rw [e1] at r
  rw [e2] at v
  unfold getObjects getObjectsUnbuffered numObjectsAtLocation
  rw [h2.disc]
  exact ⟨r, v, by rw [r]; rfl⟩

/-- A program whose calls meet the hypotheses: two objects in one square, one elsewhere, one removed, a
lazy_update, one placement after it. -/
def demoHistory : List (FieldOp Nat) :=
  [.place 9 ⟨1, 1⟩, .lazyUpdate, .remove 3 ⟨4, 4⟩, .place 3 ⟨5, 5⟩, .place 2 ⟨8, 1⟩, .place 1 ⟨4, 4⟩, .place 0 ⟨5, 4⟩]

example : (∀ op ∈ demoHistory, op.InField 10 10) ∧ objsPublished 3 demoHistory ⟨3, 3⟩ = [0, 1] ∧
    objsPublished 3 demoHistory ⟨6, 0⟩ = [2] ∧ objsWritten 3 demoHistory ⟨0, 0⟩ = [9] ∧
    (run (new 10 10 3 true) demoHistory).isSome = true := by
  refine ⟨?_, by decide +kernel, by decide +kernel, by decide +kernel, by decide +kernel⟩
  decide +kernel

/-! ### The state after a program -/

/-- The location every call of the program gives is the one its object carries. -/
def CarriesLocation (locOf : O → Pos) (hist : List (FieldOp O)) : Prop := ∀ o l, FieldOp.place o l ∈ hist → locOf o = l

theorem mem_objsWritten {d : ℚ} {hist : List (FieldOp O)} {p : Pos} {o : O} (h : o ∈ objsWritten d hist p) :
    ∃ l, FieldOp.place o l ∈ hist ∧ sameSquare d l p = true := by
  induction hist with
  | nil => simp [objsWritten] at h
  | cons op hist ih =>
    have step : o ∈ objsWritten d hist p → ∃ l, FieldOp.place o l ∈ op :: hist ∧ sameSquare d l p = true := by
      intro hm
      obtain ⟨l, h1, h2⟩ := ih hm
      exact ⟨l, List.mem_cons_of_mem _ h1, h2⟩
    cases op with
    | place o' l =>
      rw [objsWritten] at h
      split at h
      · rename_i hs
        rcases List.mem_append.1 h with h | h
        · exact step h
        · rw [List.mem_singleton] at h
          subst h
          exact ⟨l, List.mem_cons_self, hs⟩
      · exact step h
    | remove o' l =>
      rw [objsWritten] at h
      split at h
      · exact step (List.mem_filter.1 h).1
      · exact step h
    | update => exact step h
    | lazyUpdate => simp [objsWritten] at h

theorem mem_objsPublished {d : ℚ} {hist : List (FieldOp O)} {p : Pos} {o : O} (h : o ∈ objsPublished d hist p) :
    ∃ l, FieldOp.place o l ∈ hist ∧ sameSquare d l p = true := by
  induction hist with
  | nil => simp [objsPublished] at h
  | cons op hist ih =>
    have step : o ∈ objsPublished d hist p → ∃ l, FieldOp.place o l ∈ op :: hist ∧ sameSquare d l p = true := by
      intro hm
      obtain ⟨l, h1, h2⟩ := ih hm
      exact ⟨l, List.mem_cons_of_mem _ h1, h2⟩
    cases op with
    | lazyUpdate =>
      obtain ⟨l, h1, h2⟩ := mem_objsWritten h
      exact ⟨l, List.mem_cons_of_mem _ h1, h2⟩
    | _ => exact step h

theorem bagOf_shows {f : Field O} {w h d : ℚ} {t : Bool} {pub cur : Loc → List O} (hs : Shows f w h d t pub cur)
    {c : Loc} (hc : InRange f.dw f.dh c) : bagOf f c = pub c := by
  unfold bagOf; rw [hs.read c hc]; rfl

theorem atOwnLocation_run {w h d : ℚ} {t : Bool} (hd : 0 < d) {hist : List (FieldOp O)}
    (hin : ∀ op ∈ hist, op.InField w h) {locOf : O → Pos} (hloc : CarriesLocation locOf hist) {f : Field O}
    (hs : Shows f w h d t (fun c => objsPublished d hist (notDiscretize d c))
      (fun c => objsWritten d hist (notDiscretize d c))) : AtOwnLocation f locOf := by
  intro c hc o ho
  rw [bagOf_shows hs hc] at ho
  obtain ⟨l, h1, h2⟩ := mem_objsPublished ho
  rw [hs.width, hs.height, hs.disc, hloc o l h1]
  refine ⟨hin _ h1, ?_⟩
  rw [sameSquare_discretize, discretize_notDiscretize hd] at h2
  exact h2.symm

/-! ### C37 -/

/-- **C37.** The exact search returns published objects only, and, if every object was placed at the
location it carries, only objects within the distance asked for. On a torus this is shown for distances
with `2 * dist < w - d` and `2 * dist < h - d`; without that bound it is false (below). -/
theorem C37_neighbors_sound_partial (w h d : ℚ) (t : Bool) (hw : 0 < w) (hh : 0 < h) (hd : 0 < d)
    (hist : List (FieldOp O)) (hin : ∀ op ∈ hist, op.InField w h) (locOf : O → Pos)
    (hloc : CarriesLocation locOf hist) (loc : Pos) (dist : ℚ)
    (hsmall : t = true → 2 * dist < w - d ∧ 2 * dist < h - d) :
    ∃ f r, run (new w h d t) hist = some f ∧ getNeighborsWithinDistance f locOf loc dist = some r ∧
      ∀ o ∈ r, o ∈ objsPublished d hist (locOf o) ∧ Within t w h (locOf o) loc dist := by
  obtain ⟨f, h1, hs⟩ := shows_run t hw hh hd hist hin
  have hown := atOwnLocation_run hd hin hloc hs
  unfold getNeighborsWithinDistance
  by_cases hdist : dist ≤ 0
  · exact ⟨f, [], h1, by rw [if_pos hdist], by simp⟩
  · have hpos : 0 < dist := lt_of_not_ge hdist
    refine ⟨f, _, h1, by rw [if_neg hdist, scan_eq hs.wf], ?_⟩
    intro o ho
    obtain ⟨c, _, hc⟩ := List.mem_flatMap.1 ho
    obtain ⟨hb, hk⟩ := List.mem_filter.1 hc
    have hr := wrapped_inRange hs.wf c
    obtain ⟨hf1, hf2⟩ := hown _ hr o hb
    rw [hs.width, hs.height] at hf1
    rw [hs.disc] at hf2
    refine ⟨?_, ?_⟩
    · rw [bagOf_shows hs hr] at hb
      rwa [objsPublished_congr hist (q := locOf o) (by rw [discretize_notDiscretize hd, hf2])] at hb
    · rw [← within_iff _ _ _ hw hh]
      unfold keepExact at hk
      rw [hs.disc, hs.width, hs.height, hs.tor, decide_eq_true_eq] at hk
      rcases hk with ⟨_, hk⟩ | hk
      · rwa [distSq_symm _ _ _ hw hh] at hk
      · rw [← hf2] at hk
        exact full_cell_sound hd hw hh hf1 loc dist hpos t hsmall hk

/-- The published objects are returned even if they carry other locations than they were placed at. -/
theorem C37_neighbors_published_partial (w h d : ℚ) (t : Bool) (hw : 0 < w) (hh : 0 < h) (hd : 0 < d)
    (hist : List (FieldOp O)) (hin : ∀ op ∈ hist, op.InField w h) (locOf : O → Pos) (loc : Pos) (dist : ℚ) :
    ∃ f r, run (new w h d t) hist = some f ∧ getNeighborsWithinDistance f locOf loc dist = some r ∧
      ∀ o ∈ r, ∃ p, o ∈ objsPublished d hist p := by
  obtain ⟨f, h1, hs⟩ := shows_run t hw hh hd hist hin
  unfold getNeighborsWithinDistance
  by_cases hdist : dist ≤ 0
  · exact ⟨f, [], h1, by rw [if_pos hdist], by simp⟩
  · refine ⟨f, _, h1, by rw [if_neg hdist, scan_eq hs.wf], ?_⟩
    intro o ho
    obtain ⟨c, _, hc⟩ := List.mem_flatMap.1 ho
    obtain ⟨hb, _⟩ := List.mem_filter.1 hc
    rw [bagOf_shows hs (wrapped_inRange hs.wf c)] at hb
    exact ⟨_, hb⟩

/-- An object that is the location it carries. -/
abbrev carried : Pos → Pos := id

/-- **C37** is false on a torus: for a distance of half the width, the four corners of a cell can be
within the distance although a point of the cell is not. Here the object at (5.9, 0) is returned for
the location (0.9, 0.5) and distance 5; it is at distance greater than 5. -/
theorem C37_large_distance_negation_partial :
    ∃ (f : Field Pos) (r : List Pos),
      run (new 10 10 1 true) [.lazyUpdate, .place (⟨59/10, 0⟩ : Pos) ⟨59/10, 0⟩] = some f ∧
      getNeighborsWithinDistance f carried ⟨9/10, 1/2⟩ 5 = some r ∧ (⟨59/10, 0⟩ : Pos) ∈ r ∧
      ¬ Within true 10 10 ⟨59/10, 0⟩ ⟨9/10, 1/2⟩ 5 := by
  refine ⟨((run (new 10 10 1 true) [.lazyUpdate, .place (⟨59/10, 0⟩ : Pos) ⟨59/10, 0⟩]).getD (new 1 1 1 true)),
    [⟨59/10, 0⟩], by decide +kernel, by decide +kernel, by decide +kernel, ?_⟩
  rw [← within_iff _ _ _ (by norm_num) (by norm_num)]
  decide +kernel

/-! ### C38 -/

/-- Membership in the answer of the exact search. -/
theorem mem_neighbors {f : Field O} (hf : WF f) (locOf : O → Pos) (loc : Pos) {dist : ℚ} (hdist : 0 < dist) :
    ∃ r, getNeighborsWithinDistance f locOf loc dist = some r ∧
      ∀ o, o ∈ r ↔ ∃ c ∈ searchCells f loc dist, o ∈ bagOf f (wrapped f c) ∧
        keepExact f locOf loc dist (wrapped f c) o = true := by
  unfold getNeighborsWithinDistance
  refine ⟨_, by rw [if_neg (not_le.2 hdist), scan_eq hf], ?_⟩
  intro o
  simp only [List.mem_flatMap, List.mem_filter]

/-- **C38**, correct part. An object off the upper borders and within the distance is returned if its cell
is at most `floor(dist / d)` cells away from the cell of `loc` along both axes and a corner of its cell is
within the distance. -/
theorem C38_neighbors_complete_partial (w h d : ℚ) (t : Bool) (hw : 0 < w) (hh : 0 < h) (hd : 0 < d)
    (hist : List (FieldOp O)) (hin : ∀ op ∈ hist, op.InField w h) (locOf : O → Pos) (loc : Pos) (dist : ℚ)
    (hdist : 0 < dist) (o : O) (ho : o ∈ objsPublished d hist (locOf o)) (hf : InField w h (locOf o))
    (hwi : Within t w h (locOf o) loc dist) (hx : (locOf o).x < w) (hy : (locOf o).y < h)
    (hcx : -(dist / d).floor ≤ ((locOf o).x / d).floor - (loc.x / d).floor ∧
      ((locOf o).x / d).floor - (loc.x / d).floor ≤ (dist / d).floor)
    (hcy : -(dist / d).floor ≤ ((locOf o).y / d).floor - (loc.y / d).floor ∧
      ((locOf o).y / d).floor - (loc.y / d).floor ≤ (dist / d).floor)
    (hcorner : ∃ p : Pos, (p.x = ((locOf o).x / d).floor * d ∨ p.x = min (((locOf o).x / d).floor * d + d) w) ∧
      (p.y = ((locOf o).y / d).floor * d ∨ p.y = min (((locOf o).y / d).floor * d + d) h) ∧
      Within t w h p loc dist) :
    ∃ f r, run (new w h d t) hist = some f ∧ getNeighborsWithinDistance f locOf loc dist = some r ∧ o ∈ r := by
  obtain ⟨f, h1, hs⟩ := shows_run t hw hh hd hist hin
  obtain ⟨r, h2, h3⟩ := mem_neighbors hs.wf locOf loc hdist
  refine ⟨f, r, h1, h2, (h3 o).2 ⟨discretize d (locOf o), ?_⟩⟩
  have lt : ∀ x w : ℚ, x < w → (x / d).floor < (w / d).ceil := by
    intro x w hxw
    have a := Rat.floor_le (x / d)
    have b := Rat.le_ceil (x := w / d)
    have c : x / d < w / d := by gcongr
    have : ((x / d).floor : ℚ) < ((w / d).ceil : ℚ) := by linarith
    exact_mod_cast this
  have hr := discretize_inRange hd hf
  have lx := lt _ _ hx
  have ly := lt _ _ hy
  have hwr : wrapped f (discretize d (locOf o)) = discretize d (locOf o) := by
    unfold wrapped
    rw [hs.width, hs.height, hs.disc, tT_of_range hr.1 lx, tT_of_range hr.2.2.1 ly]
  have hrf : InRange f.dw f.dh (discretize d (locOf o)) := by rw [← hwr]; exact wrapped_inRange hs.wf _
  rw [hwr]
  refine ⟨?_, ?_, ?_⟩
  · rw [mem_searchCells, hs.disc, hs.width, hs.height, hs.tor]
    unfold window
    have a := hr.1
    have b := hr.2.2.1
    unfold discretize at *
    dsimp only at *
    cases t
    · simp only [Bool.false_eq_true, if_false]; omega
    · simp only [if_true]; omega
  · rw [bagOf_shows hs hrf]
    rwa [objsPublished_congr hist (q := locOf o) (discretize_notDiscretize hd _)]
  · unfold keepExact
    rw [hs.disc, hs.width, hs.height, hs.tor, decide_eq_true_eq]
    rw [← within_iff _ _ _ hw hh, distSq_symm _ _ _ hw hh] at hwi
    obtain ⟨c1, c2, c3⟩ := check_cases (discretize d (locOf o)) d w h loc dist t
    rcases c3 with hc | hc | hc
    · exact Or.inr hc
    · exfalso
      obtain ⟨⟨px, py⟩, e1, e2, e3⟩ := hcorner
      dsimp only at e1 e2
      rw [← within_iff _ _ _ hw hh] at e3
      obtain ⟨n1, n2, n3, n4⟩ := c2.1 hc
      unfold cornerNW at n1
      unfold cornerNE at n2
      unfold cornerSW at n3
      unfold cornerSE at n4
      unfold discretize at *
      rcases e1 with rfl | rfl <;> rcases e2 with rfl | rfl
      · exact absurd e3 (not_le.2 n1)
      · exact absurd e3 (not_le.2 n2)
      · exact absurd e3 (not_le.2 n3)
      · exact absurd e3 (not_le.2 n4)
    · exact Or.inl ⟨hc, hwi⟩

/-- Moving a point by at most `d` along both axes moves it by at most `3 d / 2`. -/
theorem move_bound {a b u v r d : ℚ} (hr : 0 ≤ r) (hd : 0 ≤ d) (h : a * a + b * b ≤ r * r) (hu : -d ≤ u ∧ u ≤ d)
    (hv : -d ≤ v ∧ v ≤ d) :
    (a + u) * (a + u) + (b + v) * (b + v) ≤ (r + 3 * d / 2) * (r + 3 * d / 2) := by
  have huu : u * u ≤ d * d := by nlinarith
  have hvv : v * v ≤ d * d := by nlinarith
  have hdot : a * u + b * v ≤ r * (3 * d / 2) := by
    by_contra hc
    have hlt : r * (3 * d / 2) < a * u + b * v := lt_of_not_ge hc
    have h0 : 0 ≤ r * (3 * d / 2) := by positivity
    have h1 : (r * (3 * d / 2)) * (r * (3 * d / 2)) < (a * u + b * v) * (a * u + b * v) := by nlinarith
    have h2 : (a * u + b * v) * (a * u + b * v) ≤ (a * a + b * b) * (u * u + v * v) := by
      nlinarith [mul_self_nonneg (a * v - b * u)]
    have h3 : (a * a + b * b) * (u * u + v * v) ≤ (r * r) * (2 * (d * d)) := by
      apply mul_le_mul h (by linarith) (by nlinarith [mul_self_nonneg u, mul_self_nonneg v]) (by positivity)
    have h4 : (r * r) * (2 * (d * d)) ≤ (r * (3 * d / 2)) * (r * (3 * d / 2)) := by
      have : 0 ≤ (r * r) * (d * d) := by positivity
      nlinarith
    linarith
  nlinarith

/-- **C38**, a guaranteed radius: every object off the upper borders whose straight distance from `loc` is
at most `dist - 3 d / 2` is returned. -/
theorem C38_guaranteed_radius_partial (w h d : ℚ) (t : Bool) (hw : 0 < w) (hh : 0 < h) (hd : 0 < d)
    (hist : List (FieldOp O)) (hin : ∀ op ∈ hist, op.InField w h) (locOf : O → Pos) (loc : Pos) (dist : ℚ)
    (hdist : 3 * d / 2 ≤ dist) (o : O) (ho : o ∈ objsPublished d hist (locOf o)) (hf : InField w h (locOf o))
    (hx : (locOf o).x < w) (hy : (locOf o).y < h) (hwi : Within false w h (locOf o) loc (dist - 3 * d / 2)) :
    ∃ f r, run (new w h d t) hist = some f ∧ getNeighborsWithinDistance f locOf loc dist = some r ∧ o ∈ r := by
  have hr : 0 ≤ dist - 3 * d / 2 := by linarith
  have hdp : 0 < dist := by linarith
  have toT : ∀ p : Pos, Within false w h p loc dist → Within t w h p loc dist := by
    intro p hp
    cases t
    · exact hp
    · refine ⟨0, 0, ?_⟩
      simpa [Within] using hp
  have hsq : ((locOf o).x - loc.x) * ((locOf o).x - loc.x) + ((locOf o).y - loc.y) * ((locOf o).y - loc.y) ≤
      (dist - 3 * d / 2) * (dist - 3 * d / 2) := by simpa [Within] using hwi
  have near : ∀ a b : ℚ, -(dist - 3 * d / 2) ≤ a - b → a - b ≤ dist - 3 * d / 2 →
      -(dist / d).floor ≤ (a / d).floor - (b / d).floor ∧ (a / d).floor - (b / d).floor ≤ (dist / d).floor := by
    intro a b h1 h2
    obtain ⟨a1, a2⟩ := (floor_div_eq hd _).1 (rfl : (a / d).floor = (a / d).floor)
    obtain ⟨b1, b2⟩ := (floor_div_eq hd _).1 (rfl : (b / d).floor = (b / d).floor)
    obtain ⟨c1, c2⟩ := (floor_div_eq hd _).1 (rfl : (dist / d).floor = (dist / d).floor)
    generalize (a / d).floor = A at *
    generalize (b / d).floor = B at *
    generalize (dist / d).floor = C at *
    constructor
    · by_contra hc
      have : ((A - B + C + 1 : ℤ) : ℚ) ≤ 0 := by exact_mod_cast (by omega : A - B + C + 1 ≤ 0)
      push_cast at this
      nlinarith
    · by_contra hc
      have : ((C + 1 : ℤ) : ℚ) ≤ ((A - B : ℤ) : ℚ) := by exact_mod_cast (by omega : C + 1 ≤ A - B)
      push_cast at this
      nlinarith
  obtain ⟨⟨a1, a2⟩, ⟨b1, b2⟩⟩ := abs_of_sq hr hsq
  apply C38_neighbors_complete_partial w h d t hw hh hd hist hin locOf loc dist hdp o ho hf _ hx hy (near _ _ a1 a2)
    (near _ _ b1 b2)
  · obtain ⟨x1, x2⟩ := (floor_div_eq hd _).1 (rfl : ((locOf o).x / d).floor = ((locOf o).x / d).floor)
    obtain ⟨y1, y2⟩ := (floor_div_eq hd _).1 (rfl : ((locOf o).y / d).floor = ((locOf o).y / d).floor)
    refine ⟨⟨((locOf o).x / d).floor * d, ((locOf o).y / d).floor * d⟩, Or.inl rfl, Or.inl rfl, toT _ ?_⟩
    have := move_bound (u := ((locOf o).x / d).floor * d - (locOf o).x) (v := ((locOf o).y / d).floor * d - (locOf o).y)
      hr (le_of_lt hd) hsq ⟨by linarith, by linarith⟩ ⟨by linarith, by linarith⟩
    unfold Within
    rw [if_neg (by simp)]
    dsimp only
    nlinarith
  · apply toT
    unfold Within
    rw [if_neg (by simp)]
    nlinarith

/-- **C38** is false, first way: the number of cells searched is rounded down, so a neighbour across a
cell border is missed (cell size 1, distance 0.5, objects 0.2 apart). -/
theorem C38_rounded_radius_negation_partial :
    ∃ (f : Field Pos), run (new 10 10 1 false) [.lazyUpdate, .place (⟨11/10, 1/2⟩ : Pos) ⟨11/10, 1/2⟩] = some f ∧
      getNeighborsWithinDistance f carried ⟨9/10, 1/2⟩ (1/2) = some [] ∧
      Within false 10 10 ⟨11/10, 1/2⟩ ⟨9/10, 1/2⟩ (1/2) := by
  refine ⟨((run (new 10 10 1 false) [.lazyUpdate, .place (⟨11/10, 1/2⟩ : Pos) ⟨11/10, 1/2⟩]).getD (new 1 1 1 true)),
    by decide +kernel, by decide +kernel, ?_⟩
  rw [← within_iff _ _ _ (by norm_num) (by norm_num)]
  decide +kernel

/-- **C38** is false, second way: a cell whose four corners are all too far is skipped, although the
circle may lie inside it. The object is at the very location asked for. -/
theorem C38_circle_in_cell_negation_partial :
    ∃ (f : Field Pos), run (new 20 20 10 false) [.lazyUpdate, .place (⟨5, 5⟩ : Pos) ⟨5, 5⟩] = some f ∧
      getNeighborsWithinDistance f carried ⟨5, 5⟩ 1 = some [] ∧ Within false 20 20 ⟨5, 5⟩ ⟨5, 5⟩ 1 := by
  refine ⟨((run (new 20 20 10 false) [.lazyUpdate, .place (⟨5, 5⟩ : Pos) ⟨5, 5⟩]).getD (new 1 1 1 true)),
    by decide +kernel, by decide +kernel, ?_⟩
  rw [← within_iff _ _ _ (by norm_num) (by norm_num)]
  decide +kernel

/-- **C38** is false, third way: on a torus the search stops at the borders, so neighbours across the
border are missed. -/
theorem C38_no_wraparound_negation_partial :
    ∃ (f : Field Pos), run (new 10 10 1 true) [.lazyUpdate, .place (⟨19/2, 1/2⟩ : Pos) ⟨19/2, 1/2⟩] = some f ∧
      getNeighborsWithinDistance f carried ⟨1/2, 1/2⟩ 2 = some [] ∧ Within true 10 10 ⟨19/2, 1/2⟩ ⟨1/2, 1/2⟩ 2 := by
  refine ⟨((run (new 10 10 1 true) [.lazyUpdate, .place (⟨19/2, 1/2⟩ : Pos) ⟨19/2, 1/2⟩]).getD (new 1 1 1 true)),
    by decide +kernel, by decide +kernel, ?_⟩
  rw [← within_iff _ _ _ (by norm_num) (by norm_num)]
  decide +kernel

/-- **C38** is false, fourth way: an object placed on the upper border is not found, even from its own
location. -/
theorem C38_upper_border_negation_partial :
    ∃ (f : Field Pos), run (new 10 10 1 false) [.lazyUpdate, .place (⟨10, 5⟩ : Pos) ⟨10, 5⟩] = some f ∧
      getNeighborsWithinDistance f carried ⟨10, 5⟩ 3 = some [] ∧ Within false 10 10 ⟨10, 5⟩ ⟨10, 5⟩ 3 := by
  refine ⟨((run (new 10 10 1 false) [.lazyUpdate, .place (⟨10, 5⟩ : Pos) ⟨10, 5⟩]).getD (new 1 1 1 true)),
    by decide +kernel, by decide +kernel, ?_⟩
  rw [← within_iff _ _ _ (by norm_num) (by norm_num)]
  decide +kernel

/-! ### C39 -/

/-- How often `o` occurs in the published buffer, over all cells. -/
def placements (f : Field O) (o : O) : Nat := ((cells f.dw f.dh).map (fun c => List.count o (bagOf f c))).sum

theorem count_flatMap_cells (f : Field O) (o : O) :
    List.count o ((cells f.dw f.dh).flatMap (fun c => bagOf f c)) = placements f o := by
  unfold placements
  rw [List.count_flatMap]
  rfl

theorem scan_count {f : Field O} (hf : WF f) (keep : Loc → O → Bool) (cs : List Loc)
    (hn : (cs.map (wrapped f)).Nodup) (o : O) :
    ∃ r, scan f keep cs = some r ∧ List.count o r ≤ placements f o := by
  refine ⟨_, scan_eq hf keep cs, ?_⟩
  have e : cs.flatMap (fun c => (bagOf f (wrapped f c)).filter (keep (wrapped f c))) =
      (cs.map (wrapped f)).flatMap (fun c => (bagOf f c).filter (keep c)) := by
    rw [List.flatMap_map]
  rw [e, ← count_flatMap_cells]
  have hsub : (cs.map (wrapped f)).Subperm (cells f.dw f.dh) := by
    apply hn.subperm
    intro c hc
    obtain ⟨c', _, rfl⟩ := List.mem_map.1 hc
    exact mem_cells.2 (wrapped_inRange hf c')
  obtain ⟨l, hl1, hl2⟩ := hsub
  have p1 := (hl1.flatMap (f := fun c => (bagOf f c).filter (keep c)) (g := fun c => (bagOf f c).filter (keep c))
    (fun _ _ => List.Perm.refl _)).count_eq o
  rw [← p1]
  have s1 := List.Sublist.flatMap_right l (f := fun c => (bagOf f c).filter (keep c)) (g := fun c => bagOf f c)
    (fun c _ => List.filter_sublist)
  have s2 := hl2.flatMap (fun c => bagOf f c)
  exact (s1.trans s2).count_le o

/-- **C39**, correct part: an answer holds each object at most as often as the published buffer does. This
holds on a torus for every distance, and otherwise if the searched square, `2 * floor(dist / d) + 1` cells
wide, is not larger than the field. -/
theorem C39_neighbors_once_partial (w h d : ℚ) (t : Bool) (hw : 0 < w) (hh : 0 < h) (hd : 0 < d)
    (hist : List (FieldOp O)) (hin : ∀ op ∈ hist, op.InField w h) (locOf : O → Pos) (loc : Pos) (dist : ℚ)
    (hsmall : t = false → 2 * (dist / d).floor + 1 ≤ (w / d).ceil ∧ 2 * (dist / d).floor + 1 ≤ (h / d).ceil) (o : O) :
    ∃ f r r' all, run (new w h d t) hist = some f ∧ getNeighborsWithinDistance f locOf loc dist = some r ∧
      getNeighborsWithinRelaxDistance f loc dist = some r' ∧ iterObjects f = some all ∧
      List.count o r ≤ List.count o (all.map Prod.snd) ∧ List.count o r' ≤ List.count o (all.map Prod.snd) := by
  obtain ⟨f, h1, hs⟩ := shows_run t hw hh hd hist hin
  have hiter : iterObjects f = some ((cells f.dw f.dh).flatMap (fun c =>
      (bagOf f c).map (fun o => (notDiscretize f.discretization c, o)))) := by
    unfold iterObjects
    rw [collect_spec _ (cells_isSome hs.wf.r.big)]
    congr 1
    apply List.flatMap_congr
    intro c hc
    obtain ⟨b, hb⟩ := vecGet_some hs.wf.r.big (mem_cells.1 hc)
    rw [bagOf, hb]; rfl
  have hcount : List.count o (((cells f.dw f.dh).flatMap (fun c =>
      (bagOf f c).map (fun o => (notDiscretize f.discretization c, o)))).map Prod.snd) = placements f o := by
    rw [← count_flatMap_cells, List.map_flatMap]
    congr 1
    apply List.flatMap_congr
    intro c _
    rw [List.map_map]
    exact List.map_id _
  unfold getNeighborsWithinDistance getNeighborsWithinRelaxDistance
  by_cases hdist : dist ≤ 0
  · exact ⟨f, [], [], _, h1, by rw [if_pos hdist], by rw [if_pos hdist], hiter, by simp, by simp⟩
  · have hn : ((searchCells f loc dist).map (wrapped f)).Nodup := by
      refine List.Nodup.map_on ?_ (nodup_searchCells f loc dist)
      intro a ha b hb hab
      rw [mem_searchCells, hs.disc, hs.width, hs.height, hs.tor] at ha hb
      unfold wrapped at hab
      rw [hs.disc, hs.width, hs.height] at hab
      simp only [Loc.mk.injEq] at hab
      have p1 := ceil_pos hw hd
      have p2 := ceil_pos hh hd
      have e1 : a.x = b.x := by
        apply tT_inj p1 hab.1
        · cases t
          · have := hsmall rfl
            simp only [window, Bool.false_eq_true, if_false] at ha hb; omega
          · simp only [window, if_true] at ha hb; omega
        · cases t
          · have := hsmall rfl
            simp only [window, Bool.false_eq_true, if_false] at ha hb; omega
          · simp only [window, if_true] at ha hb; omega
      have e2 : a.y = b.y := by
        apply tT_inj p2 hab.2
        · cases t
          · have := hsmall rfl
            simp only [window, Bool.false_eq_true, if_false] at ha hb; omega
          · simp only [window, if_true] at ha hb; omega
        · cases t
          · have := hsmall rfl
            simp only [window, Bool.false_eq_true, if_false] at ha hb; omega
          · simp only [window, if_true] at ha hb; omega
      cases a; cases b
      simp only at e1 e2
      rw [e1, e2]
    obtain ⟨r, a1, a2⟩ := scan_count hs.wf (keepExact f locOf loc dist) _ hn o
    obtain ⟨r', b1, b2⟩ := scan_count hs.wf (fun _ _ => true) _ hn o
    exact ⟨f, r, r', _, h1, by rw [if_neg hdist]; exact a1, by rw [if_neg hdist]; exact b1, hiter, by rw [hcount]; exact a2, by rw [hcount]; exact b2⟩

/-- **C39** is false on a field that is not a torus: the search wraps around, and visits a cell several
times if the searched square is larger than the field. -/
theorem C39_wrapped_search_negation_partial :
    ∃ (f : Field Pos), run (new 2 2 1 false) [.lazyUpdate, .place (⟨3/2, 1/2⟩ : Pos) ⟨3/2, 1/2⟩] = some f ∧
      getNeighborsWithinDistance f carried ⟨1/2, 1/2⟩ (3/2) = some [⟨3/2, 1/2⟩, ⟨3/2, 1/2⟩] := by
  exact ⟨((run (new 2 2 1 false) [.lazyUpdate, .place (⟨3/2, 1/2⟩ : Pos) ⟨3/2, 1/2⟩]).getD (new 1 1 1 true)),
    by decide +kernel, by decide +kernel⟩

/-! ### C40 -/

theorem scan_sublist (f : Field O) (keep : Loc → O → Bool) (cs : List Loc) :
    (scan f keep cs = none ∧ scan f (fun _ _ => true) cs = none) ∨
    ∃ r r', scan f keep cs = some r ∧ scan f (fun _ _ => true) cs = some r' ∧ r.Sublist r' := by
  induction cs with
  | nil => exact Or.inr ⟨[], [], rfl, rfl, List.Sublist.refl _⟩
  | cons c cs ih =>
    rw [scan, scan]
    cases bagId f c with
    | none => exact Or.inl ⟨rfl, rfl⟩
    | some b =>
      dsimp only
      cases vecGet f.rbags f.dh b with
      | none => exact Or.inl ⟨rfl, rfl⟩
      | some bag =>
        dsimp only
        rcases ih with ⟨h1, h2⟩ | ⟨r, r', h1, h2, h3⟩
        · rw [h1, h2]; exact Or.inl ⟨rfl, rfl⟩
        · rw [h1, h2]
          refine Or.inr ⟨_, _, rfl, rfl, ?_⟩
          exact List.Sublist.append (by simp) h3

/-- **C40.** The relaxed search returns all the exact search returns, in the same order, for every state of
the field; it panics exactly when the exact search does; both are empty for `dist ≤ 0`. -/
theorem C40_relaxed_contains_exact (f : Field O) (locOf : O → Pos) (loc : Pos) (dist : ℚ) :
    ((getNeighborsWithinDistance f locOf loc dist = none ∧ getNeighborsWithinRelaxDistance f loc dist = none) ∨
      ∃ r r', getNeighborsWithinDistance f locOf loc dist = some r ∧
        getNeighborsWithinRelaxDistance f loc dist = some r' ∧ r.Sublist r') ∧
    (dist ≤ 0 → getNeighborsWithinDistance f locOf loc dist = some [] ∧
      getNeighborsWithinRelaxDistance f loc dist = some []) := by
  unfold getNeighborsWithinDistance getNeighborsWithinRelaxDistance
  refine ⟨?_, fun h => ⟨if_pos h, if_pos h⟩⟩
  by_cases hd : dist ≤ 0
  · rw [if_pos hd, if_pos hd]; exact Or.inr ⟨[], [], rfl, rfl, List.Sublist.refl _⟩
  · rw [if_neg hd, if_neg hd]; exact scan_sublist f _ _

/-- **C40.** Neither search panics on a field reached by a program. -/
theorem C40_no_panic (w h d : ℚ) (t : Bool) (hw : 0 < w) (hh : 0 < h) (hd : 0 < d) (hist : List (FieldOp O))
    (hin : ∀ op ∈ hist, op.InField w h) (locOf : O → Pos) (loc : Pos) (dist : ℚ) :
    ∃ f r r', run (new w h d t) hist = some f ∧ getNeighborsWithinDistance f locOf loc dist = some r ∧
      getNeighborsWithinRelaxDistance f loc dist = some r' ∧ r.Sublist r' := by
  obtain ⟨f, h1, hs⟩ := shows_run t hw hh hd hist hin
  rcases (C40_relaxed_contains_exact f locOf loc dist).1 with ⟨h2, _⟩ | ⟨r, r', h2, h3, h4⟩
  · unfold getNeighborsWithinDistance at h2
    split at h2
    · exact absurd h2 (by simp)
    · rw [scan_eq hs.wf] at h2; exact absurd h2 (by simp)
  · exact ⟨f, r, r', h1, h2, h3, h4⟩

/-- Objects that are the locations they carry, placed where they say. -/
def demoPositions : List (FieldOp Pos) :=
  [.lazyUpdate, .place ⟨1/2, 1/2⟩ ⟨1/2, 1/2⟩, .place ⟨3/2, 5/2⟩ ⟨3/2, 5/2⟩, .place ⟨5, 5⟩ ⟨5, 5⟩,
    .place ⟨3, 3⟩ ⟨3, 3⟩]

example : (∀ op ∈ demoPositions, op.InField 10 10) ∧ CarriesLocation carried demoPositions ∧
    ((run (new 10 10 1 true) demoPositions).bind (fun f => getNeighborsWithinDistance f carried ⟨2, 2⟩ 3)) =
      some [⟨1/2, 1/2⟩, ⟨3/2, 5/2⟩, ⟨3, 3⟩] ∧
    ((run (new 10 10 1 true) demoPositions).bind (fun f => getNeighborsWithinRelaxDistance f ⟨2, 2⟩ 3)) =
      some [⟨1/2, 1/2⟩, ⟨3/2, 5/2⟩, ⟨3, 3⟩, ⟨5, 5⟩] ∧
    (⟨3, 3⟩ : Pos) ∈ objsPublished 1 demoPositions ⟨3, 3⟩ ∧ Within false 10 10 ⟨3, 3⟩ ⟨2, 2⟩ (3 - 3 * 1 / 2) := by
  refine ⟨?_, ?_, by decide +kernel, by decide +kernel, by decide +kernel, ?_⟩
  · decide +kernel
  · intro o l hl
    simp only [demoPositions, List.mem_cons, List.not_mem_nil, or_false, FieldOp.place.injEq, reduceCtorEq,
      false_or] at hl
    rcases hl with h | h | h | h <;> (rw [h.1, h.2]; rfl)
  · rw [← within_iff _ _ _ (by norm_num) (by norm_num)]
    decide +kernel

/-! ### C43 -/

theorem total_eq (v : List (List O)) :
    total v = ((List.range v.length).map (fun i => ((v[i]?).getD []).length)).sum := by
  induction v with
  | nil => rfl
  | cons b v ih =>
    rw [List.length_cons, List.range_succ_eq_map]
    simp only [total, List.map_cons, List.sum_cons, List.map_map] at *
    rw [ih]
    simp [Function.comp_def]

theorem length_iter {f : Field O} {v : List (List O)} (hv : Sized f.dw f.dh v) (hw : 0 ≤ f.dw) (hh : 0 ≤ f.dh) :
    ∃ r, collect v f.dh (fun c e => e.map (fun o => (notDiscretize f.discretization c, o))) (cells f.dw f.dh) = some r ∧
      r.length = total v := by
  refine ⟨_, collect_spec _ (cells_isSome hv.big), ?_⟩
  have e : (cells f.dw f.dh).map (fun c => (((vecGet v f.dh c).map
      (fun e => e.map (fun o => (notDiscretize f.discretization c, o)))).getD []).length) =
      ((cells f.dw f.dh).map (fun c => (c.x * f.dh + c.y).toNat)).map (fun i => ((v[i]?).getD []).length) := by
    rw [List.map_map]
    apply List.map_congr_left
    intro c hc
    have hr := mem_cells.1 hc
    obtain ⟨b, hb⟩ := vecGet_some hv.big hr
    rw [hb]
    unfold vecGet at hb
    rw [if_pos (index_range hr).1] at hb
    simp [hb]
  rw [List.length_flatMap, e, cells_index, total_eq]
  unfold Sized at hv
  rw [hv, ← Int.toNat_mul hw hh]

theorem dims_pos {f : Field O} (hf : WF f) : 0 < f.dw ∧ 0 < f.dh := by
  have h1 := ceil_pos hf.w hf.d
  have h2 := ceil_pos hf.h hf.d
  rw [hf.dw, hf.dh]; omega

theorem early_run {w h d : ℚ} (t : Bool) (hw : 0 < w) (hh : 0 < h) (hd : 0 < d) (hist : List (FieldOp O))
    (hin : ∀ op ∈ hist, op.InField w h) (hno : FieldOp.lazyUpdate ∉ hist) {f : Field O}
    (hf : run (new w h d t) hist = some f) : f.densityCheck = false ∧ f.density = 0 := by
  induction hist generalizing f with
  | nil => rw [← Option.some.inj hf]; exact ⟨rfl, rfl⟩
  | cons op hist ih =>
    obtain ⟨g, h1, h2⟩ := shows_run t hw hh hd hist (fun op hop => hin op (List.mem_cons_of_mem _ hop))
    obtain ⟨i1, i2⟩ := ih (fun op hop => hin op (List.mem_cons_of_mem _ hop))
      (fun hc => hno (List.mem_cons_of_mem _ hc)) h1
    have hop := hin op List.mem_cons_self
    rw [run, h1] at hf
    cases op with
    | place o l =>
      obtain ⟨f', e, e1, e2, _⟩ := shows_place h2 o l hop
      rw [show f = f' from Option.some.inj (hf.symm.trans e), e1, e2]; exact ⟨i1, i2⟩
    | remove o l =>
      obtain ⟨f', e, e1, e2, _⟩ := shows_remove h2 o l hop
      rw [show f = f' from Option.some.inj (hf.symm.trans e), e1, e2]; exact ⟨i1, i2⟩
    | update => rw [show f = g from (Option.some.inj hf).symm]; exact ⟨i1, i2⟩
    | lazyUpdate => exact absurd List.mem_cons_self hno

/-- **C43.** Until the first lazy_update the counter of agents is the number of objects in the write
buffer. -/
theorem C43_count_before_first_update (w h d : ℚ) (t : Bool) (hw : 0 < w) (hh : 0 < h) (hd : 0 < d)
    (hist : List (FieldOp O)) (hin : ∀ op ∈ hist, op.InField w h) (hno : FieldOp.lazyUpdate ∉ hist) :
    ∃ f all, run (new w h d t) hist = some f ∧ iterObjectsUnbuffered f = some all ∧ f.nagents = all.length := by
  obtain ⟨f, h1, h2⟩ := shows_run t hw hh hd hist hin
  obtain ⟨p1, p2⟩ := dims_pos h2.wf
  obtain ⟨all, h3, h4⟩ := length_iter h2.wf.b (by omega) (by omega)
  exact ⟨f, all, h1, h3, by rw [h4, h2.wf.count (early_run t hw hh hd hist hin hno h1).1]⟩

/-- **C43.** The density estimate is fixed by the first lazy_update, as the number of objects in the write
buffer at that moment divided (rounding down) by the number of cells, whatever is done later. -/
theorem C43_density_fixed (w h d : ℚ) (t : Bool) (hw : 0 < w) (hh : 0 < h) (hd : 0 < d)
    (early late : List (FieldOp O)) (hin : ∀ op ∈ late ++ .lazyUpdate :: early, op.InField w h)
    (hno : FieldOp.lazyUpdate ∉ early) :
    ∃ f0 all f, run (new w h d t) early = some f0 ∧ iterObjectsUnbuffered f0 = some all ∧
      run (new w h d t) (late ++ .lazyUpdate :: early) = some f ∧ f.densityCheck = true ∧
      f.density = all.length / (((w / d).ceil + 1) * ((h / d).ceil + 1)).toNat := by
  have hin0 : ∀ op ∈ early, op.InField w h := fun op hop =>
    hin op (List.mem_append_right _ (List.mem_cons_of_mem _ hop))
  obtain ⟨f0, all, h1, h2, h3⟩ := C43_count_before_first_update w h d t hw hh hd early hin0 hno
  obtain ⟨f0', h1', hs0⟩ := shows_run t hw hh hd early hin0
  rw [show f0' = f0 from Option.some.inj (h1'.symm.trans h1)] at hs0
  refine ⟨f0, all, ?_⟩
  have hc0 := (early_run t hw hh hd early hin0 hno h1).1
  suffices H : ∃ f, run (new w h d t) (late ++ .lazyUpdate :: early) = some f ∧ f.densityCheck = true ∧
      f.density = all.length / (((w / d).ceil + 1) * ((h / d).ceil + 1)).toNat by
    obtain ⟨f, a, b, c⟩ := H
    exact ⟨f, h1, h2, a, b, c⟩
  induction late with
  | nil =>
    obtain ⟨f', e, e1, e2, _⟩ := shows_lazy hs0
    refine ⟨f', ?_, e1, ?_⟩
    · rw [List.nil_append, run, h1]; exact e
    · rw [e2, if_neg (by simp [hc0]), h3, hs0.wf.dw, hs0.wf.dh, hs0.width, hs0.height, hs0.disc]
  | cons op late ih =>
    have hin' : ∀ op ∈ late ++ .lazyUpdate :: early, op.InField w h :=
      fun op hop => hin op (List.mem_cons_of_mem _ hop)
    obtain ⟨g, g1, g2, g3⟩ := ih hin'
    obtain ⟨g', g1', hs⟩ := shows_run t hw hh hd _ hin'
    rw [show g' = g from Option.some.inj (g1'.symm.trans g1)] at hs
    have hop := hin op List.mem_cons_self
    rw [List.cons_append, run, g1]
    cases op with
    | place o l =>
      obtain ⟨f', e, e1, e2, _⟩ := shows_place hs o l hop
      exact ⟨f', e, by rw [e1, g2], by rw [e2, g3]⟩
    | remove o l =>
      obtain ⟨f', e, e1, e2, _⟩ := shows_remove hs o l hop
      exact ⟨f', e, by rw [e1, g2], by rw [e2, g3]⟩
    | update => exact ⟨g, rfl, g2, g3⟩
    | lazyUpdate =>
      obtain ⟨f', e, e1, e2, _⟩ := shows_lazy hs
      exact ⟨f', e, e1, by rw [e2, if_pos g2, g3]⟩

/-- The corner of the `i`-th square in `x` and the `j`-th in `y`. -/
def corner (d : ℚ) (i j : Nat) : Pos := ⟨i * d, j * d⟩

theorem cell_corner {w h d : ℚ} (c : Loc) (hc : InRange ((w / d).ceil + 1) ((h / d).ceil + 1) c) :
    ∃ i j : Nat, (i : ℤ) ≤ (w / d).ceil ∧ (j : ℤ) ≤ (h / d).ceil ∧ c = ⟨i, j⟩ ∧ notDiscretize d c = corner d i j := by
  obtain ⟨h1, h2, h3, h4⟩ := hc
  obtain ⟨cx, cy⟩ := c
  dsimp only at *
  obtain ⟨i, rfl⟩ := Int.eq_ofNat_of_zero_le h1
  obtain ⟨j, rfl⟩ := Int.eq_ofNat_of_zero_le h3
  exact ⟨i, j, by omega, by omega, rfl, by simp [notDiscretize, corner]⟩

theorem empty_bags {w h d : ℚ} {t : Bool} (hd : 0 < d) {hist : List (FieldOp O)} {f : Field O}
    (hs : Shows f w h d t (fun c => objsPublished d hist (notDiscretize d c))
      (fun c => objsWritten d hist (notDiscretize d c))) :
    ∃ es, getEmptyBags f = some es ∧ es.Nodup ∧
      ∀ p, p ∈ es ↔ ∃ i j : Nat, (i : ℤ) ≤ (w / d).ceil ∧ (j : ℤ) ≤ (h / d).ceil ∧ p = corner d i j ∧
        objsPublished d hist p = [] := by
  have hg : ∀ (c : Loc) (a : List O) (b : Pos), b ∈ (if a.isEmpty then [notDiscretize f.discretization c] else []) →
      discretize d b = c := by
    intro c a b hb
    split at hb
    · rw [List.mem_singleton] at hb
      rw [hb, hs.disc, discretize_notDiscretize hd]
    · exact absurd hb (by simp)
  obtain ⟨es, h1, h2, h3⟩ := collect_cells hs.wf.r.big
    (fun (c : Loc) (e : List O) => if e.isEmpty then [notDiscretize f.discretization c] else []) (discretize d) hg
    (fun c a => by split <;> simp)
  refine ⟨es, h1, h2, ?_⟩
  intro p
  rw [h3]
  have hdw := hs.wf.dw
  have hdh := hs.wf.dh
  rw [hs.width, hs.disc] at hdw
  rw [hs.height, hs.disc] at hdh
  constructor
  · rintro ⟨hr, a, ha, hp⟩
    rw [hs.read _ hr] at ha
    have hae := Option.some.inj ha
    split at hp
    · rename_i hemp
      rw [List.mem_singleton, hs.disc] at hp
      have hr' := hr
      rw [hdw, hdh] at hr'
      obtain ⟨i, j, a1, a2, _, a4⟩ := cell_corner _ hr'
      refine ⟨i, j, a1, a2, hp.trans a4, ?_⟩
      rw [hp, hae]
      simpa using hemp
    · exact absurd hp (by simp)
  · rintro ⟨i, j, h1, h2, h3, h4⟩
    have e : p = notDiscretize d ⟨i, j⟩ := by rw [h3]; simp [notDiscretize, corner]
    have hr : InRange f.dw f.dh ⟨i, j⟩ := by
      rw [hdw, hdh]; unfold InRange; dsimp only; omega
    rw [e, discretize_notDiscretize hd]
    refine ⟨hr, [], ?_, ?_⟩
    · rw [hs.read _ hr]; rw [e] at h4; exact congrArg some h4
    · rw [hs.disc]; simp

/-- **C43.** `get_empty_bags` lists, once each, the corners of exactly the squares with no published
object, the squares that stick out of the field included. -/
theorem C43_get_empty_bags (w h d : ℚ) (t : Bool) (hw : 0 < w) (hh : 0 < h) (hd : 0 < d)
    (hist : List (FieldOp O)) (hin : ∀ op ∈ hist, op.InField w h) :
    ∃ f es, run (new w h d t) hist = some f ∧ getEmptyBags f = some es ∧ es.Nodup ∧
      ∀ p, p ∈ es ↔ ∃ i j : Nat, (i : ℤ) ≤ (w / d).ceil ∧ (j : ℤ) ≤ (h / d).ceil ∧ p = corner d i j ∧
        objsPublished d hist p = [] := by
  obtain ⟨f, h1, hs⟩ := shows_run t hw hh hd hist hin
  obtain ⟨es, h2, h3, h4⟩ := empty_bags hd hs
  exact ⟨f, es, h1, h2, h3, h4⟩

/-- **C43.** `num_objects_at_location` is the length of `get_objects`, for every state and location. -/
theorem C43_num_objects (f : Field O) (p : Pos) : numObjectsAtLocation f p = (getObjects f p).map List.length := rfl

example : FieldOp.lazyUpdate ∉ ([.remove 3 ⟨4, 4⟩, .place 3 ⟨5, 5⟩, .place 2 ⟨8, 1⟩] : List (FieldOp Nat)) ∧
    ((run (new 10 10 3 true) ([.remove 3 ⟨4, 4⟩, .place 3 ⟨5, 5⟩, .place 2 ⟨8, 1⟩] : List (FieldOp Nat))).map Field.nagents) =
      some 1 ∧
    ((run (new 2 1 1 true) ([.lazyUpdate, .place 1 ⟨0, 0⟩, .place 2 ⟨0, 0⟩, .place 3 ⟨0, 0⟩, .place 4 ⟨0, 0⟩,
      .place 5 ⟨0, 0⟩, .place 6 ⟨0, 0⟩] : List (FieldOp Nat))).map Field.density) = some 1 ∧
    ((run (new 2 1 1 true) ([.lazyUpdate, .place 1 ⟨0, 0⟩, .place 1 ⟨2, 1⟩] : List (FieldOp Nat))).bind getEmptyBags) =
      some [⟨0, 1⟩, ⟨1, 0⟩, ⟨1, 1⟩, ⟨2, 0⟩] := by
  refine ⟨by simp, by decide +kernel, by decide +kernel, by decide +kernel⟩

/-! ### C74 -/

/-- **C74**, correct part: whatever the generator draws, `get_random_empty_bag` does not panic, returns
`None` exactly when no square is empty, and otherwise the corner of an empty square, which is inside the
field if both sizes are multiples of the discretization. -/
theorem C74_random_empty_bag_partial (w h d : ℚ) (t : Bool) (hw : 0 < w) (hh : 0 < h) (hd : 0 < d)
    (hist : List (FieldOp O)) (hin : ∀ op ∈ hist, op.InField w h) (genRange : Nat → Nat)
    (hgen : ∀ n, 0 < n → genRange n < n) :
    ∃ f r, run (new w h d t) hist = some f ∧ getRandomEmptyBag f genRange = some r ∧
      (r = none ↔ ∀ i j : Nat, (i : ℤ) ≤ (w / d).ceil → (j : ℤ) ≤ (h / d).ceil → objsPublished d hist (corner d i j) ≠ []) ∧
      ∀ p, r = some p → objsPublished d hist p = [] ∧ 0 ≤ p.x ∧ p.x < w + d ∧ 0 ≤ p.y ∧ p.y < h + d ∧
        ((∃ a : Nat, w = a * d) → (∃ b : Nat, h = b * d) → InField w h p) := by
  obtain ⟨f, h1, hs⟩ := shows_run t hw hh hd hist hin
  obtain ⟨es, h2, _, h4⟩ := empty_bags hd hs
  have hpos : ∀ p, p ∈ es → objsPublished d hist p = [] ∧ 0 ≤ p.x ∧ p.x < w + d ∧ 0 ≤ p.y ∧ p.y < h + d ∧
        ((∃ a : Nat, w = a * d) → (∃ b : Nat, h = b * d) → InField w h p) := by
    intro p hp
    obtain ⟨i, j, a1, a2, a3, a4⟩ := (h4 p).1 hp
    have lim : ∀ (w : ℚ) (i : Nat), (i : ℤ) ≤ (w / d).ceil → (i : ℚ) * d < w + d ∧
        ((∃ a : Nat, w = a * d) → (i : ℚ) * d ≤ w) := by
      intro w i hi
      constructor
      · have hc : ((i : ℤ) : ℚ) - 1 < w / d := by
          by_contra hcon
          have : (w / d).ceil ≤ (i : ℤ) - 1 := Rat.ceil_le_iff.2 (by push_cast at *; linarith)
          omega
        rw [lt_div_iff₀ hd] at hc
        push_cast at hc
        linarith
      · rintro ⟨a, rfl⟩
        rw [mul_div_assoc, div_self (ne_of_gt hd), mul_one, show ((a : ℚ)) = ((a : ℤ) : ℚ) by simp,
          Rat.ceil_intCast] at hi
        have : (i : ℚ) ≤ a := by exact_mod_cast hi
        nlinarith
    obtain ⟨b1, b2⟩ := lim w i a1
    obtain ⟨c1, c2⟩ := lim h j a2
    have px : p.x = i * d := by rw [a3]; rfl
    have py : p.y = j * d := by rw [a3]; rfl
    have nx : 0 ≤ (i : ℚ) * d := by positivity
    have ny : 0 ≤ (j : ℚ) * d := by positivity
    refine ⟨a4, by rw [px]; exact nx, by rw [px]; exact b1, by rw [py]; exact ny, by rw [py]; exact c1, ?_⟩
    intro hx hy
    unfold InField
    rw [px, py]
    exact ⟨nx, b2 hx, ny, c2 hy⟩
  unfold getRandomEmptyBag
  cases es with
  | nil =>
    refine ⟨f, none, h1, by rw [h2], ⟨?_, by simp⟩⟩
    simp only [true_iff]
    intro i j hi hj he
    exact absurd ((h4 _).2 ⟨i, j, hi, hj, rfl, he⟩) (by simp)
  | cons b bs =>
    have hlt := hgen (b :: bs).length (by simp)
    refine ⟨f, some ((b :: bs)[genRange (b :: bs).length]), h1,
      by rw [h2]; dsimp only; rw [List.getElem?_eq_getElem hlt], ⟨?_, ?_⟩⟩
    · simp only [reduceCtorEq, false_iff]
      intro hall
      obtain ⟨i, j, a1, a2, a3, a4⟩ := (h4 b).1 List.mem_cons_self
      exact hall i j a1 a2 (by rw [← a3]; exact a4)
    · intro p hp
      have : (b :: bs)[genRange (b :: bs).length] = p := by simpa using hp
      exact hpos p (this ▸ List.getElem_mem hlt)

/-- **C74** is false: on a field of width 10 with cells of size 3 the position returned may be (12, 12). -/
theorem C74_outside_field_negation_partial :
    ∃ f : Field Nat, run (new 10 10 3 true) [.lazyUpdate] = some f ∧
      getRandomEmptyBag f (fun n => n - 1) = some (some ⟨12, 12⟩) ∧ ¬ InField 10 10 ⟨12, 12⟩ :=
  ⟨((run (new 10 10 3 true) [.lazyUpdate]).getD (new 1 1 1 true)), by decide +kernel, by decide +kernel,
    by decide +kernel⟩

/-! ### C75 -/

theorem iter_list {f : Field O} {w h d : ℚ} {t : Bool} {pub : Pos → List O} {v : List (List O)}
    (hd : 0 < d) (hf : WF f) (h1 : f.width = w) (h2 : f.height = h) (h3 : f.discretization = d) (_ht : f.toroidal = t)
    (hv : Sized f.dw f.dh v) (hread : ∀ c, InRange f.dw f.dh c → vecGet v f.dh c = some (pub (notDiscretize d c))) :
    ∃ all, collect v f.dh (fun c e => e.map (fun o => (notDiscretize f.discretization c, o))) (cells f.dw f.dh) = some all ∧
      ∀ p q, ((∃ i j : Nat, (i : ℤ) ≤ (w / d).ceil ∧ (j : ℤ) ≤ (h / d).ceil ∧ p = corner d i j) →
          callsAt all p q = (pub p).countP q) ∧
        ((¬ ∃ i j : Nat, (i : ℤ) ≤ (w / d).ceil ∧ (j : ℤ) ≤ (h / d).ceil ∧ p = corner d i j) →
          callsAt all p q = 0) := by
  refine ⟨_, collect_spec _ (cells_isSome hv.big), ?_⟩
  have e : (cells f.dw f.dh).flatMap (fun c => ((vecGet v f.dh c).map
      (fun e => e.map (fun o => (notDiscretize f.discretization c, o)))).getD []) =
      ((cells f.dw f.dh).map (notDiscretize d)).flatMap (fun p => (pub p).map (fun o => (p, o))) := by
    rw [List.flatMap_map]
    apply List.flatMap_congr
    intro c hc
    rw [hread c (mem_cells.1 hc), h3]; rfl
  rw [e]
  have hn : ((cells f.dw f.dh).map (notDiscretize d)).Nodup := by
    refine List.Nodup.map ?_ (nodup_cells _ _)
    intro a b hab
    rw [← discretize_notDiscretize hd a, hab, discretize_notDiscretize hd b]
  have hmem : ∀ p, p ∈ (cells f.dw f.dh).map (notDiscretize d) ↔
      ∃ i j : Nat, (i : ℤ) ≤ (w / d).ceil ∧ (j : ℤ) ≤ (h / d).ceil ∧ p = corner d i j := by
    intro p
    rw [List.mem_map]
    constructor
    · rintro ⟨c, hc, rfl⟩
      have := mem_cells.1 hc
      rw [hf.dw, hf.dh, h1, h2, h3] at this
      obtain ⟨i, j, a1, a2, _, a4⟩ := cell_corner c this
      exact ⟨i, j, a1, a2, a4⟩
    · rintro ⟨i, j, a1, a2, rfl⟩
      refine ⟨⟨i, j⟩, mem_cells.2 ?_, by simp [notDiscretize, corner]⟩
      rw [hf.dw, hf.dh, h1, h2, h3]; unfold InRange; dsimp only; omega
  intro p q
  rw [callsAt_tagged _ _ hn]
  constructor
  · intro hp; rw [if_pos ((hmem p).2 hp)]
  · intro hp; rw [if_neg (fun hc => hp ((hmem p).1 hc))]

/-- **C75.** `iter_objects` calls the closure once for each published placement, with the corner of the
square it is in, and nothing else; `iter_objects_unbuffered` the same for the current step. -/
theorem C75_iter_objects (w h d : ℚ) (t : Bool) (hw : 0 < w) (hh : 0 < h) (hd : 0 < d)
    (hist : List (FieldOp O)) (hin : ∀ op ∈ hist, op.InField w h) :
    ∃ f all now, run (new w h d t) hist = some f ∧ iterObjects f = some all ∧ iterObjectsUnbuffered f = some now ∧
      ∀ p q, ((∃ i j : Nat, (i : ℤ) ≤ (w / d).ceil ∧ (j : ℤ) ≤ (h / d).ceil ∧ p = corner d i j) →
          callsAt all p q = (objsPublished d hist p).countP q ∧
          callsAt now p q = (objsWritten d hist p).countP q) ∧
        ((¬ ∃ i j : Nat, (i : ℤ) ≤ (w / d).ceil ∧ (j : ℤ) ≤ (h / d).ceil ∧ p = corner d i j) →
          callsAt all p q = 0 ∧ callsAt now p q = 0) := by
  obtain ⟨f, h1, hs⟩ := shows_run t hw hh hd hist hin
  obtain ⟨all, a1, a2⟩ := iter_list hd hs.wf hs.width hs.height hs.disc hs.tor hs.wf.r hs.read
  obtain ⟨now, b1, b2⟩ := iter_list hd hs.wf hs.width hs.height hs.disc hs.tor hs.wf.b hs.write
  refine ⟨f, all, now, h1, a1, b1, ?_⟩
  intro p q
  exact ⟨fun hp => ⟨(a2 p q).1 hp, (b2 p q).1 hp⟩, fun hp => ⟨(a2 p q).2 hp, (b2 p q).2 hp⟩⟩

example : ((run (new 10 10 3 true) demoHistory).bind iterObjects) = some [(⟨3, 3⟩, 0), (⟨3, 3⟩, 1), (⟨6, 0⟩, 2)] ∧
    ((run (new 10 10 3 true) demoHistory).bind iterObjectsUnbuffered) = some [(⟨0, 0⟩, 9)] := by
  exact ⟨by decide +kernel, by decide +kernel⟩

end Verif.Field2D
