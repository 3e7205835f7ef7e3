import Verif.Props.Monitor
import Verif.Spec.Charts
import Mathlib.Tactic.NormNum
import Mathlib.Tactic.Linarith
import Mathlib.Tactic.Positivity

/-!
What the terminal interface draws: charts (C155, C156), bars (C157) and logs (C158).
-/

namespace Verif.Monitor

open MonitorSpec

/-! ### Lemmas -/

theorem signs_get (k : Nat) : ∃ s, signs[k % 3]? = some s := by
  rcases (by omega : k % 3 = 0 ∨ k % 3 = 1 ∨ k % 3 = 2) with h | h | h <;> rw [h] <;> exact ⟨_, rfl⟩

theorem inks_get (k : Nat) : ∃ c, inks[k % 7]? = some c := by
  rcases (by omega : k % 7 = 0 ∨ k % 7 = 1 ∨ k % 7 = 2 ∨ k % 7 = 3 ∨ k % 7 = 4 ∨ k % 7 = 5 ∨ k % 7 = 6) with
    h | h | h | h | h | h | h <;> rw [h] <;> exact ⟨_, rfl⟩

theorem datasets_spec : ∀ (l : List (String × List (Fl × Fl))) (k : Nat), ∃ ds, datasets (k % 3) (k % 7) l = some ds ∧
    ds.length = l.length ∧ ∀ (i : Nat) (name : String) (pts : List (Fl × Fl)), l[i]? = some (name, pts) →
      ∃ s c, signs[(k + i) % 3]? = some s ∧ inks[(k + i) % 7]? = some c ∧ ds[i]? = some ⟨name, s, c, pts⟩
  | [], _ => ⟨[], rfl, rfl, fun i name pts h => by simp at h⟩
  | (n, ps) :: l, k => by
    obtain ⟨s, hs⟩ := signs_get k
    obtain ⟨c, hc⟩ := inks_get k
    obtain ⟨ds, h1, h2, h3⟩ := datasets_spec l (k + 1)
    refine ⟨⟨n, s, c, ps⟩ :: ds, ?_, by simp [h2], ?_⟩
    · unfold datasets
      rw [hs, hc]
      dsimp only
      have e3 : (k % 3 + 1) % signs.length = (k + 1) % 3 := by show (k % 3 + 1) % 3 = _; omega
      have e7 : (k % 7 + 1) % inks.length = (k + 1) % 7 := by show (k % 7 + 1) % 7 = _; omega
      rw [e3, e7, h1]
      rfl
    · intro i name pts h
      cases i with
      | zero =>
        simp only [List.getElem?_cons_zero, Option.some.injEq, Prod.mk.injEq] at h
        obtain ⟨rfl, rfl⟩ := h
        exact ⟨s, c, hs, hc, rfl⟩
      | succ i =>
        simp only [List.getElem?_cons_succ] at h ⊢
        obtain ⟨s', c', g1, g2, g3⟩ := h3 i name pts h
        rw [show k + (i + 1) = k + 1 + i by omega]
        exact ⟨s', c', g1, g2, g3⟩

theorem drawTab_eq (F : F64) {titles : List String} {id : Nat} {name : String} (ht : titles[id]? = some name)
    {data : HMap String Plot} {p : Plot} (hp : HMap.get data name = some p) : ∃ c, drawTab F titles id data = some (some c) ∧
      c.title = name ∧ c.x.title = p.xlabel ∧ c.y.title = p.ylabel ∧ c.x.bounds = (p.minX, F.add p.maxX scaleX) ∧
      c.y.bounds = (p.minY, F.add p.maxY (F.mul p.maxY scaleY)) ∧ c.x.labels = [p.minX, p.maxX] ∧
      c.y.labels = [p.minY, F.add p.maxY (F.mul p.maxY scaleY)] ∧ c.sets.length = p.series.length ∧
      ∀ (i : Nat) (n : String) (pts : List (Fl × Fl)), p.series[i]? = some (n, pts) →
        ∃ s k, signs[i % 3]? = some s ∧ inks[i % 7]? = some k ∧ c.sets[i]? = some ⟨n, s, k, pts⟩ := by
  obtain ⟨ds, h1, h2, h3⟩ := datasets_spec p.series 0
  change datasets 0 0 p.series = some ds at h1
  simp only [Nat.zero_add] at h3
  refine ⟨{ title := name
            x := { title := p.xlabel, bounds := (p.minX, F.add p.maxX scaleX), labels := [p.minX, p.maxX] }
            y := { title := p.ylabel, bounds := (p.minY, F.add p.maxY (F.mul p.maxY scaleY)),
                   labels := [p.minY, F.add p.maxY (F.mul p.maxY scaleY)] }
            sets := ds }, ?_, rfl, rfl, rfl, rfl, rfl, rfl, rfl, h2, h3⟩
  unfold drawTab
  rw [ht]
  dsimp only
  rw [hp]
  dsimp only
  rw [h1]
  rfl

theorem le_of_not_lt {a b : Fl} (ha : IsFinite a) (hb : IsFinite b) (h : a.lt b = false) : b.le a = true := by
  obtain ⟨x, rfl, _⟩ := ha
  obtain ⟨y, rfl, _⟩ := hb
  simp only [Fl.lt, decide_eq_false_iff_not, not_lt] at h
  simpa [Fl.le] using h

theorem Fl.le_trans' {a b c : Fl} (h1 : a.le b = true) (h2 : b.le c = true) : a.le c = true := by
  cases a <;> cases b <;> cases c <;> simp_all [Fl.le]
  exact _root_.le_trans h1 h2

theorem series_shown {sender : Bool} {h : List Call} {m : Mon} (hm : execAll (Mon.empty sender) h = some m) {name : String}
    {p : Plot} (hp : HMap.get m.data name = some p) (serie : String) (hs : seriesPoints name serie h ≠ []) :
    ∃ i : Nat, p.series[i]? = some (serie, seriesPoints name serie h) := by
  have hk : known name h = true := by
    by_contra hk
    rw [((C69_points_partial hm).2 name).1 (eq_false_of_ne_true hk)] at hp
    cases hp
  obtain ⟨p', h1, _, _, h4⟩ := ((C69_points_partial hm).2 name).2 hk
  rw [hp] at h1
  obtain rfl := Option.some.inj h1
  have := h4 serie
  rw [if_neg hs] at this
  unfold HMap.get at this
  rw [Option.map_eq_some_iff] at this
  obtain ⟨⟨n, pts⟩, hf, rfl⟩ := this
  have hn : n = serie := by simpa using List.find?_some hf
  subst hn
  exact List.mem_iff_getElem?.1 (List.mem_of_find?_eq_some hf)

/-! ### C155 -/

/-- **C155, for plots with a point that is not below zero.** After any calls that do not panic, the tab of a plot that was added since the
beginning of the repetition shows a chart with its name and labels in which each series that has points is drawn with all of them, inside the bounds of
the chart; the ends of the y axis are labelled. Full statement: for every plot, and for both axes; false, see below. -/
theorem C155_all_points_partial (F : F64) (hF : Rounds F) {sender : Bool} {h : List Call} {m : Mon}
    (hm : execAll (Mon.empty sender) h = some m) {titles : List String} {id : Nat} {name : String} (ht : titles[id]? = some name)
    (hk : known name h = true) (hf : ∀ q ∈ points name h, IsFinite q.2.1 ∧ IsFinite q.2.2)
    (hpos : ∃ q ∈ points name h, (Fl.fin 0).le q.2.2 = true) :
    ∃ c, drawTab F titles id m.data = some (some c) ∧ c.title = name ∧ (∃ st, labels name h = some (c.x.title, c.y.title, st)) ∧
      Axis.Labelled c.y ∧ ∀ serie, seriesPoints name serie h ≠ [] →
        ∃ d ∈ c.sets, d.name = serie ∧ d.data = seriesPoints name serie h ∧ ∀ q ∈ d.data, Chart.Shows c q := by
  obtain ⟨p, hp, _, hl, _⟩ := ((C69_points_partial hm).2 name).2 hk
  obtain ⟨c, hc, c1, c2, c3, c4, c5, c6, c7, _, c9⟩ := drawTab_eq F ht hp
  obtain ⟨q0, hq0, h0⟩ := hpos
  obtain ⟨⟨a1, a2⟩, ⟨b1, b2⟩, ⟨d1, d2⟩, ⟨e1, e2⟩⟩ := C69_bounds_partial hm hp (List.ne_nil_of_mem hq0) hf
  have fin : ∀ (g : String × Fl × Fl → Fl), (∀ q ∈ points name h, IsFinite (g q)) → ∀ v, v ∈ (points name h).map g → IsFinite v := by
    intro g hg v hv
    obtain ⟨q, hq, rfl⟩ := List.mem_map.1 hv
    exact hg q hq
  have fminX := fin _ (fun q hq => (hf q hq).1) _ a1
  have fmaxX := fin _ (fun q hq => (hf q hq).1) _ b1
  have fminY := fin _ (fun q hq => (hf q hq).2) _ d1
  have fmaxY := fin _ (fun q hq => (hf q hq).2) _ e1
  have hxb : p.maxX.le (F.add p.maxX scaleX) = true := by
    obtain ⟨x, hx, _⟩ := fmaxX
    rw [hx]
    exact hF.add_ge x _ (by decide +kernel)
  have hyb : p.maxY.le (F.add p.maxY (F.mul p.maxY scaleY)) = true := by
    have hge := Fl.le_trans' h0 (le_of_not_lt fmaxY (hf _ hq0).2 (e2 q0 hq0))
    obtain ⟨y, hy, _⟩ := fmaxY
    rw [hy] at hge ⊢
    refine hF.add_ge y _ (hF.mul_nonneg y _ ?_ (by norm_num))
    simpa [Fl.le] using hge
  refine ⟨c, hc, c1, ⟨p.stored, by rw [c2, c3]; exact hl⟩, by constructor <;> rw [c7, c5] <;> rfl, ?_⟩
  intro serie hs
  obtain ⟨i, hi⟩ := series_shown hm hp serie hs
  obtain ⟨s, k, _, _, hd⟩ := c9 i _ _ hi
  refine ⟨_, List.mem_of_getElem? hd, rfl, rfl, ?_⟩
  intro q hq
  have hq' : q ∈ seriesPoints name serie h := hq
  have hmem : (serie, q) ∈ points name h := by
    unfold seriesPoints at hq'
    obtain ⟨r, hr, rfl⟩ := List.mem_map.1 hq'
    obtain ⟨hr1, hr2⟩ := List.mem_filter.1 hr
    have : r.1 = serie := by simpa using hr2
    rw [← this]
    exact hr1
  obtain ⟨fx, fy⟩ := hf _ hmem
  unfold Chart.Shows
  rw [c4, c5]
  exact ⟨⟨le_of_not_lt fx fminX (a2 _ hmem), Fl.le_trans' (le_of_not_lt fmaxX fx (b2 _ hmem)) hxb⟩,
    ⟨le_of_not_lt fy fminY (d2 _ hmem), Fl.le_trans' (le_of_not_lt fmaxY fy (e2 _ hmem)) hyb⟩⟩

/-- **C155, the negation.** If all points of a plot are below zero (and not denormally small), its highest point is not shown: the upper bound is a fifth
below it. -/
theorem C155_negative_partial (F : F64)
    (hF : ∀ r : Rat, r ≤ -1 / 2 ^ 1000 → (F.add (.fin r) (F.mul (.fin r) scaleY)).lt (.fin r) = true) {sender : Bool} {h : List Call}
    {m : Mon} (hm : execAll (Mon.empty sender) h = some m) {titles : List String} {id : Nat} {name : String}
    (ht : titles[id]? = some name) (hk : known name h = true) (hne : points name h ≠ [])
    (hf : ∀ q ∈ points name h, IsFinite q.2.1 ∧ IsFinite q.2.2)
    (hneg : ∀ q ∈ points name h, q.2.2.le (.fin (-1 / 2 ^ 1000)) = true) :
    ∃ c, drawTab F titles id m.data = some (some c) ∧ ∃ q ∈ points name h, (∀ r ∈ points name h, q.2.2.lt r.2.2 = false) ∧
      ¬ Chart.Shows c q.2 := by
  obtain ⟨p, hp, _, hl, _⟩ := ((C69_points_partial hm).2 name).2 hk
  obtain ⟨c, hc, c1, c2, c3, c4, c5, c6, c7, _, c9⟩ := drawTab_eq F ht hp
  obtain ⟨_, _, _, ⟨e1, e2⟩⟩ := C69_bounds_partial hm hp hne hf
  obtain ⟨q, hq, hqe⟩ := List.mem_map.1 e1
  refine ⟨c, hc, q, hq, fun r hr => by rw [hqe]; exact e2 r hr, ?_⟩
  rintro ⟨_, _, hle⟩
  rw [c5] at hle
  have hn := hneg q hq
  obtain ⟨y, hy, _⟩ := (hf q hq).2
  rw [hqe] at hy
  rw [hqe, hy] at hle hn
  have hlt := hF y (by simpa [Fl.le] using hn)
  dsimp only at hle
  cases hr : F.add (.fin y) (F.mul (.fin y) scaleY) with
  | nan => rw [hr] at hlt; simp [Fl.lt] at hlt
  | ninf => rw [hr] at hle; simp [Fl.le] at hle
  | pinf => rw [hr] at hlt; simp [Fl.lt] at hlt
  | fin z =>
    rw [hr] at hle hlt
    simp only [Fl.le, Fl.lt, decide_eq_true_eq] at hle hlt
    linarith

/-- **C155, the negation for the labels.** The right end of the x axis is labelled with the largest x, but ten is added to the bound: wherever this
sum is not the same float, the label is wrong. -/
theorem C155_label_partial (F : F64) {titles : List String} {id : Nat} {name : String} (ht : titles[id]? = some name)
    {data : HMap String Plot} {p : Plot} (hp : HMap.get data name = some p) :
    ∃ c, drawTab F titles id data = some (some c) ∧ (Axis.Labelled c.x ↔ F.add p.maxX (.fin 10) = p.maxX) := by
  obtain ⟨c, hc, _, _, _, c4, _, c6, _⟩ := drawTab_eq F ht hp
  refine ⟨c, hc, ?_⟩
  unfold Axis.Labelled
  rw [c4, c6]
  simp only [List.head?_cons, true_and, scaleX]
  constructor
  · intro h
    exact (Option.some.inj h).symm
  · intro h
    rw [h]
    rfl

/-- Exact arithmetic. -/
def exact : F64 where
  add := fun a b => match a, b with
    | .fin a, .fin b => .fin (a + b)
    | .fin _, b => b
    | a, .fin _ => a
    | .pinf, .pinf => .pinf
    | .ninf, .ninf => .ninf
    | _, _ => .nan
  mul := fun a b => match a, b with
    | .fin a, .fin b => .fin (a * b)
    | _, _ => .nan

theorem exact_rounds : Rounds exact where
  add_ge := by
    intro a b h
    cases b <;> simp_all [Fl.le, exact]
  mul_nonneg := by
    intro a b h1 h2
    simp only [exact, Fl.le, decide_eq_true_eq]
    positivity

theorem exact_negative (r : Rat) (h : r ≤ -1 / 2 ^ 1000) : (exact.add (.fin r) (exact.mul (.fin r) scaleY)).lt (.fin r) = true := by
  have : r < 0 := lt_of_le_of_lt h (div_neg_of_neg_of_pos (by norm_num) (by positivity))
  simp only [exact, Fl.lt, scaleY, decide_eq_true_eq]
  linarith

/-- **C155, no room is wasted.** In exact arithmetic the chart of a plot with a point not below zero begins at the smallest x and the smallest y; it
ends ten after the largest x and, above the largest y, at most a quarter of it higher. -/
theorem C155_room_partial {sender : Bool} {h : List Call} {m : Mon}
    (hm : execAll (Mon.empty sender) h = some m) {titles : List String} {id : Nat} {name : String} (ht : titles[id]? = some name)
    (hk : known name h = true) (hf : ∀ q ∈ points name h, IsFinite q.2.1 ∧ IsFinite q.2.2)
    (hpos : ∃ q ∈ points name h, (Fl.fin 0).le q.2.2 = true) :
    ∃ c, drawTab exact titles id m.data = some (some c) ∧
      ∃ x X y Y u, c.x.bounds = (.fin x, .fin (X + 10)) ∧ c.y.bounds = (.fin y, .fin u) ∧ Y ≤ u ∧ u ≤ Y + Y / 4 ∧
        .fin x ∈ (points name h).map (fun q => q.2.1) ∧ .fin X ∈ (points name h).map (fun q => q.2.1) ∧
        .fin y ∈ (points name h).map (fun q => q.2.2) ∧ .fin Y ∈ (points name h).map (fun q => q.2.2) := by
  obtain ⟨p, hp, _, _, _⟩ := ((C69_points_partial hm).2 name).2 hk
  obtain ⟨c, hc, _, _, _, c4, c5, _⟩ := drawTab_eq exact ht hp
  obtain ⟨q0, hq0, h0⟩ := hpos
  obtain ⟨⟨a1, _⟩, ⟨b1, _⟩, ⟨d1, _⟩, ⟨e1, e2⟩⟩ := C69_bounds_partial hm hp (List.ne_nil_of_mem hq0) hf
  have fin : ∀ (g : String × Fl × Fl → Fl), (∀ q ∈ points name h, IsFinite (g q)) → ∀ v, v ∈ (points name h).map g → IsFinite v := by
    intro g hg v hv
    obtain ⟨q, hq, rfl⟩ := List.mem_map.1 hv
    exact hg q hq
  obtain ⟨x, hx, _⟩ := fin _ (fun q hq => (hf q hq).1) _ a1
  obtain ⟨X, hX, _⟩ := fin _ (fun q hq => (hf q hq).1) _ b1
  obtain ⟨y, hy, _⟩ := fin _ (fun q hq => (hf q hq).2) _ d1
  have fY := fin _ (fun q hq => (hf q hq).2) _ e1
  have hge := Fl.le_trans' h0 (le_of_not_lt fY (hf _ hq0).2 (e2 q0 hq0))
  obtain ⟨Y, hY, _⟩ := fY
  rw [hY] at hge
  have hY0 : 0 ≤ Y := by simpa [Fl.le] using hge
  rw [hx] at a1
  rw [hX] at b1
  rw [hy] at d1
  rw [hY] at e1
  refine ⟨c, hc, x, X, y, Y, Y + Y * (3602879701896397 / 18014398509481984), ?_, ?_, ?_, ?_, a1, b1, d1, e1⟩
  · rw [c4, hx, hX]
    rfl
  · rw [c5, hy, hY]
    rfl
  · linarith
  · linarith

/-- The example of C69: in the chart of plot `a` everything is seen, in the one of `b`, with the point (3, -3), nothing. -/
example : known "a" exCalls = true ∧ (∃ q ∈ points "a" exCalls, (Fl.fin 0).le q.2.2 = true) ∧ known "b" exCalls = true ∧
    points "b" exCalls ≠ [] ∧ (∀ q ∈ points "b" exCalls, q.2.2.le (.fin (-1 / 2 ^ 1000)) = true) ∧
    ((execAll (Mon.empty true) exCalls).bind (fun m => (drawTab exact ["Home", "a", "b"] 2 m.data).bind id)).map
      (fun c => (c.y.bounds, c.sets.map Dataset.data)) =
    some ((.fin (-3), .fin (-3 - 3 * (3602879701896397 / 18014398509481984))), [[(.fin 3, .fin (-3))]]) := by
  decide +kernel

/-! ### C156 -/

/-- **C156, which series look alike.** In the chart of a plot the series `i` and `j` have the same marker and the same colour iff `i - j` is a multiple
of three and `i` and `j` have the same remainder by seven or the remainders one and five, since yellow is twice in the list of colours. Full statement: no two
series of a chart look alike; false, see below. -/
theorem C156_alike_partial (F : F64) {titles : List String} {id : Nat} {data : HMap String Plot} {c : Chart}
    (h : drawTab F titles id data = some (some c)) {i j : Nat} {a b : Dataset} (hi : c.sets[i]? = some a) (hj : c.sets[j]? = some b) :
    SameLook a b ↔ i % 3 = j % 3 ∧ (i % 7 = j % 7 ∨ (i % 7 = 1 ∧ j % 7 = 5) ∨ (i % 7 = 5 ∧ j % 7 = 1)) := by
  obtain ⟨name, ht⟩ : ∃ name, titles[id]? = some name := by
    cases ht : titles[id]? with
    | none => unfold drawTab at h; rw [ht] at h; cases h
    | some n => exact ⟨n, rfl⟩
  obtain ⟨p, hp⟩ : ∃ p, HMap.get data name = some p := by
    cases hp : HMap.get data name with
    | none => unfold drawTab at h; rw [ht] at h; dsimp only at h; rw [hp] at h; cases h
    | some p => exact ⟨p, rfl⟩
  obtain ⟨c', hc, _, _, _, _, _, _, _, c8, c9⟩ := drawTab_eq F ht hp
  rw [h] at hc
  obtain rfl := Option.some.inj (Option.some.inj hc)
  have key : ∀ k d, c.sets[k]? = some d → signs[k % 3]? = some d.sign ∧ inks[k % 7]? = some d.ink := by
    intro k d hk
    obtain ⟨hk1, _⟩ := List.getElem?_eq_some_iff.1 hk
    obtain ⟨s, ik, g1, g2, g3⟩ := c9 k (p.series[k]'(by omega)).1 (p.series[k]'(by omega)).2 (List.getElem?_eq_getElem (by omega))
    rw [hk] at g3
    obtain rfl := Option.some.inj g3
    exact ⟨g1, g2⟩
  obtain ⟨a1, a2⟩ := key i a hi
  obtain ⟨b1, b2⟩ := key j b hj
  have hs : a.sign = b.sign ↔ i % 3 = j % 3 := by
    have : a.sign = b.sign ↔ signs[i % 3]? = signs[j % 3]? := by rw [a1, b1, Option.some_inj]
    rw [this]
    rcases (by omega : i % 3 = 0 ∨ i % 3 = 1 ∨ i % 3 = 2) with e | e | e <;>
      rcases (by omega : j % 3 = 0 ∨ j % 3 = 1 ∨ j % 3 = 2) with f | f | f <;> rw [e, f] <;> decide
  have hk : a.ink = b.ink ↔ i % 7 = j % 7 ∨ (i % 7 = 1 ∧ j % 7 = 5) ∨ (i % 7 = 5 ∧ j % 7 = 1) := by
    have : a.ink = b.ink ↔ inks[i % 7]? = inks[j % 7]? := by rw [a2, b2, Option.some_inj]
    rw [this]
    rcases (by omega : i % 7 = 0 ∨ i % 7 = 1 ∨ i % 7 = 2 ∨ i % 7 = 3 ∨ i % 7 = 4 ∨ i % 7 = 5 ∨ i % 7 = 6) with e | e | e | e | e | e | e <;>
      rcases (by omega : j % 7 = 0 ∨ j % 7 = 1 ∨ j % 7 = 2 ∨ j % 7 = 3 ∨ j % 7 = 4 ∨ j % 7 = 5 ∨ j % 7 = 6) with f | f | f | f | f | f | f <;>
      rw [e, f] <;> decide
  unfold SameLook
  rw [hs, hk]

/-- **C156, up to eight series.** The first eight series of a chart look different from each other. -/
theorem C156_eight_partial (F : F64) {titles : List String} {id : Nat} {data : HMap String Plot} {c : Chart}
    (h : drawTab F titles id data = some (some c)) {i j : Nat} {a b : Dataset} (hi : c.sets[i]? = some a) (hj : c.sets[j]? = some b)
    (h8 : i < 8 ∧ j < 8) (hs : SameLook a b) : i = j := by
  have := (C156_alike_partial F h hi hj).1 hs
  omega

/-- Nine series with a point each. -/
def nineSeries : List Call :=
  ((List.range 9).map (fun k => Call.point "p" s!"{k}" (.fin k) (.fin k) false)).reverse ++ [.add "p" "x" "y" false false]

/-- **C156, the negation**: the sixth and the ninth series look alike (both yellow blocks). -/
theorem C156_negation_partial : ∃ m c a b, execAll (Mon.empty false) nineSeries = some m ∧
    drawTab exact ["Home", "p"] 1 m.data = some (some c) ∧ c.sets[5]? = some a ∧ c.sets[8]? = some b ∧ a.name ≠ b.name ∧
    SameLook a b ∧ a.sign = .block ∧ a.ink = .yellow := by
  refine ⟨_, _, _, _, rfl, rfl, rfl, rfl, ?_, ⟨rfl, rfl⟩, rfl, rfl⟩
  decide +kernel

/-! ### C157 -/

theorem maxSpeed_le (reps : List (Nat × Nat)) : (∀ r ∈ reps, r.2 ≤ maxSpeed reps) ∧ (maxSpeed reps = 0 ∨ ∃ r ∈ reps, r.2 = maxSpeed reps) := by
  have key : ∀ (l : List (Nat × Nat)) (m : Nat), let r := l.foldl (fun m r => if r.2 > m then r.2 else m) m
      m ≤ r ∧ (∀ e ∈ l, e.2 ≤ r) ∧ (r = m ∨ ∃ e ∈ l, e.2 = r) := by
    intro l
    induction l with
    | nil => intro m; exact ⟨Nat.le_refl _, by simp, Or.inl rfl⟩
    | cons e l ih =>
      intro m
      obtain ⟨h1, h2, h3⟩ := ih (if e.2 > m then e.2 else m)
      simp only [List.foldl_cons]
      refine ⟨?_, ?_, ?_⟩
      · refine Nat.le_trans ?_ h1
        split <;> omega
      · intro f hf
        rcases List.mem_cons.1 hf with rfl | hf
        · refine Nat.le_trans ?_ h1
          split <;> omega
        · exact h2 f hf
      · rcases h3 with h3 | ⟨f, hf, h3⟩
        · by_cases hc : e.2 > m
          · rw [if_pos hc] at h3 ⊢
            exact Or.inr ⟨e, List.mem_cons_self, h3.symm⟩
          · rw [if_neg hc] at h3 ⊢
            exact Or.inl h3
        · exact Or.inr ⟨f, List.mem_cons_of_mem _ hf, h3⟩
  obtain ⟨_, h2, h3⟩ := key reps 0
  exact ⟨h2, h3⟩

theorem maxDigits_eq (reps : List (Nat × Nat)) : maxDigits reps = (Nat.toDigits 10 (maxSpeed reps)).length := by
  unfold maxDigits
  rw [Nat.toList_repr, List.filter_eq_self.2]
  intro c hc
  exact Nat.isDigit_of_mem_toDigits (by decide) (by decide) hc

theorem barWidth_fits (reps : List (Nat × Nat)) (h : maxSpeed reps < 10 ^ 11) : maxSpeed reps < 10 ^ barWidth reps := by
  have hd := maxDigits_eq reps
  have hpos : 0 < maxDigits reps := by rw [hd]; exact Nat.length_toDigits_pos
  have hle : ∀ k, 0 < k → maxDigits reps = k → maxSpeed reps < 10 ^ k := by
    intro k hk e
    rw [hd] at e
    exact (Nat.length_toDigits_le_iff (by decide) hk).1 (Nat.le_of_eq e)
  unfold barWidth
  split
  · exact Nat.lt_trans (hle 1 (by decide) (by assumption)) (by decide)
  · exact Nat.lt_trans (hle 2 (by decide) (by assumption)) (by decide)
  · exact Nat.lt_trans (hle 3 (by decide) (by assumption)) (by decide)
  · exact Nat.lt_trans (hle 4 (by decide) (by assumption)) (by decide)
  · exact Nat.lt_trans (hle 5 (by decide) (by assumption)) (by decide)
  · exact h

theorem barWidth_le (reps : List (Nat × Nat)) : 3 ≤ barWidth reps ∧ barWidth reps ≤ 11 := by
  unfold barWidth
  split <;> decide

/-- **C157, for speeds of at most eleven digits and up to 999 repetitions**: after any events that do not panic, the chart has a bar for each
finished repetition, the newest first, labelled with its number (counted from one) and with its steps per second, and both can be read in full.
Full statement: for every number of repetitions and all speeds; false, see below. -/
theorem C157_bars_partial (totReps : Nat) (es : List UIEvent) {u : UI} (h : (UI.new totReps).run es = some u) :
    (bars u).map (fun b => (b.label, b.value)) = ((reported es).map (fun r => (r.1 + 1, r.2))).reverse ∧
    ((∀ r ∈ reported es, r.2 < 10 ^ 11) → ∀ b ∈ bars u, Fits b.value b.width) ∧
    ((∀ r ∈ reported es, r.1 < 999) → ∀ b ∈ bars u, Fits b.label b.width) := by
  have hr := (C137_repetitions totReps es h).1
  have hmem : ∀ b ∈ bars u, ∃ r ∈ reported es, b.label = r.1 + 1 ∧ b.value = r.2 ∧ (r.1 + 1, r.2) ∈ u.reps ∧ b.width = barWidth u.reps := by
    intro b hb
    obtain ⟨e, he, rfl⟩ := List.mem_map.1 hb
    have he' := he
    rw [hr, List.mem_reverse] at he'
    obtain ⟨r, hr', rfl⟩ := List.mem_map.1 he'
    exact ⟨r, hr', rfl, rfl, he, rfl⟩
  refine ⟨by simp [bars, hr], ?_, ?_⟩
  · intro hs b hb
    obtain ⟨r, h1, _, h3, h4, h5⟩ := hmem b hb
    obtain ⟨g1, g2⟩ := maxSpeed_le u.reps
    have hm : maxSpeed u.reps < 10 ^ 11 := by
      rcases g2 with g2 | ⟨e, he, g2⟩
      · rw [g2]; decide
      · rw [hr, List.mem_reverse] at he
        obtain ⟨r', hr', rfl⟩ := List.mem_map.1 he
        rw [← g2]
        exact hs r' hr'
    unfold Fits
    rw [h3, h5]
    exact Nat.lt_of_le_of_lt (g1 (r.1 + 1, r.2) h4) (barWidth_fits _ hm)
  · intro hs b hb
    obtain ⟨r, h1, h2, _, _, h5⟩ := hmem b hb
    unfold Fits
    rw [h2, h5]
    have := hs r h1
    exact Nat.lt_of_lt_of_le (by omega : r.1 + 1 < 10 ^ 3) (Nat.pow_le_pow_right (by decide) (barWidth_le u.reps).1)

/-- **C157, the negation**: a value of twelve digits never fits, whatever the other bars; and in a model slower than a hundred steps per second the
number of the thousandth repetition does not fit. -/
theorem C157_negation_partial :
    (∀ (u : UI), ∀ b ∈ bars u, 10 ^ 11 ≤ b.value → ¬ Fits b.value b.width) ∧
    ∃ u b, (UI.new 1000).run [.rep 998 7, .rep 999 42] = some u ∧ b ∈ bars u ∧ b.label = 1000 ∧ ¬ Fits b.label b.width := by
  constructor
  · intro u b hb hv hf
    obtain ⟨e, he, rfl⟩ := List.mem_map.1 hb
    unfold Fits at hf
    have := Nat.pow_le_pow_right (n := 10) (by decide) (barWidth_le u.reps).2
    dsimp only at hf hv
    omega
  · refine ⟨_, ⟨1000, 42, 3⟩, rfl, ?_, rfl, ?_⟩
    · decide +kernel
    · unfold Fits; decide

example : (UI.new 3).run [.rep 0 12345, .rep 1 999] = some { UI.new 3 with rep := 1, reps := [(2, 999), (1, 12345)] } ∧
    (bars { UI.new 3 with rep := 1, reps := [(2, 999), (1, 12345)] }) = [⟨2, 999, 9⟩, ⟨1, 12345, 9⟩] := by
  decide +kernel

/-! ### C158 -/

/-- **C158, the list.** After any events (newest first) the list has one line for each log of all repetitions, the newest first, with the text of
its type in the colour of the type, and its body. -/
theorem C158_list_partial (h : List (LogEvent Log)) :
    logLines (h.foldr (fun e l => logStep l e) []) = (allLogs h).map (fun l => ⟨l.ltype.text, inkOf l, l.body⟩) := by
  unfold logLines
  rw [C71_order, List.flatten_nil, List.append_nil]
  refine List.map_congr_left (fun l _ => ?_)
  cases l with
  | mk t b s => cases t <;> rfl

/-- **C158, the types are told apart**: the type and the body can be read from the text of a line, and from a line of the log file. -/
theorem C158_readable_partial (a b : Log) :
    (a.ltype.text ++ a.body = b.ltype.text ++ b.body → a.ltype = b.ltype ∧ a.body = b.body) ∧
    (a.text = b.text → a.ltype = b.ltype ∧ a.body = b.body) := by
  have key : ∀ (t t' : LogType) (x y : List Char), t.text.toList ++ x = t'.text.toList ++ y → t = t' ∧ x = y := by
    intro t t' x y h
    cases t <;> cases t' <;> simp [LogType.text] at h <;> exact ⟨rfl, h⟩
  constructor
  · intro h
    have := congrArg String.toList h
    rw [String.toList_append, String.toList_append] at this
    obtain ⟨h1, h2⟩ := key _ _ _ _ this
    exact ⟨h1, String.toList_inj.1 h2⟩
  · intro h
    unfold Log.text at h
    have := congrArg String.toList h
    simp only [String.toList_append, List.append_assoc] at this
    obtain ⟨h1, h2⟩ := key _ _ _ _ this
    exact ⟨h1, String.toList_inj.1 (List.append_cancel_left h2)⟩

theorem toList_join (l : List String) : (String.join l).toList = l.flatMap String.toList := by
  unfold String.join
  have key : ∀ (l : List String) (s : String), (l.foldl (fun r s => r ++ s) s).toList = s.toList ++ l.flatMap String.toList := by
    intro l
    induction l with
    | nil => intro s; simp
    | cons x l ih => intro s; simp [ih, String.toList_append]
  have := key l ""
  simpa using this

theorem lines_inj : ∀ (l k : List (List Char)), (∀ x ∈ l, '\n' ∉ x) → (∀ x ∈ k, '\n' ∉ x) →
    l.flatMap (fun x => x ++ ['\n']) = k.flatMap (fun x => x ++ ['\n']) → l = k
  | [], [], _, _, _ => rfl
  | [], y :: k, _, _, h => by simp at h
  | x :: l, [], _, _, h => by simp at h
  | x :: l, y :: k, hl, hk, h => by
    have hxy : ∀ (x y a b : List Char), '\n' ∉ x → '\n' ∉ y → x ++ '\n' :: a = y ++ '\n' :: b → x = y ∧ a = b := by
      intro x
      induction x with
      | nil =>
        intro y a b _ hy e
        cases y with
        | nil => exact ⟨rfl, by simpa using e⟩
        | cons c y =>
          simp only [List.nil_append, List.cons_append, List.cons.injEq] at e
          exact absurd (e.1 ▸ List.mem_cons_self) hy
      | cons c x ih =>
        intro y a b hx hy e
        cases y with
        | nil =>
          simp only [List.nil_append, List.cons_append, List.cons.injEq] at e
          exact absurd (e.1 ▸ List.mem_cons_self) hx
        | cons d y =>
          simp only [List.cons_append, List.cons.injEq] at e
          obtain ⟨h1, h2⟩ := ih y a b (fun hc => hx (List.mem_cons_of_mem _ hc)) (fun hc => hy (List.mem_cons_of_mem _ hc)) e.2
          exact ⟨by rw [e.1, h1], h2⟩
    simp only [List.flatMap_cons, List.append_assoc, List.cons_append, List.nil_append] at h
    obtain ⟨h1, h2⟩ := hxy x y _ _ (hl x List.mem_cons_self) (hk y List.mem_cons_self) h
    rw [h1, lines_inj l k (fun z hz => hl z (List.mem_cons_of_mem _ hz)) (fun z hz => hk z (List.mem_cons_of_mem _ hz)) h2]

theorem text_oneLine {l : Log} (h : OneLine l) : '\n' ∉ l.text.toList := by
  unfold Log.text
  simp only [String.toList_append, List.mem_append, not_or]
  refine ⟨⟨?_, by decide⟩, h⟩
  cases l.ltype <;> decide

/-- **C158, the log file, for logs of one line**: two runs that leave the same log file have stored logs of the same types with the same bodies, in
the same order. -/
theorem C158_file_partial (h h' : List (LogEvent Log)) (ho : ∀ l ∈ allLogs h, OneLine l) (ho' : ∀ l ∈ allLogs h', OneLine l)
    (hf : logFile (h.foldr (fun e l => logStep l e) []) = logFile (h'.foldr (fun e l => logStep l e) [])) :
    ((allLogs h).filter Log.stored).map (fun l => (l.ltype, l.body)) =
      ((allLogs h').filter Log.stored).map (fun l => (l.ltype, l.body)) := by
  unfold logFile at hf
  rw [C71_file, C71_file] at hf
  have hf' := congrArg String.toList hf
  rw [toList_join, toList_join] at hf'
  have hconv : ∀ ls : List Log, (ls.map (fun l => l.text ++ "\n")).flatMap String.toList =
      (ls.map (fun l => l.text.toList)).flatMap (fun x => x ++ ['\n']) := by
    intro ls
    induction ls with
    | nil => rfl
    | cons l ls ih =>
      simp only [List.map_cons, List.flatMap_cons, ih, String.toList_append]
      rfl
  rw [hconv, hconv] at hf'
  have heq := lines_inj _ _ (by
    intro x hx
    obtain ⟨l, hl, rfl⟩ := List.mem_map.1 hx
    exact text_oneLine (ho l (List.mem_filter.1 hl).1)) (by
    intro x hx
    obtain ⟨l, hl, rfl⟩ := List.mem_map.1 hx
    exact text_oneLine (ho' l (List.mem_filter.1 hl).1)) hf'
  generalize (allLogs h).filter Log.stored = ls at heq ⊢
  generalize (allLogs h').filter Log.stored = ks at heq ⊢
  induction ls generalizing ks with
  | nil => cases ks with
    | nil => rfl
    | cons => simp at heq
  | cons l ls ih => cases ks with
    | nil => simp at heq
    | cons k ks =>
      simp only [List.map_cons, List.cons.injEq] at heq ⊢
      obtain ⟨h1, h2⟩ := (C158_readable_partial l k).2 (String.toList_inj.1 heq.1)
      exact ⟨by rw [h1, h2], ih ks heq.2⟩

/-- **C158, the negation for the file**: a body with a line break looks like two logs. -/
theorem C158_break_partial : ∃ h h' : List (LogEvent Log), (allLogs h).length ≠ (allLogs h').length ∧
    (∀ l ∈ allLogs h ++ allLogs h', l.stored = true) ∧
    logFile (h.foldr (fun e l => logStep l e) []) = logFile (h'.foldr (fun e l => logStep l e) []) := by
  refine ⟨[.log ⟨.info, "a\nError:  b", true⟩], [.log ⟨.info, "a", true⟩, .log ⟨.error, "b", true⟩], by decide, by decide, ?_⟩
  decide +kernel

/-- **C158, the negation for the columns**: `{:<9}` should fill the type up to nine characters, so that the bodies start in one column; it does
nothing, and the bodies of an info and of a warning start in different columns. -/
theorem C158_columns_partial : ∃ (h : List (LogEvent Log)) (a b : LogLine), a ∈ logLines (h.foldr (fun e l => logStep l e) []) ∧
    b ∈ logLines (h.foldr (fun e l => logStep l e) []) ∧ a.head.length = 6 ∧ b.head.length = 9 := by
  refine ⟨[.log ⟨.info, "x", false⟩, .newRep, .log ⟨.warning, "y", false⟩], ⟨"Info: ", .blue, "x"⟩, ⟨"Warning: ", .yellow, "y"⟩, ?_, ?_, ?_, ?_⟩ <;>
    decide +kernel

example : (∀ l ∈ allLogs [LogEvent.log (⟨.info, "x", true⟩ : Log), .newRep, .log ⟨.critical, "y", true⟩], OneLine l) ∧
    logFile ([LogEvent.log (⟨.info, "x", true⟩ : Log), .newRep, .log ⟨.critical, "y", true⟩].foldr (fun e l => logStep l e) []) =
      "Info:  x\nCritical:  y\n" := by
  refine ⟨?_, by decide +kernel⟩
  intro l hl
  simp only [allLogs, List.mem_cons, List.not_mem_nil, or_false] at hl
  rcases hl with rfl | rfl <;> (unfold OneLine; decide)

end Verif.Monitor
