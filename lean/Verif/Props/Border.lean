import Verif.Spec.Border
import Verif.Props.Turned

/-!
C277: away from the border neither the size of a continuous field nor whether it is a torus matters.
-/

set_option linter.unusedSectionVars false

namespace Verif.Field2D

open Grid Torus

variable {O : Type} [BEq O]

/-! ### One axis -/

/-- Two differences along an axis that are equal, or both longer than the radius. -/
def AlikeUpTo (r a b : ℚ) : Prop := a * a = b * b ∨ (r * r < a * a ∧ r * r < b * b)

theorem alike_sum {r a b a' b' : ℚ} (h : AlikeUpTo r a b) (h' : AlikeUpTo r a' b') : a * a + a' * a' ≤ r * r ↔ b * b + b' * b' ≤ r * r := by
  have s1 := mul_self_nonneg a
  have s2 := mul_self_nonneg b
  have s3 := mul_self_nonneg a'
  have s4 := mul_self_nonneg b'
  rcases h with h | ⟨h1, h2⟩
  · rcases h' with h' | ⟨h3, h4⟩
    · rw [h, h']
    · constructor <;> intro _ <;> linarith
  · constructor <;> intro _ <;> linarith

theorem sq_lt_of_lt {r a : ℚ} (hr : 0 < r) (h : r < a) : r * r < a * a := mul_self_lt_mul_self hr.le h

theorem sq_lt_of_lt_neg {r a : ℚ} (hr : 0 < r) (h : a < -r) : r * r < a * a := by
  have := mul_self_lt_mul_self hr.le (show r < -a by linarith)
  linarith

/-- The difference as the code computes it, for a point of the field. -/
theorem diff_alike {w x p r : ℚ} (t : Bool) (hr : 0 < r) (h1 : r < x) (h2 : x + r < w) (hp : 0 ≤ p) (hp' : p ≤ w) : AlikeUpTo r (diff t p x w) (p - x) := by
  cases t with
  | false => exact Or.inl rfl
  | true =>
    have hw : 0 < w := by linarith
    show AlikeUpTo r (toroidalDistance p x w) (p - x)
    by_cases hc : -(w / 2) ≤ p - x ∧ p - x ≤ w / 2
    · left
      unfold toroidalDistance
      rw [if_pos hc]
    · right
      by_cases hlo : p - x < -(w / 2)
      · have hlt : p - x < -r := by linarith
        refine ⟨?_, sq_lt_of_lt_neg hr hlt⟩
        have e : toroidalDistance p x w = p - x + w := toroidalDistance_eq hw ⟨1, by push_cast; ring⟩ (by linarith) (by linarith)
        rw [e]
        exact sq_lt_of_lt hr (by linarith)
      · have hhi : w / 2 < p - x := by
          by_contra hn
          exact hc ⟨by linarith, by linarith⟩
        refine ⟨?_, sq_lt_of_lt hr (by linarith)⟩
        have e : toroidalDistance p x w = p - x - w := toroidalDistance_eq hw ⟨-1, by push_cast; ring⟩ (by linarith) (by linarith)
        rw [e]
        exact sq_lt_of_lt_neg hr (by linarith)

theorem diff_alike_swap {w x p r : ℚ} (t : Bool) (hr : 0 < r) (h1 : r < x) (h2 : x + r < w) (hp : 0 ≤ p) (hp' : p ≤ w) : AlikeUpTo r (diff t x p w) (x - p) := by
  have h := diff_alike t hr h1 h2 hp hp'
  have e : diff t x p w * diff t x p w = diff t p x w * diff t p x w := by
    cases t with
    | false => show (x - p) * (x - p) = (p - x) * (p - x); ring
    | true => exact toroidalDistance_sq_symm (by linarith)
  have e' : (x - p) * (x - p) = (p - x) * (p - x) := by ring
  unfold AlikeUpTo at *
  rw [e, e']
  exact h

/-- The far corner of a square, which the code cuts off at the border. -/
theorem diff_cut {w x q r : ℚ} (t : Bool) (hr : 0 < r) (h1 : r < x) (h2 : x + r < w) (hq : 0 ≤ q) : AlikeUpTo r (diff t (min q w) x w) (q - x) := by
  by_cases hle : q ≤ w
  · rw [min_eq_left hle]
    exact diff_alike t hr h1 h2 hq hle
  · have hlt : w ≤ q := (not_le.1 hle).le
    rw [min_eq_right hlt]
    have hw : r * r < (w - x) * (w - x) := sq_lt_of_lt hr (by linarith)
    refine Or.inr ⟨?_, sq_lt_of_lt hr (by linarith)⟩
    rcases diff_alike t hr h1 h2 (show 0 ≤ w by linarith) (le_refl w) with h | ⟨h, _⟩
    · rw [h]; exact hw
    · exact h

/-! ### Squares and circles in a plane without border -/

/-- The square of the distance in the plane. -/
def planeSq (p q : Pos) : ℚ := (p.x - q.x) * (p.x - q.x) + (p.y - q.y) * (p.y - q.y)

/-- The test of a square, not cut off. -/
def planeCircle (b : Loc) (d : ℚ) (loc : Pos) (r : ℚ) : Int :=
  if planeSq ⟨b.x * d, b.y * d⟩ loc ≤ r * r ∧ planeSq ⟨b.x * d, b.y * d + d⟩ loc ≤ r * r ∧ planeSq ⟨b.x * d + d, b.y * d⟩ loc ≤ r * r ∧
      planeSq ⟨b.x * d + d, b.y * d + d⟩ loc ≤ r * r then 1
  else if planeSq ⟨b.x * d, b.y * d⟩ loc > r * r ∧ planeSq ⟨b.x * d, b.y * d + d⟩ loc > r * r ∧ planeSq ⟨b.x * d + d, b.y * d⟩ loc > r * r ∧
      planeSq ⟨b.x * d + d, b.y * d + d⟩ loc > r * r then -1
  else 0

/-- The test of an object. -/
def planeKeep (d : ℚ) (locOf : O → Pos) (loc : Pos) (r : ℚ) (b : Loc) (o : O) : Bool :=
  decide ((planeCircle b d loc r = 0 ∧ planeSq loc (locOf o) ≤ r * r) ∨ planeCircle b d loc r = 1)

/-- The squares of the search, not cut off. -/
def planeCells (d : ℚ) (loc : Pos) (r : ℚ) : List Loc :=
  (irange ((loc.x / d).floor - (r / d).floor) ((loc.x / d).floor + (r / d).floor)).flatMap (fun i =>
    (irange ((loc.y / d).floor - (r / d).floor) ((loc.y / d).floor + (r / d).floor)).map (fun j => ⟨i, j⟩))

theorem circle_plane {w h d r : ℚ} {loc : Pos} {b : Loc} (t : Bool) (hd : 0 < d) (hr : 0 < r) (hc : CircleInside w h loc r) (hx : 0 ≤ b.x * d ∧ b.x * d ≤ w) (hy : 0 ≤ b.y * d ∧ b.y * d ≤ h) :
    checkCircle b d w h loc r t = planeCircle b d loc r := by
  obtain ⟨c1, c2, c3, c4⟩ := hc
  have x1 := diff_alike t hr c1 c2 hx.1 hx.2
  have x2 := diff_cut t hr c1 c2 (show 0 ≤ b.x * d + d by linarith [hx.1])
  have y1 := diff_alike t hr c3 c4 hy.1 hy.2
  have y2 := diff_cut t hr c3 c4 (show 0 ≤ b.y * d + d by linarith [hy.1])
  have e1 : distSq (cornerNW b d) loc w h t ≤ r * r ↔ planeSq ⟨b.x * d, b.y * d⟩ loc ≤ r * r := alike_sum x1 y1
  have e2 : distSq (cornerNE b d h) loc w h t ≤ r * r ↔ planeSq ⟨b.x * d, b.y * d + d⟩ loc ≤ r * r := alike_sum x1 y2
  have e3 : distSq (cornerSW b d w) loc w h t ≤ r * r ↔ planeSq ⟨b.x * d + d, b.y * d⟩ loc ≤ r * r := alike_sum x2 y1
  have e4 : distSq (cornerSE b d w h) loc w h t ≤ r * r ↔ planeSq ⟨b.x * d + d, b.y * d + d⟩ loc ≤ r * r := alike_sum x2 y2
  unfold checkCircle planeCircle
  simp only [gt_iff_lt, ← not_le, e1, e2, e3, e4]

theorem keep_plane {f : Field O} {w h d r : ℚ} {t : Bool} {pub cur : Loc → List O} (hs : Shows f w h d t pub cur) {locOf : O → Pos} {loc : Pos} {b : Loc} {o : O} (hd : 0 < d) (hr : 0 < r)
    (hc : CircleInside w h loc r) (hx : 0 ≤ b.x * d ∧ b.x * d ≤ w) (hy : 0 ≤ b.y * d ∧ b.y * d ≤ h) (ho : InField w h (locOf o)) :
    keepExact f locOf loc r b o = planeKeep d locOf loc r b o := by
  have e := circle_plane (b := b) t hd hr hc hx hy
  obtain ⟨c1, c2, c3, c4⟩ := hc
  obtain ⟨o1, o2, o3, o4⟩ := ho
  have eo : distSq loc (locOf o) w h t ≤ r * r ↔ planeSq loc (locOf o) ≤ r * r := alike_sum (diff_alike_swap t hr c1 c2 o1 o2) (diff_alike_swap t hr c3 c4 o3 o4)
  unfold keepExact planeKeep
  rw [hs.width, hs.height, hs.disc, hs.tor, e]
  simp only [eo]

/-! ### The window -/

theorem window_plane {x w d r : ℚ} (t : Bool) (hd : 0 < d) (h1 : r < x) (h2 : x + r < w) :
    window t (x / d).floor (r / d).floor (w / d).ceil = ((x / d).floor - (r / d).floor, (x / d).floor + (r / d).floor) ∧
      0 ≤ (x / d).floor - (r / d).floor ∧ (x / d).floor + (r / d).floor ≤ (w / d).ceil - 1 := by
  have lo : 0 ≤ (x / d).floor - (r / d).floor := by
    by_contra hn
    have hlt : (x / d).floor < (r / d).floor := by omega
    have a := Rat.floor_lt_iff.1 hlt
    have b := Rat.floor_le (r / d)
    have c : r / d < x / d := div_lt_div_of_pos_right h1 hd
    linarith
  have hi : (x / d).floor + (r / d).floor ≤ (w / d).ceil - 1 := by
    have a := Rat.floor_le (x / d)
    have b := Rat.floor_le (r / d)
    have c : (x + r) / d < w / d := div_lt_div_of_pos_right h2 hd
    have e := Rat.le_ceil (x := w / d)
    rw [add_div] at c
    have g : (((x / d).floor + (r / d).floor : Int) : ℚ) < ((w / d).ceil : Int) := by push_cast; linarith
    have g' : (x / d).floor + (r / d).floor < (w / d).ceil := by exact_mod_cast g
    omega
  refine ⟨?_, lo, hi⟩
  unfold window
  cases t with
  | false => rfl
  | true => rw [if_pos rfl, max_eq_right lo, min_eq_left hi]

theorem searchCells_plane {f : Field O} {w h d r : ℚ} {t : Bool} {pub cur : Loc → List O} (hs : Shows f w h d t pub cur) {loc : Pos} (hd : 0 < d) (hc : CircleInside w h loc r) :
    searchCells f loc r = planeCells d loc r := by
  obtain ⟨c1, c2, c3, c4⟩ := hc
  unfold searchCells planeCells discretize
  dsimp only
  rw [hs.width, hs.height, hs.disc, hs.tor, (window_plane t hd c1 c2).1, (window_plane t hd c3 c4).1]

theorem mem_planeCells {d r : ℚ} {loc : Pos} {c : Loc} : c ∈ planeCells d loc r ↔
    ((loc.x / d).floor - (r / d).floor ≤ c.x ∧ c.x ≤ (loc.x / d).floor + (r / d).floor) ∧ ((loc.y / d).floor - (r / d).floor ≤ c.y ∧ c.y ≤ (loc.y / d).floor + (r / d).floor) := by
  unfold planeCells
  simp only [List.mem_flatMap, List.mem_map, mem_irange]
  constructor
  · rintro ⟨i, hi, j, hj, rfl⟩
    exact ⟨hi, hj⟩
  · rintro ⟨hi, hj⟩
    exact ⟨c.x, hi, c.y, hj, rfl⟩

theorem axis_cell {x w d r : ℚ} {i : Int} (hd : 0 < d) (h1 : r < x) (h2 : x + r < w) (hi : (x / d).floor - (r / d).floor ≤ i ∧ i ≤ (x / d).floor + (r / d).floor) :
    tT i (w / d).ceil = i ∧ 0 ≤ i * d ∧ i * d ≤ w := by
  obtain ⟨_, a, b⟩ := window_plane false hd h1 h2
  have i0 : 0 ≤ i := by omega
  have i1 : i < (w / d).ceil := by omega
  refine ⟨?_, mul_nonneg (by exact_mod_cast i0) hd.le, ?_⟩
  · rw [(tT_spec (n := i) (size := (w / d).ceil) (by omega)).2.2.2.2 i0]
    exact Int.emod_eq_of_lt i0 i1
  · have g : (i : ℚ) ≤ (w / d).ceil - 1 := by
      have : i ≤ (w / d).ceil - 1 := by omega
      exact_mod_cast this
    have e := Rat.ceil_lt (x := w / d)
    exact (le_div_iff₀ hd).1 (by linarith)

/-- Both searches, in terms of the plane and of the history only. -/
theorem searches_plane {w h d : ℚ} {t : Bool} (hd : 0 < d) {hist : List (FieldOp O)} (hin : ∀ op ∈ hist, op.InField w h) {locOf : O → Pos}
    (hloc : CarriesLocation locOf hist) {f : Field O} (hs : Shows f w h d t (fun c => objsPublished d hist (notDiscretize d c)) (fun c => objsWritten d hist (notDiscretize d c)))
    {loc : Pos} {r : ℚ} (hr : 0 < r) (hc : CircleInside w h loc r) :
    getNeighborsWithinDistance f locOf loc r = some ((planeCells d loc r).flatMap (fun c => (objsPublished d hist (notDiscretize d c)).filter (planeKeep d locOf loc r c))) ∧
    getNeighborsWithinRelaxDistance f loc r = some ((planeCells d loc r).flatMap (fun c => objsPublished d hist (notDiscretize d c))) := by
  have bag : ∀ c ∈ planeCells d loc r, wrapped f c = c ∧ bagOf f c = objsPublished d hist (notDiscretize d c) ∧ (0 ≤ c.x * d ∧ c.x * d ≤ w) ∧ (0 ≤ c.y * d ∧ c.y * d ≤ h) := by
    intro c hm
    obtain ⟨m1, m2⟩ := mem_planeCells.1 hm
    obtain ⟨a1, a2⟩ := axis_cell hd hc.1 hc.2.1 m1
    obtain ⟨b1, b2⟩ := axis_cell hd hc.2.2.1 hc.2.2.2 m2
    have e : wrapped f c = c := by
      unfold wrapped
      rw [hs.width, hs.height, hs.disc, a1, b1]
    refine ⟨e, ?_, a2, b2⟩
    have hir := wrapped_inRange hs.wf c
    rw [e] at hir
    exact bagOf_shows hs hir
  unfold getNeighborsWithinDistance getNeighborsWithinRelaxDistance
  rw [if_neg (not_le.2 hr), if_neg (not_le.2 hr), scan_eq hs.wf, scan_eq hs.wf, searchCells_plane hs hd hc]
  refine ⟨congrArg some (List.flatMap_congr (fun c hm => ?_)), congrArg some (List.flatMap_congr (fun c hm => ?_))⟩
  · obtain ⟨e1, e2, e3, e4⟩ := bag c hm
    rw [e1, e2]
    refine List.filter_congr (fun o ho => keep_plane hs hd hr hc e3 e4 ?_)
    obtain ⟨l, h1, _⟩ := mem_objsPublished ho
    rw [hloc o l h1]
    exact hin _ h1
  · obtain ⟨e1, e2, _⟩ := bag c hm
    rw [e1, e2]
    exact List.filter_eq_self.2 (fun _ _ => rfl)

/-- **C277, searches.** The same calls on two fields with squares of the same size, of whatever extent and whether or not they are tori: where the circle lies inside both fields, both searches
give the same answers, in the same order. -/
theorem C277_searches {w h w' h' d : ℚ} (t t' : Bool) (hd : 0 < d) {hist : List (FieldOp O)} (hin : ∀ op ∈ hist, op.InField w h) (hin' : ∀ op ∈ hist, op.InField w' h')
    {locOf : O → Pos} (hloc : CarriesLocation locOf hist) (hw : 0 < w) (hh : 0 < h) (hw' : 0 < w') (hh' : 0 < h') :
    ∃ f f', run (new w h d t) hist = some f ∧ run (new w' h' d t') hist = some f' ∧ ∀ loc r, CircleInside w h loc r → CircleInside w' h' loc r →
      (∃ l, getNeighborsWithinDistance f locOf loc r = some l ∧ getNeighborsWithinDistance f' locOf loc r = some l) ∧
      (∃ l, getNeighborsWithinRelaxDistance f loc r = some l ∧ getNeighborsWithinRelaxDistance f' loc r = some l) := by
  obtain ⟨f, h1, hs⟩ := shows_run t hw hh hd hist hin
  obtain ⟨f', h1', hs'⟩ := shows_run t' hw' hh' hd hist hin'
  refine ⟨f, f', h1, h1', fun loc r hc hc' => ?_⟩
  by_cases hr : 0 < r
  · obtain ⟨a, b⟩ := searches_plane hd hin hloc hs hr hc
    obtain ⟨a', b'⟩ := searches_plane hd hin' hloc hs' hr hc'
    exact ⟨⟨_, a, a'⟩, ⟨_, b, b'⟩⟩
  · unfold getNeighborsWithinDistance getNeighborsWithinRelaxDistance
    rw [if_pos (not_lt.1 hr), if_pos (not_lt.1 hr), if_pos (not_lt.1 hr), if_pos (not_lt.1 hr)]
    exact ⟨⟨_, rfl, rfl⟩, ⟨_, rfl, rfl⟩⟩

end Verif.Field2D

namespace Verif.Sync

open Schedule Grid Torus
open Flockers (ParSteps)

variable {T D B : Type} [LinearOrder T] [DecidableEq B] {ident : B → Nat} {rnd : Nat → D} {ord : Nat → Int} {w h w' h' d : ℚ} {loc : B → Pos} {reach : B → ℚ} {act : D → B → List B → B × Bool}

theorem fieldView_border (t t' : Bool) (hd : 0 < d) (hw : 0 < w) (hh : 0 < h) (hw' : 0 < w') (hh' : 0 < h') (pop : List B) (b : B)
    (hpop : ∀ x ∈ pop, Field2D.InField w h (loc x) ∧ Field2D.InField w' h' (loc x)) (hc : Field2D.CircleInside w h (loc b) (reach b)) (hc' : Field2D.CircleInside w' h' (loc b) (reach b)) :
    fieldView w' h' d t' loc reach pop b = fieldView w h d t loc reach pop b := by
  have hop : ∀ op ∈ (Field2D.FieldOp.lazyUpdate :: (pop.map (fun b => Field2D.FieldOp.place b (loc b))).reverse : List (Field2D.FieldOp B)), op.InField w h ∧ op.InField w' h' := by
    intro op hop
    rcases List.mem_cons.1 hop with rfl | hop
    · exact ⟨trivial, trivial⟩
    · obtain ⟨x, hx, rfl⟩ := List.mem_map.1 (List.mem_reverse.1 hop)
      exact hpop x hx
  have hcar : Field2D.CarriesLocation loc (Field2D.FieldOp.lazyUpdate :: (pop.map (fun b => Field2D.FieldOp.place b (loc b))).reverse : List (Field2D.FieldOp B)) := by
    intro o l hm
    rcases List.mem_cons.1 hm with hm | hm
    · cases hm
    · obtain ⟨x, _, hx⟩ := List.mem_map.1 (List.mem_reverse.1 hm)
      cases hx
      rfl
  obtain ⟨f, f', h1, h2, h3⟩ := Field2D.C277_searches t t' hd (fun op ho => (hop op ho).1) (fun op ho => (hop op ho).2) hcar hw hh hw' hh'
  obtain ⟨⟨l, h4, h5⟩, _⟩ := h3 _ _ hc hc'
  unfold fieldView
  rw [h1, h2, Option.bind_some, Option.bind_some, h4, h5]

/-- The agent and the circle in which it looks are inside both fields. -/
def ClearOf (w h w' h' : ℚ) (loc : B → Pos) (reach : B → ℚ) (b : B) : Prop :=
  (Field2D.InField w h (loc b) ∧ Field2D.InField w' h' (loc b)) ∧ Field2D.CircleInside w h (loc b) (reach b) ∧ Field2D.CircleInside w' h' (loc b) (reach b)

theorem popAt_border (t t' : Bool) (hd : 0 < d) (hw : 0 < w) (hh : 0 < h) (hw' : 0 < w') (hh' : 0 < h') (L : Lawful act ident (ClearOf w h w' h' loc reach) List.Perm) (r : Nat → Nat → D)
    {agents : List B} (hok : ∀ b ∈ agents, ClearOf w h w' h' loc reach b) (n : Nat) :
    popAt act (fieldView w' h' d t' loc reach) r (numbered agents) n = popAt act (fieldView w h d t loc reach) r (numbered agents) n := by
  have e := popAt_image (φ := id) (ψ := id) (view := fieldView w h d t loc reach) (view' := fieldView w' h' d t' loc reach) L L (fun _ _ _ => rfl)
    (fun pop b hp hb => by
      rw [List.map_id]
      show List.Perm _ _
      rw [show (id b : B) = b from rfl, fieldView_border t t' hd hw hh hw' hh' pop b (fun x hx => (hp x hx).1) hb.2.1 hb.2.2]
      exact List.Perm.refl _) r hok n
  rw [List.map_id] at e
  rw [e]
  exact List.map_id _

/-- **C277, simulations.** Agents that keep the circles in which they look away from the borders go through the same steps in a field of any other size, and whether or not the field is a torus. -/
theorem C277_simulation (t t' : Bool) (hd : 0 < d) (hw : 0 < w) (hh : 0 < h) (hw' : 0 < w') (hh' : 0 < h') (L : Lawful act ident (ClearOf w h w' h' loc reach) List.Perm)
    (Lf : Lawful act ident (fun b => Field2D.InField w h (loc b)) List.Perm) (Lf' : Lawful act ident (fun b => Field2D.InField w' h' (loc b)) List.Perm)
    (h0 : ∀ x x' b v, act x b v = act x' b v) (zero : T) (adv : T → T) (tb tb' : TieBreak T (B × Bool)) {agents : List B}
    (hok : ∀ b ∈ agents, ClearOf w h w' h' loc reach b) (hid : (agents.map ident).Nodup) (n : Nat) :
    (steps (model adv tb' (fieldOps loc reach) act rnd) n (Driver.start (sim zero adv tb' (fieldOps loc reach) act rnd agents ord) ⟨some (Field2D.new w' h' d t'), 0⟩)).sched.events.Perm
      (steps (model adv tb (fieldOps loc reach) act rnd) n (Driver.start (sim zero adv tb (fieldOps loc reach) act rnd agents ord) ⟨some (Field2D.new w h d t), 0⟩)).sched.events := by
  obtain ⟨σ, _, h1⟩ := C143_field (rnd := rnd) (ord := ord) (reach := reach) hw hh hd t Lf zero adv tb agents (fun b hb => (hok b hb).1.1) hid n
  obtain ⟨σ', _, h2⟩ := C143_field (rnd := rnd) (ord := ord) (reach := reach) hw' hh' hd t' Lf' zero adv tb' agents (fun b hb => (hok b hb).1.2) hid n
  have h1 := h1 n (le_refl _)
  have h2 := h2 n (le_refl _)
  rw [popAt_sure h0 _ (fun m i => rnd (σ' m i))] at h1
  rw [popAt_border t t' hd hw hh hw' hh' L _ hok] at h2
  exact h2.agents.trans h1.agents.symm

/-- **C277, simulations under the feature `parallel`.** -/
theorem C277_parallel_simulation (t t' : Bool) (hd : 0 < d) (hw : 0 < w) (hh : 0 < h) (hw' : 0 < w') (hh' : 0 < h') (L : Lawful act ident (ClearOf w h w' h' loc reach) List.Perm)
    (Lf : Lawful act ident (fun b => Field2D.InField w h (loc b)) List.Perm) (Lf' : Lawful act ident (fun b => Field2D.InField w' h' (loc b)) List.Perm)
    (h0 : ∀ x x' b v, act x b v = act x' b v) {cpus cpus' : Nat} (hc : DBDashMap.shardAmount cpus ≤ 2 ^ 64)
    (hc' : DBDashMap.shardAmount cpus' ≤ 2 ^ 64) (hashO hashO' : Nat → Nat) (hashL hashL' : Loc → Nat) (zero : T) (adv : T → T) (tb tb' : TieBreak T (B × Bool)) {agents : List B}
    (hok : ∀ b ∈ agents, ClearOf w h w' h' loc reach b) (hid : (agents.map ident).Nodup) (threads threads' n : Nat) (wd wd' : World T (B × Bool) (State (ParField2D.PField B Nat)))
    (hst : ParSteps (model adv tb (parFieldOps ident loc reach) act rnd) threads n
      (Driver.start (sim zero adv tb (parFieldOps ident loc reach) act rnd agents ord) ⟨some (ParField2D.PField.new cpus hashO hashL w h d t), 0⟩) wd)
    (hst' : ParSteps (model adv tb' (parFieldOps ident loc reach) act rnd) threads' n
      (Driver.start (sim zero adv tb' (parFieldOps ident loc reach) act rnd agents ord) ⟨some (ParField2D.PField.new cpus' hashO' hashL' w' h' d t'), 0⟩) wd') :
    wd'.sched.events.Perm wd.sched.events := by
  obtain ⟨σ, _, h1⟩ := C143_parallel_field (rnd := rnd) (ord := ord) hw hh hd t Lf hc hashO hashL zero adv tb agents (fun b hb => (hok b hb).1.1) hid threads n wd hst
  obtain ⟨σ', _, h2⟩ := C143_parallel_field (rnd := rnd) (ord := ord) hw' hh' hd t' Lf' hc' hashO' hashL' zero adv tb' agents (fun b hb => (hok b hb).1.2) hid threads' n wd' hst'
  rw [popAt_sure h0 _ (fun m i => rnd (σ' m i))] at h1
  rw [popAt_border t t' hd hw hh hw' hh' L _ hok] at h2
  exact h2.agents.trans h1.agents.symm

/-! ### Grids -/

section

variable {wg hg wg' hg' : Int} {cell : B → Loc} {nbh : B → List Loc} {actG : D → B → List (Option (List B)) → B × Bool}

/-- **C277, dense object grid.** Agents that stay, and look at cells, inside both of two grids go through the same steps in both. -/
theorem C277_dense_grid (hw : 0 ≤ wg) (hh : 0 ≤ hg) (hw' : 0 ≤ wg') (hh' : 0 ≤ hg') (L : Lawful actG ident (GridOk cell nbh wg hg) SameView)
    (L' : Lawful actG ident (GridOk cell nbh wg' hg') SameView) (h0 : ∀ x x' b v, actG x b v = actG x' b v) (zero : T) (adv : T → T) (tb tb' : TieBreak T (B × Bool)) {agents : List B}
    (hok : ∀ b ∈ agents, GridOk cell nbh wg hg b) (hok' : ∀ b ∈ agents, GridOk cell nbh wg' hg' b) (hid : (agents.map ident).Nodup) (n : Nat) :
    (steps (model adv tb' (denseOps cell nbh) actG rnd) n (Driver.start (sim zero adv tb' (denseOps cell nbh) actG rnd agents ord) ⟨DenseObject.new wg' hg', 0⟩)).sched.events.Perm
      (steps (model adv tb (denseOps cell nbh) actG rnd) n (Driver.start (sim zero adv tb (denseOps cell nbh) actG rnd agents ord) ⟨DenseObject.new wg hg, 0⟩)).sched.events := by
  obtain ⟨σ, _, h1⟩ := C142_dense_grid (rnd := rnd) (ord := ord) hw hh L zero adv tb agents hok hid n
  obtain ⟨σ', _, h2⟩ := C142_dense_grid (rnd := rnd) (ord := ord) hw' hh' L' zero adv tb' agents hok' hid n
  have h1 := h1 n (le_refl _)
  have h2 := h2 n (le_refl _)
  rw [popAt_sure h0 _ (fun m i => rnd (σ' m i))] at h1
  exact h2.agents.trans h1.agents.symm

/-- **C277, sparse object grid.** -/
theorem C277_sparse_grid (L : Lawful actG ident (GridOk cell nbh wg hg) SameView)
    (L' : Lawful actG ident (GridOk cell nbh wg' hg') SameView) (h0 : ∀ x x' b v, actG x b v = actG x' b v) (zero : T) (adv : T → T) (tb tb' : TieBreak T (B × Bool)) {agents : List B}
    (hok : ∀ b ∈ agents, GridOk cell nbh wg hg b) (hok' : ∀ b ∈ agents, GridOk cell nbh wg' hg' b) (hid : (agents.map ident).Nodup) (n : Nat) :
    (steps (model adv tb' (sparseOps cell nbh) actG rnd) n (Driver.start (sim zero adv tb' (sparseOps cell nbh) actG rnd agents ord) ⟨some (SparseObject.new wg' hg'), 0⟩)).sched.events.Perm
      (steps (model adv tb (sparseOps cell nbh) actG rnd) n (Driver.start (sim zero adv tb (sparseOps cell nbh) actG rnd agents ord) ⟨some (SparseObject.new wg hg), 0⟩)).sched.events := by
  obtain ⟨σ, _, h1⟩ := C142_sparse_grid (rnd := rnd) (ord := ord) L zero adv tb agents hok hid n
  obtain ⟨σ', _, h2⟩ := C142_sparse_grid (rnd := rnd) (ord := ord) L' zero adv tb' agents hok' hid n
  have h1 := h1 n (le_refl _)
  have h2 := h2 n (le_refl _)
  rw [popAt_sure h0 _ (fun m i => rnd (σ' m i))] at h1
  exact h2.agents.trans h1.agents.symm

/-- **C277, object grids under the feature `parallel`.** -/
theorem C277_parallel_grid (L : Lawful actG ident (GridOk cell nbh wg hg) SameView) (L' : Lawful actG ident (GridOk cell nbh wg' hg') SameView)
    (h0 : ∀ x x' b v, actG x b v = actG x' b v) {cpus cpus' : Nat} (hc : DBDashMap.shardAmount cpus ≤ 2 ^ 64) (hc' : DBDashMap.shardAmount cpus' ≤ 2 ^ 64) (hashO hashO' : Nat → Nat)
    (hashL hashL' : Loc → Nat) (zero : T) (adv : T → T) (tb tb' : TieBreak T (B × Bool)) {agents : List B}
    (hok : ∀ b ∈ agents, GridOk cell nbh wg hg b) (hok' : ∀ b ∈ agents, GridOk cell nbh wg' hg' b) (hid : (agents.map ident).Nodup)
    (threads threads' n : Nat) (wd wd' : World T (B × Bool) (State (ParGrid.OGrid B Nat)))
    (hst : ParSteps (model adv tb (parGridOps ident cell nbh) actG rnd) threads n
      (Driver.start (sim zero adv tb (parGridOps ident cell nbh) actG rnd agents ord) ⟨some (ParGrid.OGrid.new cpus hashO hashL wg hg), 0⟩) wd)
    (hst' : ParSteps (model adv tb' (parGridOps ident cell nbh) actG rnd) threads' n
      (Driver.start (sim zero adv tb' (parGridOps ident cell nbh) actG rnd agents ord) ⟨some (ParGrid.OGrid.new cpus' hashO' hashL' wg' hg'), 0⟩) wd') :
    wd'.sched.events.Perm wd.sched.events := by
  obtain ⟨σ, _, h1⟩ := C142_parallel_grid (rnd := rnd) (ord := ord) L hc hashO hashL zero adv tb agents hok hid threads n wd hst
  obtain ⟨σ', _, h2⟩ := C142_parallel_grid (rnd := rnd) (ord := ord) L' hc' hashO' hashL' zero adv tb' agents hok' hid threads' n wd' hst'
  rw [popAt_sure h0 _ (fun m i => rnd (σ' m i))] at h1
  exact h2.agents.trans h1.agents.symm

end

/-! ### Concrete worlds -/

namespace BorderDemo

/-- An agent: its number and where it is. -/
abbrev Fly := Nat × Pos

/-- Whoever sees somebody else dies; the others stay. -/
def stay (_ : Unit) (b : Fly) (v : List Fly) : Fly × Bool := (b, decide (v.length = 1))

/-- Two agents that see each other and one that sees nobody else. -/
def three : List Fly := [(0, ⟨3, 3⟩), (1, ⟨7/2, 3⟩), (2, ⟨6, 6⟩)]

/-- Two steps in a field. -/
def twoSteps (w h : ℚ) (t : Bool) (reach : ℚ) (agents : List Fly) : List Nat :=
  (steps (model (· + 1) (fun _ _ => 0) (fieldOps (fun b : Fly => b.2) (fun _ => reach)) stay (fun _ => ())) 2
    (Driver.start (sim (0 : Nat) (· + 1) (fun _ _ => 0) (fieldOps (fun b : Fly => b.2) (fun _ => reach)) stay (fun _ => ()) agents (fun _ => 0))
      ⟨some (Field2D.new w h 1 t), 0⟩)).sched.events.map (fun e => e.1.agent.1.1)

/-- The hypotheses of `C277_simulation` are met. -/
example : (∀ b ∈ three, ClearOf 10 10 20 15 (fun b : Fly => b.2) (fun _ => 2) b) ∧ (three.map Prod.fst).Nodup ∧
    Lawful stay Prod.fst (ClearOf 10 10 20 15 (fun b : Fly => b.2) (fun _ => 2)) List.Perm ∧
    Lawful stay Prod.fst (fun b => Field2D.InField 10 10 b.2) List.Perm := by
  refine ⟨?_, by decide, ⟨fun _ _ _ => rfl, fun _ _ _ hb _ => hb, ?_⟩, ⟨fun _ _ _ => rfl, fun _ _ _ hb _ => hb, ?_⟩⟩
  · unfold ClearOf; decide +kernel
  · intro _ _ _ _ hp; unfold stay; rw [hp.length_eq]
  · intro _ _ _ _ hp; unfold stay; rw [hp.length_eq]

/-- And something happens: two of the agents die, in a square plane as in a larger torus. -/
example : twoSteps 10 10 false 2 three = [2] ∧ twoSteps 20 15 true 2 three = [2] := by decide +kernel

/-- An agent on a grid dies if there is somebody in the cell to its right. -/
def meet (_ : Unit) (b : Nat × Loc) (v : List (Option (List (Nat × Loc)))) : (Nat × Loc) × Bool := (b, decide (v = [none]))

/-- Two agents side by side and one alone. -/
def onGrid : List (Nat × Loc) := [(0, ⟨1, 1⟩), (1, ⟨2, 1⟩), (2, ⟨1, 2⟩)]

/-- The hypotheses of `C277_dense_grid` are met by grids of 4 by 3 and 7 by 9. -/
example : (∀ b ∈ onGrid, GridOk (fun b : Nat × Loc => b.2) (fun b => [⟨b.2.x + 1, b.2.y⟩]) 4 3 b) ∧ (∀ b ∈ onGrid, GridOk (fun b : Nat × Loc => b.2) (fun b => [⟨b.2.x + 1, b.2.y⟩]) 7 9 b) ∧
    (onGrid.map Prod.fst).Nodup := by
  unfold GridOk InRange
  decide +kernel

/-- And somebody dies in both. -/
example : [((4 : Int), (3 : Int)), (7, 9)].map (fun s =>
    (steps (model (· + 1) (fun _ _ => 0) (denseOps (fun b : Nat × Loc => b.2) (fun b => [⟨b.2.x + 1, b.2.y⟩])) meet (fun _ => ())) 2
      (Driver.start (sim (0 : Nat) (· + 1) (fun _ _ => 0) (denseOps (fun b : Nat × Loc => b.2) (fun b => [⟨b.2.x + 1, b.2.y⟩])) meet (fun _ => ()) onGrid (fun _ => 0))
        ⟨DenseObject.new s.1 s.2, 0⟩)).sched.events.map (fun e => e.1.agent.1.1)) = [[1, 2], [1, 2]] := by decide +kernel

end BorderDemo

/-- The circles must be inside: an agent that looks across the border sees on a torus what it does not see in the plane. -/
theorem C277_across_the_border :
    ∃ f f' : Field2D.Field Pos, Field2D.run (Field2D.new 10 10 1 true) [.lazyUpdate, .place (⟨59/10, 0⟩ : Pos) ⟨59/10, 0⟩] = some f ∧
      Field2D.run (Field2D.new 10 10 1 false) [.lazyUpdate, .place (⟨59/10, 0⟩ : Pos) ⟨59/10, 0⟩] = some f' ∧
      Field2D.getNeighborsWithinDistance f id ⟨9/10, 1/2⟩ 5 = some [⟨59/10, 0⟩] ∧ Field2D.getNeighborsWithinDistance f' id ⟨9/10, 1/2⟩ 5 = some [] ∧
      ¬ Field2D.CircleInside 10 10 ⟨9/10, 1/2⟩ 5 :=
  ⟨((Field2D.run (Field2D.new 10 10 1 true) [.lazyUpdate, .place (⟨59/10, 0⟩ : Pos) ⟨59/10, 0⟩]).getD (Field2D.new 1 1 1 true)),
    ((Field2D.run (Field2D.new 10 10 1 false) [.lazyUpdate, .place (⟨59/10, 0⟩ : Pos) ⟨59/10, 0⟩]).getD (Field2D.new 1 1 1 true)), by decide +kernel, by decide +kernel, by decide +kernel,
    by decide +kernel, by decide +kernel⟩

end Verif.Sync
