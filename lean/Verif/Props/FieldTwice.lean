import Verif.Props.Field2D
import Mathlib.Tactic.NormNum

/-!
When a search returns an object twice (C39): the converse of `C39_neighbors_once_partial`.
-/

namespace Verif.Field2D

open Torus Grid

variable {O : Type} [DecidableEq O]

/-- A window of more than `size` cells around a cell of the field has two cells that are wrapped to the same cell of the field. -/
theorem window_twice {size c k : Int} (hs : 0 < size) (h0 : 0 ≤ c) (h1 : c < size) (hk : size < 2 * k + 1) :
    ∃ i j, i ≠ j ∧ c - k ≤ i ∧ i ≤ c + k ∧ c - k ≤ j ∧ j ≤ c + k ∧ tT i size = tT j size ∧ 0 ≤ tT i size ∧ tT i size < size := by
  by_cases hb : size ≤ k
  · refine ⟨c, c + size, by omega, by omega, by omega, by omega, by omega, ?_⟩
    have e1 := tT_of_range h0 h1
    obtain ⟨_, _, _, _, e2⟩ := tT_spec (n := c + size) hs
    have e2 := e2 (by omega)
    rw [Int.add_emod_right, Int.emod_eq_of_lt h0 h1] at e2
    exact ⟨by rw [e1, e2], by rw [e1]; exact h0, by rw [e1]; exact h1⟩
  · by_cases ha : 0 ≤ c - k
    · refine ⟨c - k, c - k + size, by omega, by omega, by omega, by omega, by omega, ?_⟩
      have e1 := tT_of_range ha (show c - k < size by omega)
      obtain ⟨_, _, _, _, e2⟩ := tT_spec (n := c - k + size) hs
      have e2 := e2 (by omega)
      rw [Int.add_emod_right, Int.emod_eq_of_lt ha (by omega)] at e2
      exact ⟨by rw [e1, e2], by rw [e1]; exact ha, by rw [e1]; omega⟩
    · refine ⟨c - k, c - k + size, by omega, by omega, by omega, by omega, by omega, ?_⟩
      have e1 := tT_of_range (show 0 ≤ c - k + size by omega) (show c - k + size < size by omega)
      obtain ⟨a1, a2, a3, a4, _⟩ := tT_spec (n := c - k) hs
      have hne : tT (c - k) size ≠ size := by
        intro he
        have := (a4.1 he).2
        have e3 : (c - k + size) % size = 0 := by rw [Int.add_emod_right]; exact this
        rw [Int.emod_eq_of_lt (by omega) (by omega)] at e3
        omega
      have e2 : tT (c - k) size = c - k + size := by
        obtain ⟨q, hq⟩ := Int.dvd_of_emod_eq_zero a3
        have q1 : q = 1 := by
          have : 0 < q := by
            by_contra hc
            have : size * q ≤ 0 := Int.mul_nonpos_of_nonneg_of_nonpos (by omega) (by omega)
            omega
          have : q < 2 := by
            by_contra hc
            have : size * 2 ≤ size * q := Int.mul_le_mul_of_nonneg_left (by omega) (by omega)
            omega
          omega
        rw [q1, Int.mul_one] at hq
        omega
      exact ⟨by rw [e1, e2], by rw [e2]; omega, by rw [e2]; omega⟩

/-- Two different members of the searched cells that are wrapped to a cell with `o` make two copies of `o`. -/
theorem two_copies {f : Field O} (hf : WF f) (keep : Loc → O → Bool) {cs : List Loc} {s1 s2 c : Loc} (hne : s1 ≠ s2) (h1 : s1 ∈ cs)
    (h2 : s2 ∈ cs) (e1 : wrapped f s1 = c) (e2 : wrapped f s2 = c) {o : O} (ho : o ∈ bagOf f c) (hk : keep c o = true) :
    ∃ r, scan f keep cs = some r ∧ 2 ≤ List.count o r := by
  refine ⟨_, scan_eq hf keep cs, ?_⟩
  have hsub : [s1, s2].Subperm cs := by
    apply List.Nodup.subperm
    · simp [hne]
    · intro x hx
      simp only [List.mem_cons, List.not_mem_nil, or_false] at hx
      rcases hx with rfl | rfl <;> assumption
  obtain ⟨l, hl1, hl2⟩ := hsub
  have p1 := (hl1.flatMap (f := fun c => (bagOf f (wrapped f c)).filter (keep (wrapped f c)))
    (g := fun c => (bagOf f (wrapped f c)).filter (keep (wrapped f c))) (fun _ _ => List.Perm.refl _)).count_eq o
  have p2 := (hl2.flatMap (fun c => (bagOf f (wrapped f c)).filter (keep (wrapped f c)))).count_le o
  have hc : 0 < List.count o ((bagOf f c).filter (keep c)) :=
    List.count_pos_iff.2 (List.mem_filter.2 ⟨ho, hk⟩)
  have p3 : List.count o ([s1, s2].flatMap (fun c => (bagOf f (wrapped f c)).filter (keep (wrapped f c)))) =
      List.count o ((bagOf f c).filter (keep c)) + List.count o ((bagOf f c).filter (keep c)) := by
    rw [List.flatMap_cons, List.flatMap_cons, List.flatMap_nil, List.append_nil, List.count_append, e1, e2]
  omega

theorem floor_div_lt {x w d : ℚ} (hd : 0 < d) (hx : x < w) : (x / d).floor < (w / d).ceil := by
  have h1 : ((x / d).floor : ℚ) ≤ x / d := Rat.floor_le _
  have h2 : w / d ≤ ((w / d).ceil : ℚ) := Rat.le_ceil
  have h3 : x / d < w / d := div_lt_div_of_pos_right hx hd
  exact_mod_cast lt_of_le_of_lt h1 (lt_of_lt_of_le h3 h2)

theorem mul_lt_of_lt_ceil {w d : ℚ} (hd : 0 < d) {c : Int} (hc : c < (w / d).ceil) : (c : ℚ) * d < w := by
  have h1 : (c : ℚ) < w / d := by
    by_contra hcon
    have := Rat.ceil_le_iff.2 (not_lt.1 hcon)
    omega
  exact (lt_div_iff₀ hd).1 h1

/-- A field on which one object was placed and published. -/
theorem one_object {w h d : ℚ} (t : Bool) (hw : 0 < w) (hh : 0 < h) (hd : 0 < d) (o : O) {p : Pos} (hp : InField w h p) :
    ∃ f, run (new w h d t) [.lazyUpdate, .place o p] = some f ∧
      Shows f w h d t (fun c => objsPublished d [.lazyUpdate, .place o p] (notDiscretize d c))
        (fun c => objsWritten d [.lazyUpdate, .place o p] (notDiscretize d c)) ∧ bagOf f (discretize d p) = [o] := by
  have hin : ∀ op ∈ ([.lazyUpdate, .place o p] : List (FieldOp O)), op.InField w h := by
    intro op hop
    simp only [List.mem_cons, List.not_mem_nil, or_false] at hop
    rcases hop with rfl | rfl
    · trivial
    · exact hp
  obtain ⟨f, h1, hs⟩ := shows_run t hw hh hd _ hin
  refine ⟨f, h1, hs, ?_⟩
  have hr : InRange f.dw f.dh (discretize d p) := by
    have := inRange_of hs.wf (p := p) (by rw [hs.width, hs.height]; exact hp)
    rwa [hs.disc] at this
  have e := objsPublished_congr ([.lazyUpdate, .place o p] : List (FieldOp O)) (discretize_notDiscretize hd (discretize d p))
  unfold bagOf
  rw [hs.read _ hr, e]
  simp [objsPublished, objsWritten, sameSquare]

/-- **C39**, where it fails, for the relaxed search: on every field that is not a torus, around every position inside and below the
upper borders, for every distance whose searched square is wider or higher than the field, there is a position in the field such
that an object that is placed there alone and published is returned at least twice. (With `C39_neighbors_once_partial` this settles
every case.) -/
theorem C39_twice_partial (w h d : ℚ) (hw : 0 < w) (hh : 0 < h) (hd : 0 < d) (loc : Pos) (hloc : 0 ≤ loc.x ∧ loc.x < w ∧ 0 ≤ loc.y ∧ loc.y < h)
    (dist : ℚ) (hpos : 0 < dist) (hbig : (w / d).ceil < 2 * (dist / d).floor + 1 ∨ (h / d).ceil < 2 * (dist / d).floor + 1) (o : O) :
    ∃ p f r, InField w h p ∧ run (new w h d false) [.lazyUpdate, .place o p] = some f ∧
      getNeighborsWithinRelaxDistance f loc dist = some r ∧ 2 ≤ List.count o r := by
  have p1 := ceil_pos hw hd
  have p2 := ceil_pos hh hd
  have x1 : 0 ≤ (loc.x / d).floor := Rat.le_floor_iff.2 (by simpa using div_nonneg hloc.1 hd.le)
  have y1 : 0 ≤ (loc.y / d).floor := Rat.le_floor_iff.2 (by simpa using div_nonneg hloc.2.2.1 hd.le)
  have x2 := floor_div_lt hd hloc.2.1
  have y2 := floor_div_lt hd hloc.2.2.2
  have hfl : 0 ≤ (dist / d).floor := Rat.le_floor_iff.2 (by simpa using (div_pos hpos hd).le)
  obtain ⟨s1, s2, c, hne, a1, a2, b1, b2, e1, e2, hc⟩ : ∃ s1 s2 c : Loc, s1 ≠ s2 ∧
      ((loc.x / d).floor - (dist / d).floor ≤ s1.x ∧ s1.x ≤ (loc.x / d).floor + (dist / d).floor) ∧
      ((loc.y / d).floor - (dist / d).floor ≤ s1.y ∧ s1.y ≤ (loc.y / d).floor + (dist / d).floor) ∧
      ((loc.x / d).floor - (dist / d).floor ≤ s2.x ∧ s2.x ≤ (loc.x / d).floor + (dist / d).floor) ∧
      ((loc.y / d).floor - (dist / d).floor ≤ s2.y ∧ s2.y ≤ (loc.y / d).floor + (dist / d).floor) ∧
      (⟨tT s1.x (w / d).ceil, tT s1.y (h / d).ceil⟩ : Loc) = c ∧ (⟨tT s2.x (w / d).ceil, tT s2.y (h / d).ceil⟩ : Loc) = c ∧
      0 ≤ c.x ∧ c.x < (w / d).ceil ∧ 0 ≤ c.y ∧ c.y < (h / d).ceil := by
    rcases hbig with hb | hb
    · obtain ⟨i, j, h1, h2, h3, h4, h5, h6, h7, h8⟩ := window_twice p1 x1 x2 hb
      refine ⟨⟨i, (loc.y / d).floor⟩, ⟨j, (loc.y / d).floor⟩, ⟨tT i (w / d).ceil, (loc.y / d).floor⟩, ?_, ⟨h2, h3⟩, ⟨?_, ?_⟩, ⟨h4, h5⟩,
        ⟨?_, ?_⟩, ?_, ?_, h7, h8, y1, y2⟩
      · simp [h1]
      · dsimp only; omega
      · dsimp only; omega
      · dsimp only; omega
      · dsimp only; omega
      · rw [tT_of_range y1 y2]
      · rw [tT_of_range y1 y2, h6]
    · obtain ⟨i, j, h1, h2, h3, h4, h5, h6, h7, h8⟩ := window_twice p2 y1 y2 hb
      refine ⟨⟨(loc.x / d).floor, i⟩, ⟨(loc.x / d).floor, j⟩, ⟨(loc.x / d).floor, tT i (h / d).ceil⟩, ?_, ⟨?_, ?_⟩, ⟨h2, h3⟩, ⟨?_, ?_⟩,
        ⟨h4, h5⟩, ?_, ?_, x1, x2, h7, h8⟩
      · simp [h1]
      · dsimp only; omega
      · dsimp only; omega
      · dsimp only; omega
      · dsimp only; omega
      · rw [tT_of_range x1 x2]
      · rw [tT_of_range x1 x2, h6]
  have hp : InField w h (notDiscretize d c) := by
    unfold InField notDiscretize
    refine ⟨?_, (mul_lt_of_lt_ceil hd hc.2.1).le, ?_, (mul_lt_of_lt_ceil hd hc.2.2.2).le⟩
    · exact mul_nonneg (by exact_mod_cast hc.1) hd.le
    · exact mul_nonneg (by exact_mod_cast hc.2.2.1) hd.le
  obtain ⟨f, hf, hs, hb⟩ := one_object false hw hh hd o hp
  rw [discretize_notDiscretize hd] at hb
  have hm : ∀ s : Loc, ((loc.x / d).floor - (dist / d).floor ≤ s.x ∧ s.x ≤ (loc.x / d).floor + (dist / d).floor) →
      ((loc.y / d).floor - (dist / d).floor ≤ s.y ∧ s.y ≤ (loc.y / d).floor + (dist / d).floor) → s ∈ searchCells f loc dist := by
    intro s q1 q2
    rw [mem_searchCells, hs.disc, hs.width, hs.height, hs.tor]
    simp only [window, Bool.false_eq_true, if_false]
    exact ⟨q1, q2⟩
  have hwr : ∀ s : Loc, wrapped f s = ⟨tT s.x (w / d).ceil, tT s.y (h / d).ceil⟩ := by
    intro s
    unfold wrapped
    rw [hs.disc, hs.width, hs.height]
  obtain ⟨r, hr, h2⟩ := two_copies hs.wf (fun _ _ => true) hne (hm s1 a1 a2) (hm s2 b1 b2) ((hwr s1).trans e1) ((hwr s2).trans e2)
    (by rw [hb]; exact List.mem_singleton.2 rfl) rfl
  exact ⟨_, f, r, hp, hf, by unfold getNeighborsWithinRelaxDistance; rw [if_neg (not_le.2 hpos)]; exact hr, h2⟩

/-- **C39**, where it fails, for the exact search: on every field that is not a torus an object finds itself at least twice if the
distance spans at least as many cells as the field is wide or high. -/
theorem C39_itself_twice_partial (w h d : ℚ) (hw : 0 < w) (hh : 0 < h) (hd : 0 < d) (loc : Pos)
    (hloc : 0 ≤ loc.x ∧ loc.x < w ∧ 0 ≤ loc.y ∧ loc.y < h) (dist : ℚ)
    (hbig : (w / d).ceil ≤ (dist / d).floor ∨ (h / d).ceil ≤ (dist / d).floor) (o : O) (locOf : O → Pos) (ho : locOf o = loc) :
    ∃ f r, run (new w h d false) [.lazyUpdate, .place o loc] = some f ∧
      getNeighborsWithinDistance f locOf loc dist = some r ∧ 2 ≤ List.count o r := by
  have p1 := ceil_pos hw hd
  have p2 := ceil_pos hh hd
  have x1 : 0 ≤ (loc.x / d).floor := Rat.le_floor_iff.2 (by simpa using div_nonneg hloc.1 hd.le)
  have y1 : 0 ≤ (loc.y / d).floor := Rat.le_floor_iff.2 (by simpa using div_nonneg hloc.2.2.1 hd.le)
  have x2 := floor_div_lt hd hloc.2.1
  have y2 := floor_div_lt hd hloc.2.2.2
  have hfl : 1 ≤ (dist / d).floor := by omega
  have hdist : d ≤ dist := by
    have h1 : ((dist / d).floor : ℚ) ≤ dist / d := Rat.floor_le _
    have h2 : (1 : ℚ) ≤ (dist / d).floor := by exact_mod_cast hfl
    have := (le_div_iff₀ hd).1 (le_trans h2 h1)
    linarith
  have hpos : 0 < dist := lt_of_lt_of_le hd hdist
  have hp : InField w h loc := ⟨hloc.1, hloc.2.1.le, hloc.2.2.1, hloc.2.2.2.le⟩
  obtain ⟨f, hf, hs, hb⟩ := one_object false hw hh hd o hp
  have hkeep : keepExact f locOf loc dist (discretize d loc) o = true := by
    unfold keepExact
    rw [decide_eq_true_iff, hs.disc, hs.width, hs.height, hs.tor, ho]
    obtain ⟨_, c2, c3⟩ := check_cases (discretize d loc) d w h loc dist false
    rcases c3 with c | c | c
    · exact .inr c
    · exfalso
      obtain ⟨q1, q2, q3, q4⟩ := c2.1 c
      have fx1 : ((loc.x / d).floor : ℚ) * d ≤ loc.x := (le_div_iff₀ hd).1 (Rat.floor_le _)
      have fy1 : ((loc.y / d).floor : ℚ) * d ≤ loc.y := (le_div_iff₀ hd).1 (Rat.floor_le _)
      have fx2 : loc.x < (loc.x / d).floor * d + d := by
        have := (div_lt_iff₀ hd).1 (Rat.lt_floor_add_one (loc.x / d))
        push_cast at this
        linarith
      have fy2 : loc.y < (loc.y / d).floor * d + d := by
        have := (div_lt_iff₀ hd).1 (Rat.lt_floor_add_one (loc.y / d))
        push_cast at this
        linarith
      have mx := min_le_left ((loc.x / d).floor * d + d) w
      have my := min_le_left ((loc.y / d).floor * d + d) h
      have nx : loc.x ≤ min ((loc.x / d).floor * d + d) w := le_min fx2.le hloc.2.1.le
      have ny : loc.y ≤ min ((loc.y / d).floor * d + d) h := le_min fy2.le hloc.2.2.2.le
      simp only [distSq, diff, cornerNW, cornerNE, cornerSW, cornerSE, discretize, Bool.false_eq_true, if_false] at q1 q2 q3 q4
      have hdd : d * d ≤ dist * dist := mul_le_mul hdist hdist hd.le hpos.le
      generalize min (((loc.x / d).floor : ℚ) * d + d) w = X at *
      generalize min (((loc.y / d).floor : ℚ) * d + d) h = Y at *
      generalize ((loc.x / d).floor : ℚ) * d = x at *
      generalize ((loc.y / d).floor : ℚ) * d = y at *
      have sx : (x - loc.x) * (x - loc.x) ≤ d * d / 4 ∨ (X - loc.x) * (X - loc.x) ≤ d * d / 4 := by
        by_cases hc : loc.x - x ≤ d / 2
        · left; nlinarith
        · right; nlinarith
      have sy : (y - loc.y) * (y - loc.y) ≤ d * d / 4 ∨ (Y - loc.y) * (Y - loc.y) ≤ d * d / 4 := by
        by_cases hc : loc.y - y ≤ d / 2
        · left; nlinarith
        · right; nlinarith
      rcases sx with sx | sx <;> rcases sy with sy | sy <;> nlinarith [mul_pos hd hd]
    · refine .inl ⟨c, ?_⟩
      simp only [distSq, diff, Bool.false_eq_true, if_false, sub_self, mul_zero, add_zero]
      exact mul_self_nonneg _
  have hm : ∀ s : Loc, ((loc.x / d).floor - (dist / d).floor ≤ s.x ∧ s.x ≤ (loc.x / d).floor + (dist / d).floor) →
      ((loc.y / d).floor - (dist / d).floor ≤ s.y ∧ s.y ≤ (loc.y / d).floor + (dist / d).floor) → s ∈ searchCells f loc dist := by
    intro s q1 q2
    rw [mem_searchCells, hs.disc, hs.width, hs.height, hs.tor]
    simp only [window, Bool.false_eq_true, if_false]
    exact ⟨q1, q2⟩
  have hwr : ∀ s : Loc, wrapped f s = ⟨tT s.x (w / d).ceil, tT s.y (h / d).ceil⟩ := by
    intro s
    unfold wrapped
    rw [hs.disc, hs.width, hs.height]
  have tadd : ∀ {c size : Int}, 0 ≤ c → c < size → tT (c + size) size = c := by
    intro c size h0 h1
    obtain ⟨_, _, _, _, e2⟩ := tT_spec (n := c + size) (size := size) (by omega)
    rw [e2 (by omega), Int.add_emod_right, Int.emod_eq_of_lt h0 h1]
  have hown : wrapped f (discretize d loc) = discretize d loc := by
    rw [hwr]
    unfold discretize
    rw [tT_of_range x1 x2, tT_of_range y1 y2]
  have hmem : o ∈ bagOf f (discretize d loc) := by rw [hb]; exact List.mem_singleton.2 rfl
  have hfin : ∀ s : Loc, s ≠ discretize d loc → s ∈ searchCells f loc dist → wrapped f s = discretize d loc →
      ∃ r, getNeighborsWithinDistance f locOf loc dist = some r ∧ 2 ≤ List.count o r := by
    intro s q1 q2 q3
    obtain ⟨r, hr, h2⟩ := two_copies hs.wf (keepExact f locOf loc dist) q1 q2
      (hm (discretize d loc) ⟨by unfold discretize; dsimp only; omega, by unfold discretize; dsimp only; omega⟩
        ⟨by unfold discretize; dsimp only; omega, by unfold discretize; dsimp only; omega⟩) q3 hown hmem hkeep
    exact ⟨r, by unfold getNeighborsWithinDistance; rw [if_neg (not_le.2 hpos)]; exact hr, h2⟩
  rcases hbig with hb | hb
  · obtain ⟨r, h1, h2⟩ := hfin ⟨(loc.x / d).floor + (w / d).ceil, (loc.y / d).floor⟩
      (by unfold discretize; simp only [ne_eq, Loc.mk.injEq]; omega)
      (hm _ ⟨by dsimp only; omega, by dsimp only; omega⟩ ⟨by dsimp only; omega, by dsimp only; omega⟩)
      (by rw [hwr, tadd x1 x2, tT_of_range y1 y2]; rfl)
    exact ⟨f, r, hf, h1, h2⟩
  · obtain ⟨r, h1, h2⟩ := hfin ⟨(loc.x / d).floor, (loc.y / d).floor + (h / d).ceil⟩
      (by unfold discretize; simp only [ne_eq, Loc.mk.injEq]; omega)
      (hm _ ⟨by dsimp only; omega, by dsimp only; omega⟩ ⟨by dsimp only; omega, by dsimp only; omega⟩)
      (by rw [hwr, tadd y1 y2, tT_of_range x1 x2]; rfl)
    exact ⟨f, r, hf, h1, h2⟩

/-- A field of five by four cells, searched around the middle with a distance of three and of five cells. -/
example : ((5 : ℚ) / 1).ceil < 2 * ((3 : ℚ) / 1).floor + 1 ∧ ¬ ((5 : ℚ) / 1).ceil ≤ ((3 : ℚ) / 1).floor ∧
    ((4 : ℚ) / 1).ceil ≤ ((5 : ℚ) / 1).floor ∧ (⟨5/2, 2⟩ : Pos).x < 5 ∧
    ((run (new 5 4 1 false) [.lazyUpdate, .place (7 : Nat) ⟨5/2, 2⟩]).bind
      (fun f => getNeighborsWithinDistance f (fun _ => ⟨5/2, 2⟩) ⟨5/2, 2⟩ 5)) = some [7, 7, 7, 7, 7, 7, 7, 7, 7] := by
  refine ⟨?_, ?_, ?_, ?_, ?_⟩ <;> decide +kernel

end Verif.Field2D
