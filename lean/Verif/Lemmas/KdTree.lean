import Verif.Spec.KdTree
import Mathlib.Tactic.Linarith
import Mathlib.Tactic.Ring
import Mathlib.Tactic.FieldSimp
import Mathlib.Tactic.Positivity

/-!
Lemmas on the subdivision: the literal loops equal a recursion, and what every split keeps.
-/

set_option linter.unusedSectionVars false

namespace Verif.KdTree

open Torus

/-- Split the first `k` boxes. -/
def splitFirst (axis : Axis) : Nat → List Tile → List Tile
  | 0, ts => ts
  | _ + 1, [] => []
  | k + 1, t :: ts => (split t axis).1 :: (split t axis).2 :: splitFirst axis k ts

theorem insertIdx_append_add {α : Type} (l1 l2 : List α) (k : Nat) (x : α) :
    (l1 ++ l2).insertIdx (l1.length + k) x = l1 ++ l2.insertIdx k x := by
  induction l1 with
  | nil => simp
  | cons a l1 ih =>
    rw [List.length_cons, List.cons_append, Nat.add_right_comm, List.insertIdx_succ_cons, ih, List.cons_append]

theorem passStep_stop {p : Nat} {axis : Axis} {ts : List Tile} {count : Nat} (h : p ≤ count) (ns : List Nat) :
    ns.foldl (passStep p axis) (some (ts, count)) = some (ts, count) := by
  induction ns with
  | nil => rfl
  | cons n ns ih =>
    rw [List.foldl_cons]
    have : passStep p axis (some (ts, count)) n = some (ts, count) := by
      unfold passStep
      dsimp only
      rw [if_pos h]
    rw [this, ih]

theorem pass_from {p : Nat} {axis : Axis} (rest : List Tile) : ∀ (done : List Tile) (n count : Nat),
    done.length = n * 2 → count ≤ p →
    (List.range' n rest.length).foldl (passStep p axis) (some (done ++ rest, count)) =
      some (done ++ splitFirst axis (p - count) rest, min p (count + rest.length)) := by
  induction rest with
  | nil =>
    intro done n count _ hc
    simp only [List.length_nil, List.range'_zero, List.foldl_nil, Nat.add_zero, Nat.min_eq_right hc]
    cases p - count <;> rfl
  | cons t rest ih =>
    intro done n count hd hc
    by_cases hp : p ≤ count
    · rw [passStep_stop hp]
      have h1 : p - count = 0 := by omega
      have h2 : min p (count + (t :: rest).length) = count := by omega
      rw [h1, h2]
      rfl
    · rw [List.length_cons, List.range'_succ, List.foldl_cons]
      have hstep : passStep p axis (some (done ++ t :: rest, count)) n =
          some ((done ++ [(split t axis).1, (split t axis).2]) ++ rest, count + 1) := by
        unfold passStep
        dsimp only
        rw [if_neg (by omega)]
        have hg : (done ++ t :: rest)[n * 2]? = some t := by
          rw [List.getElem?_append_right (by omega), hd]
          simp
        rw [hg]
        dsimp only
        congr 2
        rw [List.set_append_right _ _ (by omega), hd, Nat.sub_self, List.set_cons_zero]
        rw [← hd, insertIdx_append_add, List.append_assoc]
        rfl
      rw [hstep]
      rw [ih _ (n + 1) (count + 1) (by simp; omega) (by omega)]
      obtain ⟨k, hk⟩ : ∃ k, p - count = k + 1 := ⟨p - count - 1, by omega⟩
      have hk' : p - (count + 1) = k := by omega
      rw [hk, hk', splitFirst, List.append_assoc]
      congr 2
      omega

/-- A pass splits boxes in order until there are `p`. -/
theorem pass_eq {p : Nat} {axis : Axis} {ts : List Tile} {count : Nat} (hc : count ≤ p) :
    pass p axis ts count = some (splitFirst axis (p - count) ts, min p (count + ts.length)) := by
  have := pass_from (axis := axis) ts [] 0 count rfl hc
  rw [List.nil_append, List.nil_append] at this
  unfold pass
  rw [List.range_eq_range', this]

theorem splitFirst_length (axis : Axis) (k : Nat) (ts : List Tile) :
    (splitFirst axis k ts).length = ts.length + min k ts.length := by
  induction ts generalizing k with
  | nil => cases k <;> rfl
  | cons t ts ih =>
    cases k with
    | zero => simp [splitFirst]
    | succ k => simp only [splitFirst, List.length_cons, ih]; omega

/-- What holds of the first boxes and is kept by passes, holds of the result, which has `p` boxes. -/
theorem passes_inv {p : Nat} (I : Axis → List Tile → Prop) (J : List Tile → Prop)
    (hIJ : ∀ axis ts, I axis ts → J ts)
    (hfull : ∀ axis ts, I axis ts → I axis.other (splitFirst axis ts.length ts))
    (hpart : ∀ axis ts k, I axis ts → J (splitFirst axis k ts)) (fuel : Nat) : ∀ (axis : Axis) (ts : List Tile),
    ts ≠ [] → ts.length ≤ p → p ≤ ts.length + fuel → I axis ts →
    ∃ ts', passes p fuel axis ts ts.length = some ts' ∧ ts'.length = p ∧ J ts' := by
  induction fuel with
  | zero => intro axis ts hne h1 h2 hi; exact ⟨ts, rfl, by omega, hIJ _ _ hi⟩
  | succ fuel ih =>
    intro axis ts hne h1 h2 hi
    have hpos : 0 < ts.length := List.length_pos_iff.2 hne
    rw [passes]
    by_cases hlt : ts.length < p
    · rw [if_pos hlt, pass_eq h1]
      dsimp only
      have hlen := splitFirst_length axis (p - ts.length) ts
      by_cases hbig : 2 * ts.length ≤ p
      · have hmin : min p (ts.length + ts.length) = (splitFirst axis (p - ts.length) ts).length := by omega
        have hsame : splitFirst axis (p - ts.length) ts = splitFirst axis ts.length ts := by
          have : ∀ (ts : List Tile) (k : Nat), ts.length ≤ k → splitFirst axis k ts = splitFirst axis ts.length ts := by
            intro ts
            induction ts with
            | nil => intro k _; cases k <;> rfl
            | cons t ts ih =>
              intro k hk
              rw [List.length_cons] at hk
              obtain ⟨k, rfl⟩ : ∃ k', k = k' + 1 := ⟨k - 1, by omega⟩
              rw [List.length_cons, splitFirst, splitFirst, ih k (by omega)]
          exact this ts _ (by omega)
        rw [hmin]
        refine ih _ _ ?_ (by omega) (by omega) ?_
        · rw [← List.length_pos_iff]; omega
        · rw [hsame]; exact hfull _ _ hi
      · have hmin : min p (ts.length + ts.length) = p := by omega
        refine ⟨splitFirst axis (p - ts.length) ts, ?_, by omega, hpart _ _ _ hi⟩
        rw [hmin]
        cases fuel with
        | zero => rfl
        | succ fuel => rw [passes, if_neg (by omega)]
    · rw [if_neg hlt]
      exact ⟨ts, rfl, by omega, hIJ _ _ hi⟩

/-! ### Splitting keeps a partition -/

theorem split_positive {t : Tile} (axis : Axis) (h : 0 < t.w ∧ 0 < t.h) :
    (0 < (split t axis).1.w ∧ 0 < (split t axis).1.h) ∧ (0 < (split t axis).2.w ∧ 0 < (split t axis).2.h) := by
  cases axis <;> simp only [split] <;> exact ⟨⟨by linarith [h.1], by linarith [h.2]⟩, by linarith [h.1], by linarith [h.2]⟩

theorem split_inside {t : Tile} (axis : Axis) (h : 0 < t.w ∧ 0 < t.h) (p : Pos) :
    ((split t axis).1.Inside p → t.Inside p) ∧ ((split t axis).2.Inside p → t.Inside p) ∧
    ¬ ((split t axis).1.Inside p ∧ (split t axis).2.Inside p) := by
  obtain ⟨h1, h2⟩ := h
  cases axis <;> simp only [split, Tile.Inside] <;> refine ⟨?_, ?_, ?_⟩
  · rintro ⟨a, b, c, d⟩; exact ⟨a, by linarith, c, d⟩
  · rintro ⟨a, b, c, d⟩; exact ⟨by linarith, by linarith, c, d⟩
  · rintro ⟨⟨a, b, c, d⟩, a', b', c', d'⟩; linarith
  · rintro ⟨a, b, c, d⟩; exact ⟨a, b, c, by linarith⟩
  · rintro ⟨a, b, c, d⟩; exact ⟨a, b, by linarith, by linarith⟩
  · rintro ⟨⟨a, b, c, d⟩, a', b', c', d'⟩; linarith

theorem split_has {t : Tile} (axis : Axis) (h : 0 < t.w ∧ 0 < t.h) (p : Pos) :
    t.Has p ↔ (split t axis).1.Has p ∨ (split t axis).2.Has p := by
  obtain ⟨h1, h2⟩ := h
  cases axis <;> simp only [split, Tile.Has] <;> constructor
  · rintro ⟨a, b, c, d⟩
    rcases le_total p.x (t.x + t.w / 2) with hx | hx
    · exact Or.inl ⟨a, hx, c, d⟩
    · exact Or.inr ⟨hx, by linarith, c, d⟩
  · rintro (⟨a, b, c, d⟩ | ⟨a, b, c, d⟩)
    · exact ⟨a, by linarith, c, d⟩
    · exact ⟨by linarith, by linarith, c, d⟩
  · rintro ⟨a, b, c, d⟩
    rcases le_total p.y (t.y + t.h / 2) with hy | hy
    · exact Or.inl ⟨a, b, c, hy⟩
    · exact Or.inr ⟨a, b, hy, by linarith⟩
  · rintro (⟨a, b, c, d⟩ | ⟨a, b, c, d⟩)
    · exact ⟨a, b, c, by linarith⟩
    · exact ⟨a, b, by linarith, by linarith⟩

theorem split_area (t : Tile) (axis : Axis) :
    (split t axis).1.w * (split t axis).1.h + (split t axis).2.w * (split t axis).2.h = t.w * t.h := by
  cases axis <;> simp only [split] <;> ring

theorem mem_splitFirst {axis : Axis} {k : Nat} {ts : List Tile} {s : Tile} (h : s ∈ splitFirst axis k ts) :
    s ∈ ts ∨ ∃ t ∈ ts, s = (split t axis).1 ∨ s = (split t axis).2 := by
  induction ts generalizing k with
  | nil => cases k <;> simp [splitFirst] at h
  | cons t ts ih =>
    cases k with
    | zero => exact Or.inl h
    | succ k =>
      rw [splitFirst, List.mem_cons, List.mem_cons] at h
      rcases h with h | h | h
      · exact Or.inr ⟨t, List.mem_cons_self, Or.inl h⟩
      · exact Or.inr ⟨t, List.mem_cons_self, Or.inr h⟩
      · rcases ih h with h | ⟨t', h1, h2⟩
        · exact Or.inl (List.mem_cons_of_mem _ h)
        · exact Or.inr ⟨t', List.mem_cons_of_mem _ h1, h2⟩

theorem mem_splitFirst_all {axis : Axis} {ts : List Tile} {s : Tile} (h : s ∈ splitFirst axis ts.length ts) :
    ∃ t ∈ ts, s = (split t axis).1 ∨ s = (split t axis).2 := by
  induction ts with
  | nil => simp [splitFirst] at h
  | cons t ts ih =>
    rw [List.length_cons, splitFirst, List.mem_cons, List.mem_cons] at h
    rcases h with h | h | h
    · exact ⟨t, List.mem_cons_self, Or.inl h⟩
    · exact ⟨t, List.mem_cons_self, Or.inr h⟩
    · obtain ⟨t', h1, h2⟩ := ih h
      exact ⟨t', List.mem_cons_of_mem _ h1, h2⟩

theorem splitFirst_inside {axis : Axis} {k : Nat} {ts : List Tile} (hp : ∀ t ∈ ts, 0 < t.w ∧ 0 < t.h) {s : Tile}
    (h : s ∈ splitFirst axis k ts) {p : Pos} (hs : s.Inside p) : ∃ t ∈ ts, t.Inside p := by
  rcases mem_splitFirst h with h | ⟨t, h1, h2⟩
  · exact ⟨s, h, hs⟩
  · obtain ⟨a, b, _⟩ := split_inside axis (hp t h1) p
    rcases h2 with rfl | rfl
    · exact ⟨t, h1, a hs⟩
    · exact ⟨t, h1, b hs⟩

theorem splitFirst_positive {axis : Axis} {k : Nat} {ts : List Tile} (hp : ∀ t ∈ ts, 0 < t.w ∧ 0 < t.h) :
    ∀ t ∈ splitFirst axis k ts, 0 < t.w ∧ 0 < t.h := by
  intro s hs
  rcases mem_splitFirst hs with h | ⟨t, h1, h2⟩
  · exact hp s h
  · have := split_positive axis (hp t h1)
    rcases h2 with rfl | rfl
    · exact this.1
    · exact this.2

theorem splitFirst_disjoint {axis : Axis} {k : Nat} {ts : List Tile} (hp : ∀ t ∈ ts, 0 < t.w ∧ 0 < t.h)
    (hd : ts.Pairwise (fun s t => ∀ p, ¬ (s.Inside p ∧ t.Inside p))) :
    (splitFirst axis k ts).Pairwise (fun s t => ∀ p, ¬ (s.Inside p ∧ t.Inside p)) := by
  induction ts generalizing k with
  | nil => cases k <;> simp [splitFirst]
  | cons t ts ih =>
    cases k with
    | zero => exact hd
    | succ k =>
      have hpt := hp t List.mem_cons_self
      have hpts := fun t' h => hp t' (List.mem_cons_of_mem t h)
      rw [List.pairwise_cons] at hd
      have key : ∀ s ∈ splitFirst axis k ts, ∀ p, ¬ (t.Inside p ∧ s.Inside p) := by
        rintro s hs p ⟨h1, h2⟩
        obtain ⟨t', h3, h4⟩ := splitFirst_inside hpts hs h2
        exact hd.1 t' h3 p ⟨h1, h4⟩
      rw [splitFirst, List.pairwise_cons, List.pairwise_cons]
      refine ⟨?_, ?_, ih hpts hd.2⟩
      · intro s hs p hh
        rcases List.mem_cons.1 hs with rfl | hs
        · exact (split_inside axis hpt p).2.2 hh
        · exact key s hs p ⟨(split_inside axis hpt p).1 hh.1, hh.2⟩
      · intro s hs p hh
        exact key s hs p ⟨(split_inside axis hpt p).2.1 hh.1, hh.2⟩

theorem splitFirst_has {axis : Axis} {k : Nat} {ts : List Tile} (hp : ∀ t ∈ ts, 0 < t.w ∧ 0 < t.h) (p : Pos) :
    (∃ t ∈ splitFirst axis k ts, t.Has p) ↔ ∃ t ∈ ts, t.Has p := by
  induction ts generalizing k with
  | nil => cases k <;> simp [splitFirst]
  | cons t ts ih =>
    cases k with
    | zero => exact Iff.rfl
    | succ k =>
      have hpts := fun t' h => hp t' (List.mem_cons_of_mem t h)
      simp only [splitFirst, List.exists_mem_cons_iff, ih hpts, split_has axis (hp t List.mem_cons_self), or_assoc]

theorem splitFirst_area (axis : Axis) (k : Nat) (ts : List Tile) :
    ((splitFirst axis k ts).map (fun t => t.w * t.h)).sum = (ts.map (fun t => t.w * t.h)).sum := by
  induction ts generalizing k with
  | nil => cases k <;> rfl
  | cons t ts ih =>
    cases k with
    | zero => rfl
    | succ k =>
      simp only [splitFirst, List.map_cons, List.sum_cons, ih]
      rw [← split_area t axis]
      ring

theorem partition_splitFirst {root : Tile} {ts : List Tile} (h : Partition root ts) (axis : Axis) (k : Nat) :
    Partition root (splitFirst axis k ts) where
  positive := splitFirst_positive h.positive
  disjoint := splitFirst_disjoint h.positive h.disjoint
  covers := fun p => (h.covers p).trans (splitFirst_has h.positive p).symm
  area := (splitFirst_area axis k ts).trans h.area

theorem partition_root {root : Tile} (h : 0 < root.w ∧ 0 < root.h) : Partition root [root] where
  positive := by intro t ht; rw [List.mem_singleton] at ht; rw [ht]; exact h
  disjoint := List.pairwise_singleton _ _
  covers := by intro p; simp
  area := by simp

theorem partition_first {root : Tile} (h : 0 < root.w ∧ 0 < root.h) :
    Partition root [(split root .vertical).1, (split root .vertical).2] :=
  partition_splitFirst (partition_root h) .vertical 1

/-! ### Boxes lie on a grid, with one axis possibly refined once -/

/-- The interval is a cell of the division of `[o, o + len]` into `n`, or half of one. -/
def Cell (o len : Rat) (n : Nat) (lo hi : Rat) : Prop :=
  ∃ i : Int, (lo = o + 2 * i * (len / (2 * n)) ∧ hi = o + (2 * i + 2) * (len / (2 * n)))

def Half (o len : Rat) (n : Nat) (lo hi : Rat) : Prop :=
  ∃ i : Int, (lo = o + i * (len / (2 * n)) ∧ hi = o + (i + 1) * (len / (2 * n)))

/-- All boxes are cells of an `nx` by `ny` grid. -/
def Uniform (root : Tile) (nx ny : Nat) (ts : List Tile) : Prop :=
  0 < nx ∧ 0 < ny ∧ ∀ t ∈ ts, Cell root.x root.w nx t.x (t.x + t.w) ∧ Cell root.y root.h ny t.y (t.y + t.h)

/-- All boxes are cells or halves of cells of an `nx` by `ny` grid. -/
def NearUniform (root : Tile) (nx ny : Nat) (ts : List Tile) : Prop :=
  0 < nx ∧ 0 < ny ∧ ∀ t ∈ ts,
    (Cell root.x root.w nx t.x (t.x + t.w) ∨ Half root.x root.w nx t.x (t.x + t.w)) ∧
    (Cell root.y root.h ny t.y (t.y + t.h) ∨ Half root.y root.h ny t.y (t.y + t.h))

theorem cell_halves {o len lo w : Rat} {n : Nat} (h : Cell o len n lo (lo + w)) :
    Half o len n lo (lo + w / 2) ∧ Half o len n (lo + w / 2) (lo + w / 2 + w / 2) := by
  obtain ⟨i, h1, h2⟩ := h
  have hw : w / 2 = len / (2 * n) := by linarith
  refine ⟨⟨2 * i, ?_, ?_⟩, ⟨2 * i + 1, ?_, ?_⟩⟩
  · rw [h1]; push_cast; ring
  · rw [hw, h1]; push_cast; ring
  · rw [hw, h1]; push_cast; ring
  · rw [hw, h1]; push_cast; ring

theorem half_cell {o len lo hi : Rat} {n : Nat} (h : Half o len n lo hi) : Cell o len (2 * n) lo hi := by
  obtain ⟨i, h1, h2⟩ := h
  have e : len / (2 * ((2 * n : Nat) : Rat)) = len / (2 * n) / 2 := by
    push_cast
    rw [div_div]
    congr 1
    ring
  refine ⟨i, ?_, ?_⟩
  · rw [h1, e]; ring
  · rw [h2, e]; ring

theorem uniform_near {root : Tile} {nx ny : Nat} {ts : List Tile} (h : Uniform root nx ny ts) :
    NearUniform root nx ny ts :=
  ⟨h.1, h.2.1, fun t ht => ⟨Or.inl (h.2.2 t ht).1, Or.inl (h.2.2 t ht).2⟩⟩

theorem near_splitFirst {root : Tile} {nx ny : Nat} {ts : List Tile} (h : Uniform root nx ny ts) (axis : Axis) (k : Nat) :
    NearUniform root nx ny (splitFirst axis k ts) := by
  refine ⟨h.1, h.2.1, ?_⟩
  intro s hs
  rcases mem_splitFirst hs with hs | ⟨t, ht, hst⟩
  · exact (uniform_near h).2.2 s hs
  · obtain ⟨hx, hy⟩ := h.2.2 t ht
    cases axis with
    | vertical =>
      rcases hst with rfl | rfl
      · exact ⟨Or.inr (cell_halves hx).1, Or.inl hy⟩
      · exact ⟨Or.inr (cell_halves hx).2, Or.inl hy⟩
    | horizontal =>
      rcases hst with rfl | rfl
      · exact ⟨Or.inl hx, Or.inr (cell_halves hy).1⟩
      · exact ⟨Or.inl hx, Or.inr (cell_halves hy).2⟩

theorem uniform_splitAll {root : Tile} {nx ny : Nat} {ts : List Tile} (h : Uniform root nx ny ts) (axis : Axis) :
    ∃ nx' ny', nx' * ny' = 2 * (nx * ny) ∧ Uniform root nx' ny' (splitFirst axis ts.length ts) := by
  obtain ⟨h1, h2, h3⟩ := h
  cases axis with
  | vertical =>
    refine ⟨2 * nx, ny, by ring, by omega, h2, ?_⟩
    intro s hs
    obtain ⟨t, ht, hst⟩ := mem_splitFirst_all hs
    obtain ⟨hx, hy⟩ := h3 t ht
    rcases hst with rfl | rfl
    · exact ⟨half_cell (cell_halves hx).1, hy⟩
    · exact ⟨half_cell (cell_halves hx).2, hy⟩
  | horizontal =>
    refine ⟨nx, 2 * ny, by ring, h1, by omega, ?_⟩
    intro s hs
    obtain ⟨t, ht, hst⟩ := mem_splitFirst_all hs
    obtain ⟨hx, hy⟩ := h3 t ht
    rcases hst with rfl | rfl
    · exact ⟨hx, half_cell (cell_halves hy).1⟩
    · exact ⟨hx, half_cell (cell_halves hy).2⟩

theorem uniform_first (root : Tile) : Uniform root 2 1 [(split root .vertical).1, (split root .vertical).2] := by
  have h : Uniform root 1 1 [root] := by
    refine ⟨by omega, by omega, ?_⟩
    intro t ht
    rw [List.mem_singleton] at ht
    subst ht
    refine ⟨⟨0, ?_, ?_⟩, ⟨0, ?_, ?_⟩⟩ <;> push_cast <;> ring
  refine ⟨by omega, by omega, ?_⟩
  intro s hs
  obtain ⟨t, ht, hst⟩ := mem_splitFirst_all (axis := .vertical) (ts := [root]) hs
  obtain ⟨hx, hy⟩ := h.2.2 t ht
  rcases hst with rfl | rfl
  · exact ⟨half_cell (cell_halves hx).1, hy⟩
  · exact ⟨half_cell (cell_halves hx).2, hy⟩

/-- Everything about the subtrees of `p ≥ 2` processes. -/
theorem subtrees_spec {root : Tile} (h : 0 < root.w ∧ 0 < root.h) {p : Nat} (hp : 2 ≤ p) :
    ∃ ts, subtrees root p = some ts ∧ ts.length = p ∧ Partition root ts ∧ ∃ nx ny, NearUniform root nx ny ts := by
  obtain ⟨ts, h1, h2, h3, h4⟩ := passes_inv (p := p) (fun _ ts => Partition root ts ∧ ∃ nx ny, Uniform root nx ny ts)
    (fun ts => Partition root ts ∧ ∃ nx ny, NearUniform root nx ny ts)
    (fun _ _ ⟨a, nx, ny, b⟩ => ⟨a, nx, ny, uniform_near b⟩)
    (fun axis ts ⟨a, nx, ny, b⟩ => by
      obtain ⟨nx', ny', _, b'⟩ := uniform_splitAll b axis
      exact ⟨partition_splitFirst a _ _, nx', ny', b'⟩)
    (fun axis ts k ⟨a, nx, ny, b⟩ => ⟨partition_splitFirst a _ _, nx, ny, near_splitFirst b _ _⟩)
    p .horizontal [(split root .vertical).1, (split root .vertical).2] (by simp) (by simpa using hp) (by simp)
    ⟨partition_first h, 2, 1, uniform_first root⟩
  refine ⟨ts, ?_, h2, h3, h4⟩
  unfold subtrees
  rw [if_pos (by omega)]
  exact h1

/-- For a power of two the boxes form a uniform grid. -/
theorem passes_pow {root : Tile} (e : Nat) : ∀ (fuel k : Nat) (axis : Axis) (ts : List Tile) (nx ny : Nat),
    k ≤ e → ts.length = 2 ^ k → 2 ^ e ≤ 2 ^ k + fuel → Uniform root nx ny ts →
    ∃ ts' nx' ny', passes (2 ^ e) fuel axis ts ts.length = some ts' ∧ Uniform root nx' ny' ts' := by
  intro fuel
  induction fuel with
  | zero => intro k axis ts nx ny _ _ _ hu; exact ⟨ts, nx, ny, rfl, hu⟩
  | succ fuel ih =>
    intro k axis ts nx ny hk hl hf hu
    rw [passes]
    by_cases hlt : ts.length < 2 ^ e
    · have hke : k < e := by
        rcases Nat.lt_or_ge k e with h | h
        · exact h
        · have : k = e := by omega
          subst this
          omega
      have hpow : 2 ^ (k + 1) ≤ 2 ^ e := Nat.pow_le_pow_right (by omega) hke
      rw [if_pos hlt, pass_eq (by omega)]
      dsimp only
      have hpow' : 2 ^ (k + 1) = 2 ^ k + 2 ^ k := by rw [Nat.pow_succ]; omega
      have hk0 : 0 < 2 ^ k := Nat.pow_pos (by omega)
      have hlen := splitFirst_length axis (2 ^ e - ts.length) ts
      have hsame : splitFirst axis (2 ^ e - ts.length) ts = splitFirst axis ts.length ts := by
        have : ∀ (ts : List Tile) (k : Nat), ts.length ≤ k → splitFirst axis k ts = splitFirst axis ts.length ts := by
          intro ts
          induction ts with
          | nil => intro k _; cases k <;> rfl
          | cons t ts ih =>
            intro k hk
            rw [List.length_cons] at hk
            obtain ⟨k, rfl⟩ : ∃ k', k = k' + 1 := ⟨k - 1, by omega⟩
            rw [List.length_cons, splitFirst, splitFirst, ih k (by omega)]
        exact this ts _ (by omega)
      have hmin : min (2 ^ e) (ts.length + ts.length) = (splitFirst axis (2 ^ e - ts.length) ts).length := by omega
      obtain ⟨nx', ny', _, hu'⟩ := uniform_splitAll hu axis
      rw [hmin]
      refine ih (k + 1) _ _ nx' ny' (by omega) (by omega) (by omega) ?_
      rw [hsame]
      exact hu'
    · rw [if_neg hlt]
      exact ⟨ts, nx, ny, rfl, hu⟩

theorem subtrees_pow (root : Tile) {e : Nat} (he : 1 ≤ e) :
    ∃ ts nx ny, subtrees root (2 ^ e) = some ts ∧ Uniform root nx ny ts := by
  have h2 : 2 ^ 1 ≤ 2 ^ e := Nat.pow_le_pow_right (by omega) he
  obtain ⟨ts, nx, ny, h, hu⟩ := passes_pow (root := root) e (2 ^ e) 1 .horizontal
    [(split root .vertical).1, (split root .vertical).2] 2 1 he rfl (by omega) (uniform_first root)
  refine ⟨ts, nx, ny, ?_, hu⟩
  unfold subtrees
  rw [if_pos (by omega)]
  exact h

end Verif.KdTree
