import Verif.Lemmas.KdTree3

/-!
The boxes of the distributed field for every number of processes: when they form a grid of rows and columns, and which
halos are not sent when they do not.
-/

namespace Verif.KdTree

open Torus

/-! ### full passes -/

/-- All boxes are halved. -/
def splitAll (axis : Axis) (ts : List Tile) : List Tile := ts.flatMap (fun t => [(split t axis).1, (split t axis).2])

/-- Full passes along alternating axes. -/
def grow : Axis → Nat → List Tile → List Tile
  | _, 0, ts => ts
  | axis, f + 1, ts => grow axis.other f (splitAll axis ts)

/-- The axis after `f` passes. -/
def after : Axis → Nat → Axis
  | axis, 0 => axis
  | axis, f + 1 => after axis.other f

theorem splitFirst_eq (axis : Axis) (k : Nat) (ts : List Tile) :
    splitFirst axis k ts = splitAll axis (ts.take k) ++ ts.drop k := by
  induction ts generalizing k with
  | nil => cases k <;> rfl
  | cons t ts ih =>
    cases k with
    | zero => rfl
    | succ k => rw [splitFirst, ih]; rfl

theorem splitFirst_all (axis : Axis) {k : Nat} {ts : List Tile} (h : ts.length ≤ k) : splitFirst axis k ts = splitAll axis ts := by
  rw [splitFirst_eq, List.take_of_length_le h, List.drop_of_length_le h, List.append_nil]

theorem splitAll_length (axis : Axis) (ts : List Tile) : (splitAll axis ts).length = 2 * ts.length := by
  rw [← splitFirst_all axis (le_refl _), splitFirst_length]
  omega

theorem splitAll_append (axis : Axis) (a b : List Tile) : splitAll axis (a ++ b) = splitAll axis a ++ splitAll axis b :=
  List.flatMap_append

theorem grow_append (f : Nat) : ∀ (axis : Axis) (a b : List Tile), grow axis f (a ++ b) = grow axis f a ++ grow axis f b := by
  induction f with
  | zero => intro axis a b; rfl
  | succ f ih => intro axis a b; rw [grow, splitAll_append, ih]; rfl

theorem grow_length (f : Nat) : ∀ (axis : Axis) (ts : List Tile), (grow axis f ts).length = 2 ^ f * ts.length := by
  induction f with
  | zero => intro axis ts; rw [grow, Nat.pow_zero, Nat.one_mul]
  | succ f ih => intro axis ts; rw [grow, ih, splitAll_length, Nat.pow_succ]; ring

theorem grow_one (axis : Axis) (f : Nat) (R : Tile) :
    grow axis (f + 1) [R] = grow axis.other f [(split R axis).1] ++ grow axis.other f [(split R axis).2] := by
  rw [grow, ← grow_append]
  rfl

theorem grow_snoc (f : Nat) : ∀ (axis : Axis) (ts : List Tile), grow axis (f + 1) ts = splitAll (after axis f) (grow axis f ts) := by
  induction f with
  | zero => intro axis ts; rfl
  | succ f ih => intro axis ts; rw [grow, ih]; rfl

theorem partition_grow {root : Tile} (f : Nat) : ∀ (axis : Axis) (ts : List Tile), Partition root ts → Partition root (grow axis f ts) := by
  induction f with
  | zero => intro axis ts h; exact h
  | succ f ih =>
    intro axis ts h
    refine ih _ _ ?_
    rw [← splitFirst_all axis (le_refl _)]
    exact partition_splitFirst h _ _

theorem passes_eq (p : Nat) (f : Nat) : ∀ (axis : Axis) (ts : List Tile) (fuel k : Nat), ts ≠ [] → f + 1 ≤ fuel →
    p = 2 ^ f * ts.length + k → k < 2 ^ f * ts.length →
    passes p fuel axis ts ts.length = some (splitFirst (after axis f) k (grow axis f ts)) := by
  induction f with
  | zero =>
    intro axis ts fuel k hne hf hp hk
    obtain ⟨fuel, rfl⟩ : ∃ n, fuel = n + 1 := ⟨fuel - 1, by omega⟩
    rw [Nat.pow_zero, Nat.one_mul] at hp hk
    rw [passes]
    by_cases h : ts.length < p
    · rw [if_pos h, pass_eq (by omega)]
      dsimp only
      have hm : min p (ts.length + ts.length) = p := by omega
      have hk' : p - ts.length = k := by omega
      rw [hm, hk']
      cases fuel with
      | zero => rfl
      | succ fuel => rw [passes, if_neg (by omega)]; rfl
    · rw [if_neg h]
      have : k = 0 := by omega
      subst this
      rw [splitFirst_eq]
      rfl
  | succ f ih =>
    intro axis ts fuel k hne hf hp hk
    obtain ⟨fuel, rfl⟩ : ∃ n, fuel = n + 1 := ⟨fuel - 1, by omega⟩
    have hlen : 0 < ts.length := List.length_pos_iff.2 hne
    have hpow : 2 ^ (f + 1) * ts.length = 2 ^ f * (2 * ts.length) := by rw [Nat.pow_succ]; ring
    have hbig : 2 * ts.length ≤ 2 ^ f * (2 * ts.length) := Nat.le_mul_of_pos_left _ (Nat.pow_pos (by omega))
    rw [passes, if_pos (by omega), pass_eq (by omega)]
    dsimp only
    have hm : min p (ts.length + ts.length) = (splitAll axis ts).length := by rw [splitAll_length]; omega
    rw [splitFirst_all axis (by omega), hm]
    refine ih axis.other (splitAll axis ts) fuel k ?_ (by omega) ?_ ?_
    · intro e
      have := splitAll_length axis ts
      rw [e, List.length_nil] at this
      omega
    · rw [splitAll_length, ← hpow]; exact hp
    · rw [splitAll_length, ← hpow]; exact hk

/-- The boxes for `2 ^ e + k` processes. -/
theorem subtrees_eq (root : Tile) {e k : Nat} (he : 1 ≤ e) (hk : k < 2 ^ e) :
    subtrees root (2 ^ e + k) = some (splitFirst (after .vertical e) k (grow .vertical e [root])) := by
  obtain ⟨f, rfl⟩ : ∃ f, e = f + 1 := ⟨e - 1, by omega⟩
  have hp : 2 ≤ 2 ^ (f + 1) := by rw [Nat.pow_succ]; have := Nat.pow_pos (n := f) (show 0 < 2 by omega); omega
  unfold subtrees
  rw [if_pos (by omega)]
  refine passes_eq _ f .horizontal [(split root .vertical).1, (split root .vertical).2] _ k (by simp) ?_ ?_ ?_
  · have := @Nat.lt_two_pow_self (f + 1)
    omega
  · rw [Nat.pow_succ]; rfl
  · rw [Nat.pow_succ] at hk; exact hk

theorem after_even (m : Nat) : ∀ axis, after axis (2 * m) = axis := by
  induction m with
  | zero => intro axis; rfl
  | succ m ih => intro axis; rw [Nat.mul_succ, after, after, ih]; cases axis <;> rfl

theorem after_odd (m : Nat) (axis : Axis) : after axis (2 * m + 1) = axis.other := by
  rw [after, after_even]

/-! ### where the boxes are -/

theorem grow_size (f : Nat) : ∀ (axis : Axis) (ts : List Tile), (∃ w h, ∀ t ∈ ts, t.w = w ∧ t.h = h) →
    ∃ w h, ∀ t ∈ grow axis f ts, t.w = w ∧ t.h = h := by
  induction f with
  | zero => intro axis ts h; exact h
  | succ f ih =>
    rintro axis ts ⟨w, h, hwh⟩
    refine ih _ _ ?_
    cases axis with
    | vertical =>
      refine ⟨w / 2, h, fun t ht => ?_⟩
      obtain ⟨s, hs, ht⟩ := List.mem_flatMap.1 ht
      obtain ⟨rfl, rfl⟩ := hwh s hs
      simp only [split, List.mem_cons, List.not_mem_nil, or_false] at ht
      rcases ht with rfl | rfl <;> exact ⟨rfl, rfl⟩
    | horizontal =>
      refine ⟨w, h / 2, fun t ht => ?_⟩
      obtain ⟨s, hs, ht⟩ := List.mem_flatMap.1 ht
      obtain ⟨rfl, rfl⟩ := hwh s hs
      simp only [split, List.mem_cons, List.not_mem_nil, or_false] at ht
      rcases ht with rfl | rfl <;> exact ⟨rfl, rfl⟩

/-- The low or high ends of two intervals agree. -/
def Flush (high : Bool) (lo len lo' len' : Rat) : Prop := if high then lo + len = lo' + len' else lo = lo'

/-- There is a box in every corner; the first is in the low corner and the last in the high one. -/
theorem grow_corner (f : Nat) : ∀ (axis : Axis) (R : Tile) (bx hy : Bool), ∃ i t, i < 2 ^ f ∧ (grow axis f [R])[i]? = some t ∧
    Flush bx t.x t.w R.x R.w ∧ Flush hy t.y t.h R.y R.h ∧ (bx = false → hy = false → i = 0) ∧
    (bx = true → hy = true → i = 2 ^ f - 1) := by
  induction f with
  | zero =>
    intro axis R bx hy
    refine ⟨0, R, by simp, rfl, ?_, ?_, fun _ _ => rfl, fun _ _ => rfl⟩
    · unfold Flush; split <;> rfl
    · unfold Flush; split <;> rfl
  | succ f ih =>
    intro axis R bx hy
    have hp : 2 ^ (f + 1) = 2 ^ f + 2 ^ f := by rw [Nat.pow_succ]; omega
    have hlen : (grow axis.other f [(split R axis).1]).length = 2 ^ f := by rw [grow_length]; simp
    rw [grow_one]
    have low : ∀ i t, i < 2 ^ f → (grow axis.other f [(split R axis).1])[i]? = some t →
        (grow axis.other f [(split R axis).1] ++ grow axis.other f [(split R axis).2])[i]? = some t := by
      intro i t hi ht
      rw [List.getElem?_append_left (by omega)]
      exact ht
    have high : ∀ i t, (grow axis.other f [(split R axis).2])[i]? = some t →
        (grow axis.other f [(split R axis).1] ++ grow axis.other f [(split R axis).2])[2 ^ f + i]? = some t := by
      intro i t ht
      rw [List.getElem?_append_right (by omega), hlen, Nat.add_sub_cancel_left]
      exact ht
    cases axis with
    | vertical =>
      cases bx with
      | false =>
        obtain ⟨i, t, h1, h2, h3, h4, h5, h6⟩ := ih Axis.vertical.other (split R .vertical).1 false hy
        refine ⟨i, t, by omega, low i t h1 h2, h3, h4, h5, fun h => by cases h⟩
      | true =>
        obtain ⟨i, t, h1, h2, h3, h4, h5, h6⟩ := ih Axis.vertical.other (split R .vertical).2 true hy
        refine ⟨2 ^ f + i, t, by omega, high i t h2, ?_, h4, fun h => (by cases h), fun _ h => (by have := h6 rfl h; omega)⟩
        unfold Flush at h3 ⊢
        rw [if_pos rfl] at h3 ⊢
        rw [h3]
        show R.x + R.w / 2 + R.w / 2 = R.x + R.w
        ring
    | horizontal =>
      cases hy with
      | false =>
        obtain ⟨i, t, h1, h2, h3, h4, h5, h6⟩ := ih Axis.horizontal.other (split R .horizontal).1 bx false
        refine ⟨i, t, by omega, low i t h1 h2, h3, h4, h5, fun _ h => by cases h⟩
      | true =>
        obtain ⟨i, t, h1, h2, h3, h4, h5, h6⟩ := ih Axis.horizontal.other (split R .horizontal).2 bx true
        refine ⟨2 ^ f + i, t, by omega, high i t h2, h3, ?_, fun _ h => (by cases h), fun h _ => (by have := h6 h rfl; omega)⟩
        unfold Flush at h4 ⊢
        rw [if_pos rfl] at h4 ⊢
        rw [h4]
        show R.y + R.h / 2 + R.h / 2 = R.y + R.h
        ring

/-- Across the ends of the box along the axis of the first pass, a box that is among the first `k` meets one that is not. -/
theorem ends_meet (axis : Axis) (f : Nat) (R : Tile) {k : Nat} (h0 : 0 < k) (hk : k < 2 ^ (f + 1)) :
    ∃ i j t u, i < k ∧ k ≤ j ∧ (grow axis (f + 1) [R])[i]? = some t ∧ (grow axis (f + 1) [R])[j]? = some u ∧
      t.w = u.w ∧ t.h = u.h ∧
      match axis with
      | .vertical => t.x = R.x ∧ u.x + u.w = R.x + R.w ∧ t.y = u.y
      | .horizontal => t.y = R.y ∧ u.y + u.h = R.y + R.h ∧ t.x = u.x := by
  have hp : 2 ^ (f + 1) = 2 ^ f + 2 ^ f := by rw [Nat.pow_succ]; omega
  obtain ⟨w, h, hwh⟩ := grow_size (f + 1) axis [R] ⟨R.w, R.h, by simp⟩
  have hlen : (grow axis.other f [(split R axis).1]).length = 2 ^ f := by rw [grow_length]; simp
  -- a box of the first half and one of the second
  have pair : ∀ bx hy bx' hy' : Bool,
      (∀ i j, (bx = false → hy = false → i = 0) → (bx' = true → hy' = true → j = 2 ^ f - 1) → i < 2 ^ f → j < 2 ^ f →
        i < k ∧ k ≤ 2 ^ f + j) →
      ∃ i j t u, i < k ∧ k ≤ j ∧ (grow axis (f + 1) [R])[i]? = some t ∧ (grow axis (f + 1) [R])[j]? = some u ∧
        t.w = u.w ∧ t.h = u.h ∧ Flush bx t.x t.w (split R axis).1.x (split R axis).1.w ∧
        Flush hy t.y t.h (split R axis).1.y (split R axis).1.h ∧ Flush bx' u.x u.w (split R axis).2.x (split R axis).2.w ∧
        Flush hy' u.y u.h (split R axis).2.y (split R axis).2.h := by
    intro bx hy bx' hy' hij
    obtain ⟨i, t, a1, a2, a3, a4, a5, _⟩ := grow_corner f axis.other (split R axis).1 bx hy
    obtain ⟨j, u, b1, b2, b3, b4, _, b6⟩ := grow_corner f axis.other (split R axis).2 bx' hy'
    have ht : (grow axis (f + 1) [R])[i]? = some t := by
      rw [grow_one, List.getElem?_append_left (by omega)]
      exact a2
    have hu : (grow axis (f + 1) [R])[2 ^ f + j]? = some u := by
      rw [grow_one, List.getElem?_append_right (by omega), hlen, Nat.add_sub_cancel_left]
      exact b2
    obtain ⟨c1, c2⟩ := hij i j a5 b6 a1 b1
    obtain ⟨w1, w2⟩ := hwh t (List.mem_of_getElem? ht)
    obtain ⟨w3, w4⟩ := hwh u (List.mem_of_getElem? hu)
    exact ⟨i, _, t, u, c1, c2, ht, hu, by rw [w1, w3], by rw [w2, w4], a3, a4, b3, b4⟩
  cases axis with
  | vertical =>
    rcases Nat.lt_or_ge (2 ^ f) k with hlt | hge
    · obtain ⟨i, j, t, u, h1, h2, h3, h4, h5, h6, f1, f2, f3, f4⟩ := pair false true true true (by
        intro i j _ hj hi hj'
        have := hj rfl rfl
        omega)
      refine ⟨i, j, t, u, h1, h2, h3, h4, h5, h6, ?_⟩
      simp only [Flush, split, if_true] at f1 f2 f3 f4
      refine ⟨by simpa using f1, by linarith, by linarith⟩
    · obtain ⟨i, j, t, u, h1, h2, h3, h4, h5, h6, f1, f2, f3, f4⟩ := pair false false true false (by
        intro i j hi _ _ _
        have := hi rfl rfl
        omega)
      refine ⟨i, j, t, u, h1, h2, h3, h4, h5, h6, ?_⟩
      simp only [Flush, split, if_true, Bool.false_eq_true, if_false] at f1 f2 f3 f4
      exact ⟨f1, by linarith, by rw [f2, f4]⟩
  | horizontal =>
    rcases Nat.lt_or_ge (2 ^ f) k with hlt | hge
    · obtain ⟨i, j, t, u, h1, h2, h3, h4, h5, h6, f1, f2, f3, f4⟩ := pair true false true true (by
        intro i j _ hj hi hj'
        have := hj rfl rfl
        omega)
      refine ⟨i, j, t, u, h1, h2, h3, h4, h5, h6, ?_⟩
      simp only [Flush, split, if_true] at f1 f2 f3 f4
      refine ⟨by simpa using f2, by linarith, by linarith⟩
    · obtain ⟨i, j, t, u, h1, h2, h3, h4, h5, h6, f1, f2, f3, f4⟩ := pair false false false true (by
        intro i j hi _ _ _
        have := hi rfl rfl
        omega)
      refine ⟨i, j, t, u, h1, h2, h3, h4, h5, h6, ?_⟩
      simp only [Flush, split, if_true, Bool.false_eq_true, if_false] at f1 f2 f3 f4
      exact ⟨f2, by linarith, by rw [f1, f3]⟩

/-! ### the last, incomplete pass -/

theorem splitAll_getElem? (axis : Axis) (ts : List Tile) (i : Nat) :
    (splitAll axis ts)[2 * i]? = ts[i]?.map (fun t => (split t axis).1) := by
  induction ts generalizing i with
  | nil => simp [splitAll]
  | cons t ts ih =>
    have e : splitAll axis (t :: ts) = (split t axis).1 :: (split t axis).2 :: splitAll axis ts := rfl
    rw [e]
    cases i with
    | zero => rfl
    | succ i =>
      rw [Nat.mul_succ, List.getElem?_cons_succ, List.getElem?_cons_succ, List.getElem?_cons_succ]
      exact ih i

theorem splitFirst_low {axis : Axis} {k : Nat} {ts : List Tile} {i : Nat} (hi : i < k) {t : Tile} (ht : ts[i]? = some t) :
    (splitFirst axis k ts)[2 * i]? = some (split t axis).1 := by
  obtain ⟨hlt, _⟩ := List.getElem?_eq_some_iff.1 ht
  rw [splitFirst_eq, List.getElem?_append_left (by rw [splitAll_length, List.length_take]; omega), splitAll_getElem?,
    List.getElem?_take_of_lt hi, ht]
  rfl

theorem splitFirst_high {axis : Axis} {k : Nat} {ts : List Tile} {j : Nat} (hj : k ≤ j) {t : Tile} (ht : ts[j]? = some t) :
    (splitFirst axis k ts)[j + k]? = some t := by
  obtain ⟨hlt, _⟩ := List.getElem?_eq_some_iff.1 ht
  have hl : (splitAll axis (ts.take k)).length = 2 * k := by rw [splitAll_length, List.length_take]; omega
  rw [splitFirst_eq, List.getElem?_append_right (by omega), hl, List.getElem?_drop]
  have : k + (j + k - 2 * k) = j := by omega
  rw [this]
  exact ht

/-- Half of a box faces a whole box across the ends of the field. -/
def Facing (root s t : Tile) : Prop :=
  (s.x = root.x ∧ t.x + t.w = root.x + root.w ∧ s.y = t.y ∧ t.h = 2 * s.h) ∨
  (s.y = root.y ∧ t.y + t.h = root.y + root.h ∧ s.x = t.x ∧ t.w = 2 * s.w)

theorem facing_of {axis : Axis} {f : Nat} {R root : Tile} {k : Nat} (h0 : 0 < k) (hk : k < 2 ^ (f + 1))
    (hR : match axis with
      | .vertical => R.x = root.x ∧ R.w = root.w
      | .horizontal => R.y = root.y ∧ R.h = root.h) :
    ∃ i j t u, i < k ∧ k ≤ j ∧ (grow axis (f + 1) [R])[i]? = some t ∧ (grow axis (f + 1) [R])[j]? = some u ∧
      Facing root (split t axis.other).1 u := by
  obtain ⟨i, j, t, u, h1, h2, h3, h4, h5, h6, h7⟩ := ends_meet axis f R h0 hk
  refine ⟨i, j, t, u, h1, h2, h3, h4, ?_⟩
  cases axis with
  | vertical =>
    left
    obtain ⟨a, b, c⟩ := h7
    refine ⟨a.trans hR.1, by rw [b, hR.1, hR.2], c, ?_⟩
    show u.h = 2 * (t.h / 2)
    rw [h6]
    ring
  | horizontal =>
    right
    obtain ⟨a, b, c⟩ := h7
    refine ⟨a.trans hR.1, by rw [b, hR.1, hR.2], c, ?_⟩
    show u.w = 2 * (t.w / 2)
    rw [h5]
    ring

/-- Unless the last pass is empty or splits exactly the left half of the field vertically, two boxes face each other that
have no corner in common. -/
theorem facing_exists (root : Tile) {e k : Nat} (he : 1 ≤ e) (h0 : 0 < k) (hk : k < 2 ^ e)
    (hne : ¬ (e % 2 = 0 ∧ k = 2 ^ (e - 1))) :
    ∃ (r s : Nat) (t u : Tile), r ≠ s ∧ (splitFirst (after .vertical e) k (grow .vertical e [root]))[r]? = some t ∧
      (splitFirst (after .vertical e) k (grow .vertical e [root]))[s]? = some u ∧ Facing root t u := by
  obtain ⟨f, rfl⟩ : ∃ f, e = f + 1 := ⟨e - 1, by omega⟩
  rcases Nat.even_or_odd' f with ⟨m, rfl | rfl⟩
  · obtain ⟨i, j, t, u, h1, h2, h3, h4, h5⟩ := facing_of (axis := .vertical) (R := root) (root := root) h0 hk ⟨rfl, rfl⟩
    rw [after_odd]
    exact ⟨_, _, _, _, by omega, splitFirst_low h1 h3, splitFirst_high h2 h4, h5⟩
  · have hp : 2 ^ (2 * m + 1 + 1) = 2 ^ (2 * m + 1) + 2 ^ (2 * m + 1) := by rw [Nat.pow_succ]; omega
    have hne' : k ≠ 2 ^ (2 * m + 1) := fun h => hne ⟨by omega, by rw [h]; rfl⟩
    have e1 : after .vertical (2 * m + 1 + 1) = .vertical := after_even (m + 1) .vertical
    rw [e1]
    have hlen : (grow .horizontal (2 * m + 1) [(split root .vertical).1]).length = 2 ^ (2 * m + 1) := by
      rw [grow_length]; simp
    have e2 : grow .vertical (2 * m + 1 + 1) [root] = grow .horizontal (2 * m + 1) [(split root .vertical).1] ++
      grow .horizontal (2 * m + 1) [(split root .vertical).2] := grow_one .vertical (2 * m + 1) root
    rcases Nat.lt_or_gt_of_ne hne' with hlt | hgt
    · obtain ⟨i, j, t, u, h1, h2, h3, h4, h5⟩ := facing_of (axis := .horizontal) (R := (split root .vertical).1) (root := root)
        h0 hlt ⟨rfl, rfl⟩
      have l3 := (List.getElem?_eq_some_iff.1 h3).1
      have l4 := (List.getElem?_eq_some_iff.1 h4).1
      refine ⟨2 * i, j + k, _, _, by omega, splitFirst_low h1 (t := t) ?_, splitFirst_high h2 (t := u) ?_, h5⟩
      · rw [e2, List.getElem?_append_left l3]; exact h3
      · rw [e2, List.getElem?_append_left l4]; exact h4
    · obtain ⟨i, j, t, u, h1, h2, h3, h4, h5⟩ := facing_of (axis := .horizontal) (R := (split root .vertical).2) (root := root)
        (k := k - 2 ^ (2 * m + 1)) (f := 2 * m) (by omega) (by omega) ⟨rfl, rfl⟩
      refine ⟨2 * (2 ^ (2 * m + 1) + i), 2 ^ (2 * m + 1) + j + k, _, _, by omega,
        splitFirst_low (by omega) (t := t) ?_, splitFirst_high (by omega) (t := u) ?_, h5⟩
      · rw [e2, List.getElem?_append_right (by omega), hlen, Nat.add_sub_cancel_left]; exact h3
      · rw [e2, List.getElem?_append_right (by omega), hlen, Nat.add_sub_cancel_left]; exact h4

theorem partition_within {root : Tile} {ts : List Tile} (hp : Partition root ts) {t : Tile} (ht : t ∈ ts) :
    root.x ≤ t.x ∧ t.x + t.w ≤ root.x + root.w ∧ root.y ≤ t.y ∧ t.y + t.h ≤ root.y + root.h := by
  obtain ⟨pw, ph⟩ := hp.positive t ht
  obtain ⟨a, _, c, _⟩ := (hp.covers ⟨t.x, t.y⟩).2 ⟨t, ht, ⟨le_refl _, by dsimp only; linarith, le_refl _,
    by dsimp only; linarith⟩⟩
  obtain ⟨_, b, _, e⟩ := (hp.covers ⟨t.x + t.w, t.y + t.h⟩).2 ⟨t, ht, ⟨by dsimp only; linarith, le_refl _,
    by dsimp only; linarith, le_refl _⟩⟩
  exact ⟨a, b, c, e⟩

/-- Two points in the boxes that face each other: they are `d / 2` apart across the ends of the field, but the halo of the
one has no corner in common with the box of the other. -/
theorem facing_missed {root : Tile} {ts : List Tile} (hp : Partition root ts) {s t : Tile} (hs : s ∈ ts) (ht : t ∈ ts)
    (hf : Facing root s t) {d : Rat} (hd : 0 < d) (hw : 2 * d < s.w) (hh : 2 * d < s.h) (hw' : 2 * d < t.w) (hh' : 2 * d < t.h) :
    ∃ p q : Pos, ∃ k, s.Inside p ∧ t.Inside q ∧
      (p.x = q.x ∧ p.y - (q.y + (-1 : Int) * root.h) = d / 2 ∨ p.y = q.y ∧ p.x - (q.x + (-1 : Int) * root.w) = d / 2) ∧
      haloOf s d p = some k ∧
      ∀ reg ∈ regions s.x s.y s.w s.h d, reg.id = k →
        ¬ sharePoint (boundaryPoints root.w root.h reg.x reg.y reg.width reg.height)
          (boundaryPoints root.w root.h t.x t.y t.w t.h) = true := by
  obtain ⟨a1, a2, a3, a4⟩ := partition_within hp hs
  obtain ⟨b1, b2, b3, b4⟩ := partition_within hp ht
  have hrw : 0 < root.w := by linarith
  have hrh : 0 < root.h := by linarith
  rcases hf with ⟨f1, f2, f3, f4⟩ | ⟨f1, f2, f3, f4⟩
  · refine ⟨⟨s.x + d / 4, s.y + s.h - d / 4⟩, ⟨t.x + t.w - d / 4, s.y + s.h - d / 4⟩, 0, ?_, ?_, ?_, ?_, ?_⟩
    · refine ⟨?_, ?_, ?_, ?_⟩ <;> dsimp only <;> linarith
    · refine ⟨?_, ?_, ?_, ?_⟩ <;> dsimp only <;> linarith
    · right
      refine ⟨rfl, ?_⟩
      dsimp only
      push_cast
      linarith
    · unfold haloOf
      rw [if_pos (by dsimp only; linarith)]
    · intro reg hreg hid hsh
      simp only [regions, List.mem_cons, List.not_mem_nil, or_false] at hreg
      rcases hreg with rfl | rfl | rfl | rfl
      · obtain ⟨a, b, a', b', _, hb, _, hb', _, cb⟩ := share_sound hrw hrh (s := ⟨s.x, s.y + s.h - d, s.w, d⟩) (t := t) hsh
        rcases hb with rfl | rfl <;> rcases hb' with rfl | rfl <;> dsimp only at cb <;>
          · have := cb.eq_of_lt hrh (by linarith) (by linarith)
            linarith
      · exact absurd hid (by simp)
      · exact absurd hid (by simp)
      · exact absurd hid (by simp)
  · refine ⟨⟨s.x + s.w - d / 4, s.y + d / 4⟩, ⟨s.x + s.w - d / 4, t.y + t.h - d / 4⟩, 1, ?_, ?_, ?_, ?_, ?_⟩
    · refine ⟨?_, ?_, ?_, ?_⟩ <;> dsimp only <;> linarith
    · refine ⟨?_, ?_, ?_, ?_⟩ <;> dsimp only <;> linarith
    · left
      refine ⟨rfl, ?_⟩
      dsimp only
      push_cast
      linarith
    · unfold haloOf
      rw [if_neg (by dsimp only; linarith), if_pos (by dsimp only; linarith)]
    · intro reg hreg hid hsh
      simp only [regions, List.mem_cons, List.not_mem_nil, or_false] at hreg
      rcases hreg with rfl | rfl | rfl | rfl
      · exact absurd hid (by simp)
      · obtain ⟨a, b, a', b', ha, _, ha', _, ca, _⟩ := share_sound hrw hrh (s := ⟨s.x + s.w - d, s.y, d, s.h⟩) (t := t) hsh
        rcases ha with rfl | rfl <;> rcases ha' with rfl | rfl <;> dsimp only at ca <;>
          · have := ca.eq_of_lt hrw (by linarith) (by linarith)
            linarith
      · exact absurd hid (by simp)
      · exact absurd hid (by simp)

/-! ### six times a power of four -/

theorem uniform_one (root : Tile) : Uniform root 1 1 [root] := by
  refine ⟨by omega, by omega, ?_⟩
  intro t ht
  rw [List.mem_singleton] at ht
  subst ht
  refine ⟨⟨0, ?_, ?_⟩, ⟨0, ?_, ?_⟩⟩ <;> push_cast <;> ring

theorem uniform_vertical {root : Tile} {nx ny : Nat} {ts : List Tile} (h : Uniform root nx ny ts) :
    Uniform root (2 * nx) ny (splitAll .vertical ts) := by
  refine ⟨by have := h.1; omega, h.2.1, fun s hs => ?_⟩
  obtain ⟨t, ht, hst⟩ := List.mem_flatMap.1 hs
  obtain ⟨hx, hy⟩ := h.2.2 t ht
  simp only [List.mem_cons, List.not_mem_nil, or_false] at hst
  rcases hst with rfl | rfl
  · exact ⟨half_cell (cell_halves hx).1, hy⟩
  · exact ⟨half_cell (cell_halves hx).2, hy⟩

theorem uniform_horizontal {root : Tile} {nx ny : Nat} {ts : List Tile} (h : Uniform root nx ny ts) :
    Uniform root nx (2 * ny) (splitAll .horizontal ts) := by
  refine ⟨h.1, by have := h.2.1; omega, fun s hs => ?_⟩
  obtain ⟨t, ht, hst⟩ := List.mem_flatMap.1 hs
  obtain ⟨hx, hy⟩ := h.2.2 t ht
  simp only [List.mem_cons, List.not_mem_nil, or_false] at hst
  rcases hst with rfl | rfl
  · exact ⟨hx, half_cell (cell_halves hy).1⟩
  · exact ⟨hx, half_cell (cell_halves hy).2⟩

theorem uniform_grow {root : Tile} (m : Nat) : ∀ (nx ny : Nat) (ts : List Tile), Uniform root nx ny ts →
    Uniform root (2 ^ m * nx) (2 ^ m * ny) (grow .horizontal (2 * m) ts) := by
  induction m with
  | zero => intro nx ny ts h; rw [Nat.pow_zero, Nat.one_mul, Nat.one_mul]; exact h
  | succ m ih =>
    intro nx ny ts h
    have := ih _ _ _ (uniform_vertical (uniform_horizontal h))
    rw [Nat.pow_succ, Nat.mul_assoc, Nat.mul_assoc]
    exact this

/-- An interval of a circle from `o` of length `2 * n * u`: one of the `n` of length `u` of the first half, or one of
length `2 * u` of the second. -/
def Mixed (o u : Rat) (n : Nat) (lo hi : Rat) : Prop :=
  ∃ a b : Int, lo = o + a * u ∧ hi = o + b * u ∧ 0 ≤ a ∧ b ≤ 2 * n ∧
    ((b = a + 1 ∧ b ≤ n) ∨ ∃ c : Int, 0 ≤ c ∧ a = n + 2 * c ∧ b = a + 2)

theorem ring_mixed {o u : Rat} {n : Nat} (hu : 0 < u) : Ring (2 * n * u) (Mixed o u n) := by
  intro lo w lo' w' p q d k h1 h2 hp hq hk hd
  obtain ⟨a, b, ea, eb, ha, hb, hc⟩ := h1
  obtain ⟨a', b', ea', eb', ha', hb', hc'⟩ := h2
  have hwid : w = (b - a : Int) * u := by push_cast; linarith
  have hb2 : b - a ≤ 2 := by rcases hc with ⟨c1, c2⟩ | ⟨c, c1, c2, c3⟩ <;> omega
  have hkeep : True → a' < b → a < b' → a = a' ∧ b = b' := by
    intro _ x y
    rcases hc with ⟨c1, c2⟩ | ⟨c, c1, c2, c3⟩ <;> rcases hc' with ⟨c1', c2'⟩ | ⟨c', c1', c2', c3'⟩ <;> omega
  clear hc hc'
  have hdu : d < u := by
    have : ((b - a : Int) : Rat) ≤ 2 := by exact_mod_cast hb2
    have : ((b - a : Int) : Rat) * u ≤ 2 * u := mul_le_mul_of_nonneg_right this (le_of_lt hu)
    linarith
  -- the ends in units of `u`
  have lt_of : ∀ x y : Int, (x : Rat) * u < (y : Rat) * u + u → x ≤ y := by
    intro x y h
    have : (x : Rat) < y + 1 := by
      by_contra hcon
      have h1 : ((y : Rat) + 1) * u ≤ x * u := mul_le_mul_of_nonneg_right (not_lt.1 hcon) (le_of_lt hu)
      linarith
    have : x < y + 1 := by exact_mod_cast this
    omega
  have k1 : a ≤ b' + 2 * n * k := by
    apply lt_of
    push_cast
    have : (2 * (n : Rat) * u) * k = (2 * n * k) * u := by ring
    linarith [hk.1, hk.2]
  have k2 : a' + 2 * n * k ≤ b := by
    apply lt_of
    push_cast
    have : (2 * (n : Rat) * u) * k = (2 * n * k) * u := by ring
    linarith [hk.1, hk.2]
  -- congruence from equality in units
  have cong : ∀ (x y z : Int), x = y + 2 * n * z → ∀ X Y : Rat, X = o + x * u → Y = o + y * u → Cong (2 * n * u) X Y := by
    rintro x y z rfl X Y rfl rfl
    exact ⟨z, by push_cast; ring⟩
  -- the point is near the high end if the second interval begins there
  have high : a' + 2 * n * k = b → lo + w - d ≤ p := by
    intro h
    have : ((a' : Rat) + 2 * n * k) = b := by exact_mod_cast h
    have e : (2 * (n : Rat) * u) * k = (2 * n * k) * u := by ring
    have : (b : Rat) * u = a' * u + (2 * n * k) * u := by rw [← this]; ring
    linarith [hk.1, hk.2]
  have low : a = b' + 2 * n * k → p ≤ lo + d := by
    intro h
    have : (a : Rat) = b' + 2 * n * k := by exact_mod_cast h
    have e : (2 * (n : Rat) * u) * k = (2 * n * k) * u := by ring
    have : (a : Rat) * u = b' * u + (2 * n * k) * u := by rw [this]; ring
    linarith [hk.1, hk.2]
  by_cases hA : a' + 2 * n * k = b
  · exact Or.inr (Or.inl ⟨cong b a' k (by omega) _ _ eb ea', high hA⟩)
  · by_cases hB : a = b' + 2 * n * k
    · exact Or.inr (Or.inr ⟨cong a b' k (by omega) _ _ ea eb', low hB⟩)
    · have hk0 : k = 0 := by
        have n0 : (0 : Int) ≤ n := by omega
        have g1 : a < b' + 2 * n * k := by omega
        have g2 : a' + 2 * n * k < b := by omega
        have g3 : 2 * (n : Int) * k < 2 * n * 1 := by omega
        have g4 : 2 * (n : Int) * (-1) < 2 * n * k := by omega
        have npos : (0 : Int) < 2 * n := by omega
        have := lt_of_mul_lt_mul_left g3 (le_of_lt npos)
        have := lt_of_mul_lt_mul_left g4 (le_of_lt npos)
        omega
      subst hk0
      obtain ⟨rfl, rfl⟩ := hkeep trivial (by omega) (by omega)
      left
      refine ⟨by linarith, cong a a 0 (by omega) _ _ ea ea', cong b b 0 (by omega) _ _ eb eb'⟩

theorem cell_bounded {o len lo w : Rat} {n : Nat} (hn : 0 < n) (hl : 0 < len) (h : Cell o len n lo (lo + w)) (h1 : o ≤ lo)
    (h2 : lo + w ≤ o + len) : ∃ i : Int, 0 ≤ i ∧ i + 1 ≤ n ∧ lo = o + i * (len / n) ∧ lo + w = o + (i + 1) * (len / n) := by
  obtain ⟨i, e1, e2⟩ := h
  have hn' : (0 : Rat) < n := by exact_mod_cast hn
  have e : len / (2 * (n : Rat)) = len / n / 2 := by rw [div_div, mul_comm (2 : Rat)]
  have hu : 0 < len / n := div_pos hl hn'
  have hlen : len = n * (len / n) := by field_simp
  rw [e] at e1 e2
  refine ⟨i, ?_, ?_, by rw [e1]; ring, by rw [e2]; ring⟩
  · by_contra hcon
    have : (i : Rat) < 0 := by exact_mod_cast not_le.1 hcon
    have := mul_neg_of_neg_of_pos this hu
    linarith
  · by_contra hcon
    have h3 : (n : Int) < i + 1 := not_le.1 hcon
    have h3 : (n : Rat) < i + 1 := by exact_mod_cast h3
    have := mul_lt_mul_of_pos_right h3 hu
    linarith

/-- With `6 * 4 ^ j` processes the boxes form a grid; the columns of the right half are twice as wide. -/
theorem product_six {root : Tile} (h : 0 < root.w ∧ 0 < root.h) (j : Nat) :
    ∃ ts CX CY, subtrees root (6 * 4 ^ j) = some ts ∧ Product root CX CY ts := by
  have hp1 : 2 ^ (2 * j + 1 + 1) = 4 * 4 ^ j := by rw [Nat.pow_succ, Nat.pow_succ, Nat.pow_mul]; norm_num; omega
  have hp2 : 2 ^ (2 * j + 1) = 2 * 4 ^ j := by rw [Nat.pow_succ, Nat.pow_mul]; norm_num; omega
  have hp3 : 0 < 4 ^ j := Nat.pow_pos (by omega)
  have hsz : 6 * 4 ^ j = 2 ^ (2 * j + 1 + 1) + 2 ^ (2 * j + 1) := by omega
  have hst := subtrees_eq root (e := 2 * j + 1 + 1) (k := 2 ^ (2 * j + 1)) (by omega) (by omega)
  rw [← hsz] at hst
  have hlen : (grow .horizontal (2 * j + 1) [(split root .vertical).1]).length = 2 ^ (2 * j + 1) := by
    rw [grow_length]; simp
  have e1 : after .vertical (2 * j + 1 + 1) = .vertical := after_even (j + 1) .vertical
  have e2 : grow .vertical (2 * j + 1 + 1) [root] = grow .horizontal (2 * j + 1) [(split root .vertical).1] ++
    grow .horizontal (2 * j + 1) [(split root .vertical).2] := grow_one .vertical (2 * j + 1) root
  have e3 : splitAll .vertical (grow .horizontal (2 * j + 1) [(split root .vertical).1]) =
      grow .horizontal (2 * (j + 1)) [(split root .vertical).1] := by
    have := grow_snoc (2 * j + 1) .horizontal [(split root .vertical).1]
    rw [after_odd] at this
    exact this.symm
  have e4 : grow .horizontal (2 * j + 1) [(split root .vertical).2] =
      splitAll .horizontal (grow .horizontal (2 * j) [(split root .vertical).2]) := by
    have := grow_snoc (2 * j) .horizontal [(split root .vertical).2]
    rw [after_even] at this
    exact this
  rw [e1, e2, splitFirst_eq, ← hlen, List.take_left, List.drop_left, e3] at hst
  have hpos := split_positive .vertical h
  -- the two halves
  have uL := uniform_grow (j + 1) _ _ _ (uniform_one (split root .vertical).1)
  have pL := partition_grow (2 * (j + 1)) .horizontal _ (partition_root hpos.1)
  have pR := partition_grow (2 * j + 1) .horizontal _ (partition_root hpos.2)
  have uR := uniform_horizontal (uniform_grow j _ _ _ (uniform_one (split root .vertical).2))
  rw [← e4] at uR
  rw [Nat.mul_one] at uL uR
  have hn : (0 : Rat) < ((2 ^ (j + 1) : Nat) : Rat) := by exact_mod_cast Nat.pow_pos (n := j + 1) (show 0 < 2 by omega)
  have hn' : (0 : Rat) < ((2 ^ j : Nat) : Rat) := by exact_mod_cast Nat.pow_pos (n := j) (show 0 < 2 by omega)
  have hnn : ((2 ^ (j + 1) : Nat) : Rat) = 2 * ((2 ^ j : Nat) : Rat) := by rw [Nat.pow_succ]; push_cast; ring
  have hu : 0 < root.w / 2 / ((2 ^ (j + 1) : Nat) : Rat) := div_pos (by linarith [h.1]) hn
  refine ⟨_, Mixed root.x (root.w / 2 / ((2 ^ (j + 1) : Nat) : Rat)) (2 ^ (j + 1)), Cell root.y root.h (2 ^ (j + 1)), hst, ?_, ?_, ?_⟩
  · have := ring_mixed (o := root.x) (n := 2 ^ (j + 1)) hu
    have e : 2 * ((2 ^ (j + 1) : Nat) : Rat) * (root.w / 2 / ((2 ^ (j + 1) : Nat) : Rat)) = root.w := by
      field_simp
    rw [e] at this
    exact this
  · exact ring_cell (Nat.pow_pos (by omega)) h.2
  · intro t ht
    rcases List.mem_append.1 ht with ht | ht
    · obtain ⟨cx, cy⟩ := uL.2.2 t ht
      obtain ⟨b1, b2, _, _⟩ := partition_within pL ht
      refine ⟨?_, cy⟩
      obtain ⟨i, i1, i2, i3, i4⟩ := cell_bounded uL.1 hpos.1.1 cx b1 b2
      refine ⟨i, i + 1, i3, ?_, i1, by omega, Or.inl ⟨rfl, i2⟩⟩
      rw [i4]; push_cast; rfl
    · obtain ⟨cx, cy⟩ := uR.2.2 t ht
      obtain ⟨b1, b2, _, _⟩ := partition_within pR ht
      refine ⟨?_, ?_⟩
      · obtain ⟨i, i1, i2, i3, i4⟩ := cell_bounded uR.1 hpos.2.1 cx b1 b2
        have x0 : (split root .vertical).2.x = root.x + root.w / 2 := rfl
        have w0 : (split root .vertical).2.w = root.w / 2 := rfl
        have eu : root.w / 2 / ((2 ^ j : Nat) : Rat) = 2 * (root.w / 2 / ((2 ^ (j + 1) : Nat) : Rat)) := by
          rw [hnn]; field_simp
        have half : root.w / 2 = ((2 ^ (j + 1) : Nat) : Rat) * (root.w / 2 / ((2 ^ (j + 1) : Nat) : Rat)) := by field_simp
        rw [x0, w0, eu] at i3 i4
        have hpn : (2 ^ (j + 1) : Nat) = 2 * 2 ^ j := by rw [Nat.pow_succ]; omega
        refine ⟨((2 ^ (j + 1) : Nat) : Int) + 2 * i, ((2 ^ (j + 1) : Nat) : Int) + 2 * i + 2, ?_, ?_, by omega, by omega,
          Or.inr ⟨i, i1, rfl, rfl⟩⟩
        · rw [i3]
          conv_lhs => rw [half]
          push_cast
          field_simp
          ring
        · rw [i4]
          conv_lhs => rw [half]
          push_cast
          field_simp
          ring
      · have : 2 * 2 ^ j = 2 ^ (j + 1) := by rw [Nat.pow_succ]; omega
        rw [this] at cy
        exact cy

/-- The numbers of processes for which the boxes form a grid of rows and columns. -/
theorem product_exists {root : Tile} (h : 0 < root.w ∧ 0 < root.h) {size : Nat} (hs : 2 ≤ size)
    (hg : (∃ e, size = 2 ^ e) ∨ ∃ j, size = 6 * 4 ^ j) : ∃ ts CX CY, subtrees root size = some ts ∧ Product root CX CY ts := by
  rcases hg with ⟨e, rfl⟩ | ⟨j, rfl⟩
  · have he : 1 ≤ e := by
      cases e with
      | zero => simp at hs
      | succ e => omega
    obtain ⟨ts, nx, ny, h1, h2⟩ := subtrees_pow root he
    exact ⟨ts, _, _, h1, uniform_product h h2⟩
  · exact product_six h j

/-- For all other numbers of processes two boxes face each other that have no corner in common. -/
theorem facing_size (root : Tile) {size : Nat} (hs : 2 ≤ size) (hg : ¬ ((∃ e, size = 2 ^ e) ∨ ∃ j, size = 6 * 4 ^ j)) :
    ∃ (ts : List Tile) (r s : Nat) (t u : Tile), subtrees root size = some ts ∧ r ≠ s ∧ ts[r]? = some t ∧ ts[s]? = some u ∧ Facing root t u := by
  have h1 := Nat.log2_self_le (n := size) (by omega)
  have h2 := Nat.lt_log2_self (n := size)
  generalize hE : size.log2 = e at h1 h2
  have he : 1 ≤ e := by
    cases e with
    | zero => simp at h2; omega
    | succ e => omega
  have h3 : 2 ^ (e + 1) = 2 ^ e + 2 ^ e := by rw [Nat.pow_succ]; omega
  obtain ⟨k, rfl⟩ := Nat.exists_eq_add_of_le h1
  have h0 : 0 < k := by
    rcases Nat.eq_zero_or_pos k with rfl | h
    · exact absurd (Or.inl ⟨e, rfl⟩) hg
    · exact h
  have hne : ¬ (e % 2 = 0 ∧ k = 2 ^ (e - 1)) := by
    rintro ⟨c1, c2⟩
    apply hg
    right
    obtain ⟨m, rfl⟩ : ∃ m, e = 2 * m + 2 := ⟨e / 2 - 1, by omega⟩
    refine ⟨m, ?_⟩
    rw [c2]
    have : 2 * m + 2 - 1 = 2 * m + 1 := by omega
    rw [this, Nat.pow_succ, Nat.pow_succ, Nat.pow_mul]
    norm_num
    omega
  obtain ⟨r, s, t, u, g1, g2, g3, g4⟩ := facing_exists root he h0 (by omega) hne
  exact ⟨_, r, s, t, u, subtrees_eq root he (by omega), g1, g2, g3, g4⟩

/-- What arrives was in a list that is sent to the process. -/
theorem received_pair {O : Type} [BEq O] {u t : Tree O} {agents : List (List O)} {l : List O}
    (hidx : ∀ pr ∈ t.layout.neighborsHaloRegions.flatten, pr.1 < agents.length) (hl : receivedFrom u t agents true = some l)
    {a : O} (ha : a ∈ l) : ∃ k, (k, u.layout.rank) ∈ t.layout.neighborsHaloRegions.flatten ∧ a ∈ agents.getD k [] := by
  unfold receivedFrom prepared at hl
  rw [if_pos rfl, sentByRegions_eq _ _ _ hidx] at hl
  split at hl
  · rw [← Option.some.inj hl, List.mem_flatMap] at ha
    obtain ⟨⟨k, s⟩, h1, h2⟩ := ha
    dsimp only at h2
    by_cases hs : s = u.layout.rank
    · rw [if_pos hs] at h2
      exact ⟨k, hs ▸ h1, h2⟩
    · rw [if_neg hs] at h2
      cases h2
  · split at hl
    · cases hl
    · rw [← Option.some.inj hl] at ha
      cases ha

end Verif.KdTree
