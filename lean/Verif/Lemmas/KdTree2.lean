import Verif.Lemmas.KdTree
import Verif.Lemmas.Torus

/-!
Lemmas on neighbours: shared corners and touching boxes, the box of a process, the halo regions.
-/

set_option linter.unusedSectionVars false

namespace Verif.KdTree

open Torus

/-- `e` is one of the ends `lo`, `lo + len`. -/
def End (lo len e : Rat) : Prop := e = lo ∨ e = lo + len

/-- Two boxes have a common corner on the torus. -/
def ShareCorner (ow oh : Rat) (s t : Tile) : Prop :=
  ∃ a b a' b', End s.x s.w a ∧ End s.y s.h b ∧ End t.x t.w a' ∧ End t.y t.h b' ∧ Cong ow a a' ∧ Cong oh b b'

theorem sharePoint_iff {ps qs : List (Rat × Rat)} : sharePoint ps qs = true ↔ ∃ p, p ∈ ps ∧ p ∈ qs := by
  unfold sharePoint
  rw [List.any_eq_true]
  constructor
  · rintro ⟨p, hp, h⟩
    obtain ⟨q, hq, e⟩ := List.any_eq_true.1 h
    have : p = q := by simpa using e
    exact ⟨p, hp, this ▸ hq⟩
  · rintro ⟨p, hp, hq⟩
    exact ⟨p, hp, List.any_eq_true.2 ⟨p, hq, by simp⟩⟩

theorem point_corner {ow oh x y w h : Rat} (hw : 0 < ow) (hh : 0 < oh) {p : Rat × Rat}
    (hp : p ∈ boundaryPoints ow oh x y w h) :
    ∃ a b, End x w a ∧ End y h b ∧ Cong ow p.1 a ∧ Cong oh p.2 b := by
  have fw := fun v => (fmod_spec (val := v) hw).1
  have fh := fun v => (fmod_spec (val := v) hh).1
  unfold boundaryPoints at hp
  simp only [List.mem_cons, List.not_mem_nil, or_false] at hp
  rcases hp with rfl | rfl | rfl | rfl | rfl | rfl | rfl | rfl
  · exact ⟨_, _, Or.inl rfl, Or.inl rfl, Cong.refl _, Cong.refl _⟩
  · exact ⟨_, _, Or.inr rfl, Or.inl rfl, Cong.refl _, Cong.refl _⟩
  · exact ⟨_, _, Or.inl rfl, Or.inr rfl, Cong.refl _, Cong.refl _⟩
  · exact ⟨_, _, Or.inr rfl, Or.inr rfl, Cong.refl _, Cong.refl _⟩
  · exact ⟨_, _, Or.inl rfl, Or.inl rfl, fw _, fh _⟩
  · exact ⟨_, _, Or.inr rfl, Or.inl rfl, fw _, fh _⟩
  · exact ⟨_, _, Or.inl rfl, Or.inr rfl, fw _, fh _⟩
  · exact ⟨_, _, Or.inr rfl, Or.inr rfl, fw _, fh _⟩

theorem corner_point {ow oh x y w h a b : Rat} (ha : End x w a) (hb : End y h b) :
    (fmod a ow, fmod b oh) ∈ boundaryPoints ow oh x y w h := by
  unfold boundaryPoints
  rcases ha with rfl | rfl <;> rcases hb with rfl | rfl <;> simp

theorem fmod_congr {a b dim : Rat} (hd : 0 < dim) (ha : 0 ≤ a) (hb : 0 ≤ b) (h : Cong dim a b) :
    fmod a dim = fmod b dim := by
  obtain ⟨a1, a2, a3, a4⟩ := fmod_spec (val := a) hd
  obtain ⟨b1, b2, b3, b4⟩ := fmod_spec (val := b) hd
  exact ((a1.trans h).trans b1.symm).eq_of_lt hd (by linarith [b4 hb]) (by linarith [a4 ha])

theorem share_sound {ow oh : Rat} (hw : 0 < ow) (hh : 0 < oh) {s t : Tile}
    (h : sharePoint (boundaryPoints ow oh s.x s.y s.w s.h) (boundaryPoints ow oh t.x t.y t.w t.h) = true) :
    ShareCorner ow oh s t := by
  obtain ⟨p, h1, h2⟩ := sharePoint_iff.1 h
  obtain ⟨a, b, ha, hb, ca, cb⟩ := point_corner hw hh h1
  obtain ⟨a', b', ha', hb', ca', cb'⟩ := point_corner hw hh h2
  exact ⟨a, b, a', b', ha, hb, ha', hb', ca.symm.trans ca', cb.symm.trans cb'⟩

theorem share_of_corners {ow oh : Rat} (hw : 0 < ow) (hh : 0 < oh) {s t : Tile} {a b a' b' : Rat}
    (ha : End s.x s.w a) (hb : End s.y s.h b) (ha' : End t.x t.w a') (hb' : End t.y t.h b') (ca : Cong ow a a')
    (cb : Cong oh b b') (h1 : 0 ≤ a) (h2 : 0 ≤ b) (h3 : 0 ≤ a') (h4 : 0 ≤ b') :
    sharePoint (boundaryPoints ow oh s.x s.y s.w s.h) (boundaryPoints ow oh t.x t.y t.w t.h) = true := by
  rw [sharePoint_iff]
  refine ⟨(fmod a ow, fmod b oh), corner_point ha hb, ?_⟩
  rw [fmod_congr hw h1 h3 ca, fmod_congr hh h2 h4 cb]
  exact corner_point ha' hb'

/-! ### Touching -/

/-- Two intervals of the grid that meet on the circle have a common end on it. -/
theorem interval_share {o len lo w lo' w' : Rat} {n : Nat} (hn : 0 < n) (hl : 0 < len)
    (h1 : Cell o len n lo (lo + w) ∨ Half o len n lo (lo + w))
    (h2 : Cell o len n lo' (lo' + w') ∨ Half o len n lo' (lo' + w')) {p q : Rat} (hp : lo ≤ p ∧ p ≤ lo + w)
    (hq : lo' ≤ q ∧ q ≤ lo' + w') {k : Int} (hk : p = q + k * len) :
    ∃ a a', End lo w a ∧ End lo' w' a' ∧ Cong len a a' := by
  have hnq : (0 : Rat) < n := by exact_mod_cast hn
  have hu : 0 < len / (2 * n) := by positivity
  have hlen : len = 2 * n * (len / (2 * n)) := by field_simp
  generalize len / (2 * n) = u at *
  -- the ends in units of `u`
  have key : ∀ lo w, (Cell o len n lo (lo + w) ∨ Half o len n lo (lo + w)) → len / (2 * n) = u →
      ∃ a b : Int, lo = o + a * u ∧ lo + w = o + b * u ∧ ((∃ i, a = 2 * i ∧ b = 2 * i + 2) ∨ b = a + 1) := by
    rintro lo w (⟨i, e1, e2⟩ | ⟨i, e1, e2⟩) hu
    · refine ⟨2 * i, 2 * i + 2, ?_, ?_, Or.inl ⟨i, rfl, rfl⟩⟩
      · rw [e1, hu]; push_cast; ring
      · rw [e2, hu]; push_cast; ring
    · refine ⟨i, i + 1, ?_, ?_, Or.inr rfl⟩
      · rw [e1, hu]
      · rw [e2, hu]; push_cast; ring
  have hu' : len / (2 * n) = u := by
    rw [hlen]; field_simp
  obtain ⟨a, b, ea, eb, hab⟩ := key lo w h1 hu'
  obtain ⟨a', b', ea', eb', hab'⟩ := key lo' w' h2 hu'
  have hshift : (k : Rat) * len = ((2 * (n * k) : Int) : Rat) * u := by
    rw [hlen]; push_cast; ring
  generalize hm : (n : Int) * k = m at *
  have b1 : a ≤ b' + 2 * m := by
    have : (a : Rat) * u ≤ ((b' + 2 * m : Int) : Rat) * u := by push_cast; push_cast at hshift; linarith [hp.1, hq.2]
    exact_mod_cast le_of_mul_le_mul_right this hu
  have b2 : a' + 2 * m ≤ b := by
    have : ((a' + 2 * m : Int) : Rat) * u ≤ (b : Rat) * u := by push_cast; push_cast at hshift; linarith [hp.2, hq.1]
    exact_mod_cast le_of_mul_le_mul_right this hu
  have cong : ∀ e e' : Int, e = e' + 2 * m → Cong len (o + e * u) (o + e' * u) := by
    intro e e' he
    refine ⟨k, ?_⟩
    rw [hshift, he]
    push_cast
    ring
  have four : a = a' + 2 * m ∨ a = b' + 2 * m ∨ b = a' + 2 * m ∨ b = b' + 2 * m := by
    rcases hab with ⟨i, rfl, rfl⟩ | rfl <;> rcases hab' with ⟨i', rfl, rfl⟩ | rfl <;> omega
  rcases four with h | h | h | h
  · exact ⟨lo, lo', Or.inl rfl, Or.inl rfl, by rw [ea, ea']; exact cong _ _ h⟩
  · exact ⟨lo, lo' + w', Or.inl rfl, Or.inr rfl, by rw [ea, eb']; exact cong _ _ h⟩
  · exact ⟨lo + w, lo', Or.inr rfl, Or.inl rfl, by rw [eb, ea']; exact cong _ _ h⟩
  · exact ⟨lo + w, lo' + w', Or.inr rfl, Or.inr rfl, by rw [eb, eb']; exact cong _ _ h⟩

/-- Boxes of the subdivision touch exactly when they have a common corner. -/
theorem touch_iff {root : Tile} (h : 0 < root.w ∧ 0 < root.h) {nx ny : Nat} {ts : List Tile}
    (hu : NearUniform root nx ny ts) {s t : Tile} (hs : s ∈ ts) (ht : t ∈ ts) (ps : 0 < s.w ∧ 0 < s.h)
    (pt : 0 < t.w ∧ 0 < t.h) : Touch root.w root.h s t ↔ ShareCorner root.w root.h s t := by
  constructor
  · rintro ⟨p, q, ⟨p1, p2, p3, p4⟩, ⟨q1, q2, q3, q4⟩, k, m, ex, ey⟩
    obtain ⟨a, a', ha, ha', ca⟩ := interval_share hu.1 h.1 (hu.2.2 s hs).1 (hu.2.2 t ht).1 ⟨p1, p2⟩ ⟨q1, q2⟩ ex
    obtain ⟨b, b', hb, hb', cb⟩ := interval_share hu.2.1 h.2 (hu.2.2 s hs).2 (hu.2.2 t ht).2 ⟨p3, p4⟩ ⟨q3, q4⟩ ey
    exact ⟨a, b, a', b', ha, hb, ha', hb', ca, cb⟩
  · rintro ⟨a, b, a', b', ha, hb, ha', hb', ⟨k, ca⟩, ⟨m, cb⟩⟩
    have ends : ∀ {lo len e : Rat}, 0 < len → End lo len e → lo ≤ e ∧ e ≤ lo + len := by
      rintro lo len e hl (rfl | rfl)
      · exact ⟨le_refl _, by linarith⟩
      · exact ⟨by linarith, le_refl _⟩
    exact ⟨⟨a, b⟩, ⟨a', b'⟩, ⟨(ends ps.1 ha).1, (ends ps.1 ha).2, (ends ps.2 hb).1, (ends ps.2 hb).2⟩,
      ⟨(ends pt.1 ha').1, (ends pt.1 ha').2, (ends pt.2 hb').1, (ends pt.2 hb').2⟩, k, m, ca, cb⟩

theorem ShareCorner.symm {ow oh : Rat} {s t : Tile} (h : ShareCorner ow oh s t) : ShareCorner ow oh t s := by
  obtain ⟨a, b, a', b', ha, hb, ha', hb', ca, cb⟩ := h
  exact ⟨a', b', a, b, ha', hb', ha, hb, ca.symm, cb.symm⟩

/-! ### Blocks -/

theorem blocksFrom_length (id : Nat) (ts : List Tile) : (blocksFrom id ts).length = ts.length := by
  induction ts generalizing id with
  | nil => rfl
  | cons t ts ih => simp [blocksFrom, ih]

theorem blocksFrom_ids (id : Nat) (ts : List Tile) : (blocksFrom id ts).map Block.id = List.range' id ts.length := by
  induction ts generalizing id with
  | nil => rfl
  | cons t ts ih => simp [blocksFrom, ih, List.range'_succ]

theorem blocksFrom_tiles (id : Nat) (ts : List Tile) : (blocksFrom id ts).map Block.tile = ts := by
  induction ts generalizing id with
  | nil => rfl
  | cons t ts ih => simp [blocksFrom, ih, Block.tile]

theorem blocksFrom_getElem? (id : Nat) (ts : List Tile) (i : Nat) :
    (blocksFrom id ts)[i]? = (ts[i]?).map (fun t => ⟨id + i, t.x, t.y, t.w, t.h⟩) := by
  induction ts generalizing id i with
  | nil => rfl
  | cons t ts ih =>
    cases i with
    | zero => rfl
    | succ i =>
      rw [blocksFrom, List.getElem?_cons_succ, List.getElem?_cons_succ, ih]
      congr 2
      funext t
      congr 1
      omega

theorem mem_blocks0 {ts : List Tile} {b : Block} :
    b ∈ blocksFrom 0 ts ↔ ts[b.id]? = some b.tile := by
  rw [List.mem_iff_getElem?]
  simp only [blocksFrom_getElem?]
  constructor
  · rintro ⟨i, h⟩
    obtain ⟨t, ht, rfl⟩ := Option.map_eq_some_iff.1 h
    simpa [Block.tile] using ht
  · intro h
    refine ⟨b.id, ?_⟩
    rw [h]
    simp [Block.tile]

theorem foldl_absent {α β : Type} (f : β → α → β) (l : List α) (s : β) (h : ∀ s, ∀ a ∈ l, f s a = s) :
    l.foldl f s = s := by
  induction l generalizing s with
  | nil => rfl
  | cons a l ih =>
    rw [List.foldl_cons, h s a List.mem_cons_self]
    exact ih s (fun s a ha => h s a (List.mem_cons_of_mem _ ha))

/-- Splitting a list of blocks at the one with a given id. -/
theorem blocks_split {ts : List Tile} {r : Nat} {t : Tile} (h : ts[r]? = some t) :
    ∃ l1 l2, blocksFrom 0 ts = l1 ++ ⟨r, t.x, t.y, t.w, t.h⟩ :: l2 ∧ (∀ b ∈ l1, b.id ≠ r) ∧ ∀ b ∈ l2, b.id ≠ r := by
  have hmem : (⟨r, t.x, t.y, t.w, t.h⟩ : Block) ∈ blocksFrom 0 ts := mem_blocks0.2 h
  obtain ⟨l1, l2, e⟩ := List.append_of_mem hmem
  have hnd : ((blocksFrom 0 ts).map Block.id).Nodup := by
    rw [blocksFrom_ids]; exact List.nodup_range' (step := 1)
  rw [e, List.map_append, List.map_cons] at hnd
  rw [List.nodup_append] at hnd
  obtain ⟨_, h2, h3⟩ := hnd
  rw [List.nodup_cons] at h2
  refine ⟨l1, l2, e, ?_, ?_⟩
  · intro b hb he
    exact h3 b.id (List.mem_map_of_mem hb) r List.mem_cons_self he
  · intro b hb he
    exact h2.1 (List.mem_map.2 ⟨b, hb, he⟩)

theorem boxAndNeighbors_eq {rank : Nat} {root : Tile} {ts : List Tile} {t : Tile} (h : ts[rank]? = some t)
    (h0 : rank = 0 → t.x = root.x ∧ t.y = root.y) :
    boxAndNeighbors rank root (blocksFrom 0 ts) =
      (t, touching rank root.w root.h t.x t.y t.w t.h (blocksFrom 0 ts)) := by
  obtain ⟨l1, l2, e, n1, n2⟩ := blocks_split h
  unfold boxAndNeighbors
  by_cases hr : rank = 0
  · subst hr
    have hs : (blocksFrom 0 ts).foldl (ownSize 0) (root.w, root.h) = (t.w, t.h) := by
      rw [e, List.foldl_append, List.foldl_cons]
      rw [foldl_absent (ownSize 0) l1 _ (fun s b hb => by unfold ownSize; rw [if_neg (n1 b hb)])]
      rw [foldl_absent (ownSize 0) l2 _ (fun s b hb => by unfold ownSize; rw [if_neg (n2 b hb)])]
      unfold ownSize
      rw [if_pos rfl]
    obtain ⟨hx, hy⟩ := h0 rfl
    rw [if_pos rfl, hs, ← hx, ← hy]
  · rw [if_neg hr]
    have : ∀ bs, (blocksFrom 0 ts).foldl (ownBox rank root.w root.h bs) (root, []) =
        (t, touching rank root.w root.h t.x t.y t.w t.h bs) := by
      intro bs
      rw [e, List.foldl_append, List.foldl_cons]
      rw [foldl_absent _ l1 _ (fun s b hb => by unfold ownBox; rw [if_neg (n1 b hb)])]
      rw [foldl_absent _ l2 _ (fun s b hb => by unfold ownBox; rw [if_neg (n2 b hb)])]
      unfold ownBox
      rw [if_pos rfl]
      rfl
    exact this _

/-! ### The first box is at the origin of the field -/

theorem splitFirst_head {axis : Axis} {k : Nat} {ts : List Tile} {root : Tile}
    (h : ∃ t, ts[0]? = some t ∧ t.x = root.x ∧ t.y = root.y) :
    ∃ t, (splitFirst axis k ts)[0]? = some t ∧ t.x = root.x ∧ t.y = root.y := by
  obtain ⟨t, h1, h2, h3⟩ := h
  cases ts with
  | nil => simp at h1
  | cons t' ts =>
    have : t' = t := by simpa using h1
    subst this
    cases k with
    | zero => exact ⟨t', rfl, h2, h3⟩
    | succ k =>
      refine ⟨(split t' axis).1, rfl, ?_⟩
      cases axis <;> exact ⟨h2, h3⟩

theorem subtrees_head {root : Tile} {p : Nat} (hp : 2 ≤ p) :
    ∃ ts t, subtrees root p = some ts ∧ ts[0]? = some t ∧ t.x = root.x ∧ t.y = root.y := by
  obtain ⟨ts, h1, h2, t, h3⟩ := passes_inv (p := p)
    (fun _ ts => ∃ t, ts[0]? = some t ∧ t.x = root.x ∧ t.y = root.y)
    (fun ts => ∃ t, ts[0]? = some t ∧ t.x = root.x ∧ t.y = root.y)
    (fun _ _ h => h) (fun axis ts h => splitFirst_head h) (fun axis ts k h => splitFirst_head h)
    p .horizontal [(split root .vertical).1, (split root .vertical).2] (by simp) (by simpa using hp) (by simp)
    ⟨_, rfl, rfl, rfl⟩
  refine ⟨ts, t, ?_, h3⟩
  unfold subtrees
  rw [if_pos (by omega)]
  exact h1

/-- The layout of a process: its own box is its block. -/
theorem createTree_spec {rank size : Nat} {root : Tile} {d : Rat} (h : 0 < root.w ∧ 0 < root.h) (hs : 2 ≤ size)
    (hr : rank < size) : ∃ ts t, subtrees root size = some ts ∧ ts[rank]? = some t ∧
      createTree rank size 0 root d = some (layoutOf rank size root d (blocksFrom 0 ts)
        (t, touching rank root.w root.h t.x t.y t.w t.h (blocksFrom 0 ts))) := by
  obtain ⟨ts, h1, h2, _, _⟩ := subtrees_spec h hs
  obtain ⟨ts', t0, h1', h3, h4, h5⟩ := subtrees_head (root := root) hs
  rw [h1] at h1'
  obtain rfl := Option.some.inj h1'
  have hg : ts[rank]? = some ts[rank] := List.getElem?_eq_getElem (by omega)
  refine ⟨ts, ts[rank], h1, hg, ?_⟩
  unfold createTree
  rw [if_neg (by omega), h1]
  dsimp only
  rw [boxAndNeighbors_eq hg]
  rintro rfl
  rw [h3] at hg
  rw [← Option.some.inj hg]
  exact ⟨h4, h5⟩

theorem mem_touching {rank : Nat} {ow oh x y w h : Rat} {ts : List Tile} {r : Nat} :
    r ∈ touching rank ow oh x y w h (blocksFrom 0 ts) ↔ r ≠ rank ∧ ∃ t, ts[r]? = some t ∧
      sharePoint (boundaryPoints ow oh x y w h) (boundaryPoints ow oh t.x t.y t.w t.h) = true := by
  unfold touching
  rw [List.mem_map]
  constructor
  · rintro ⟨b, hb, rfl⟩
    rw [List.mem_filter, Bool.and_eq_true, bne_iff_ne] at hb
    exact ⟨hb.2.1, b.tile, mem_blocks0.1 hb.1, hb.2.2⟩
  · rintro ⟨hne, t, ht, hsh⟩
    refine ⟨⟨r, t.x, t.y, t.w, t.h⟩, ?_, rfl⟩
    rw [List.mem_filter, Bool.and_eq_true, bne_iff_ne]
    exact ⟨mem_blocks0.2 ht, hne, hsh⟩

theorem corner_nonneg {root : Tile} (h0 : 0 ≤ root.x ∧ 0 ≤ root.y) {ts : List Tile} (hp : Partition root ts) {t : Tile}
    (ht : t ∈ ts) {a b : Rat} (ha : End t.x t.w a) (hb : End t.y t.h b) : 0 ≤ a ∧ 0 ≤ b := by
  obtain ⟨pw, ph⟩ := hp.positive t ht
  have hin : t.Has ⟨t.x, t.y⟩ := ⟨le_refl _, by dsimp only; linarith, le_refl _, by dsimp only; linarith⟩
  obtain ⟨r1, _, r3, _⟩ := (hp.covers ⟨t.x, t.y⟩).2 ⟨t, ht, hin⟩
  dsimp only at r1 r3
  rcases ha with rfl | rfl <;> rcases hb with rfl | rfl <;> constructor <;> linarith [h0.1, h0.2]

end Verif.KdTree
