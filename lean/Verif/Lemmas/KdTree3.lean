import Verif.Lemmas.KdTree2
import Verif.Lemmas.Field2D

/-!
Lemmas on the halo: which list an inserted agent goes to, what is sent, and the geometry of a uniform grid.
-/

set_option linter.unusedSectionVars false

namespace Verif.KdTree

open Torus Field2D

variable {O : Type} [BEq O]

/-! ### Halo lists -/

theorem pushHalo_eq {t : Tile} {d : Rat} {p : Pos} (hp : t.Has p) (agent : O) (ns : List (List O))
    (hl : ns.length = 4) :
    pushHalo agent p (regions t.x t.y t.w t.h d) ns =
      some (match haloOf t d p with
        | none => ns
        | some k => ns.modify k (fun l => l ++ [agent])) := by
  obtain ⟨p1, p2, p3, p4⟩ := hp
  have c0 : (⟨0, t.x, t.y + t.h - d, t.w, d⟩ : Block).contains p = decide (t.y + t.h - d ≤ p.y) := by
    unfold Block.contains
    apply decide_eq_decide.2
    dsimp only
    exact ⟨fun h => h.2.2.1, fun h => ⟨p1, p2, h, by linarith⟩⟩
  have c1 : (⟨1, t.x + t.w - d, t.y, d, t.h⟩ : Block).contains p = decide (t.x + t.w - d ≤ p.x) := by
    unfold Block.contains
    apply decide_eq_decide.2
    dsimp only
    exact ⟨fun h => h.1, fun h => ⟨h, by linarith, p3, p4⟩⟩
  have c2 : (⟨2, t.x, t.y, t.w, d⟩ : Block).contains p = decide (p.y ≤ t.y + d) := by
    unfold Block.contains
    apply decide_eq_decide.2
    dsimp only
    exact ⟨fun h => h.2.2.2, fun h => ⟨p1, p2, p3, h⟩⟩
  have c3 : (⟨3, t.x, t.y, d, t.h⟩ : Block).contains p = decide (p.x ≤ t.x + d) := by
    unfold Block.contains
    apply decide_eq_decide.2
    dsimp only
    exact ⟨fun h => h.2.1, fun h => ⟨p1, h, p3, p4⟩⟩
  have upd : ∀ k, k < 4 → (match ns[k]? with
      | none => (none : Option (List (List O)))
      | some l => some (ns.set k (l ++ [agent]))) = some (ns.modify k (fun l => l ++ [agent])) := by
    intro k hk
    have hk' : k < ns.length := by omega
    rw [List.getElem?_eq_getElem hk']
    dsimp only
    rw [List.modify_eq_set_getElem?, List.getElem?_eq_getElem hk']
    rfl
  unfold regions haloOf
  simp only [pushHalo, c0, c1, c2, c3, decide_eq_true_eq]
  by_cases h0 : t.y + t.h - d ≤ p.y
  · rw [if_pos h0, if_pos h0]; exact upd 0 (by omega)
  · rw [if_neg h0, if_neg h0]
    by_cases h1 : t.x + t.w - d ≤ p.x
    · rw [if_pos h1, if_pos h1]; exact upd 1 (by omega)
    · rw [if_neg h1, if_neg h1]
      by_cases h2 : p.y ≤ t.y + d
      · rw [if_pos h2, if_pos h2]; exact upd 2 (by omega)
      · rw [if_neg h2, if_neg h2]
        by_cases h3 : p.x ≤ t.x + d
        · rw [if_pos h3, if_pos h3]; exact upd 3 (by omega)
        · rw [if_neg h3, if_neg h3]

/-- The list of border `k` after inserting agents. -/
def haloList (t : Tile) (d : Rat) (as : List (O × Pos)) (k : Nat) : List O :=
  (as.filter (fun a => haloOf t d a.2 == some k)).map Prod.fst

theorem insertAll_neighbors (own : Tile) {d : Rat} (as : List (O × Pos)) :
    ∀ (t t' : Tree O), t.layout.haloRegions = regions own.x own.y own.w own.h d → t.neighbors.length = 4 →
    (∀ a ∈ as, own.Has a.2) → insertAll t as = some t' →
    t'.layout = t.layout ∧ t'.neighbors.length = 4 ∧ t'.precNeighbors = t.precNeighbors ∧
    ∀ k, t'.neighbors[k]? = t.neighbors[k]?.map (fun l => l ++ haloList own d as k) := by
  induction as with
  | nil =>
    intro t t' _ hl _ h
    simp [insertAll] at h
    subst h
    refine ⟨rfl, hl, rfl, ?_⟩
    intro k
    cases t.neighbors[k]? <;> simp [haloList]
  | cons a as ih =>
    intro t t' hreg hl has h
    rw [insertAll] at h
    cases hi : insert t a.1 a.2 with
    | none => rw [hi] at h; simp at h
    | some t1 =>
      rw [hi] at h
      unfold insert at hi
      cases hset : setObjectLocation t.bags a.1 a.2 with
      | none => rw [hset] at hi; simp at hi
      | some f =>
        rw [hset] at hi
        dsimp only at hi
        rw [hreg, pushHalo_eq (has a List.mem_cons_self) a.1 t.neighbors hl, Option.map_some] at hi
        have e := Option.some.inj hi
        have key : t1.layout = t.layout ∧ t1.precNeighbors = t.precNeighbors ∧ t1.neighbors =
            (match haloOf own d a.2 with
              | none => t.neighbors
              | some k => t.neighbors.modify k (fun l => l ++ [a.1])) := by rw [← e]; exact ⟨rfl, rfl, rfl⟩
        obtain ⟨k1, k2, k3⟩ := key
        have hl1 : t1.neighbors.length = 4 := by
          rw [k3]
          cases haloOf own d a.2 with
          | none => exact hl
          | some k => dsimp only; rw [List.length_modify]; exact hl
        obtain ⟨i1, i2, i3, i4⟩ := ih t1 t' (by rw [k1]; exact hreg) hl1
          (fun b hb => has b (List.mem_cons_of_mem _ hb)) h
        refine ⟨i1.trans k1, i2, i3.trans k2, ?_⟩
        intro k
        rw [i4 k, k3]
        unfold haloList
        cases hh : haloOf own d a.2 with
        | none => simp [hh]
        | some j =>
          dsimp only
          rw [List.getElem?_modify]
          by_cases hjk : j = k
          · subst hjk
            cases t.neighbors[j]? <;> simp [hh]
          · cases t.neighbors[k]? <;> simp [hh, hjk]

/-! ### What is sent -/

theorem sent_from (pairs : List (Nat × Nat)) (agents : List (List O)) (dest : Nat)
    (h : ∀ pr ∈ pairs, pr.1 < agents.length) : ∀ l : List O,
    pairs.foldl (sendStep agents dest) (some l) =
    some (l ++ pairs.flatMap (fun pr => if pr.2 = dest then agents.getD pr.1 [] else [])) := by
  induction pairs with
  | nil => intro l; simp
  | cons pr pairs ih =>
    intro l
    have hpr := h pr List.mem_cons_self
    have hstep : sendStep agents dest (some l) pr = some (if pr.2 = dest then l ++ agents[pr.1] else l) := by
      unfold sendStep
      rw [List.getElem?_eq_getElem hpr]
    rw [List.foldl_cons, hstep]
    rw [ih (fun q hq => h q (List.mem_cons_of_mem _ hq))]
    rw [List.flatMap_cons]
    congr 1
    have : agents.getD pr.1 [] = agents[pr.1] := by simp [List.getD, List.getElem?_eq_getElem hpr]
    rw [this]
    by_cases hd : pr.2 = dest
    · rw [if_pos hd, if_pos hd, List.append_assoc]
    · rw [if_neg hd, if_neg hd, List.nil_append]

theorem sentByRegions_eq (pairs : List (Nat × Nat)) (agents : List (List O)) (dest : Nat)
    (h : ∀ pr ∈ pairs, pr.1 < agents.length) : sentByRegions pairs agents dest =
    some (pairs.flatMap (fun pr => if pr.2 = dest then agents.getD pr.1 [] else [])) := by
  unfold sentByRegions
  rw [sent_from pairs agents dest h, List.nil_append]

theorem sentByTree_eq (ks : List Nat) (agents : List (List O)) (dest : Nat) (h : ∀ k ∈ ks, k < agents.length)
    (hnd : ks.Nodup) : sentByTree ks agents dest = some (if dest ∈ ks then agents.getD dest [] else []) := by
  unfold sentByTree
  rw [sent_from _ agents dest (by
    intro pr hpr
    obtain ⟨k, hk, rfl⟩ := List.mem_map.1 hpr
    exact h k hk), List.nil_append]
  congr 1
  clear h
  induction ks with
  | nil => rfl
  | cons k ks ih =>
    rw [List.nodup_cons] at hnd
    rw [List.map_cons, List.flatMap_cons, ih hnd.2]
    by_cases hk : k = dest
    · subst hk
      rw [if_pos rfl, if_neg hnd.1, if_pos List.mem_cons_self, List.append_nil]
    · rw [if_neg hk, List.nil_append]
      by_cases hm : dest ∈ ks
      · rw [if_pos hm, if_pos (List.mem_cons_of_mem _ hm)]
      · rw [if_neg hm, if_neg (by rw [List.mem_cons, not_or]; exact ⟨fun e => hk e.symm, hm⟩)]

/-- The pairs of a layout. -/
theorem mem_neighborRegions {rank : Nat} {ow oh : Rat} {ts : List Tile} {regs : List Block} {k r : Nat} :
    (k, r) ∈ (neighborRegions rank ow oh (blocksFrom 0 ts) regs).flatten ↔
      r ≠ rank ∧ ∃ reg ∈ regs, reg.id = k ∧ ∃ t, ts[r]? = some t ∧
        sharePoint (boundaryPoints ow oh reg.x reg.y reg.width reg.height)
          (boundaryPoints ow oh t.x t.y t.w t.h) = true := by
  unfold neighborRegions
  rw [List.mem_flatten]
  constructor
  · rintro ⟨l, hl, hkr⟩
    obtain ⟨reg, hreg, rfl⟩ := List.mem_map.1 (List.mem_filter.1 hl).1
    unfold regionPairs at hkr
    obtain ⟨b, hb, e⟩ := List.mem_map.1 hkr
    rw [List.mem_filter, Bool.and_eq_true, bne_iff_ne] at hb
    have e1 : reg.id = k := congrArg Prod.fst e
    have e2 : b.id = r := congrArg Prod.snd e
    exact ⟨e2 ▸ hb.2.1, reg, hreg, e1, b.tile, by rw [← e2]; exact mem_blocks0.1 hb.1, hb.2.2⟩
  · rintro ⟨hne, reg, hreg, rfl, t, ht, hsh⟩
    have hm : (reg.id, r) ∈ regionPairs rank ow oh (blocksFrom 0 ts) reg := by
      unfold regionPairs
      refine List.mem_map.2 ⟨⟨r, t.x, t.y, t.w, t.h⟩, ?_, rfl⟩
      rw [List.mem_filter, Bool.and_eq_true, bne_iff_ne]
      exact ⟨mem_blocks0.2 ht, hne, hsh⟩
    refine ⟨_, List.mem_filter.2 ⟨List.mem_map.2 ⟨reg, hreg, rfl⟩, ?_⟩, hm⟩
    cases h : regionPairs rank ow oh (blocksFrom 0 ts) reg with
    | nil => rw [h] at hm; simp at hm
    | cons _ _ => rfl

/-! ### Geometry of a uniform grid -/

theorem axis_near {o len lo w lo' w' p q d : Rat} {n : Nat} (hn : 0 < n) (hl : 0 < len)
    (h1 : Cell o len n lo (lo + w)) (h2 : Cell o len n lo' (lo' + w')) (hp : lo ≤ p ∧ p ≤ lo + w)
    (hq : lo' ≤ q ∧ q ≤ lo' + w') {k : Int} (hk : -d ≤ p - (q + k * len) ∧ p - (q + k * len) ≤ d) (hd : 2 * d < w) :
    w = w' ∧ ((Cong len lo lo' ∧ Cong len (lo + w) (lo' + w')) ∨
      (Cong len (lo + w) lo' ∧ lo + w - d ≤ p) ∨ (Cong len lo (lo' + w') ∧ p ≤ lo + d)) := by
  have hnq : (0 : Rat) < n := by exact_mod_cast hn
  have hu : 0 < len / (2 * n) := by positivity
  have hlen : len = 2 * n * (len / (2 * n)) := by field_simp
  obtain ⟨i, e1, e2⟩ := h1
  obtain ⟨i', e1', e2'⟩ := h2
  generalize len / (2 * n) = u at *
  have hw : w = 2 * u := by linarith
  have hw' : w' = 2 * u := by linarith
  have hshift : (k : Rat) * len = 2 * (((n * k : Int) : Rat)) * u := by rw [hlen]; push_cast; ring
  generalize hm : (n : Int) * k = m at *
  have b1 : i' + m < i + 2 := by
    have : ((i' + m : Int) : Rat) * (2 * u) < ((i + 2 : Int) : Rat) * (2 * u) := by
      push_cast; nlinarith [hp.1, hp.2, hq.1, hq.2, hk.1, hk.2]
    exact_mod_cast lt_of_mul_lt_mul_right this (by linarith)
  have b2 : i < i' + m + 2 := by
    have : ((i : Int) : Rat) * (2 * u) < ((i' + m + 2 : Int) : Rat) * (2 * u) := by
      push_cast; nlinarith [hp.1, hp.2, hq.1, hq.2, hk.1, hk.2]
    exact_mod_cast lt_of_mul_lt_mul_right this (by linarith)
  refine ⟨by linarith, ?_⟩
  have three : i = i' + m ∨ i + 1 = i' + m ∨ i = i' + m + 1 := by omega
  rcases three with h | h | h
  · have hq' : (i : Rat) = i' + m := by exact_mod_cast h
    left
    constructor
    · exact ⟨k, by rw [e1, e1', hshift, hq']; ring⟩
    · exact ⟨k, by rw [e2, e2', hshift, hq']; ring⟩
  · have hq' : (i : Rat) + 1 = i' + m := by exact_mod_cast h
    right; left
    have hc : lo + w = lo' + k * len := by
      have hi : (i : Rat) = i' + m - 1 := by linarith
      rw [e2, e1', hshift, hi]; ring
    exact ⟨⟨k, hc⟩, by linarith [hq.1, hk.1]⟩
  · have hq' : (i : Rat) = i' + m + 1 := by exact_mod_cast h
    right; right
    have hc : lo = lo' + w' + k * len := by rw [e1, e2', hshift, hq']; ring
    exact ⟨⟨k, hc⟩, by linarith [hq.2, hk.2]⟩

/-- Boxes at different places of a partition are different on the torus. -/
theorem partition_ne {root : Tile} (h : 0 < root.w ∧ 0 < root.h) {ts : List Tile} (hp : Partition root ts) {i j : Nat}
    {s t : Tile} (hi : ts[i]? = some s) (hj : ts[j]? = some t) (hij : i ≠ j)
    (hx : Cong root.w s.x t.x) (hy : Cong root.h s.y t.y) (hw : s.w = t.w) (hh : s.h = t.h) : False := by
  have hs := List.mem_of_getElem? hi
  have ht := List.mem_of_getElem? hj
  have inroot : ∀ t ∈ ts, root.x ≤ t.x ∧ t.x + t.w ≤ root.x + root.w ∧ root.y ≤ t.y ∧ t.y + t.h ≤ root.y + root.h := by
    intro t ht
    obtain ⟨pw, ph⟩ := hp.positive t ht
    obtain ⟨a, _, c, _⟩ := (hp.covers ⟨t.x, t.y⟩).2 ⟨t, ht, ⟨le_refl _, by dsimp only; linarith, le_refl _,
      by dsimp only; linarith⟩⟩
    obtain ⟨_, b, _, e⟩ := (hp.covers ⟨t.x + t.w, t.y + t.h⟩).2 ⟨t, ht, ⟨by dsimp only; linarith, le_refl _,
      by dsimp only; linarith, le_refl _⟩⟩
    exact ⟨a, b, c, e⟩
  obtain ⟨a1, a2, a3, a4⟩ := inroot s hs
  obtain ⟨b1, b2, b3, b4⟩ := inroot t ht
  obtain ⟨ps, ps'⟩ := hp.positive s hs
  obtain ⟨pt, pt'⟩ := hp.positive t ht
  have ex : s.x = t.x := hx.eq_of_lt h.1 (by linarith) (by linarith)
  have ey : s.y = t.y := hy.eq_of_lt h.2 (by linarith) (by linarith)
  have inside : ∀ p : Pos, p = ⟨s.x + s.w / 2, s.y + s.h / 2⟩ → s.Inside p ∧ t.Inside p := by
    rintro p rfl
    refine ⟨⟨?_, ?_, ?_, ?_⟩, ⟨?_, ?_, ?_, ?_⟩⟩ <;> dsimp only <;> linarith
  have hii : i < ts.length := (List.getElem?_eq_some_iff.1 hi).1
  have hjj : j < ts.length := (List.getElem?_eq_some_iff.1 hj).1
  have ei : ts[i] = s := (List.getElem?_eq_some_iff.1 hi).2
  have ej : ts[j] = t := (List.getElem?_eq_some_iff.1 hj).2
  rcases Nat.lt_or_gt_of_ne hij with hlt | hlt
  · have := List.pairwise_iff_getElem.1 hp.disjoint i j hii hjj hlt
    rw [ei, ej] at this
    exact this _ (inside _ rfl)
  · have := List.pairwise_iff_getElem.1 hp.disjoint j i hjj hii hlt
    rw [ei, ej] at this
    exact this _ (And.symm (inside _ rfl))

/-- What the proof needs of a division of a circle of length `len` into intervals `C`: if a point of one interval is
within `d` of another one, and `d` is less than half as long as the first, they are the same or the point is near an end
that they have in common. -/
def Ring (len : Rat) (C : Rat → Rat → Prop) : Prop :=
  ∀ lo w lo' w' p q d : Rat, ∀ k : Int, C lo (lo + w) → C lo' (lo' + w') → lo ≤ p ∧ p ≤ lo + w → lo' ≤ q ∧ q ≤ lo' + w' →
    -d ≤ p - (q + k * len) ∧ p - (q + k * len) ≤ d → 2 * d < w →
    (w = w' ∧ Cong len lo lo' ∧ Cong len (lo + w) (lo' + w')) ∨
      (Cong len (lo + w) lo' ∧ lo + w - d ≤ p) ∨ (Cong len lo (lo' + w') ∧ p ≤ lo + d)

/-- The boxes are products of such intervals. -/
structure Product (root : Tile) (CX CY : Rat → Rat → Prop) (ts : List Tile) : Prop where
  xs : Ring root.w CX
  ys : Ring root.h CY
  cells : ∀ t ∈ ts, CX t.x (t.x + t.w) ∧ CY t.y (t.y + t.h)

theorem ring_cell {o len : Rat} {n : Nat} (hn : 0 < n) (hl : 0 < len) : Ring len (Cell o len n) := by
  intro lo w lo' w' p q d k h1 h2 hp hq hk hd
  obtain ⟨e, h⟩ := axis_near hn hl h1 h2 hp hq hk hd
  rcases h with ⟨a, b⟩ | h | h
  · exact Or.inl ⟨e, a, b⟩
  · exact Or.inr (Or.inl h)
  · exact Or.inr (Or.inr h)

theorem uniform_product {root : Tile} (h : 0 < root.w ∧ 0 < root.h) {nx ny : Nat} {ts : List Tile}
    (hu : Uniform root nx ny ts) : Product root (Cell root.x root.w nx) (Cell root.y root.h ny) ts :=
  ⟨ring_cell hu.1 h.1, ring_cell hu.2.1 h.2, hu.2.2⟩

/-- In such a grid, the halo list of an agent is sent to every block near it. -/
theorem halo_reaches {root : Tile} (h : 0 < root.w ∧ 0 < root.h) (h0 : 0 ≤ root.x ∧ 0 ≤ root.y) {ts : List Tile}
    (hpart : Partition root ts) {CX CY : Rat → Rat → Prop} (hu : Product root CX CY ts) {rank r : Nat} {t t' : Tile}
    (ht : ts[rank]? = some t) (ht' : ts[r]? = some t') (hne : rank ≠ r) {d : Rat} (hdw : 2 * d < t.w)
    (hdh : 2 * d < t.h) {p : Pos} (hp : t.Has p) (hnear : Near root.w root.h d p t') :
    ∃ k reg, haloOf t d p = some k ∧ reg ∈ regions t.x t.y t.w t.h d ∧ reg.id = k ∧
      sharePoint (boundaryPoints root.w root.h reg.x reg.y reg.width reg.height)
        (boundaryPoints root.w root.h t'.x t'.y t'.w t'.h) = true := by
  have hm := List.mem_of_getElem? ht
  have hm' := List.mem_of_getElem? ht'
  obtain ⟨q, ⟨q1, q2, q3, q4⟩, k, m, hx, hy⟩ := hnear
  obtain ⟨p1, p2, p3, p4⟩ := hp
  have cx := hu.xs _ _ _ _ _ _ _ _ (hu.cells t hm).1 (hu.cells t' hm').1 ⟨p1, p2⟩ ⟨q1, q2⟩ hx hdw
  have cy := hu.ys _ _ _ _ _ _ _ _ (hu.cells t hm).2 (hu.cells t' hm').2 ⟨p3, p4⟩ ⟨q3, q4⟩ hy hdh
  have n00 := corner_nonneg h0 hpart hm (Or.inl rfl) (Or.inl rfl)
  have n11 := corner_nonneg h0 hpart hm (Or.inr rfl) (Or.inr rfl)
  have m00 := corner_nonneg h0 hpart hm' (Or.inl rfl) (Or.inl rfl)
  have m11 := corner_nonneg h0 hpart hm' (Or.inr rfl) (Or.inr rfl)
  -- an end of `t'` congruent to the high / low end of `t`
  have hiX : ¬ p.x ≤ t.x + d → ∃ a', End t'.x t'.w a' ∧ 0 ≤ a' ∧ Cong root.w (t.x + t.w) a' := by
    intro hx
    rcases cx with ⟨_, _, c⟩ | ⟨c, _⟩ | ⟨_, c⟩
    · exact ⟨_, Or.inr rfl, m11.1, c⟩
    · exact ⟨_, Or.inl rfl, m00.1, c⟩
    · exact absurd c hx
  have loX : ¬ t.x + t.w - d ≤ p.x → ∃ a', End t'.x t'.w a' ∧ 0 ≤ a' ∧ Cong root.w t.x a' := by
    intro hx
    rcases cx with ⟨_, c, _⟩ | ⟨_, c⟩ | ⟨c, _⟩
    · exact ⟨_, Or.inl rfl, m00.1, c⟩
    · exact absurd c hx
    · exact ⟨_, Or.inr rfl, m11.1, c⟩
  have hiY : ¬ p.y ≤ t.y + d → ∃ a', End t'.y t'.h a' ∧ 0 ≤ a' ∧ Cong root.h (t.y + t.h) a' := by
    intro hx
    rcases cy with ⟨_, _, c⟩ | ⟨c, _⟩ | ⟨_, c⟩
    · exact ⟨_, Or.inr rfl, m11.2, c⟩
    · exact ⟨_, Or.inl rfl, m00.2, c⟩
    · exact absurd c hx
  have loY : ¬ t.y + t.h - d ≤ p.y → ∃ a', End t'.y t'.h a' ∧ 0 ≤ a' ∧ Cong root.h t.y a' := by
    intro hx
    rcases cy with ⟨_, c, _⟩ | ⟨_, c⟩ | ⟨c, _⟩
    · exact ⟨_, Or.inl rfl, m00.2, c⟩
    · exact absurd c hx
    · exact ⟨_, Or.inr rfl, m11.2, c⟩
  have anyX : ∃ a a', End t.x t.w a ∧ End t'.x t'.w a' ∧ 0 ≤ a ∧ 0 ≤ a' ∧ Cong root.w a a' := by
    by_cases hx : p.x ≤ t.x + d
    · obtain ⟨a', e, z, c⟩ := loX (by linarith)
      exact ⟨_, a', Or.inl rfl, e, n00.1, z, c⟩
    · obtain ⟨a', e, z, c⟩ := hiX hx
      exact ⟨_, a', Or.inr rfl, e, n11.1, z, c⟩
  unfold haloOf
  by_cases hN : t.y + t.h - d ≤ p.y
  · refine ⟨0, ⟨0, t.x, t.y + t.h - d, t.w, d⟩, by rw [if_pos hN], by simp [regions], rfl, ?_⟩
    obtain ⟨a, a', e1, e2, z1, z2, c⟩ := anyX
    obtain ⟨b', e3, z3, c'⟩ := hiY (by linarith)
    exact share_of_corners (s := ⟨t.x, t.y + t.h - d, t.w, d⟩) (b := t.y + t.h) h.1 h.2 e1 (Or.inr (by dsimp only; ring))
      e2 e3 c c' z1 n11.2 z2 z3
  · rw [if_neg hN]
    obtain ⟨b', e3, z3, c'⟩ := loY hN
    by_cases hE : t.x + t.w - d ≤ p.x
    · refine ⟨1, ⟨1, t.x + t.w - d, t.y, d, t.h⟩, by rw [if_pos hE], by simp [regions], rfl, ?_⟩
      obtain ⟨a', e2, z2, c⟩ := hiX (by linarith)
      exact share_of_corners (s := ⟨t.x + t.w - d, t.y, d, t.h⟩) (a := t.x + t.w) h.1 h.2 (Or.inr (by dsimp only; ring))
        (Or.inl rfl) e2 e3 c c' n11.1 n00.2 z2 z3
    · rw [if_neg hE]
      obtain ⟨a', e2, z2, c⟩ := loX hE
      by_cases hS : p.y ≤ t.y + d
      · refine ⟨2, ⟨2, t.x, t.y, t.w, d⟩, by rw [if_pos hS], by simp [regions], rfl, ?_⟩
        exact share_of_corners (s := ⟨t.x, t.y, t.w, d⟩) h.1 h.2 (Or.inl rfl) (Or.inl rfl) e2 e3 c c' n00.1 n00.2 z2 z3
      · rw [if_neg hS]
        by_cases hW : p.x ≤ t.x + d
        · refine ⟨3, ⟨3, t.x, t.y, d, t.h⟩, by rw [if_pos hW], by simp [regions], rfl, ?_⟩
          exact share_of_corners (s := ⟨t.x, t.y, d, t.h⟩) h.1 h.2 (Or.inl rfl) (Or.inl rfl) e2 e3 c c' n00.1 n00.2 z2 z3
        · exfalso
          rcases cx with ⟨ew, c1, _⟩ | ⟨_, c1⟩ | ⟨_, c1⟩
          · rcases cy with ⟨eh, c2, _⟩ | ⟨_, c2⟩ | ⟨_, c2⟩
            · exact partition_ne h hpart ht ht' hne c1 c2 ew eh
            · exact hN c2
            · exact hS c2
          · exact hE c1
          · exact hW c1

/-- In such a grid, a block near an agent has a common corner with the block of the agent. -/
theorem near_share {root : Tile} {ts : List Tile}
    {CX CY : Rat → Rat → Prop} (hu : Product root CX CY ts) {t t' : Tile} (hm : t ∈ ts) (hm' : t' ∈ ts) {d : Rat} (hdw : 2 * d < t.w)
    (hdh : 2 * d < t.h) {p : Pos} (hp : t.Has p) (hnear : Near root.w root.h d p t') :
    ShareCorner root.w root.h t t' := by
  obtain ⟨q, ⟨q1, q2, q3, q4⟩, k, m, hx, hy⟩ := hnear
  obtain ⟨p1, p2, p3, p4⟩ := hp
  have cx := hu.xs _ _ _ _ _ _ _ _ (hu.cells t hm).1 (hu.cells t' hm').1 ⟨p1, p2⟩ ⟨q1, q2⟩ hx hdw
  have cy := hu.ys _ _ _ _ _ _ _ _ (hu.cells t hm).2 (hu.cells t' hm').2 ⟨p3, p4⟩ ⟨q3, q4⟩ hy hdh
  have ax : ∃ a a', End t.x t.w a ∧ End t'.x t'.w a' ∧ Cong root.w a a' := by
    rcases cx with ⟨_, c, _⟩ | ⟨c, _⟩ | ⟨c, _⟩
    · exact ⟨_, _, Or.inl rfl, Or.inl rfl, c⟩
    · exact ⟨_, _, Or.inr rfl, Or.inl rfl, c⟩
    · exact ⟨_, _, Or.inl rfl, Or.inr rfl, c⟩
  have ay : ∃ a a', End t.y t.h a ∧ End t'.y t'.h a' ∧ Cong root.h a a' := by
    rcases cy with ⟨_, c, _⟩ | ⟨c, _⟩ | ⟨c, _⟩
    · exact ⟨_, _, Or.inl rfl, Or.inl rfl, c⟩
    · exact ⟨_, _, Or.inr rfl, Or.inl rfl, c⟩
    · exact ⟨_, _, Or.inl rfl, Or.inr rfl, c⟩
  obtain ⟨a, a', x1, x2, x3⟩ := ax
  obtain ⟨b, b', y1, y2, y3⟩ := ay
  exact ⟨a, b, a', b', x1, y1, x2, y2, x3, y3⟩

/-! ### The exchange of lengths -/

/-- What every reachable state keeps. -/
structure Ready (s : Pending) : Prop where
  symm : ∀ i j, j ∈ s i → i ∈ s j
  sorted : ∀ i, (s i).Pairwise (· < ·)

theorem ready_meet {s s' : Pending} (h : Ready s) (hm : Meet s s') : Ready s' := by
  obtain ⟨i, j, a, b, hij, hi, hj, rfl⟩ := hm
  have si := h.sorted i
  have sj := h.sorted j
  rw [hi, List.pairwise_cons] at si
  rw [hj, List.pairwise_cons] at sj
  have val : ∀ k, (if k = i then a else if k = j then b else s k) ⊆ s k := by
    intro k
    by_cases h1 : k = i
    · subst h1; rw [if_pos rfl, hi]; exact List.subset_cons_self _ _
    · rw [if_neg h1]
      by_cases h2 : k = j
      · subst h2; rw [if_pos rfl, hj]; exact List.subset_cons_self _ _
      · rw [if_neg h2]; exact List.Subset.refl _
  constructor
  · intro k l hl
    have h1 := h.symm k l (val k hl)
    by_cases l1 : l = i
    · subst l1
      rw [if_pos rfl]
      rw [hi, List.mem_cons] at h1
      rcases h1 with rfl | h1
      · rw [if_neg (Ne.symm hij), if_pos rfl] at hl
        exact absurd (sj.1 l hl) (lt_irrefl _)
      · exact h1
    · rw [if_neg l1]
      by_cases l2 : l = j
      · subst l2
        rw [if_pos rfl]
        rw [hj, List.mem_cons] at h1
        rcases h1 with rfl | h1
        · rw [if_pos rfl] at hl
          exact absurd (si.1 l hl) (lt_irrefl _)
        · exact h1
      · rw [if_neg l2]; exact h1
  · intro k
    by_cases h1 : k = i
    · rw [if_pos h1]; exact si.2
    · rw [if_neg h1]
      by_cases h2 : k = j
      · rw [if_pos h2]; exact sj.2
      · rw [if_neg h2]; exact h.sorted k

theorem ready_progress {s : Pending} (h : Ready s) (hself : ∀ i, i ∉ s i) {i : Nat} (hi : s i ≠ []) :
    ∃ s', Meet s s' := by
  -- the smallest next partner
  have hex : ∃ j, ∃ i a, s i = j :: a := by
    cases hs : s i with
    | nil => exact absurd hs hi
    | cons j a => exact ⟨j, i, a, hs⟩
  classical
  obtain ⟨i0, a0, h0⟩ := Nat.find_spec hex
  have hmin : ∀ j', (∃ i a, s i = j' :: a) → Nat.find hex ≤ j' := fun j' hj' => Nat.find_min' hex hj'
  generalize Nat.find hex = j at *
  have hj : i0 ∈ s j := h.symm i0 j (by rw [h0]; exact List.mem_cons_self)
  cases hsj : s j with
  | nil => rw [hsj] at hj; simp at hj
  | cons k b =>
    have hk : j ∈ s k := h.symm j k (by rw [hsj]; exact List.mem_cons_self)
    cases hsk : s k with
    | nil => rw [hsk] at hk; simp at hk
    | cons l c =>
      have hlj : l = j := by
        have h1 := hmin l ⟨k, c, hsk⟩
        have h2 := h.sorted k
        rw [hsk] at hk h2
        rcases List.mem_cons.1 hk with e | hk
        · exact e.symm
        · have := (List.pairwise_cons.1 h2).1 j hk
          omega
      subst hlj
      have hne : l ≠ k := by
        rintro rfl
        exact hself l (by rw [hsk]; exact List.mem_cons_self)
      exact ⟨_, l, k, b, c, hne, hsj, hsk, rfl⟩

end Verif.KdTree
