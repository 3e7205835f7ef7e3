import Verif.Spec.KdMachine
import Verif.Lemmas.KdTree3
import Verif.Lemmas.Machine

/-!
Lemmas on the subdivision on machine floats: the literal loops equal a recursion, every process works on the box of its block,
and with bits to spare nothing is rounded.
-/

set_option linter.unusedSectionVars false

namespace Verif.KdMachine

open Machine

open KdTree (insertIdx_append_add foldl_absent)

variable {rnd : Rat → Rat}

/-- The box of a block. -/
def Block.tile (b : Block) : Tile := ⟨b.x, b.y, b.width, b.height⟩

/-- Split the first `k` boxes. -/
def splitFirst (rnd : Rat → Rat) (axis : Axis) : Nat → List Tile → List Tile
  | 0, ts => ts
  | _ + 1, [] => []
  | k + 1, t :: ts => (split rnd t axis).1 :: (split rnd t axis).2 :: splitFirst rnd axis k ts

theorem passStep_stop {p : Nat} {axis : Axis} {ts : List Tile} {count : Nat} (h : p ≤ count) (ns : List Nat) :
    ns.foldl (passStep rnd p axis) (some (ts, count)) = some (ts, count) := by
  induction ns with
  | nil => rfl
  | cons n ns ih =>
    rw [List.foldl_cons]
    have : passStep rnd p axis (some (ts, count)) n = some (ts, count) := by
      unfold passStep
      dsimp only
      rw [if_pos h]
    rw [this, ih]

theorem pass_from {p : Nat} {axis : Axis} (rest : List Tile) : ∀ (done : List Tile) (n count : Nat),
    done.length = n * 2 → count ≤ p →
    (List.range' n rest.length).foldl (passStep rnd p axis) (some (done ++ rest, count)) =
      some (done ++ splitFirst rnd axis (p - count) rest, min p (count + rest.length)) := by
  induction rest with
  | nil =>
    intro done n count _ hc
    simp only [List.length_nil, List.range'_zero, List.foldl_nil, Nat.add_zero, Nat.min_eq_right hc]
    cases p - count <;> rfl
  | cons t rest ih =>
    intro done n count hd hc
    by_cases hp : p ≤ count
    · rw [passStep_stop hp]
      have h1 : p - count = 0 := by omega
      have h2 : min p (count + (t :: rest).length) = count := by omega
      rw [h1, h2]
      rfl
    · rw [List.length_cons, List.range'_succ, List.foldl_cons]
      have hstep : passStep rnd p axis (some (done ++ t :: rest, count)) n =
          some ((done ++ [(split rnd t axis).1, (split rnd t axis).2]) ++ rest, count + 1) := by
        unfold passStep
        dsimp only
        rw [if_neg (by omega)]
        have hg : (done ++ t :: rest)[n * 2]? = some t := by
          rw [List.getElem?_append_right (by omega), hd]
          simp
        rw [hg]
        dsimp only
        congr 2
        rw [List.set_append_right _ _ (by omega), hd, Nat.sub_self, List.set_cons_zero]
        rw [← hd, insertIdx_append_add, List.append_assoc]
        rfl
      rw [hstep]
      rw [ih _ (n + 1) (count + 1) (by simp; omega) (by omega)]
      obtain ⟨k, hk⟩ : ∃ k, p - count = k + 1 := ⟨p - count - 1, by omega⟩
      have hk' : p - (count + 1) = k := by omega
      rw [hk, hk', splitFirst, List.append_assoc]
      congr 2
      omega

/-- A pass splits boxes in order until there are `p`. -/
theorem pass_eq {p : Nat} {axis : Axis} {ts : List Tile} {count : Nat} (hc : count ≤ p) :
    pass rnd p axis ts count = some (splitFirst rnd axis (p - count) ts, min p (count + ts.length)) := by
  have := pass_from (rnd := rnd) (axis := axis) ts [] 0 count rfl hc
  rw [List.nil_append, List.nil_append] at this
  unfold pass
  rw [List.range_eq_range', this]

theorem splitFirst_length (axis : Axis) (k : Nat) (ts : List Tile) :
    (splitFirst rnd axis k ts).length = ts.length + min k ts.length := by
  induction ts generalizing k with
  | nil => cases k <;> rfl
  | cons t ts ih =>
    cases k with
    | zero => simp [splitFirst]
    | succ k => simp only [splitFirst, List.length_cons, ih]; omega

/-- What holds of the first boxes and is kept by passes, holds of the result, which has `p` boxes. -/
theorem passes_inv {p : Nat} (I : Axis → List Tile → Prop) (J : List Tile → Prop)
    (hIJ : ∀ axis ts, I axis ts → J ts)
    (hfull : ∀ axis ts, I axis ts → I axis.other (splitFirst rnd axis ts.length ts))
    (hpart : ∀ axis ts k, I axis ts → J (splitFirst rnd axis k ts)) (fuel : Nat) : ∀ (axis : Axis) (ts : List Tile),
    ts ≠ [] → ts.length ≤ p → p ≤ ts.length + fuel → I axis ts →
    ∃ ts', passes rnd p fuel axis ts ts.length = some ts' ∧ ts'.length = p ∧ J ts' := by
  induction fuel with
  | zero => intro axis ts hne h1 h2 hi; exact ⟨ts, rfl, by omega, hIJ _ _ hi⟩
  | succ fuel ih =>
    intro axis ts hne h1 h2 hi
    have hpos : 0 < ts.length := List.length_pos_iff.2 hne
    rw [passes]
    by_cases hlt : ts.length < p
    · rw [if_pos hlt, pass_eq h1]
      dsimp only
      have hlen := splitFirst_length (rnd := rnd) axis (p - ts.length) ts
      by_cases hbig : 2 * ts.length ≤ p
      · have hmin : min p (ts.length + ts.length) = (splitFirst rnd axis (p - ts.length) ts).length := by omega
        have hsame : splitFirst rnd axis (p - ts.length) ts = splitFirst rnd axis ts.length ts := by
          have : ∀ (ts : List Tile) (k : Nat), ts.length ≤ k → splitFirst rnd axis k ts = splitFirst rnd axis ts.length ts := by
            intro ts
            induction ts with
            | nil => intro k _; cases k <;> rfl
            | cons t ts ih =>
              intro k hk
              rw [List.length_cons] at hk
              obtain ⟨k, rfl⟩ : ∃ k', k = k' + 1 := ⟨k - 1, by omega⟩
              rw [List.length_cons, splitFirst, splitFirst, ih k (by omega)]
          exact this ts _ (by omega)
        rw [hmin]
        refine ih _ _ ?_ (by omega) (by omega) ?_
        · rw [← List.length_pos_iff]; omega
        · rw [hsame]; exact hfull _ _ hi
      · have hmin : min p (ts.length + ts.length) = p := by omega
        refine ⟨splitFirst rnd axis (p - ts.length) ts, ?_, by omega, hpart _ _ _ hi⟩
        rw [hmin]
        cases fuel with
        | zero => rfl
        | succ fuel => rw [passes, if_neg (by omega)]
    · rw [if_neg hlt]
      exact ⟨ts, rfl, by omega, hIJ _ _ hi⟩

/-! ### Blocks -/

theorem blocksFrom_length (id : Nat) (ts : List Tile) : (blocksFrom id ts).length = ts.length := by
  induction ts generalizing id with
  | nil => rfl
  | cons t ts ih => simp [blocksFrom, ih]

theorem blocksFrom_ids (id : Nat) (ts : List Tile) : (blocksFrom id ts).map Block.id = List.range' id ts.length := by
  induction ts generalizing id with
  | nil => rfl
  | cons t ts ih => simp [blocksFrom, ih, List.range'_succ]

theorem blocksFrom_tiles (id : Nat) (ts : List Tile) : (blocksFrom id ts).map Block.tile = ts := by
  induction ts generalizing id with
  | nil => rfl
  | cons t ts ih => simp [blocksFrom, ih, Block.tile]

theorem blocksFrom_getElem? (id : Nat) (ts : List Tile) (i : Nat) :
    (blocksFrom id ts)[i]? = (ts[i]?).map (fun t => ⟨id + i, t.x, t.y, t.w, t.h⟩) := by
  induction ts generalizing id i with
  | nil => rfl
  | cons t ts ih =>
    cases i with
    | zero => rfl
    | succ i =>
      rw [blocksFrom, List.getElem?_cons_succ, List.getElem?_cons_succ, ih]
      congr 2
      funext t
      congr 1
      omega

theorem mem_blocks0 {ts : List Tile} {b : Block} :
    b ∈ blocksFrom 0 ts ↔ ts[b.id]? = some b.tile := by
  rw [List.mem_iff_getElem?]
  simp only [blocksFrom_getElem?]
  constructor
  · rintro ⟨i, h⟩
    obtain ⟨t, ht, rfl⟩ := Option.map_eq_some_iff.1 h
    simpa [Block.tile] using ht
  · intro h
    refine ⟨b.id, ?_⟩
    rw [h]
    simp [Block.tile]

/-- Splitting a list of blocks at the one with a given id. -/
theorem blocks_split {ts : List Tile} {r : Nat} {t : Tile} (h : ts[r]? = some t) :
    ∃ l1 l2, blocksFrom 0 ts = l1 ++ ⟨r, t.x, t.y, t.w, t.h⟩ :: l2 ∧ (∀ b ∈ l1, b.id ≠ r) ∧ ∀ b ∈ l2, b.id ≠ r := by
  have hmem : (⟨r, t.x, t.y, t.w, t.h⟩ : Block) ∈ blocksFrom 0 ts := mem_blocks0.2 h
  obtain ⟨l1, l2, e⟩ := List.append_of_mem hmem
  have hnd : ((blocksFrom 0 ts).map Block.id).Nodup := by
    rw [blocksFrom_ids]; exact List.nodup_range' (step := 1)
  rw [e, List.map_append, List.map_cons] at hnd
  rw [List.nodup_append] at hnd
  obtain ⟨_, h2, h3⟩ := hnd
  rw [List.nodup_cons] at h2
  refine ⟨l1, l2, e, ?_, ?_⟩
  · intro b hb he
    exact h3 b.id (List.mem_map_of_mem hb) r List.mem_cons_self he
  · intro b hb he
    exact h2.1 (List.mem_map.2 ⟨b, hb, he⟩)

theorem boxAndNeighbors_eq {rank : Nat} {root : Tile} {ts : List Tile} {t : Tile} (h : ts[rank]? = some t)
    (h0 : rank = 0 → t.x = root.x ∧ t.y = root.y) :
    boxAndNeighbors rnd rank root (blocksFrom 0 ts) =
      (t, touching rnd rank root.w root.h t.x t.y t.w t.h (blocksFrom 0 ts)) := by
  obtain ⟨l1, l2, e, n1, n2⟩ := blocks_split h
  unfold boxAndNeighbors
  by_cases hr : rank = 0
  · subst hr
    have hs : (blocksFrom 0 ts).foldl (ownSize 0) (root.w, root.h) = (t.w, t.h) := by
      rw [e, List.foldl_append, List.foldl_cons]
      rw [foldl_absent (ownSize 0) l1 _ (fun s b hb => by unfold ownSize; rw [if_neg (n1 b hb)])]
      rw [foldl_absent (ownSize 0) l2 _ (fun s b hb => by unfold ownSize; rw [if_neg (n2 b hb)])]
      unfold ownSize
      rw [if_pos rfl]
    obtain ⟨hx, hy⟩ := h0 rfl
    rw [if_pos rfl, hs, ← hx, ← hy]
  · rw [if_neg hr]
    have : ∀ bs, (blocksFrom 0 ts).foldl (ownBox rnd rank root.w root.h bs) (root, []) =
        (t, touching rnd rank root.w root.h t.x t.y t.w t.h bs) := by
      intro bs
      rw [e, List.foldl_append, List.foldl_cons]
      rw [foldl_absent _ l1 _ (fun s b hb => by unfold ownBox; rw [if_neg (n1 b hb)])]
      rw [foldl_absent _ l2 _ (fun s b hb => by unfold ownBox; rw [if_neg (n2 b hb)])]
      unfold ownBox
      rw [if_pos rfl]
      rfl
    exact this _

/-! ### The first box is at the origin of the field -/

theorem splitFirst_head {axis : Axis} {k : Nat} {ts : List Tile} {root : Tile}
    (h : ∃ t, ts[0]? = some t ∧ t.x = root.x ∧ t.y = root.y) :
    ∃ t, (splitFirst rnd axis k ts)[0]? = some t ∧ t.x = root.x ∧ t.y = root.y := by
  obtain ⟨t, h1, h2, h3⟩ := h
  cases ts with
  | nil => simp at h1
  | cons t' ts =>
    have : t' = t := by simpa using h1
    subst this
    cases k with
    | zero => exact ⟨t', rfl, h2, h3⟩
    | succ k =>
      refine ⟨(split rnd t' axis).1, rfl, ?_⟩
      cases axis <;> exact ⟨h2, h3⟩

theorem subtrees_head {root : Tile} {p : Nat} (hp : 2 ≤ p) :
    ∃ ts t, subtrees rnd root p = some ts ∧ ts.length = p ∧ ts[0]? = some t ∧ t.x = root.x ∧ t.y = root.y := by
  obtain ⟨ts, h1, h2, t, h3⟩ := passes_inv (p := p)
    (fun _ ts => ∃ t, ts[0]? = some t ∧ t.x = root.x ∧ t.y = root.y)
    (fun ts => ∃ t, ts[0]? = some t ∧ t.x = root.x ∧ t.y = root.y)
    (fun _ _ h => h) (fun axis ts h => splitFirst_head h) (fun axis ts k h => splitFirst_head h)
    p .horizontal [(split rnd root .vertical).1, (split rnd root .vertical).2] (by simp) (by simpa using hp) (by simp)
    ⟨_, rfl, rfl, rfl⟩
  refine ⟨ts, t, ?_, h2, h3⟩
  unfold subtrees
  rw [if_pos (by omega)]
  exact h1

/-- The layout of a process: its own box is its block. -/
theorem createTree_spec {rank size : Nat} {root : Tile} {d : F} (hs : 2 ≤ size)
    (hr : rank < size) : ∃ ts t, subtrees rnd root size = some ts ∧ ts[rank]? = some t ∧
      createTree rnd rank size 0 root d = some (layoutOf rnd rank size root d (blocksFrom 0 ts)
        (t, touching rnd rank root.w root.h t.x t.y t.w t.h (blocksFrom 0 ts))) := by
  obtain ⟨ts, t0, h1, h2, h3, h4, h5⟩ := subtrees_head (rnd := rnd) (root := root) hs
  have hg : ts[rank]? = some ts[rank] := List.getElem?_eq_getElem (by omega)
  refine ⟨ts, ts[rank], h1, hg, ?_⟩
  unfold createTree
  rw [if_neg (by omega), h1]
  dsimp only
  rw [boxAndNeighbors_eq hg]
  rintro rfl
  rw [h3] at hg
  rw [← Option.some.inj hg]
  exact ⟨h4, h5⟩

theorem mem_touching {rank : Nat} {ow oh x y w h : F} {ts : List Tile} {r : Nat} :
    r ∈ touching rnd rank ow oh x y w h (blocksFrom 0 ts) ↔ r ≠ rank ∧ ∃ t, ts[r]? = some t ∧
      sharePoint (boundaryPoints rnd ow oh x y w h) (boundaryPoints rnd ow oh t.x t.y t.w t.h) = true := by
  unfold touching
  rw [List.mem_map]
  constructor
  · rintro ⟨b, hb, rfl⟩
    rw [List.mem_filter, Bool.and_eq_true, bne_iff_ne] at hb
    exact ⟨hb.2.1, b.tile, mem_blocks0.1 hb.1, hb.2.2⟩
  · rintro ⟨hne, t, ht, hsh⟩
    refine ⟨⟨r, t.x, t.y, t.w, t.h⟩, ?_, rfl⟩
    rw [List.mem_filter, Bool.and_eq_true, bne_iff_ne]
    exact ⟨mem_blocks0.2 ht, hne, hsh⟩


theorem eqF_comm (a b : F) : eqF a b = eqF b a := by
  cases a <;> cases b <;> simp only [eqF]
  · exact Bool.beq_comm
  · exact decide_eq_decide.2 eq_comm

theorem sharePoint_comm (ps qs : List (F × F)) : sharePoint ps qs = true → sharePoint qs ps = true := by
  unfold sharePoint
  simp only [List.any_eq_true, Bool.and_eq_true]
  rintro ⟨p, hp, q, hq, h1, h2⟩
  exact ⟨q, hq, p, hp, by rw [eqF_comm]; exact h1, by rw [eqF_comm]; exact h2⟩

/-! ### Bits to spare -/

section

variable (hr : Single.Rounding rnd) {D : Nat} {e : Int} (he1 : -149 ≤ e) (he2 : e ≤ 100)
include hr he1 he2

theorem ofRat_rep {q : Rat} (h : Rep e q) : ofRat rnd q = .fin q := by
  obtain ⟨n, hn, rfl⟩ := h
  have hp : (0 : Rat) < (2 : Rat) ^ e := zpow_pos (by norm_num) e
  have hle : (2 : Rat) ^ e ≤ 2 ^ (100 : Int) := zpow_le_zpow_right₀ (by norm_num) he2
  have hn' : |(n : Rat)| ≤ 2 ^ 24 := by exact_mod_cast hn
  rw [ofRat_of hr]
  · rw [hr.keeps ⟨n, e, hn, he1, rfl⟩]
  · rw [abs_mul, abs_of_pos hp]
    calc |(n : Rat)| * (2 : Rat) ^ e ≤ 2 ^ 24 * 2 ^ (100 : Int) := mul_le_mul hn' hle hp.le (by norm_num)
      _ ≤ 2 ^ 127 := by norm_num

theorem add_rep {p q : Rat} (h : Rep e (p + q)) : add rnd (.fin p) (.fin q) = .fin (p + q) := ofRat_rep hr he1 he2 h

theorem sub_rep {p q : Rat} (h : Rep e (p - q)) : sub rnd (.fin p) (.fin q) = .fin (p - q) := by
  unfold sub neg
  rw [add_rep hr he1 he2 (by rwa [← sub_eq_add_neg]), sub_eq_add_neg]

theorem half_rep {q : Rat} (h : Rep e (q / 2)) : half rnd (.fin q) = .fin (q / 2) := by
  unfold half div
  dsimp only
  rw [if_neg (by norm_num)]
  exact ofRat_rep hr he1 he2 h

omit hr he1 he2 in
theorem Fit1.down {k : Nat} {x w : Rat} (h : Fit1 D e (k + 1) x w) : Fit1 D e k x w := by
  obtain ⟨X, W, h1, h2, h3, h4, h5⟩ := h
  refine ⟨X, 2 * W, h1, by omega, by rw [pow_succ] at h3; linarith, h4, ?_⟩
  rw [h5, pow_succ]
  push_cast
  ring

omit hr he1 he2 in
theorem Fit1.halves {k : Nat} {x w : Rat} (h : Fit1 D e (k + 1) x w) :
    Rep e (w / 2) ∧ Rep e (x + w / 2) ∧ Fit1 D e k x (w / 2) ∧ Fit1 D e k (x + w / 2) (w / 2) := by
  obtain ⟨X, W, h1, h2, h3, h4, h5⟩ := h
  have hw : w / 2 = W * 2 ^ k * (2 : Rat) ^ e := by rw [h5, pow_succ]; ring
  have hx : x + w / 2 = ((X + W * 2 ^ k : Int) : Rat) * (2 : Rat) ^ e := by rw [hw, h4]; push_cast; ring
  have hp : (0 : Int) ≤ W * 2 ^ k := by positivity
  rw [pow_succ] at h3
  refine ⟨⟨W * 2 ^ k, ?_, ?_⟩, ⟨X + W * 2 ^ k, ?_, hx⟩, ⟨X, W, h1, h2, by linarith, h4, hw⟩,
    ⟨X + W * 2 ^ k, W, by linarith, h2, by linarith, hx, hw⟩⟩
  · rw [abs_of_nonneg hp]; linarith
  · rw [hw]; push_cast; ring
  · rw [abs_of_nonneg (by linarith)]; linarith

theorem split_fit {k : Nat} {t : KdTree.Tile} (h : Fit D e (k + 1) t) (axis : Axis) :
    split rnd (ofTile t) axis = (ofTile (KdTree.split t axis).1, ofTile (KdTree.split t axis).2) ∧
    Fit D e k (KdTree.split t axis).1 ∧ Fit D e k (KdTree.split t axis).2 := by
  obtain ⟨hx, hy⟩ := h
  cases axis with
  | vertical =>
    obtain ⟨a, b, c, d⟩ := hx.halves
    refine ⟨?_, ⟨c, hy.down⟩, ⟨d, hy.down⟩⟩
    simp only [split, KdTree.split, ofTile]
    rw [half_rep hr he1 he2 a, add_rep hr he1 he2 b]
  | horizontal =>
    obtain ⟨a, b, c, d⟩ := hy.halves
    refine ⟨?_, ⟨hx.down, c⟩, ⟨hx.down, d⟩⟩
    simp only [split, KdTree.split, ofTile]
    rw [half_rep hr he1 he2 a, add_rep hr he1 he2 b]

theorem splitFirst_fit {k : Nat} (axis : Axis) (n : Nat) (ts : List KdTree.Tile) (h : ∀ t ∈ ts, Fit D e (k + 1) t) :
    splitFirst rnd axis n (ts.map ofTile) = (KdTree.splitFirst axis n ts).map ofTile ∧
    ∀ t ∈ KdTree.splitFirst axis n ts, Fit D e k t := by
  induction ts generalizing n with
  | nil => cases n <;> exact ⟨rfl, by simp [KdTree.splitFirst]⟩
  | cons t ts ih =>
    cases n with
    | zero => exact ⟨rfl, fun s hs => ⟨(h s hs).1.down, (h s hs).2.down⟩⟩
    | succ n =>
      obtain ⟨e1, f1, f2⟩ := split_fit hr he1 he2 (h t List.mem_cons_self) axis
      obtain ⟨e2, f3⟩ := ih n (fun s hs => h s (List.mem_cons_of_mem _ hs))
      constructor
      · simp only [List.map_cons, splitFirst, KdTree.splitFirst, e1, e2]
      · intro s hs
        simp only [KdTree.splitFirst, List.mem_cons] at hs
        rcases hs with rfl | rfl | hs
        · exact f1
        · exact f2
        · exact f3 s hs

theorem passes_fit {p : Nat} (fuel : Nat) : ∀ (k : Nat) (axis : Axis) (ts : List KdTree.Tile), ts.length ≤ p →
    p ≤ ts.length * 2 ^ k → (∀ t ∈ ts, Fit D e k t) →
    passes rnd p fuel axis (ts.map ofTile) ts.length = (KdTree.passes p fuel axis ts ts.length).map (List.map ofTile) ∧
    ∀ ts', KdTree.passes p fuel axis ts ts.length = some ts' → ∀ t ∈ ts', Fit D e 0 t := by
  have down : ∀ (k : Nat) (t : KdTree.Tile), Fit D e k t → Fit D e 0 t := by
    intro k
    induction k with
    | zero => exact fun _ h => h
    | succ k ih => exact fun t h => ih t ⟨h.1.down, h.2.down⟩
  induction fuel with
  | zero =>
    intro k axis ts _ _ hf
    refine ⟨rfl, ?_⟩
    intro ts' h t ht
    obtain rfl := Option.some.inj h
    exact down k t (hf t ht)
  | succ fuel ih =>
    intro k axis ts h1 h2 hf
    rw [passes, KdTree.passes]
    by_cases hlt : ts.length < p
    · cases k with
      | zero => omega
      | succ k =>
        obtain ⟨e1, f1⟩ := splitFirst_fit hr he1 he2 axis (p - ts.length) ts hf
        rw [if_pos hlt, if_pos hlt, pass_eq h1, KdTree.pass_eq h1]
        dsimp only
        rw [e1, List.length_map]
        have hlen := KdTree.splitFirst_length axis (p - ts.length) ts
        have hmin : Min.min p (ts.length + ts.length) = (KdTree.splitFirst axis (p - ts.length) ts).length := by omega
        rw [hmin]
        refine ih k _ _ (by omega) ?_ f1
        rw [pow_succ] at h2
        by_cases hb : p ≤ ts.length + ts.length
        · have : (KdTree.splitFirst axis (p - ts.length) ts).length = p := by omega
          rw [this]
          exact Nat.le_mul_of_pos_right _ (by positivity)
        · have : (KdTree.splitFirst axis (p - ts.length) ts).length = ts.length * 2 := by omega
          rw [this]
          linarith
    · rw [if_neg hlt, if_neg hlt]
      refine ⟨rfl, ?_⟩
      intro ts' h t ht
      obtain rfl := Option.some.inj h
      exact down k t (hf t ht)

theorem subtrees_fit {p k : Nat} {root : KdTree.Tile} (hp : 2 ≤ p) (hk : p ≤ 2 ^ k) (h : Fit D e k root) :
    subtrees rnd (ofTile root) p = (KdTree.subtrees root p).map (List.map ofTile) ∧
    ∀ ts, KdTree.subtrees root p = some ts → ∀ t ∈ ts, Fit D e 0 t := by
  cases k with
  | zero => omega
  | succ k =>
    obtain ⟨e1, f1, f2⟩ := split_fit hr he1 he2 h .vertical
    unfold subtrees KdTree.subtrees
    rw [if_pos (by omega), if_pos (by omega), e1]
    refine passes_fit hr he1 he2 p k .horizontal [(KdTree.split root .vertical).1, (KdTree.split root .vertical).2]
      (by simpa using hp) (by rw [pow_succ] at hk; simpa [mul_comm] using hk) ?_
    intro t ht
    simp only [List.mem_cons, List.not_mem_nil, or_false] at ht
    rcases ht with rfl | rfl
    · exact f1
    · exact f2

omit hr he1 he2 in
theorem blocksFrom_map (id : Nat) (ts : List KdTree.Tile) :
    blocksFrom id (ts.map ofTile) = (KdTree.blocksFrom id ts).map ofBlock := by
  induction ts generalizing id with
  | nil => rfl
  | cons t ts ih => simp only [List.map_cons, blocksFrom, KdTree.blocksFrom, ih]; rfl

/-- The ends of the sides of a box are multiples of `2 ^ e`. -/
def Corners (e : Int) (x y w h : Rat) : Prop := Rep e (x + w) ∧ Rep e (y + h)

theorem boundaryPoints_rep {ow oh x y w h : Rat} (how : ow ≠ 0) (hoh : oh ≠ 0) (hc : Corners e x y w h) :
    boundaryPoints rnd (.fin ow) (.fin oh) (.fin x) (.fin y) (.fin w) (.fin h) =
      (KdTree.boundaryPoints ow oh x y w h).map (fun q => (F.fin q.1, F.fin q.2)) := by
  unfold boundaryPoints KdTree.boundaryPoints
  rw [add_rep hr he1 he2 hc.1, add_rep hr he1 he2 hc.2]
  simp only [rem, if_neg how, if_neg hoh, List.map_cons, List.map_nil]

omit hr he1 he2 in
theorem sharePoint_map (ps qs : List (Rat × Rat)) :
    sharePoint (ps.map (fun q => (F.fin q.1, F.fin q.2))) (qs.map (fun q => (F.fin q.1, F.fin q.2))) =
      KdTree.sharePoint ps qs := by
  unfold sharePoint KdTree.sharePoint
  rw [List.any_map]
  congr 1
  funext p
  simp only [Function.comp_apply, List.any_map]
  congr 1

omit hr he1 he2 in
theorem filter_map_congr {α β γ : Type} (f : α → β) (p : β → Bool) (q : α → Bool) (g : β → γ) (g' : α → γ) (l : List α)
    (h : ∀ a ∈ l, p (f a) = q a) (hg : ∀ a, g (f a) = g' a) : ((l.map f).filter p).map g = (l.filter q).map g' := by
  induction l with
  | nil => rfl
  | cons a l ih =>
    have ih := ih (fun b hb => h b (List.mem_cons_of_mem _ hb))
    rw [List.map_cons, List.filter_cons, List.filter_cons, h a List.mem_cons_self]
    by_cases hq : q a = true
    · rw [if_pos hq, if_pos hq, List.map_cons, List.map_cons, ih, hg]
    · rw [if_neg hq, if_neg hq, ih]

theorem touching_rep {rank : Nat} {ow oh x y w h : Rat} (how : ow ≠ 0) (hoh : oh ≠ 0) (hc : Corners e x y w h)
    (blocks : List KdTree.Block) (hb : ∀ b ∈ blocks, Corners e b.x b.y b.width b.height) :
    touching rnd rank (.fin ow) (.fin oh) (.fin x) (.fin y) (.fin w) (.fin h) (blocks.map ofBlock) =
      KdTree.touching rank ow oh x y w h blocks := by
  unfold touching KdTree.touching
  refine filter_map_congr _ _ _ _ _ _ ?_ (fun _ => rfl)
  intro b hbm
  show (b.id != rank && sharePoint _ (boundaryPoints rnd (.fin ow) (.fin oh) (.fin b.x) (.fin b.y) (.fin b.width) (.fin b.height))) = _
  rw [boundaryPoints_rep hr he1 he2 how hoh hc, boundaryPoints_rep hr he1 he2 how hoh (hb b hbm), sharePoint_map]

theorem regionPairs_rep {rank : Nat} {ow oh : Rat} (how : ow ≠ 0) (hoh : oh ≠ 0) (r : KdTree.Block)
    (hc : Corners e r.x r.y r.width r.height) (blocks : List KdTree.Block)
    (hb : ∀ b ∈ blocks, Corners e b.x b.y b.width b.height) :
    regionPairs rnd rank (.fin ow) (.fin oh) (blocks.map ofBlock) (ofBlock r) = KdTree.regionPairs rank ow oh blocks r := by
  unfold regionPairs KdTree.regionPairs
  refine filter_map_congr _ _ _ _ _ _ ?_ (fun _ => rfl)
  intro b hbm
  show (b.id != rank && sharePoint (boundaryPoints rnd (.fin ow) (.fin oh) (.fin r.x) (.fin r.y) (.fin r.width) (.fin r.height))
    (boundaryPoints rnd (.fin ow) (.fin oh) (.fin b.x) (.fin b.y) (.fin b.width) (.fin b.height))) = _
  rw [boundaryPoints_rep hr he1 he2 how hoh hc, boundaryPoints_rep hr he1 he2 how hoh (hb b hbm), sharePoint_map]

theorem neighborRegions_rep {rank : Nat} {ow oh : Rat} (how : ow ≠ 0) (hoh : oh ≠ 0) (regs blocks : List KdTree.Block)
    (hc : ∀ r ∈ regs, Corners e r.x r.y r.width r.height) (hb : ∀ b ∈ blocks, Corners e b.x b.y b.width b.height) :
    neighborRegions rnd rank (.fin ow) (.fin oh) (blocks.map ofBlock) (regs.map ofBlock) =
      KdTree.neighborRegions rank ow oh blocks regs := by
  unfold neighborRegions KdTree.neighborRegions
  rw [List.map_map]
  congr 1
  refine List.map_congr_left ?_
  intro r hrm
  exact regionPairs_rep hr he1 he2 how hoh r (hc r hrm) blocks hb

theorem regions_rep {x y w h d : Rat} (hc : Corners e x y w h) (h1 : Rep e (y + h - d)) (h2 : Rep e (x + w - d)) :
    regions rnd (.fin x) (.fin y) (.fin w) (.fin h) (.fin d) = (KdTree.regions x y w h d).map ofBlock := by
  unfold regions KdTree.regions
  rw [add_rep hr he1 he2 hc.1, add_rep hr he1 he2 hc.2, sub_rep hr he1 he2 h1, sub_rep hr he1 he2 h2]
  rfl

omit hr he1 he2 in
theorem Fit1.reps {x w : Rat} (h : Fit1 D e 0 x w) :
    Rep e (x + w) ∧ Rep e (x + w - D * (2 : Rat) ^ e) ∧ Rep e (x + D * (2 : Rat) ^ e) := by
  obtain ⟨X, W, h1, h2, h3, rfl, rfl⟩ := h
  rw [pow_zero, mul_one] at h3
  refine ⟨⟨X + W, abs_le.2 (by constructor <;> omega), ?_⟩, ⟨X + W - D, abs_le.2 (by constructor <;> omega), ?_⟩,
    ⟨X + D, abs_le.2 (by constructor <;> omega), ?_⟩⟩ <;> push_cast <;> ring

theorem createTree_fit {rank size k : Nat} {root : KdTree.Tile} {d : Rat} (hs : 2 ≤ size) (hrank : rank < size)
    (hk : size ≤ 2 ^ k) (hroot : Fit D e k root) (hw : 0 < root.w ∧ 0 < root.h) (hd : d = D * (2 : Rat) ^ e) :
    createTree rnd rank size 0 (ofTile root) (.fin d) = (KdTree.createTree rank size 0 root d).map ofLayout ∧
    ∀ l, KdTree.createTree rank size 0 root d = some l → ∀ b ∈ l.subtrees ++ l.haloRegions,
      Corners e b.x b.y b.width b.height := by
  obtain ⟨hsub, hfit⟩ := subtrees_fit hr he1 he2 hs hk hroot
  obtain ⟨ts, t, h1, h2, h3⟩ := KdTree.createTree_spec (d := d) hw hs hrank
  obtain ⟨ts', t', h1', h2', h3'⟩ := createTree_spec (rnd := rnd) (root := ofTile root) (d := .fin d) hs hrank
  rw [hsub, h1] at h1'
  have hts := Option.some.inj h1'
  subst hts
  have ht' : t' = ofTile t := by
    rw [List.getElem?_map, h2] at h2'
    exact (Option.some.inj h2').symm
  subst ht'
  have hfit := hfit ts h1
  have hmem : ∀ b ∈ KdTree.blocksFrom 0 ts, Fit D e 0 b.tile := by
    intro b hb
    refine hfit _ ?_
    rw [← KdTree.blocksFrom_tiles 0 ts]
    exact List.mem_map_of_mem hb
  have hcor : ∀ b ∈ KdTree.blocksFrom 0 ts, Corners e b.x b.y b.width b.height :=
    fun b hb => ⟨(hmem b hb).1.reps.1, (hmem b hb).2.reps.1⟩
  have hf := hfit t (List.mem_of_getElem? h2)
  have hc : Corners e t.x t.y t.w t.h := ⟨hf.1.reps.1, hf.2.reps.1⟩
  have hreg : ∀ r ∈ KdTree.regions t.x t.y t.w t.h d, Corners e r.x r.y r.width r.height := by
    intro r hrm
    simp only [KdTree.regions, List.mem_cons, List.not_mem_nil, or_false] at hrm
    rcases hrm with rfl | rfl | rfl | rfl
    · exact ⟨hf.1.reps.1, by dsimp only; rw [sub_add_cancel]; exact hf.2.reps.1⟩
    · exact ⟨by dsimp only; rw [sub_add_cancel]; exact hf.1.reps.1, hf.2.reps.1⟩
    · exact ⟨hf.1.reps.1, by rw [hd]; exact hf.2.reps.2.2⟩
    · exact ⟨by rw [hd]; exact hf.1.reps.2.2, hf.2.reps.1⟩
  rw [h3, h3']
  constructor
  · rw [Option.map_some, blocksFrom_map]
    congr 1
    have e1 : touching rnd rank (ofTile root).w (ofTile root).h (ofTile t).x (ofTile t).y (ofTile t).w (ofTile t).h
        ((KdTree.blocksFrom 0 ts).map ofBlock) = KdTree.touching rank root.w root.h t.x t.y t.w t.h (KdTree.blocksFrom 0 ts) :=
      touching_rep hr he1 he2 (ne_of_gt hw.1) (ne_of_gt hw.2) hc _ hcor
    have e2 : regions rnd (ofTile t).x (ofTile t).y (ofTile t).w (ofTile t).h (.fin d) =
        (KdTree.regions t.x t.y t.w t.h d).map ofBlock :=
      regions_rep hr he1 he2 hc (by rw [hd]; exact hf.2.reps.2.1) (by rw [hd]; exact hf.1.reps.2.1)
    have e3 : neighborRegions rnd rank (ofTile root).w (ofTile root).h ((KdTree.blocksFrom 0 ts).map ofBlock)
        ((KdTree.regions t.x t.y t.w t.h d).map ofBlock) =
        KdTree.neighborRegions rank root.w root.h (KdTree.blocksFrom 0 ts) (KdTree.regions t.x t.y t.w t.h d) :=
      neighborRegions_rep hr he1 he2 (ne_of_gt hw.1) (ne_of_gt hw.2) _ _ hreg hcor
    unfold layoutOf KdTree.layoutOf ofLayout
    dsimp only
    rw [e1, e2, e3]
    rfl
  · intro l hl
    rw [← Option.some.inj hl]
    intro b hb
    rcases List.mem_append.1 hb with hb | hb
    · exact hcor b hb
    · exact hreg b hb

theorem contains_rep {b : KdTree.Block} (h : Corners e b.x b.y b.width b.height) (p : Torus.Pos) :
    (ofBlock b).contains rnd ⟨.fin p.x, .fin p.y⟩ = b.contains p := by
  unfold Block.contains KdTree.Block.contains ofBlock
  dsimp only
  rw [add_rep hr he1 he2 h.1, add_rep hr he1 he2 h.2]
  simp only [le, Bool.decide_and, Bool.and_assoc]

theorem find_rep (p : Torus.Pos) (bs : List KdTree.Block) (h : ∀ b ∈ bs, Corners e b.x b.y b.width b.height) :
    ((bs.map ofBlock).find? (fun b => b.contains rnd ⟨.fin p.x, .fin p.y⟩)).map Block.id =
      (bs.find? (fun b => b.contains p)).map KdTree.Block.id := by
  induction bs with
  | nil => rfl
  | cons b bs ih =>
    rw [List.map_cons, List.find?_cons, List.find?_cons, contains_rep hr he1 he2 (h b List.mem_cons_self)]
    cases b.contains p with
    | true => rfl
    | false => exact ih (fun c hc => h c (List.mem_cons_of_mem _ hc))

theorem getBlockByLocation_fit {l : KdTree.Layout} (h : ∀ b ∈ l.subtrees, Corners e b.x b.y b.width b.height) (p : Torus.Pos) :
    getBlockByLocation rnd (ofLayout l) ⟨.fin p.x, .fin p.y⟩ = KdTree.getBlockByLocation l p := by
  unfold getBlockByLocation KdTree.getBlockByLocation ofLayout
  dsimp only
  rw [find_rep hr he1 he2 p _ h]

theorem haloAt_fit {l : KdTree.Layout} (h : ∀ b ∈ l.haloRegions, Corners e b.x b.y b.width b.height) (p : Torus.Pos) :
    haloAt rnd (ofLayout l) ⟨.fin p.x, .fin p.y⟩ = (l.haloRegions.find? (fun r => r.contains p)).map KdTree.Block.id :=
  find_rep hr he1 he2 p _ h

end

/-- The first region that contains a point of the box is the first border it is near. -/
theorem regions_find {t : KdTree.Tile} {d : Rat} {p : Torus.Pos} (hp : t.Has p) :
    ((KdTree.regions t.x t.y t.w t.h d).find? (fun r => r.contains p)).map KdTree.Block.id = KdTree.haloOf t d p := by
  obtain ⟨p1, p2, p3, p4⟩ := hp
  have c0 : (⟨0, t.x, t.y + t.h - d, t.w, d⟩ : KdTree.Block).contains p = decide (t.y + t.h - d ≤ p.y) := by
    unfold KdTree.Block.contains
    apply decide_eq_decide.2
    dsimp only
    exact ⟨fun h => h.2.2.1, fun h => ⟨p1, p2, h, by linarith⟩⟩
  have c1 : (⟨1, t.x + t.w - d, t.y, d, t.h⟩ : KdTree.Block).contains p = decide (t.x + t.w - d ≤ p.x) := by
    unfold KdTree.Block.contains
    apply decide_eq_decide.2
    dsimp only
    exact ⟨fun h => h.1, fun h => ⟨h, by linarith, p3, p4⟩⟩
  have c2 : (⟨2, t.x, t.y, t.w, d⟩ : KdTree.Block).contains p = decide (p.y ≤ t.y + d) := by
    unfold KdTree.Block.contains
    apply decide_eq_decide.2
    dsimp only
    exact ⟨fun h => h.2.2.2, fun h => ⟨p1, p2, p3, h⟩⟩
  have c3 : (⟨3, t.x, t.y, d, t.h⟩ : KdTree.Block).contains p = decide (p.x ≤ t.x + d) := by
    unfold KdTree.Block.contains
    apply decide_eq_decide.2
    dsimp only
    exact ⟨fun h => h.2.1, fun h => ⟨p1, h, p3, p4⟩⟩
  unfold KdTree.regions KdTree.haloOf
  simp only [List.find?_cons, List.find?_nil, c0, c1, c2, c3]
  by_cases h0 : t.y + t.h - d ≤ p.y
  · simp [h0]
  · by_cases h1 : t.x + t.w - d ≤ p.x
    · simp [h0, h1]
    · by_cases h2 : p.y ≤ t.y + d
      · simp [h0, h1, h2]
      · by_cases h3 : p.x ≤ t.x + d <;> simp [h0, h1, h2, h3]

end Verif.KdMachine
