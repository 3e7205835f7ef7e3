import Verif.Lemmas.KdExact

/-!
The distributed field (C57, C58, C82-C86). `createTree rank size 0 root d` is what process `rank` of `size` gets from
`create_tree(0, ..)` on the field `root` with halo distance `d`.
-/

set_option linter.unusedSectionVars false

namespace Verif.KdTree

open Torus Field2D

variable {O : Type} [BEq O]

/-! ### C57 -/

/-- **C57.** For every number of processes from 2 on, at every process and for every id given to `create_tree`, there are
exactly that many blocks, with consecutive ids, and their boxes partition the field. -/
theorem C57_tiles (rank size id : Nat) (root : Tile) (d : ℚ) (h : 0 < root.w ∧ 0 < root.h) (hs : 2 ≤ size) :
    ∃ l, createTree rank size id root d = some l ∧ l.subtrees.length = size ∧
      l.subtrees.map Block.id = List.range' id size ∧ Partition root (l.subtrees.map Block.tile) := by
  obtain ⟨ts, h1, h2, h3, _⟩ := subtrees_spec h hs
  refine ⟨layoutOf rank size root d (blocksFrom id ts) (boxAndNeighbors rank root (blocksFrom id ts)), ?_, ?_, ?_, ?_⟩
  · unfold createTree
    rw [if_neg (by omega), h1]
  · exact (blocksFrom_length id ts).trans h2
  · rw [← h2]; exact blocksFrom_ids id ts
  · show Partition root ((blocksFrom id ts).map Block.tile)
    rw [blocksFrom_tiles]
    exact h3

theorem contains_iff {b : Block} {p : Pos} : b.contains p = true ↔ b.tile.Has p := by
  unfold Block.contains
  rw [decide_eq_true_eq]
  exact Iff.rfl

/-- **C57.** `get_block_by_location` finds, for every point of the field, a block that contains it (the only one whose
interior does); for a point outside the field it panics. -/
theorem C57_location (rank size id : Nat) (root : Tile) (d : ℚ) (h : 0 < root.w ∧ 0 < root.h) (hs : 2 ≤ size)
    (l : Layout) (hl : createTree rank size id root d = some l) (p : Pos) :
    (root.Has p → ∃ b ∈ l.subtrees, getBlockByLocation l p = some b.id ∧ b.tile.Has p) ∧
    (∀ b ∈ l.subtrees, b.tile.Inside p → getBlockByLocation l p = some b.id) ∧
    (¬ root.Has p → getBlockByLocation l p = none) := by
  obtain ⟨l', hl', h1, h2, h3⟩ := C57_tiles rank size id root d h hs
  rw [hl] at hl'
  obtain rfl := Option.some.inj hl'
  have hsize : l.size ≠ 1 := by
    unfold createTree at hl
    rw [if_neg (by omega)] at hl
    cases hst : subtrees root size with
    | none => rw [hst] at hl; simp at hl
    | some ts =>
      rw [hst] at hl
      rw [← Option.some.inj hl]
      show size ≠ 1
      omega
  have hget : getBlockByLocation l p = (l.subtrees.find? (fun b => b.contains p)).map Block.id := by
    unfold getBlockByLocation
    rw [if_neg hsize]
  have hcov : root.Has p ↔ ∃ b ∈ l.subtrees, b.tile.Has p := by
    rw [h3.covers]
    constructor
    · rintro ⟨t, ht, hp⟩
      obtain ⟨b, hb, rfl⟩ := List.mem_map.1 ht
      exact ⟨b, hb, hp⟩
    · rintro ⟨b, hb, hp⟩
      exact ⟨_, List.mem_map_of_mem hb, hp⟩
  have found : root.Has p → ∃ b ∈ l.subtrees, getBlockByLocation l p = some b.id ∧ b.tile.Has p := by
    intro hp
    obtain ⟨b, hb, hbp⟩ := hcov.1 hp
    cases hf : l.subtrees.find? (fun b => b.contains p) with
    | none => exact absurd (contains_iff.2 hbp) (List.find?_eq_none.1 hf b hb)
    | some b' =>
      exact ⟨b', List.mem_of_find?_eq_some hf, by rw [hget, hf]; rfl,
        contains_iff.1 (List.find?_some (p := fun b : Block => b.contains p) hf)⟩
  refine ⟨found, ?_, ?_⟩
  · intro b hb hin
    have hp : root.Has p := hcov.2 ⟨b, hb, le_of_lt hin.1, le_of_lt hin.2.1, le_of_lt hin.2.2.1, le_of_lt hin.2.2.2⟩
    obtain ⟨b', hb', hg, hhas⟩ := found hp
    rw [hg]
    congr 1
    by_contra hne
    -- `b'` touches the interior of `b`: a point of both interiors
    have hpb := h3.positive b.tile (List.mem_map_of_mem hb)
    have hpb' := h3.positive b'.tile (List.mem_map_of_mem hb')
    have mid : ∀ lo len lo' len' x : ℚ, 0 < len → 0 < len' → lo < x → x < lo + len → lo' ≤ x → x ≤ lo' + len' →
        ∃ y, (lo < y ∧ y < lo + len) ∧ lo' < y ∧ y < lo' + len' := by
      intro lo len lo' len' x h1 h2 h3 h4 h5 h6
      rcases lt_or_ge x (lo' + len') with hx | hx
      · rcases lt_or_ge lo' x with hx' | hx'
        · exact ⟨x, ⟨h3, h4⟩, hx', hx⟩
        · refine ⟨(x + min (lo + len) (lo' + len')) / 2, ⟨?_, ?_⟩, ?_, ?_⟩ <;>
            rcases min_choice (lo + len) (lo' + len') with hc | hc <;>
            have := min_le_left (lo + len) (lo' + len') <;> have := min_le_right (lo + len) (lo' + len') <;>
            rw [hc] at * <;> linarith
      · refine ⟨(x + max lo lo') / 2, ⟨?_, ?_⟩, ?_, ?_⟩ <;>
            rcases max_choice lo lo' with hc | hc <;>
            have := le_max_left lo lo' <;> have := le_max_right lo lo' <;>
            rw [hc] at * <;> linarith
    obtain ⟨x1, x2, x3, x4⟩ := hin
    obtain ⟨y1, y2, y3, y4⟩ := hhas
    obtain ⟨px, a1, a2⟩ := mid _ _ _ _ _ hpb.1 hpb'.1 x1 x2 y1 y2
    obtain ⟨py, a3, a4⟩ := mid _ _ _ _ _ hpb.2 hpb'.2 x3 x4 y3 y4
    have hd := List.pairwise_map.1 h3.disjoint
    obtain ⟨i, hi, rfl⟩ := List.getElem_of_mem hb
    obtain ⟨j, hj, rfl⟩ := List.getElem_of_mem hb'
    rcases Nat.lt_trichotomy i j with hij | hij | hij
    · exact List.pairwise_iff_getElem.1 hd i j hi hj hij ⟨px, py⟩
        ⟨⟨a1.1, a1.2, a3.1, a3.2⟩, ⟨a2.1, a2.2, a4.1, a4.2⟩⟩
    · subst hij; exact hne rfl
    · exact List.pairwise_iff_getElem.1 hd j i hj hi hij ⟨px, py⟩
        ⟨⟨a2.1, a2.2, a4.1, a4.2⟩, ⟨a1.1, a1.2, a3.1, a3.2⟩⟩
  · intro hp
    rw [hget]
    have : l.subtrees.find? (fun b => b.contains p) = none := by
      rw [List.find?_eq_none]
      intro b hb hc
      exact hp (hcov.2 ⟨b, hb, contains_iff.1 hc⟩)
    rw [this]
    rfl

/-- **C57.** A single process makes no blocks and owns every point. -/
theorem C57_single (id : Nat) (root : Tile) (d : ℚ) : ∃ l, createTree 0 1 id root d = some l ∧
    l.subtrees = [] ∧ l.neighborTrees = [] ∧ (l.x, l.y, l.width, l.height) = (root.x, root.y, root.w, root.h) ∧
    ∀ p, getBlockByLocation l p = some 0 :=
  ⟨_, rfl, rfl, rfl, rfl, fun _ => rfl⟩

example : (createTree 2 5 0 ⟨0, 0, 8, 8⟩ 1).map (fun l => (l.subtrees.map (fun b => (b.id, b.x, b.y, b.width, b.height)))) =
    some [(0, 0, 0, 2, 4), (1, 2, 0, 2, 4), (2, 0, 4, 4, 4), (3, 4, 0, 4, 4), (4, 4, 4, 4, 4)] := by
  decide +kernel

/-! ### C82 -/

/-- **C82.** Every process works on the box of the block with its rank. -/
theorem C82_own_block (rank size : Nat) (root : Tile) (d : ℚ) (h : 0 < root.w ∧ 0 < root.h) (hs : 2 ≤ size)
    (hr : rank < size) : ∃ l, createTree rank size 0 root d = some l ∧
      (⟨rank, l.x, l.y, l.width, l.height⟩ : Block) ∈ l.subtrees ∧
      ∀ b ∈ l.subtrees, b.id = rank → b = ⟨rank, l.x, l.y, l.width, l.height⟩ := by
  obtain ⟨ts, t, h1, h2, h3⟩ := createTree_spec (d := d) h hs hr
  refine ⟨_, h3, mem_blocks0.2 h2, ?_⟩
  intro b hb hid
  have := mem_blocks0.1 hb
  rw [hid, h2] at this
  have e := Option.some.inj this
  show b = ⟨rank, t.x, t.y, t.w, t.h⟩
  rw [e, ← hid]
  rfl

/-- **C82.** The neighbours of a process are exactly the other processes whose blocks touch its own on the torus, in
ascending order. (Field with a corner at non-negative coordinates.) -/
theorem C82_neighbors_exact (rank size : Nat) (root : Tile) (d : ℚ) (h : 0 < root.w ∧ 0 < root.h)
    (h0 : 0 ≤ root.x ∧ 0 ≤ root.y) (hs : 2 ≤ size) (hr : rank < size) (l : Layout)
    (hl : createTree rank size 0 root d = some l) :
    l.neighborTrees.Pairwise (· < ·) ∧
    ∀ r, r ∈ l.neighborTrees ↔ r ≠ rank ∧ ∃ b ∈ l.subtrees, b.id = r ∧
      Touch root.w root.h ⟨l.x, l.y, l.width, l.height⟩ b.tile := by
  obtain ⟨ts, t, h1, h2, h3⟩ := createTree_spec (d := d) h hs hr
  rw [hl] at h3
  obtain rfl := Option.some.inj h3
  obtain ⟨ts', h1', _, hpart, nx, ny, hu⟩ := subtrees_spec h hs
  rw [h1] at h1'
  obtain rfl := Option.some.inj h1'
  have hm := List.mem_of_getElem? h2
  constructor
  · show (touching rank root.w root.h t.x t.y t.w t.h (blocksFrom 0 ts)).Pairwise (· < ·)
    unfold touching
    have hsub : (((blocksFrom 0 ts).filter (fun b => b.id != rank && sharePoint (boundaryPoints root.w root.h t.x t.y t.w t.h)
        (boundaryPoints root.w root.h b.x b.y b.width b.height))).map Block.id).Sublist
        ((blocksFrom 0 ts).map Block.id) := List.filter_sublist.map _
    refine List.Pairwise.sublist hsub ?_
    rw [blocksFrom_ids]
    exact List.pairwise_lt_range'
  · intro r
    show r ∈ touching rank root.w root.h t.x t.y t.w t.h (blocksFrom 0 ts) ↔ r ≠ rank ∧ ∃ b ∈ blocksFrom 0 ts, b.id = r ∧
      Touch root.w root.h ⟨t.x, t.y, t.w, t.h⟩ b.tile
    rw [mem_touching]
    refine and_congr_right (fun _ => ?_)
    constructor
    · rintro ⟨t', ht', hsh⟩
      have hm' := List.mem_of_getElem? ht'
      exact ⟨⟨r, t'.x, t'.y, t'.w, t'.h⟩, mem_blocks0.2 ht', rfl,
        (touch_iff h hu hm hm' (hpart.positive t hm) (hpart.positive t' hm')).2 (share_sound h.1 h.2 hsh)⟩
    · rintro ⟨b, hb, rfl, htouch⟩
      have ht' := mem_blocks0.1 hb
      have hm' := List.mem_of_getElem? ht'
      refine ⟨b.tile, ht', ?_⟩
      obtain ⟨a, c, a', c', ha, hc, ha', hc', ca, cb⟩ :=
        (touch_iff h hu hm hm' (hpart.positive t hm) (hpart.positive _ hm')).1 htouch
      have n1 := corner_nonneg h0 hpart hm ha hc
      have n2 := corner_nonneg h0 hpart hm' ha' hc'
      exact share_of_corners h.1 h.2 ha hc ha' hc' ca cb n1.1 n1.2 n2.1 n2.2

example : (createTree 2 5 0 ⟨0, 0, 8, 8⟩ 1).map Layout.neighborTrees = some [0, 1, 3, 4] ∧
    (createTree 0 9 0 ⟨0, 0, 8, 8⟩ 1).map Layout.neighborTrees = some [1, 2, 3, 4, 6, 8] := by
  constructor <;> decide +kernel

/-- **C82** needs the ranks as ids: `create_tree(1, ..)` gives blocks 1 and 2 to processes 0 and 1, and process 0 works on
the whole field. -/
theorem C82_other_id_negation : (createTree 0 2 1 ⟨0, 0, 8, 8⟩ 1).map (fun l =>
      (l.subtrees.map Block.id, l.width, l.height, l.neighborTrees)) = some ([1, 2], 8, 8, [1, 2]) := by
  decide +kernel

/-! ### C83 -/

/-- The neighbour lists of all processes. -/
def allNeighbors (size : Nat) (root : Tile) (d : ℚ) : Pending := fun rank =>
  if rank < size then ((createTree rank size 0 root d).map Layout.neighborTrees).getD [] else []

theorem mem_allNeighbors {size : Nat} {root : Tile} (d : ℚ) (h : 0 < root.w ∧ 0 < root.h)
    (h0 : 0 ≤ root.x ∧ 0 ≤ root.y) (hs : 2 ≤ size) {ts : List Tile} (hts : subtrees root size = some ts) {i j : Nat} :
    j ∈ allNeighbors size root d i ↔ i < size ∧ j ≠ i ∧ ∃ s t, ts[i]? = some s ∧ ts[j]? = some t ∧
      ShareCorner root.w root.h s t := by
  unfold allNeighbors
  by_cases hi : i < size
  · rw [if_pos hi]
    obtain ⟨ts', s, h1, h2, h3⟩ := createTree_spec (d := d) h hs hi
    rw [hts] at h1
    obtain rfl := Option.some.inj h1
    obtain ⟨ts', h1', _, hpart, nx, ny, hu⟩ := subtrees_spec h hs
    rw [hts] at h1'
    obtain rfl := Option.some.inj h1'
    rw [h3, Option.map_some, Option.getD_some]
    show j ∈ touching i root.w root.h s.x s.y s.w s.h (blocksFrom 0 ts) ↔ _
    rw [mem_touching]
    constructor
    · rintro ⟨hne, t, ht, hsh⟩
      exact ⟨hi, hne, s, t, h2, ht, share_sound h.1 h.2 hsh⟩
    · rintro ⟨_, hne, s', t, hs', ht, a, c, a', c', ha, hc, ha', hc', ca, cb⟩
      rw [h2] at hs'
      obtain rfl := Option.some.inj hs'
      have n1 := corner_nonneg h0 hpart (List.mem_of_getElem? h2) ha hc
      have n2 := corner_nonneg h0 hpart (List.mem_of_getElem? ht) ha' hc'
      exact ⟨hne, t, ht, share_of_corners h.1 h.2 ha hc ha' hc' ca cb n1.1 n1.2 n2.1 n2.2⟩
  · rw [if_neg hi]
    constructor
    · intro hj; simp at hj
    · rintro ⟨hi', _⟩; exact absurd hi' hi

theorem ready_start (size : Nat) (root : Tile) (d : ℚ) (h : 0 < root.w ∧ 0 < root.h) (h0 : 0 ≤ root.x ∧ 0 ≤ root.y)
    (hs : 2 ≤ size) : Ready (allNeighbors size root d) := by
  obtain ⟨ts, hts, hlen, _, _⟩ := subtrees_spec h hs
  constructor
  · intro i j hj
    rw [mem_allNeighbors d h h0 hs hts] at hj ⊢
    obtain ⟨hi, hne, s, t, h1, h2, h3⟩ := hj
    refine ⟨?_, Ne.symm hne, t, s, h2, h1, h3.symm⟩
    have := (List.getElem?_eq_some_iff.1 h2).1
    omega
  · intro i
    unfold allNeighbors
    by_cases hi : i < size
    · rw [if_pos hi]
      obtain ⟨ts', s, h1, h2, h3⟩ := createTree_spec (d := d) h hs hi
      rw [h3]
      exact (C82_neighbors_exact i size root d h h0 hs hi _ h3).1
    · rw [if_neg hi]; exact List.Pairwise.nil

/-- **C83.** Neighbourhood is mutual: a process lists another exactly if that one lists it. -/
theorem C83_mutual (size : Nat) (root : Tile) (d : ℚ) (h : 0 < root.w ∧ 0 < root.h) (h0 : 0 ≤ root.x ∧ 0 ≤ root.y)
    (hs : 2 ≤ size) (i j : Nat) (hi : i < size) (hj : j < size) (li lj : Layout)
    (hli : createTree i size 0 root d = some li) (hlj : createTree j size 0 root d = some lj) :
    j ∈ li.neighborTrees ↔ i ∈ lj.neighborTrees := by
  have hr := ready_start size root d h h0 hs
  have e : ∀ {k l}, k < size → createTree k size 0 root d = some l → allNeighbors size root d k = l.neighborTrees := by
    intro k l hk hl
    unfold allNeighbors
    rw [if_pos hk, hl]
    rfl
  rw [← e hi hli, ← e hj hlj]
  exact ⟨hr.symm i j, hr.symm j i⟩

/-- **C83.** The exchange of lengths, in which every process serves its neighbours one after the other and waits for each,
never gets stuck: in every state that can be reached, as long as some process has a partner left, two processes can
complete their exchange. -/
theorem C83_no_deadlock (size : Nat) (root : Tile) (d : ℚ) (h : 0 < root.w ∧ 0 < root.h)
    (h0 : 0 ≤ root.x ∧ 0 ≤ root.y) (hs : 2 ≤ size) (s : Pending) (hr : Reachable (allNeighbors size root d) s) (i : Nat)
    (hi : s i ≠ []) : ∃ s', Meet s s' := by
  obtain ⟨ts, hts, _⟩ := subtrees_spec h hs
  have hstart : ∀ i, i ∉ allNeighbors size root d i := by
    intro i hi
    rw [mem_allNeighbors d h h0 hs hts] at hi
    exact hi.2.1 rfl
  have key : Ready s ∧ ∀ i, i ∉ s i := by
    clear hi
    induction hr with
    | start => exact ⟨ready_start size root d h h0 hs, hstart⟩
    | step _ hm ih =>
      refine ⟨ready_meet ih.1 hm, ?_⟩
      intro k hk
      obtain ⟨a, b, la, lb, hab, ha, hb, rfl⟩ := hm
      dsimp only at hk
      by_cases h1 : k = a
      · rw [if_pos h1] at hk
        exact ih.2 k (by rw [h1, ha, ← h1]; exact List.mem_cons_of_mem _ hk)
      · rw [if_neg h1] at hk
        by_cases h2 : k = b
        · rw [if_pos h2] at hk
          exact ih.2 k (by rw [h2, hb, ← h2]; exact List.mem_cons_of_mem _ hk)
        · rw [if_neg h2] at hk
          exact ih.2 k hk
  exact ready_progress key.1 key.2 hi

/-- **C83.** Without regions, every neighbour receives exactly the agents put in `agents_to_send` for it, and nobody else
receives anything. -/
theorem C83_delivery (size : Nat) (root : Tile) (d : ℚ) (h : 0 < root.w ∧ 0 < root.h) (h0 : 0 ≤ root.x ∧ 0 ≤ root.y)
    (hs : 2 ≤ size) (t src : Tree O) (ht : t.layout.rank < size) (hsrc : src.layout.rank < size)
    (hlt : createTree t.layout.rank size 0 root d = some t.layout)
    (hls : createTree src.layout.rank size 0 root d = some src.layout) (hlen : src.agentsToSend.length = size)
    (agents : List (List O)) :
    receivedFrom t src agents false =
      some (if t.layout.rank ∈ src.layout.neighborTrees then src.agentsToSend.getD t.layout.rank [] else []) := by
  have hmut := C83_mutual size root d h h0 hs _ _ ht hsrc _ _ hlt hls
  have hsorted := (C82_neighbors_exact _ size root d h h0 hs hsrc _ hls).1
  have hlt : ∀ k ∈ src.layout.neighborTrees, k < src.agentsToSend.length := by
    intro k hk
    rw [hlen]
    obtain ⟨_, b, hb, rfl, _⟩ := ((C82_neighbors_exact _ size root d h h0 hs hsrc _ hls).2 k).1 hk
    obtain ⟨l', hl', _, h2, _⟩ := C57_tiles src.layout.rank size 0 root d h hs
    rw [hls] at hl'
    rw [← Option.some.inj hl'] at h2
    have : b.id ∈ List.range' 0 size := by rw [← h2]; exact List.mem_map_of_mem hb
    simpa using this
  unfold receivedFrom
  by_cases hin : t.layout.rank ∈ src.layout.neighborTrees
  · rw [if_pos ⟨hmut.2 hin, hin⟩, if_pos hin]
    unfold prepared
    rw [if_neg (by simp), sentByTree_eq _ _ _ hlt (hsorted.imp (fun h => ne_of_lt h)), if_pos hin]
  · rw [if_neg (fun hc => hin hc.2), if_neg (fun hc => hc.elim (fun hc => hin (hmut.1 hc)) hin), if_neg hin]

example :
    (do let t ← (Tree.create 1 3 0 ⟨0, 0, 8, 8⟩ 1 1 : Option (Tree Nat))
        let src ← Tree.create 2 3 0 ⟨0, 0, 8, 8⟩ 1 1
        receivedFrom t { src with agentsToSend := [[5], [6, 7], []] } [] false) = some [6, 7] := by
  decide +kernel

/-- **C83.** The lists `agents_to_send` that `C83_delivery` asks for are there in every state a program can reach: `create_tree`
makes one per process if there are at least two, the other calls keep or remake them. -/
theorem C83_lists_present (rank size id : Nat) (root : Tile) (disc d : ℚ) (hs : 2 ≤ size) (t t' : Tree O) :
    (Tree.create rank size id root disc d = some t → t.agentsToSend = List.replicate size []) ∧
    (∀ a p, insert t a p = some t' → t'.agentsToSend = t.agentsToSend ∧ t'.layout = t.layout) ∧
    (∀ a p, insertRead t a p = some t' → t'.agentsToSend = t.agentsToSend ∧ t'.layout = t.layout) ∧
    (∀ a p, removeObjectLocation t a p = some t' → t'.agentsToSend = t.agentsToSend ∧ t'.layout = t.layout) ∧
    (lazyUpdate t = some t' → t'.agentsToSend = List.replicate t.layout.size [] ∧ t'.layout = t.layout ∧
      t'.receivedNeighbors = []) := by
  refine ⟨?_, ?_, ?_, ?_, ?_⟩
  · intro h
    obtain ⟨l, _, rfl⟩ := Option.map_eq_some_iff.1 h
    exact if_neg (by omega)
  · intro a p h
    unfold insert at h
    cases hf : Field2D.setObjectLocation t.bags a p with
    | none => rw [hf] at h; cases h
    | some f =>
      rw [hf] at h
      obtain ⟨ns, _, rfl⟩ := Option.map_eq_some_iff.1 h
      exact ⟨rfl, rfl⟩
  · intro a p h
    unfold insertRead at h
    cases hf : Grid.vecGet t.bags.rbags t.bags.dh (Field2D.discretize t.bags.discretization p) with
    | none => rw [hf] at h; cases h
    | some f =>
      rw [hf] at h
      obtain ⟨ns, _, rfl⟩ := Option.map_eq_some_iff.1 h
      exact ⟨rfl, rfl⟩
  · intro a p h
    obtain ⟨f, _, rfl⟩ := Option.map_eq_some_iff.1 h
    exact ⟨rfl, rfl⟩
  · intro h
    obtain ⟨f, _, rfl⟩ := Option.map_eq_some_iff.1 h
    exact ⟨rfl, rfl, rfl⟩

/-! ### C58 -/

/-- **C58, what holds**: an agent inserted in the own box is added to the list of one border at most `d` away, the first
of north, east, south, west, if there is one; the lists of the other borders do not get it. Full statement: the list of
every such border gets it, false for corners below. -/
theorem C58_one_border_partial (t t' : Tree O) (own : Tile) (d : ℚ)
    (hreg : t.layout.haloRegions = regions own.x own.y own.w own.h d) (hl : t.neighbors.length = 4)
    (as : List (O × Pos)) (has : ∀ a ∈ as, own.Has a.2) (h : insertAll t as = some t') (k : Nat) (hk : k < 4) :
    t'.neighbors.getD k [] = t.neighbors.getD k [] ++ (as.filter (fun a => haloOf own d a.2 == some k)).map Prod.fst := by
  obtain ⟨_, _, _, h4⟩ := insertAll_neighbors own as t t' hreg hl has h
  have := h4 k
  have hk' : k < t.neighbors.length := by omega
  rw [List.getElem?_eq_getElem hk', Option.map_some] at this
  simp only [List.getD, this, List.getElem?_eq_getElem hk', Option.getD_some]
  rfl

/-- **C58, exactly when it holds**: an agent inserted in the own box is offered to all the borders at most `d` away if and
only if there is at most one such border. So every agent in a corner is offered too little, whatever the box and the
distance. -/
theorem C58_exactly_partial (t t' : Tree O) (own : Tile) (d : ℚ)
    (hreg : t.layout.haloRegions = regions own.x own.y own.w own.h d) (hl : t.neighbors.length = 4)
    (agent : O) (p : Pos) (hp : own.Has p) (h : insert t agent p = some t') :
    (∀ k, AtBorder own d p k → t'.neighbors.getD k [] = t.neighbors.getD k [] ++ [agent]) ↔
      ∀ j k, AtBorder own d p j → AtBorder own d p k → j = k := by
  have hall : insertAll t [(agent, p)] = some t' := by
    simp [insertAll, h]
  have hone : ∀ k, AtBorder own d p k →
      (t'.neighbors.getD k [] = t.neighbors.getD k [] ++ [agent] ↔ haloOf own d p = some k) := by
    intro k hk
    have hk4 : k < 4 := by
      rcases hk with hk | hk | hk | hk <;> omega
    have := C58_one_border_partial t t' own d hreg hl [(agent, p)] (by simpa using hp) hall k hk4
    rw [this]
    by_cases hh : haloOf own d p = some k
    · simp [hh]
    · simp [hh]
  have hfirst : ∀ k, AtBorder own d p k → ∃ j, haloOf own d p = some j ∧ AtBorder own d p j := by
    intro k hk
    unfold haloOf
    by_cases h0 : own.y + own.h - d ≤ p.y
    · exact ⟨0, by rw [if_pos h0], Or.inl ⟨rfl, by linarith⟩⟩
    by_cases h1 : own.x + own.w - d ≤ p.x
    · exact ⟨1, by rw [if_neg h0, if_pos h1], Or.inr (Or.inl ⟨rfl, by linarith⟩)⟩
    by_cases h2 : p.y ≤ own.y + d
    · exact ⟨2, by rw [if_neg h0, if_neg h1, if_pos h2], Or.inr (Or.inr (Or.inl ⟨rfl, by linarith⟩))⟩
    by_cases h3 : p.x ≤ own.x + d
    · exact ⟨3, by rw [if_neg h0, if_neg h1, if_neg h2, if_pos h3], Or.inr (Or.inr (Or.inr ⟨rfl, by linarith⟩))⟩
    rcases hk with hk | hk | hk | hk
    · exact absurd (by linarith) h0
    · exact absurd (by linarith) h1
    · exact absurd (by linarith) h2
    · exact absurd (by linarith) h3
  constructor
  · intro hoff j k hj hk
    have e1 := (hone j hj).1 (hoff j hj)
    have e2 := (hone k hk).1 (hoff k hk)
    rw [e1] at e2
    exact Option.some.inj e2
  · intro huniq k hk
    obtain ⟨j, hj, hj'⟩ := hfirst k hk
    refine (hone k hk).2 ?_
    rw [hj, huniq j k hj' hk]

/-- Near the north-east corner of the box of process 0 there are two borders, so the right side fails there; away from the
corner there is one. -/
example : ((Tree.create 0 4 0 ⟨0, 0, 8, 8⟩ 1 1 : Option (Tree Nat)).map (fun t => (t.layout.haloRegions, t.neighbors.length)) =
      some (regions 0 0 4 4 1, 4)) ∧ (⟨0, 0, 4, 4⟩ : Tile).Has ⟨7/2, 7/2⟩ ∧
    AtBorder ⟨0, 0, 4, 4⟩ 1 ⟨7/2, 7/2⟩ 0 ∧ AtBorder ⟨0, 0, 4, 4⟩ 1 ⟨7/2, 7/2⟩ 1 ∧
    AtBorder ⟨0, 0, 4, 4⟩ 1 ⟨2, 7/2⟩ 0 ∧ ¬ AtBorder ⟨0, 0, 4, 4⟩ 1 ⟨2, 7/2⟩ 1 := by
  unfold AtBorder Tile.Has
  refine ⟨?_, ?_, ?_, ?_, ?_, ?_⟩ <;> decide +kernel

/-- **C58, false as stated**: an agent in the north-east corner is added to the north list only. -/
theorem C58_corner_negation_partial :
    (do let t ← (Tree.create 0 4 0 ⟨0, 0, 8, 8⟩ 1 1 : Option (Tree Nat))
        let t1 ← insert t 7 ⟨7/2, 7/2⟩
        pure (t.layout.width, t.layout.height, t1.neighbors)) = some (4, 4, [[7], [], [], []]) := by
  decide +kernel

/-! ### C84 -/

/-- **C84, for 2, 4, 8, … and 6, 24, 96, … processes**: with a halo distance less than half the size of the blocks, an
agent inserted in the own box (among others) is received, after the update, by every process whose block is within the
distance. Full statement: every number of processes, false for all others (`C84_exactly_partial`). -/
theorem C84_halo_reaches_partial (size : Nat) (hs : 2 ≤ size) (hg : GridSize size) (root : Tile) (d : ℚ) (h : 0 < root.w ∧ 0 < root.h)
    (h0 : 0 ≤ root.x ∧ 0 ≤ root.y) (t t1 t2 u : Tree O)
    (ht : t.layout.rank < size) (hlt : createTree t.layout.rank size 0 root d = some t.layout)
    (hu : u.layout.rank < size) (hlu : createTree u.layout.rank size 0 root d = some u.layout)
    (hne : t.layout.rank ≠ u.layout.rank) (hdw : 2 * d < t.layout.width) (hdh : 2 * d < t.layout.height)
    (hnb : t.neighbors.length = 4) (as : List (O × Pos))
    (has : ∀ a ∈ as, (⟨t.layout.x, t.layout.y, t.layout.width, t.layout.height⟩ : Tile).Has a.2)
    (hins : insertAll t as = some t1) (hup : lazyUpdate t1 = some t2) (a : O) (p : Pos) (hap : (a, p) ∈ as)
    (hnear : Near root.w root.h d p ⟨u.layout.x, u.layout.y, u.layout.width, u.layout.height⟩) :
    ∃ l, receivedFrom u t2 t2.precNeighbors true = some l ∧ a ∈ l := by
  obtain ⟨ts, own, h1, h2, h3⟩ := createTree_spec (d := d) h hs ht
  obtain ⟨ts', own', h1', h2', h3'⟩ := createTree_spec (d := d) h hs hu
  rw [h1] at h1'
  obtain rfl := Option.some.inj h1'
  obtain ⟨ts', h1', hlen, hpart, _⟩ := subtrees_spec h hs
  rw [h1] at h1'
  obtain rfl := Option.some.inj h1'
  obtain ⟨ts', CX, CY, h1', hun⟩ := product_exists h hs hg
  rw [h1] at h1'
  obtain rfl := Option.some.inj h1'
  rw [hlt] at h3
  rw [hlu] at h3'
  have et := Option.some.inj h3
  have eu := Option.some.inj h3'
  have own_eq : (⟨t.layout.x, t.layout.y, t.layout.width, t.layout.height⟩ : Tile) = own := by rw [et]; rfl
  have own'_eq : (⟨u.layout.x, u.layout.y, u.layout.width, u.layout.height⟩ : Tile) = own' := by rw [eu]; rfl
  rw [own_eq] at has
  rw [own'_eq] at hnear
  have hdw' : 2 * d < own.w := by rw [← own_eq]; exact hdw
  have hdh' : 2 * d < own.h := by rw [← own_eq]; exact hdh
  have hp := has _ hap
  have hreg : t.layout.haloRegions = regions own.x own.y own.w own.h d := by rw [et]; rfl
  have hpairs : t.layout.neighborsHaloRegions =
      neighborRegions t.layout.rank root.w root.h (blocksFrom 0 ts) (regions own.x own.y own.w own.h d) := by
    conv_lhs => rw [et]
    rfl
  obtain ⟨l1, _, _, l4⟩ := insertAll_neighbors own as t t1 hreg hnb has hins
  have hup' : t2.layout = t.layout ∧ t2.precNeighbors = t1.neighbors := by
    unfold lazyUpdate at hup
    obtain ⟨f, _, rfl⟩ := Option.map_eq_some_iff.1 hup
    exact ⟨l1, rfl⟩
  obtain ⟨m1, m2⟩ := hup'
  have hlen4 : t2.precNeighbors.length = 4 := by
    rw [m2]
    obtain ⟨_, l2, _⟩ := insertAll_neighbors own as t t1 hreg hnb has hins
    exact l2
  -- the pair that carries the agent
  obtain ⟨k, reg, g1, g2, g3, g4⟩ := halo_reaches h h0 hpart hun h2 h2' hne hdw' hdh' hp hnear
  have hpair : (k, u.layout.rank) ∈ t2.layout.neighborsHaloRegions.flatten := by
    rw [m1, hpairs, mem_neighborRegions]
    exact ⟨Ne.symm hne, reg, g2, g3, own', h2', g4⟩
  have hidx : ∀ pr ∈ t2.layout.neighborsHaloRegions.flatten, pr.1 < t2.precNeighbors.length := by
    rintro ⟨a, b⟩ hpr
    rw [m1, hpairs, mem_neighborRegions] at hpr
    obtain ⟨_, reg, hreg', rfl, _⟩ := hpr
    rw [hlen4]
    simp only [regions, List.mem_cons, List.not_mem_nil, or_false] at hreg'
    rcases hreg' with rfl | rfl | rfl | rfl <;> norm_num
  have hin : a ∈ t2.precNeighbors.getD k [] := by
    have hk : k < 4 := by have := hidx _ hpair; omega
    have hk' : k < t.neighbors.length := by omega
    have := l4 k
    rw [List.getElem?_eq_getElem hk', Option.map_some] at this
    rw [m2]
    simp only [List.getD, this, Option.getD_some, List.mem_append]
    right
    exact List.mem_map.2 ⟨(a, p), List.mem_filter.2 ⟨hap, by simp [g1]⟩, rfl⟩
  -- both list each other
  have hshare := near_share hun (List.mem_of_getElem? h2) (List.mem_of_getElem? h2') hdw' hdh' hp hnear
  have hnt : u.layout.rank ∈ t.layout.neighborTrees := by
    have : u.layout.rank ∈ allNeighbors size root d t.layout.rank :=
      (mem_allNeighbors d h h0 hs h1).2 ⟨ht, Ne.symm hne, own, own', h2, h2', hshare⟩
    unfold allNeighbors at this
    rw [if_pos ht, hlt] at this
    exact this
  have hnu := (C83_mutual size root d h h0 hs _ _ ht hu _ _ hlt hlu).1 hnt
  refine ⟨t2.layout.neighborsHaloRegions.flatten.flatMap
      (fun pr => if pr.2 = u.layout.rank then t2.precNeighbors.getD pr.1 [] else []), ?_, ?_⟩
  · unfold receivedFrom
    rw [if_pos ⟨by rw [m1]; exact hnu, by rw [m1]; exact hnt⟩]
    unfold prepared
    rw [if_pos rfl]
    exact sentByRegions_eq _ _ _ hidx
  · rw [List.mem_flatMap]
    exact ⟨_, hpair, by rw [if_pos rfl]; exact hin⟩

/-- **C84, exactly**: if blocks are more than twice as large as the halo distance, the halo exchange delivers what it
should for 2, 4, 8, … and 6, 24, 96, … processes and for no other number. Full statement: every number. -/
theorem C84_exactly_partial [Nonempty O] (size : Nat) (hs : 2 ≤ size) (w h disc d : ℚ) (hw : 0 < w) (hh : 0 < h)
    (hdisc : 0 < disc) (hd : 0 < d)
    (hbig : ∀ r l, createTree r size 0 ⟨0, 0, w, h⟩ d = some l → r < size → 2 * d < l.width ∧ 2 * d < l.height) :
    Delivers O size w h disc d ↔ GridSize size := by
  have hpos : (0 : ℚ) < (⟨0, 0, w, h⟩ : Tile).w ∧ (0 : ℚ) < (⟨0, 0, w, h⟩ : Tile).h := ⟨hw, hh⟩
  constructor
  · intro hdel
    by_contra hg
    obtain ⟨ts, r, s, bt, bu, h1, hne, hr, hsu, hf⟩ := facing_size ⟨0, 0, w, h⟩ hs hg
    obtain ⟨ts', h1', hlen, hpart, _⟩ := subtrees_spec hpos hs
    rw [h1] at h1'
    obtain rfl := Option.some.inj h1'
    have hrs : r < size := by rw [← hlen]; exact (List.getElem?_eq_some_iff.1 hr).1
    have hss : s < size := by rw [← hlen]; exact (List.getElem?_eq_some_iff.1 hsu).1
    obtain ⟨ts', own, g1, g2, g3⟩ := createTree_spec (d := d) hpos hs hrs
    rw [h1] at g1
    obtain rfl := Option.some.inj g1
    rw [hr] at g2
    obtain rfl := Option.some.inj g2
    obtain ⟨ts', own, k1, k2, k3⟩ := createTree_spec (d := d) hpos hs hss
    rw [h1] at k1
    obtain rfl := Option.some.inj k1
    rw [hsu] at k2
    obtain rfl := Option.some.inj k2
    obtain ⟨b1, b2⟩ := hbig r _ g3 hrs
    obtain ⟨b3, b4⟩ := hbig s _ k3 hss
    obtain ⟨p, q, k, p1, p2, p3, p4, p5⟩ := facing_missed hpart (List.mem_of_getElem? hr) (List.mem_of_getElem? hsu) hf hd
      b1 b2 b3 b4
    have hin : bt.Has p := ⟨le_of_lt p1.1, le_of_lt p1.2.1, le_of_lt p1.2.2.1, le_of_lt p1.2.2.2⟩
    have hfield : Field2D.InField w h p := by
      obtain ⟨c1, c2, c3, c4⟩ := (hpart.covers p).2 ⟨bt, List.mem_of_getElem? hr, hin⟩
      dsimp only at c1 c2 c3 c4
      exact ⟨c1, by linarith, c3, by linarith⟩
    obtain ⟨a⟩ := ‹Nonempty O›
    obtain ⟨f, f1, _, _, f2⟩ := shows_place (shows_new (O := O) true hw hh hdisc) a p hfield
    obtain ⟨f', f3, _⟩ := shows_lazy f2
    have hpush := pushHalo_eq hin a (List.replicate 4 []) (by simp) (d := d)
    rw [p4] at hpush
    dsimp only at hpush
    obtain ⟨l, hl, hal⟩ := hdel r s hrs hss hne _ _ _ _ (by unfold Tree.create; rw [g3]; rfl)
      (by unfold Tree.create; rw [k3]; rfl) [(a, p)]
      (by intro b hb; rw [List.mem_singleton] at hb; subst hb; exact hin)
      (by
        rw [insertAll, insert]
        dsimp only
        rw [f1]
        dsimp only
        rw [show (layoutOf r size ⟨0, 0, w, h⟩ d (blocksFrom 0 ts) (bt, touching r w h bt.x bt.y bt.w bt.h (blocksFrom 0 ts))).haloRegions =
          regions bt.x bt.y bt.w bt.h d from rfl, hpush, Option.map_some]
        rfl)
      (by unfold lazyUpdate; dsimp only; rw [f3]; rfl) a p (List.mem_singleton.2 rfl) (by
        refine ⟨q, ⟨le_of_lt p2.1, le_of_lt p2.2.1, le_of_lt p2.2.2.1, le_of_lt p2.2.2.2⟩, ?_⟩
        rcases p3 with ⟨e1, e2⟩ | ⟨e1, e2⟩
        · refine ⟨0, -1, ?_, ?_⟩
          · rw [e1]; push_cast; constructor <;> linarith
          · dsimp only at e2; rw [e2]; constructor <;> linarith
        · refine ⟨-1, 0, ?_, ?_⟩
          · dsimp only at e2; rw [e2]; constructor <;> linarith
          · rw [e1]; push_cast; constructor <;> linarith)
    have hidx : ∀ pr ∈ (neighborRegions r w h (blocksFrom 0 ts) (regions bt.x bt.y bt.w bt.h d)).flatten, pr.1 < 4 := by
      rintro ⟨a, b⟩ hpr
      obtain ⟨_, reg, hreg', rfl, _⟩ := mem_neighborRegions.1 hpr
      simp only [regions, List.mem_cons, List.not_mem_nil, or_false] at hreg'
      rcases hreg' with rfl | rfl | rfl | rfl <;> norm_num
    obtain ⟨k', hpr, hmem⟩ := received_pair (fun pr hpr => by simpa using hidx pr hpr) hl hal
    have hk : k' = k := by
      by_contra hk
      dsimp only at hmem
      rw [List.getD_eq_getElem?_getD, List.getElem?_modify, List.getElem?_replicate] at hmem
      simp only [if_neg (Ne.symm hk)] at hmem
      split at hmem <;> simp at hmem
    subst hk
    obtain ⟨_, reg, r1, r2, t', r3, r4⟩ := mem_neighborRegions.1 hpr
    rw [show ts[s]? = some t' from r3] at hsu
    obtain rfl := Option.some.inj hsu
    exact p5 reg r1 r2 r4
  · intro hg r s hr hs' hne t u t1 t2 ht hu as has hins hup a p hap hnear
    obtain ⟨lt, hlt, rfl⟩ := Option.map_eq_some_iff.1 ht
    obtain ⟨lu, hlu, rfl⟩ := Option.map_eq_some_iff.1 hu
    have er : lt.rank = r := by
      obtain ⟨_, _, _, _, e⟩ := createTree_spec (d := d) hpos hs hr
      rw [hlt] at e
      rw [Option.some.inj e]; rfl
    have es : lu.rank = s := by
      obtain ⟨_, _, _, _, e⟩ := createTree_spec (d := d) hpos hs hs'
      rw [hlu] at e
      rw [Option.some.inj e]; rfl
    obtain ⟨b1, b2⟩ := hbig r lt hlt hr
    exact C84_halo_reaches_partial size hs hg ⟨0, 0, w, h⟩ d hpos ⟨le_refl _, le_refl _⟩ _ t1 t2 _
      (by dsimp only; rw [er]; exact hr) (by dsimp only; rw [er]; exact hlt)
      (by dsimp only; rw [es]; exact hs') (by dsimp only; rw [es]; exact hlu)
      (by dsimp only; rw [er, es]; exact hne) b1 b2 (by simp) as has hins hup a p hap hnear

example :
    (do let t ← (Tree.create 0 4 0 ⟨0, 0, 8, 8⟩ 1 1 : Option (Tree Nat))
        let u ← (Tree.create 3 4 0 ⟨0, 0, 8, 8⟩ 1 1 : Option (Tree Nat))
        let t1 ← insertAll t [(7, ⟨7/2, 7/2⟩), (8, ⟨2, 2⟩)]
        let t2 ← lazyUpdate t1
        receivedFrom u t2 t2.precNeighbors true) = some [7] := by
  decide +kernel

example :
    (do let t ← (Tree.create 1 6 0 ⟨0, 0, 8, 8⟩ 1 (1/2) : Option (Tree Nat))
        let u ← (Tree.create 4 6 0 ⟨0, 0, 8, 8⟩ 1 (1/2) : Option (Tree Nat))
        let t1 ← insertAll t [(7, ⟨15/4, 2⟩), (8, ⟨3, 2⟩)]
        let t2 ← lazyUpdate t1
        receivedFrom u t2 t2.precNeighbors true) = some [7] := by
  decide +kernel

/-- With 5 processes it fails, with 24 it works. -/
example : ¬ Delivers Nat 5 8 8 1 (1/2) ∧ Delivers Nat 24 8 8 1 (1/4) := by
  have h5 : ∀ r < 5, (createTree r 5 0 ⟨0, 0, 8, 8⟩ (1/2)).map (fun l => (decide (2 ≤ l.width), decide (2 ≤ l.height))) =
      some (true, true) := by decide +kernel
  have h24 : ∀ r < 24, (createTree r 24 0 ⟨0, 0, 8, 8⟩ (1/4)).map (fun l => (decide (1 ≤ l.width), decide (1 ≤ l.height))) =
      some (true, true) := by decide +kernel
  constructor
  · rw [C84_exactly_partial 5 (by omega) 8 8 1 (1/2) (by norm_num) (by norm_num) (by norm_num) (by norm_num)]
    · rintro (⟨e, he⟩ | ⟨j, hj⟩)
      · rcases e with _ | _ | _ | e <;> simp [Nat.pow_succ] at he
        omega
      · omega
    · intro r l hl hr
      have := h5 r hr
      rw [hl, Option.map_some, Option.some.injEq, Prod.mk.injEq, decide_eq_true_eq, decide_eq_true_eq] at this
      exact ⟨by linarith [this.1], by linarith [this.2]⟩
  · rw [C84_exactly_partial 24 (by omega) 8 8 1 (1/4) (by norm_num) (by norm_num) (by norm_num) (by norm_num)]
    · exact Or.inr ⟨1, rfl⟩
    · intro r l hl hr
      have := h24 r hr
      rw [hl, Option.map_some, Option.some.injEq, Prod.mk.injEq, decide_eq_true_eq, decide_eq_true_eq] at this
      exact ⟨by linarith [this.1], by linarith [this.2]⟩

/-- **C84, false as stated**: with 3 processes an agent at (3.5, 3.5) of block 0 is half a unit away from block 2, and the
halo distance is 1, but process 2 does not receive it: the agent is in the list of the north border only, and that
border has no corner in common with block 2. -/
theorem C84_three_processes_negation_partial :
    (do let t ← (Tree.create 0 3 0 ⟨0, 0, 8, 8⟩ 1 1 : Option (Tree Nat))
        let u ← (Tree.create 2 3 0 ⟨0, 0, 8, 8⟩ 1 1 : Option (Tree Nat))
        let t1 ← insertAll t [(7, ⟨7/2, 7/2⟩)]
        let t2 ← lazyUpdate t1
        let l ← receivedFrom u t2 t2.precNeighbors true
        pure ((⟨u.layout.x, u.layout.y, u.layout.width, u.layout.height⟩ : Tile), l)) = some (⟨4, 0, 4, 8⟩, []) ∧
    Near 8 8 1 ⟨7/2, 7/2⟩ ⟨4, 0, 4, 8⟩ := by
  constructor
  · decide +kernel
  · refine ⟨⟨4, 7/2⟩, ?_, 0, 0, ?_, ?_⟩
    · norm_num [Tile.Has]
    · norm_num
    · norm_num

/-! ### C85 -/

theorem scan_filter (f : Field2D.Field O) (keep : Grid.Loc → O → Bool) (q : O → Bool) (cs : List Grid.Loc) :
    scan f (fun b e => keep b e && q e) cs = (scan f keep cs).map (fun r => r.filter q) := by
  induction cs with
  | nil => rfl
  | cons c cs ih =>
    rw [scan, scan]
    cases bagId f c with
    | none => rfl
    | some b =>
      dsimp only
      cases Grid.vecGet f.rbags f.dh b with
      | none => rfl
      | some bag =>
        dsimp only
        rw [ih, Option.map_map, Option.map_map]
        congr 1
        funext r
        simp only [Function.comp, List.filter_append, List.filter_filter]
        congr 2
        funext x
        exact Bool.and_comm _ _

/-- **C85.** The bags of a process are a `Field2D` on a torus of the size of the whole field: made like one, and changed by
`insert`, `remove_object_location` and `lazy_update` as one, so C34-C36 and C41 carry over. -/
theorem C85_bags_are_a_field (t t' : Tree O) (a : O) (p : Pos) (rank size id : Nat) (root : Tile) (disc d : ℚ) :
    (Tree.create rank size id root disc d = some t → t.bags = Field2D.new root.w root.h disc true) ∧
    (insert t a p = some t' → Field2D.setObjectLocation t.bags a p = some t'.bags) ∧
    (removeObjectLocation t a p = some t' → Field2D.removeObjectLocation t.bags a p = some t'.bags) ∧
    (lazyUpdate t = some t' → Field2D.lazyUpdate t.bags = some t'.bags) := by
  refine ⟨?_, ?_, ?_, ?_⟩
  · intro h
    obtain ⟨l, _, rfl⟩ := Option.map_eq_some_iff.1 h
    rfl
  · intro h
    unfold insert at h
    cases hf : Field2D.setObjectLocation t.bags a p with
    | none => rw [hf] at h; cases h
    | some f =>
      rw [hf] at h
      obtain ⟨ns, _, rfl⟩ := Option.map_eq_some_iff.1 h
      rfl
  · intro h
    obtain ⟨f, hf, rfl⟩ := Option.map_eq_some_iff.1 h
    exact hf
  · intro h
    obtain ⟨f, hf, rfl⟩ := Option.map_eq_some_iff.1 h
    exact hf

/-- An agent inserted at one process, after `lazy_update`. -/
example :
    (do let t ← (Tree.create 0 2 0 ⟨0, 0, 8, 8⟩ 1 1 : Option (Tree Nat))
        let t1 ← insert t 7 ⟨1, 3⟩
        let t2 ← lazyUpdate t1
        pure (t1.bags.rbags.flatten, t2.bags.rbags.flatten)) = some ([], [7]) := by
  decide +kernel

/-- **C85.** The search of the distributed field returns exactly what the search of `Field2D` returns on the bags of the
process as a torus of the size of the whole field, without the agents located exactly at `loc`. So the guarantees and
gaps of C37-C40 on a torus carry over. -/
theorem C85_search_is_field_search (t : Tree O) (locOf : O → Pos) (loc : Pos) (dist : ℚ) :
    getNeighborsWithinDistance t locOf loc dist =
      (Field2D.getNeighborsWithinDistance t.bags locOf loc dist).map (fun r => r.filter (fun e => decide (locOf e ≠ loc))) := by
  unfold getNeighborsWithinDistance Field2D.getNeighborsWithinDistance
  by_cases hd : dist ≤ 0
  · rw [if_pos hd, if_pos hd]; rfl
  · rw [if_neg hd, if_neg hd, scan_filter]

/-- **C85.** The relaxed search never looks further than the halo distance. -/
theorem C85_relaxed (t : Tree O) (locOf : O → Pos) (loc : Pos) (dist : ℚ) :
    getRelaxed t locOf loc dist =
      (getNeighborsWithinRelaxDistance t.bags loc (min dist t.layout.distance)).map
        (fun r => r.filter (fun e => decide (locOf e ≠ loc))) := by
  unfold getRelaxed getNeighborsWithinRelaxDistance
  by_cases hd : min dist t.layout.distance ≤ 0
  · rw [if_pos hd, if_pos hd]; rfl
  · rw [if_neg hd, if_neg hd, ← scan_filter]
    congr 1

/-- **C85.** The part of C37 that holds, for the distributed field: whatever is returned is within the distance and not
at `loc`, if the bags hold agents at their own locations. -/
theorem C85_search_sound (t : Tree O) (hf : WF t.bags) (htor : t.bags.toroidal = true) (locOf : O → Pos)
    (hown : AtOwnLocation t.bags locOf) (loc : Pos) (dist : ℚ)
    (hsmall : 2 * dist < t.bags.width - t.bags.discretization ∧ 2 * dist < t.bags.height - t.bags.discretization)
    (r : List O) (h : getNeighborsWithinDistance t locOf loc dist = some r) :
    ∀ o ∈ r, Within true t.bags.width t.bags.height (locOf o) loc dist ∧ locOf o ≠ loc := by
  rw [C85_search_is_field_search] at h
  obtain ⟨r', hr', rfl⟩ := Option.map_eq_some_iff.1 h
  intro o ho
  obtain ⟨ho', hne⟩ := List.mem_filter.1 ho
  refine ⟨?_, by simpa using hne⟩
  unfold Field2D.getNeighborsWithinDistance at hr'
  by_cases hd : dist ≤ 0
  · rw [if_pos hd] at hr'
    rw [← Option.some.inj hr'] at ho'
    simp at ho'
  · rw [if_neg hd, scan_eq hf] at hr'
    rw [← Option.some.inj hr'] at ho'
    obtain ⟨c, _, hc⟩ := List.mem_flatMap.1 ho'
    obtain ⟨hb, hk⟩ := List.mem_filter.1 hc
    have hr := wrapped_inRange hf c
    obtain ⟨hf1, hf2⟩ := hown _ hr o hb
    rw [← within_iff _ _ _ hf.w hf.h]
    unfold keepExact at hk
    rw [htor, decide_eq_true_eq] at hk
    rcases hk with ⟨_, hk⟩ | hk
    · rwa [distSq_symm _ _ _ hf.w hf.h] at hk
    · rw [← hf2] at hk
      exact full_cell_sound hf.d hf.w hf.h hf1 loc dist (lt_of_not_ge hd) true (fun _ => hsmall) hk

/-- **C85.** Agents received from other processes (`insert_read`) are found at once. -/
theorem C85_insert_read (t : Tree O) (hf : WF t.bags) (agent : O) (p : Pos) (hp : InField t.bags.width t.bags.height p) :
    ∃ t', insertRead t agent p = some t' ∧
      Field2D.getObjects t'.bags p = (Field2D.getObjects t.bags p).map (fun l => l ++ [agent]) ∧
      (∀ q, InField t.bags.width t.bags.height q → discretize t.bags.discretization q ≠ discretize t.bags.discretization p →
        Field2D.getObjects t'.bags q = Field2D.getObjects t.bags q) ∧
      (∀ q, Field2D.getObjectsUnbuffered t'.bags q = Field2D.getObjectsUnbuffered t.bags q) := by
  have hr := inRange_of hf hp
  obtain ⟨b, hb⟩ := Grid.vecGet_some hf.r.big hr
  obtain ⟨v, hv, hg⟩ := Grid.vecSet_some hf.r.big hr (b ++ [agent])
  refine ⟨_, by unfold insertRead; rw [hb]; dsimp only; rw [hv]; rfl, ?_, ?_, ?_⟩
  · show Grid.vecGet v t.bags.dh _ = _
    rw [hg.2 _ hr, if_pos rfl]
    show _ = (Grid.vecGet t.bags.rbags t.bags.dh _).map _
    rw [hb]
    rfl
  · intro q hq hne
    show Grid.vecGet v t.bags.dh _ = Grid.vecGet t.bags.rbags t.bags.dh _
    rw [hg.2 _ (inRange_of hf hq), if_neg hne]
  · intro q; rfl

/-! ### C86 -/

/-- **C86, false**: an agent inserted near a border and removed again in the same step is still sent to the neighbours,
although it is in no bag. -/
theorem C86_removed_agent_sent_negation_partial :
    (do let t ← (Tree.create 0 2 0 ⟨0, 0, 8, 8⟩ 1 1 : Option (Tree Nat))
        let u ← (Tree.create 1 2 0 ⟨0, 0, 8, 8⟩ 1 1 : Option (Tree Nat))
        let t1 ← insert t 7 ⟨7/2, 3⟩
        let t2 ← removeObjectLocation t1 7 ⟨7/2, 3⟩
        let t3 ← lazyUpdate t2
        let l ← receivedFrom u t3 t3.precNeighbors true
        pure (t1.bags.bags.flatten, t3.bags.rbags.flatten, l)) = some ([7], [], [7]) := by
  decide +kernel

end Verif.KdTree
