import Verif.Lemmas.KdMachine
import Verif.Props.KdTree

/-!
The distributed field on machine floats (C195-C197). `createTree rnd rank size 0 root d` is what process `rank` of `size` gets from
`create_tree(0, ..)` on the field `root` with halo distance `d`, every operation being rounded by `rnd`; `layout` is the same for a
field of finite numbers. The theorems for every `Rounding` include the machine's rounding to the nearest, ties to even
(`Single.single`).
-/

set_option linter.unusedSectionVars false

namespace Verif.KdMachine

open Machine

/-! ### Concrete fields -/

/-- A field from `x = 0.7` of width `1.2` and height `8`, as single precision numbers. -/
def shifted : KdTree.Tile := ⟨11744051 / 2 ^ 24, 0, 5033165 / 2 ^ 22, 8⟩

/-- A field at the origin with sides `1.1` as single precision numbers. -/
def elevenTenths : KdTree.Tile := ⟨0, 0, 9227469 / 2 ^ 23, 9227469 / 2 ^ 23⟩

/-- A field at the origin, 1000 by 500. -/
def big : KdTree.Tile := ⟨0, 0, 1000, 500⟩

theorem big_fit : Fit (12 * 2 ^ 4) (-4) 5 big := by
  constructor
  · exact ⟨0, 500, by norm_num, by norm_num, by norm_num, by norm_num [big], by norm_num [big]⟩
  · exact ⟨0, 250, by norm_num, by norm_num, by norm_num, by norm_num [big], by norm_num [big]⟩

/-! ### C195 -/

/-- **C195, with bits to spare.** If sides, corner and halo distance are such that the field can be halved without leaving the 24
bits, every process finds, for every finite location of the field, a block whose box contains it. -/
theorem C195_location_partial (rnd : Rat → Rat) (hr : Single.Rounding rnd) (D : Nat) (e : Int) (he1 : -149 ≤ e) (he2 : e ≤ 100)
    (rank size k : Nat) (root : KdTree.Tile) (hs : 2 ≤ size) (hrank : rank < size) (hk : size ≤ 2 ^ k) (hroot : Fit D e k root)
    (hw : 0 < root.w ∧ 0 < root.h) : ∃ l, layout rnd rank size root (D * (2 : Rat) ^ e) = some l ∧
      ∀ p : Torus.Pos, (root.Has p → ∃ i x y w h, getBlockByLocation rnd l ⟨.fin p.x, .fin p.y⟩ = some i ∧
          (⟨i, .fin x, .fin y, .fin w, .fin h⟩ : Block) ∈ l.subtrees ∧ (⟨x, y, w, h⟩ : KdTree.Tile).Has p) ∧
        (¬ root.Has p → getBlockByLocation rnd l ⟨.fin p.x, .fin p.y⟩ = none) := by
  obtain ⟨l, hl, _⟩ := KdTree.C57_tiles rank size 0 root (D * (2 : Rat) ^ e) hw hs
  obtain ⟨h1, h2⟩ := createTree_fit hr he1 he2 hs hrank hk hroot hw rfl
  refine ⟨ofLayout l, by unfold layout; rw [h1, hl]; rfl, ?_⟩
  intro p
  obtain ⟨g1, _, g3⟩ := KdTree.C57_location rank size 0 root _ hw hs l hl p
  rw [getBlockByLocation_fit hr he1 he2 (fun b hb => h2 l hl b (List.mem_append_left _ hb))]
  refine ⟨?_, g3⟩
  intro hp
  obtain ⟨b, hb, e1, e2⟩ := g1 hp
  exact ⟨b.id, b.x, b.y, b.width, b.height, e1, List.mem_map_of_mem (f := ofBlock) hb, e2⟩

/-- The hypotheses hold for 29 processes on a field of 1000 by 500 with halo distance 12. -/
example := C195_location_partial Single.single Single.rounding_single (12 * 2 ^ 4) (-4) (by norm_num) (by norm_num) 7 29 5 big
  (by norm_num) (by norm_num) (by norm_num) big_fit (by norm_num [big])

example : (layout Single.single 7 29 big 12).bind (fun l => getBlockByLocation Single.single l ⟨.fin 999, .fin (499 / 2)⟩) =
    some 23 := by decide +kernel

/-- **C195 is false of the code.** On the field from `x = 0.7` of width `1.2` and height `8` with seven processes, a location of the
field (its first coordinate is the single precision number nearest to `1.9`, less than the end of the field) has no block:
`get_block_by_location` panics, at every process. -/
theorem C195_gap_partial : shifted.Has ⟨15938355 / 2 ^ 23, 2⟩ ∧
    (15938355 / 2 ^ 23 : Rat) < shifted.x + shifted.w ∧ Single.IsF32 (15938355 / 2 ^ 23) ∧
    ∀ rank < 7, (layout Single.single rank 7 shifted 1).map (fun l =>
      (l.subtrees.length, getBlockByLocation Single.single l ⟨.fin (15938355 / 2 ^ 23), .fin 2⟩)) = some (7, none) := by
  refine ⟨by decide +kernel, by decide +kernel, ⟨15938355, -23, by norm_num, by norm_num, by norm_num⟩, ?_⟩
  decide +kernel

/-- **C195 is false of the code for a coordinate that is not a number**, whatever the field and the rounding: with more than one
process there is no block for it. -/
theorem C195_nan_partial (rnd : Rat → Rat) (l : Layout) (hl : l.size ≠ 1) (p : PosF) (hp : p.x = .nan ∨ p.y = .nan) :
    getBlockByLocation rnd l p = none := by
  unfold getBlockByLocation
  rw [if_neg hl]
  have : l.subtrees.find? (fun b => b.contains rnd p) = none := by
    rw [List.find?_eq_none]
    intro b _ hc
    unfold Block.contains at hc
    rcases hp with h | h <;> rw [h] at hc
    · cases hx : b.x <;> rw [hx] at hc <;> simp [le] at hc
    · cases hx : b.y <;> rw [hx] at hc <;> simp [le] at hc
  rw [this]
  rfl

example : ((layout Single.single 0 2 big 12).map Layout.size) = some 2 := by decide +kernel

/-! ### C196 -/

/-- **C196, with bits to spare.** The whole layout of every process (its box, the blocks, its neighbours, its halo regions and
their neighbours) is the layout in exact arithmetic. -/
theorem C196_layout_partial (rnd : Rat → Rat) (hr : Single.Rounding rnd) (D : Nat) (e : Int) (he1 : -149 ≤ e) (he2 : e ≤ 100)
    (rank size k : Nat) (root : KdTree.Tile) (hs : 2 ≤ size) (hrank : rank < size) (hk : size ≤ 2 ^ k) (hroot : Fit D e k root)
    (hw : 0 < root.w ∧ 0 < root.h) :
    layout rnd rank size root (D * (2 : Rat) ^ e) =
      (KdTree.createTree rank size 0 root (D * (2 : Rat) ^ e)).map ofLayout :=
  (createTree_fit hr he1 he2 hs hrank hk hroot hw rfl).1

/-- **C196, with bits to spare.** The neighbours are exactly the other processes whose blocks touch the own one on the torus, in
ascending order. -/
theorem C196_neighbors_partial (rnd : Rat → Rat) (hr : Single.Rounding rnd) (D : Nat) (e : Int) (he1 : -149 ≤ e) (he2 : e ≤ 100)
    (rank size k : Nat) (root : KdTree.Tile) (hs : 2 ≤ size) (hrank : rank < size) (hk : size ≤ 2 ^ k) (hroot : Fit D e k root)
    (hw : 0 < root.w ∧ 0 < root.h) : ∃ l, layout rnd rank size root (D * (2 : Rat) ^ e) = some l ∧
      ∃ own : KdTree.Tile, l.x = .fin own.x ∧ l.y = .fin own.y ∧ l.width = .fin own.w ∧ l.height = .fin own.h ∧
        l.neighborTrees.Pairwise (· < ·) ∧
        ∀ r, r ∈ l.neighborTrees ↔ r ≠ rank ∧ ∃ t : KdTree.Tile,
          (⟨r, .fin t.x, .fin t.y, .fin t.w, .fin t.h⟩ : Block) ∈ l.subtrees ∧ KdTree.Touch root.w root.h own t := by
  obtain ⟨l, hl, _⟩ := KdTree.C57_tiles rank size 0 root (D * (2 : Rat) ^ e) hw hs
  have h0 : 0 ≤ root.x ∧ 0 ≤ root.y := by
    have hp : (0 : Rat) < (2 : Rat) ^ e := zpow_pos (by norm_num) e
    obtain ⟨⟨X, _, hX, _, _, hx, _⟩, ⟨Y, _, hY, _, _, hy, _⟩⟩ := hroot
    rw [hx, hy]
    exact ⟨mul_nonneg (by exact_mod_cast hX) hp.le, mul_nonneg (by exact_mod_cast hY) hp.le⟩
  obtain ⟨n1, n2⟩ := KdTree.C82_neighbors_exact rank size root _ hw h0 hs hrank l hl
  refine ⟨ofLayout l, by rw [C196_layout_partial rnd hr D e he1 he2 rank size k root hs hrank hk hroot hw, hl]; rfl,
    ⟨l.x, l.y, l.width, l.height⟩, rfl, rfl, rfl, rfl, n1, ?_⟩
  intro r
  rw [show (ofLayout l).neighborTrees = l.neighborTrees from rfl, n2]
  refine and_congr_right (fun _ => ?_)
  constructor
  · rintro ⟨b, hb, rfl, ht⟩
    exact ⟨b.tile, List.mem_map_of_mem (f := ofBlock) hb, ht⟩
  · rintro ⟨t, hb, ht⟩
    obtain ⟨b, hb, he⟩ := List.mem_map.1 hb
    unfold ofBlock at he
    injection he with i1 i2 i3 i4 i5
    injection i2 with i2
    injection i3 with i3
    injection i4 with i4
    injection i5 with i5
    refine ⟨b, hb, i1, ?_⟩
    have : b.tile = t := by
      unfold KdTree.Block.tile
      rw [i2, i3, i4, i5]
    rw [this]
    exact ht

example : (layout Single.single 7 29 big (12 * 2 ^ 4 * (2 : Rat) ^ (-4 : Int))).map Layout.neighborTrees =
    some [4, 5, 6, 12, 13, 16, 18, 24] := by decide +kernel

/-- **C196, with bits to spare.** The border to whose list `insert` adds an agent of the own box is the first that is at most the halo
distance away. -/
theorem C196_halo_partial (rnd : Rat → Rat) (hr : Single.Rounding rnd) (D : Nat) (e : Int) (he1 : -149 ≤ e) (he2 : e ≤ 100)
    (rank size k : Nat) (root : KdTree.Tile) (hs : 2 ≤ size) (hrank : rank < size) (hk : size ≤ 2 ^ k) (hroot : Fit D e k root)
    (hw : 0 < root.w ∧ 0 < root.h) : ∃ l, layout rnd rank size root (D * (2 : Rat) ^ e) = some l ∧
      ∃ own : KdTree.Tile, l.x = .fin own.x ∧ l.y = .fin own.y ∧ l.width = .fin own.w ∧ l.height = .fin own.h ∧
        ∀ p : Torus.Pos, own.Has p → haloAt rnd l ⟨.fin p.x, .fin p.y⟩ = KdTree.haloOf own (D * (2 : Rat) ^ e) p := by
  obtain ⟨ts, t, _, _, hl⟩ := KdTree.createTree_spec (d := D * (2 : Rat) ^ e) hw hs hrank
  obtain ⟨h1, h2⟩ := createTree_fit hr he1 he2 hs hrank hk hroot hw rfl
  refine ⟨_, by unfold layout; rw [h1, hl]; rfl, t, rfl, rfl, rfl, rfl, ?_⟩
  intro p hp
  rw [haloAt_fit hr he1 he2 (fun b hb => h2 _ hl b (List.mem_append_right _ hb))]
  exact regions_find hp

example : (layout Single.single 7 29 big (12 * 2 ^ 4 * (2 : Rat) ^ (-4 : Int))).map (fun l =>
    (l.x, l.y, l.width, l.height, haloAt Single.single l ⟨.fin 380, .fin 200⟩)) =
    some (.fin 375, .fin 125, .fin 125, .fin 125, some 3) := by decide +kernel

/-- **C196 is false of the code.** On a field at the origin with sides `1.1` and 25 processes, process 17 does not list process 18,
whose block is right beside its own in the subdivision into exact halves (nor 19, 20, 22 and 24), and process 18 does not list
process 17: agents near the common border are not sent. -/
theorem C196_lost_neighbours_partial :
    (layout Single.single 17 25 elevenTenths (1 / 8)).map Layout.neighborTrees = some [16] ∧
    (KdTree.createTree 17 25 0 elevenTenths (1 / 8)).map KdTree.Layout.neighborTrees = some [16, 18, 19, 20, 22, 24] ∧
    (layout Single.single 18 25 elevenTenths (1 / 8)).map (fun l => l.neighborTrees.contains 17) = some false := by
  refine ⟨?_, ?_, ?_⟩ <;> decide +kernel

/-! ### C197 -/

/-- **C197.** Whatever the numbers (even infinite or not a number) and the rounding: every process gets the same blocks, one per
process, with the ranks as ids, and works on the box of the block with its rank. -/
theorem C197_blocks (rnd : Rat → Rat) (size : Nat) (root : Tile) (d : F) (hs : 2 ≤ size) :
    ∃ bs : List Block, bs.map Block.id = List.range size ∧ ∀ rank < size, ∃ l, createTree rnd rank size 0 root d = some l ∧
      l.subtrees = bs ∧ bs[rank]? = some ⟨rank, l.x, l.y, l.width, l.height⟩ := by
  obtain ⟨ts, _, h1, h2, _⟩ := subtrees_head (rnd := rnd) (root := root) hs
  refine ⟨blocksFrom 0 ts, by rw [blocksFrom_ids, h2, List.range_eq_range'], ?_⟩
  intro rank hrank
  obtain ⟨ts', t, h1', h2', h3⟩ := createTree_spec (rnd := rnd) (root := root) (d := d) hs hrank
  rw [h1] at h1'
  have hts := Option.some.inj h1'
  subst hts
  refine ⟨_, h3, rfl, ?_⟩
  rw [blocksFrom_getElem?, h2']
  simp [layoutOf]

/-- The neighbour lists of all processes. -/
def allNeighbors (rnd : Rat → Rat) (size : Nat) (root : Tile) (d : F) : KdTree.Pending := fun rank =>
  if rank < size then ((createTree rnd rank size 0 root d).map Layout.neighborTrees).getD [] else []

theorem mem_allNeighbors {rnd : Rat → Rat} {size : Nat} {root : Tile} {d : F} (hs : 2 ≤ size) {ts : List Tile}
    (hts : subtrees rnd root size = some ts) {i j : Nat} :
    j ∈ allNeighbors rnd size root d i ↔ i < size ∧ j ≠ i ∧ ∃ s t, ts[i]? = some s ∧ ts[j]? = some t ∧
      sharePoint (boundaryPoints rnd root.w root.h s.x s.y s.w s.h) (boundaryPoints rnd root.w root.h t.x t.y t.w t.h) = true := by
  unfold allNeighbors
  by_cases hi : i < size
  · rw [if_pos hi]
    obtain ⟨ts', s, h1, h2, h3⟩ := createTree_spec (rnd := rnd) (root := root) (d := d) hs hi
    rw [hts] at h1
    have htt := Option.some.inj h1
    subst htt
    rw [h3, Option.map_some, Option.getD_some]
    show j ∈ touching rnd i root.w root.h s.x s.y s.w s.h (blocksFrom 0 ts) ↔ _
    rw [mem_touching]
    constructor
    · rintro ⟨hne, t, ht, hsh⟩
      exact ⟨hi, hne, s, t, h2, ht, hsh⟩
    · rintro ⟨_, hne, s', t, hs', ht, hsh⟩
      rw [h2] at hs'
      have hss := Option.some.inj hs'
      subst hss
      exact ⟨hne, t, ht, hsh⟩
  · rw [if_neg hi]
    constructor
    · intro hj; simp at hj
    · rintro ⟨hi', _⟩; exact absurd hi' hi

theorem ready_start (rnd : Rat → Rat) (size : Nat) (root : Tile) (d : F) (hs : 2 ≤ size) :
    KdTree.Ready (allNeighbors rnd size root d) := by
  obtain ⟨ts, _, hts, hlen, _⟩ := subtrees_head (rnd := rnd) (root := root) hs
  constructor
  · intro i j hj
    rw [mem_allNeighbors hs hts] at hj ⊢
    obtain ⟨hi, hne, s, t, h1, h2, h3⟩ := hj
    refine ⟨?_, Ne.symm hne, t, s, h2, h1, sharePoint_comm _ _ h3⟩
    have := (List.getElem?_eq_some_iff.1 h2).1
    omega
  · intro i
    unfold allNeighbors
    by_cases hi : i < size
    · rw [if_pos hi]
      obtain ⟨ts', s, h1, h2, h3⟩ := createTree_spec (rnd := rnd) (root := root) (d := d) hs hi
      rw [h3, Option.map_some, Option.getD_some]
      show (touching rnd i root.w root.h s.x s.y s.w s.h (blocksFrom 0 ts')).Pairwise (· < ·)
      unfold touching
      refine List.Pairwise.sublist (l₂ := (blocksFrom 0 ts').map Block.id) (List.filter_sublist.map _) ?_
      rw [blocksFrom_ids]
      exact List.pairwise_lt_range'
    · rw [if_neg hi]; exact List.Pairwise.nil

/-- **C197.** Whatever the numbers and the rounding, the neighbour lists are ascending, name only other processes, and are mutual:
a process lists another exactly if that one lists it. -/
theorem C197_mutual (rnd : Rat → Rat) (size : Nat) (root : Tile) (d : F) (hs : 2 ≤ size) (i j : Nat) (hi : i < size)
    (hj : j < size) (li lj : Layout) (hli : createTree rnd i size 0 root d = some li)
    (hlj : createTree rnd j size 0 root d = some lj) :
    li.neighborTrees.Pairwise (· < ·) ∧ (∀ k ∈ li.neighborTrees, k < size ∧ k ≠ i) ∧
      (j ∈ li.neighborTrees ↔ i ∈ lj.neighborTrees) := by
  have hr := ready_start rnd size root d hs
  obtain ⟨ts, _, hts, hlen, _⟩ := subtrees_head (rnd := rnd) (root := root) hs
  have e : ∀ {k l}, k < size → createTree rnd k size 0 root d = some l → allNeighbors rnd size root d k = l.neighborTrees := by
    intro k l hk hl
    unfold allNeighbors
    rw [if_pos hk, hl]
    rfl
  rw [← e hi hli, ← e hj hlj]
  refine ⟨hr.sorted i, ?_, hr.symm i j, hr.symm j i⟩
  intro k hk
  rw [mem_allNeighbors hs hts] at hk
  obtain ⟨_, hne, _, _, _, h2, _⟩ := hk
  have := (List.getElem?_eq_some_iff.1 h2).1
  exact ⟨by omega, hne⟩

/-- **C197.** Whatever the numbers and the rounding, the exchange of lengths never gets stuck: in every state that can be reached, as
long as some process has a partner left, two processes can complete their exchange. -/
theorem C197_no_deadlock (rnd : Rat → Rat) (size : Nat) (root : Tile) (d : F) (hs : 2 ≤ size) (s : KdTree.Pending)
    (hr : KdTree.Reachable (allNeighbors rnd size root d) s) (i : Nat) (hi : s i ≠ []) : ∃ s', KdTree.Meet s s' := by
  obtain ⟨ts, _, hts, _⟩ := subtrees_head (rnd := rnd) (root := root) hs
  have hstart : ∀ i, i ∉ allNeighbors rnd size root d i := by
    intro i hi
    rw [mem_allNeighbors hs hts] at hi
    exact hi.2.1 rfl
  have key : KdTree.Ready s ∧ ∀ i, i ∉ s i := by
    clear hi
    induction hr with
    | start => exact ⟨ready_start rnd size root d hs, hstart⟩
    | step _ hm ih =>
      refine ⟨KdTree.ready_meet ih.1 hm, ?_⟩
      intro k hk
      obtain ⟨a, b, la, lb, hab, ha, hb, rfl⟩ := hm
      dsimp only at hk
      by_cases h1 : k = a
      · rw [if_pos h1] at hk
        exact ih.2 k (by rw [h1, ha, ← h1]; exact List.mem_cons_of_mem _ hk)
      · rw [if_neg h1] at hk
        by_cases h2 : k = b
        · rw [if_pos h2] at hk
          exact ih.2 k (by rw [h2, hb, ← h2]; exact List.mem_cons_of_mem _ hk)
        · rw [if_neg h2] at hk
          exact ih.2 k hk
  exact KdTree.ready_progress key.1 key.2 hi

example :
    (List.range 4).map (allNeighbors Single.single 4 (ofTile big) (.fin 1)) = [[1, 2, 3], [0, 2, 3], [0, 1, 3], [0, 1, 2]] ∧
    (List.range 3).map (allNeighbors Single.single 3 ⟨.nan, .fin 0, .inf false, .fin 8⟩ .nan) = [[], [], []] := by
  decide +kernel

end Verif.KdMachine
