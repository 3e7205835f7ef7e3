import Verif.Lemmas.ObjectGrid

/-!
Properties of the object grids (C28-C34). Programs are lists of calls, newest first.
`DenseObject.Tight` is the shape every grid made by `new` has and keeps under every call but `update`;
`DenseObject.WF` is the weaker shape kept by `update` too.
-/

set_option linter.unusedSectionVars false

namespace Verif.DenseObject

open Grid

variable {O : Type} [BEq O]

/-! ### C28 -/

theorem run_shows {w h : Int} {g0 : OGrid O} (hs0 : Shows g0 w h (fun _ => []) (fun _ => []))
    (hist : List (ObjOp O)) (hin : ∀ op ∈ hist, op.InRange w h) (hlazy : ∀ op ∈ hist, op.Lazy) :
    ∃ g, run g0 hist = some g ∧ Shows g w h (bagPublished true hist) (bagWritten true hist) := by
  induction hist with
  | nil => exact ⟨g0, rfl, hs0⟩
  | cons op hist ih =>
    obtain ⟨g, hg, hs⟩ := ih (fun op h => hin op (List.mem_cons_of_mem _ h))
      (fun op h => hlazy op (List.mem_cons_of_mem _ h))
    have h1 := hin op List.mem_cons_self
    have h2 := hlazy op List.mem_cons_self
    cases op with
    | place o l =>
      obtain ⟨g', hg', hs'⟩ := shows_place hs o l h1
      exact ⟨g', by rw [run, hg]; exact hg', hs'⟩
    | remove o l =>
      obtain ⟨g', hg', hs'⟩ := shows_remove hs o l h1
      exact ⟨g', by rw [run, hg]; exact hg', hs'⟩
    | update => exact absurd h2 (by simp [ObjOp.Lazy])
    | lazyUpdate => exact ⟨_, by rw [run, hg]; rfl, shows_lazy hs⟩
    | apply f o => exact absurd h2 (by simp [ObjOp.Lazy])

/-- **C28.** After any program of set / remove / lazy_update calls at in-range locations, `get_objects`
is the bag placed and not removed before the last update and `get_objects_unbuffered` the bag placed
since (`None` for an empty bag); no call panics. -/
theorem C28_dense_object_grid_is_double_buffered (width height : Int) (g0 : OGrid O)
    (hnew : new width height = some g0) (hist : List (ObjOp O))
    (hin : ∀ op ∈ hist, op.InRange width.natAbs height.natAbs) (hlazy : ∀ op ∈ hist, op.Lazy) :
    ∃ g, run g0 hist = some g ∧ Tight g ∧ g.width = width.natAbs ∧ g.height = height.natAbs ∧
      ∀ l, InRange width.natAbs height.natAbs l →
        getObjects g l = some (if bagPublished true hist l = [] then none else some (bagPublished true hist l)) ∧
        getObjectsUnbuffered g l =
          some (if bagWritten true hist l = [] then none else some (bagWritten true hist l)) := by
  obtain ⟨g, hg, hs⟩ := run_shows (shows_new hnew) hist hin hlazy
  refine ⟨g, hg, hs.wf, hs.width, hs.height, fun l hl => ⟨?_, ?_⟩⟩
  · unfold getObjects; rw [hs.read l hl]; simp [bagAnswer]
  · unfold getObjectsUnbuffered; rw [hs.write l hl]; simp [bagAnswer]

theorem NoneEqual.filter {b : List O} (h : NoneEqual b) (p : O → Bool) : NoneEqual (b.filter p) := List.Pairwise.filter p h

theorem bagWritten_noneEqual (hist : List (ObjOp O)) (l : Loc) : NoneEqual (bagWritten true hist l) := by
  induction hist with
  | nil => exact List.Pairwise.nil
  | cons op hist ih =>
    cases op with
    | place o l' =>
      rw [bagWritten]
      split
      · rw [if_pos rfl, NoneEqual, List.pairwise_append]
        refine ⟨ih.filter _, List.pairwise_singleton _ _, ?_⟩
        intro a ha b hb
        rw [List.mem_singleton] at hb
        subst hb
        have := (List.mem_filter.1 ha).2
        simpa [bne] using this
      · exact ih
    | remove o l' =>
      rw [bagWritten]
      split
      · exact ih.filter _
      · exact ih
    | update => exact List.Pairwise.nil
    | lazyUpdate => exact List.Pairwise.nil
    | apply f o => exact ih

theorem bagPublished_noneEqual (hist : List (ObjOp O)) (l : Loc) : NoneEqual (bagPublished true hist l) := by
  induction hist with
  | nil => exact List.Pairwise.nil
  | cons op hist ih =>
    cases op with
    | update => exact bagWritten_noneEqual hist l
    | lazyUpdate => exact bagWritten_noneEqual hist l
    | place o l' => exact ih
    | remove o l' => exact ih
    | apply f o => exact ih

/-- **C28.** No bag returned by the grid holds two equal objects, whatever `==` of the objects looks at. -/
theorem C28_no_object_twice_in_a_bag (width height : Int) (g0 g : OGrid O)
    (hnew : new width height = some g0) (hist : List (ObjOp O))
    (hin : ∀ op ∈ hist, op.InRange width.natAbs height.natAbs) (hlazy : ∀ op ∈ hist, op.Lazy)
    (hrun : run g0 hist = some g) (l : Loc) (hl : InRange width.natAbs height.natAbs l) (b : List O)
    (hb : getObjects g l = some (some b) ∨ getObjectsUnbuffered g l = some (some b)) : NoneEqual b := by
  obtain ⟨g', hg', _, _, _, h⟩ := C28_dense_object_grid_is_double_buffered width height g0 hnew hist hin hlazy
  have : g = g' := by rw [hrun] at hg'; simpa using hg'
  subst this
  obtain ⟨h1, h2⟩ := h l hl
  rw [h1, h2] at hb
  rcases hb with hb | hb
  · split at hb
    · exact absurd hb (by simp)
    · have : bagPublished true hist l = b := by simpa using hb
      rw [← this]; exact bagPublished_noneEqual hist l
  · split at hb
    · exact absurd hb (by simp)
    · have : bagWritten true hist l = b := by simpa using hb
      rw [← this]; exact bagWritten_noneEqual hist l

/-- A program on a 2 by 3 grid. -/
def demoHist : List (ObjOp Nat) :=
  [.place 9 ⟨0, 2⟩, .lazyUpdate, .remove 4 ⟨1, 2⟩, .place 7 ⟨1, 2⟩, .place 8 ⟨1, 2⟩, .place 7 ⟨1, 2⟩, .place 4 ⟨1, 2⟩]

theorem demoHist_ok : ∀ op ∈ demoHist, op.InRange 2 3 ∧ op.Lazy := by
  intro op hop
  simp only [demoHist, List.mem_cons, List.not_mem_nil, or_false] at hop
  rcases hop with h | h | h | h | h | h | h <;> subst h <;> simp [ObjOp.InRange, ObjOp.Lazy, Grid.InRange]

example : (new 2 3 : Option (OGrid Nat)).isSome ∧ bagPublished true demoHist ⟨1, 2⟩ = [8, 7] ∧
    bagWritten true demoHist ⟨0, 2⟩ = [9] ∧
    (((new 2 3).bind (fun g => run g demoHist)).bind (fun g => getObjects g ⟨1, 2⟩)) = some (some [8, 7]) ∧
    (((new 2 3).bind (fun g => run g demoHist)).bind (fun g => getObjects g ⟨0, 2⟩)) = some none := by decide

/-! ### C29 -/

/-- The objects a caller of `get_objects` sees at `l`. -/
def seen (g : OGrid O) (l : Loc) : List O := ((getObjects g l).getD none).getD []

/-- The objects a caller of `get_objects_unbuffered` sees at `l`. -/
def seenUnbuffered (g : OGrid O) (l : Loc) : List O := ((getObjectsUnbuffered g l).getD none).getD []

theorem bagAnswer_getD (b : List O) : (bagAnswer b).getD [] = b := by
  unfold bagAnswer; cases b <;> simp

theorem seen_of {g : OGrid O} {l : Loc} {b : List O} (h : vecGet g.rlocs g.height l = some b) : seen g l = b := by
  unfold seen getObjects; rw [h]; exact bagAnswer_getD b

theorem seenUnbuffered_of {g : OGrid O} {l : Loc} {b : List O} (h : vecGet g.locs g.height l = some b) :
    seenUnbuffered g l = b := by
  unfold seenUnbuffered getObjectsUnbuffered; rw [h]; exact bagAnswer_getD b

theorem contains_iff (b : List O) (o : O) : b.contains o = true ↔ HoldsEqual b o := by
  unfold HoldsEqual
  rw [List.contains_eq_any_beq, List.any_eq_true]

theorem firstCell_of {w h : Int} {v : List (List O)} (hv : Big w h v) (o : O) (s : Loc → List O)
    (hs : ∀ l b, vecGet v h l = some b → s l = b) :
    ∃ r, findCell v h (fun e => e.contains o) (cells w h) = some r ∧ FirstCell w h (fun l => HoldsEqual (s l) o) r := by
  obtain ⟨r, h1, h2, h3⟩ := findCell_cells hv (fun e : List O => e.contains o)
  refine ⟨r, h1, ?_, ?_⟩
  · rw [h2]
    constructor
    · intro hall l hl hc
      obtain ⟨b, hb⟩ := vecGet_some hv hl
      have := hall l hl b hb
      rw [hs l b hb] at hc
      rw [(contains_iff b o).2 hc] at this
      exact absurd this (by simp)
    · intro hall l hl a ha
      have : ¬ HoldsEqual (s l) o := hall l hl
      rw [hs l a ha, ← contains_iff] at this
      simpa using this
  · intro c hc
    obtain ⟨ha, ⟨a, hb, hb'⟩, hd⟩ := h3 c hc
    refine ⟨ha, show HoldsEqual (s c) o by rw [hs c a hb]; exact (contains_iff a o).1 hb', ?_⟩
    intro l hl hp
    obtain ⟨b, hb⟩ := vecGet_some hv hl
    have hp' : HoldsEqual (s l) o := hp
    rw [hs l b hb] at hp'
    exact hd l hl ⟨b, hb, (contains_iff b o).2 hp'⟩

/-- **C29.** `get_location` is the first cell, column by column, whose published bag holds an object equal to the
argument, and `None` iff no bag does; the same for `get_location_unbuffered`. -/
theorem C29_get_location (g : OGrid O) (hg : WF g) (o : O) :
    (∃ r, getLocation g o = some r ∧ FirstCell g.width g.height (fun l => HoldsEqual (seen g l) o) r) ∧
    (∃ r, getLocationUnbuffered g o = some r ∧
      FirstCell g.width g.height (fun l => HoldsEqual (seenUnbuffered g l) o) r) :=
  ⟨firstCell_of hg.r o _ (fun _ _ h => seen_of h), firstCell_of hg.w o _ (fun _ _ h => seenUnbuffered_of h)⟩

/-- **C29.** `get_empty_bags`: exactly the cells whose `get_objects` is `None`, once each. -/
theorem C29_get_empty_bags (g : OGrid O) (hg : WF g) :
    ∃ r, getEmptyBags g = some r ∧ r.Nodup ∧
      ∀ l, l ∈ r ↔ InRange g.width g.height l ∧ getObjects g l = some none := by
  obtain ⟨r, h1, h2, h3⟩ := collect_cells hg.r (fun c (e : List O) => if e.isEmpty then [c] else []) id
    (by intro c a b hb; split at hb <;> simp_all) (by intro c a; split <;> simp)
  refine ⟨r, h1, h2, ?_⟩
  intro l
  rw [h3]
  constructor
  · rintro ⟨ha, e, he, hm⟩
    refine ⟨ha, ?_⟩
    cases e with
    | nil => unfold getObjects; rw [show vecGet g.rlocs g.height l = some [] from he]; rfl
    | cons a e => exact absurd hm (by simp)
  · rintro ⟨ha, he⟩
    obtain ⟨b, hb⟩ := vecGet_some hg.r ha
    have : b = [] := by
      unfold getObjects at he; rw [hb] at he
      cases b with
      | nil => rfl
      | cons a b => simp [bagAnswer] at he
    subst this
    exact ⟨ha, [], hb, by simp⟩

theorem iter_of {w h : Int} {v : List (List O)} (hv : Big w h v) (s : Loc → List O)
    (hs : ∀ l b, vecGet v h l = some b → s l = b) :
    ∃ r, collect v h (fun c e => e.map (fun o => (c, o))) (cells w h) = some r ∧
      ∀ l q, callsAt r l q = if InRange w h l then (s l).countP q else 0 := by
  refine ⟨_, collect_spec _ (cells_isSome hv), ?_⟩
  intro l q
  have he : (cells w h).flatMap (fun c => ((vecGet v h c).map (fun e : List O => e.map (fun o => (c, o)))).getD []) =
      (cells w h).flatMap (fun c => (s c).map (fun o => (c, o))) := by
    rw [List.flatMap_def, List.flatMap_def]
    congr 1
    apply List.map_congr_left
    intro c hc
    obtain ⟨b, hb⟩ := vecGet_some hv (mem_cells.1 hc)
    rw [hb, hs c b hb]; rfl
  rw [he, callsAt_tagged _ _ (nodup_cells w h)]
  exact if_congr mem_cells rfl rfl

/-- **C29.** `iter_objects` calls the closure once for each (cell, object) placement of the published
state, and nothing else; the same for `iter_objects_unbuffered`. -/
theorem C29_iter_objects (g : OGrid O) (hg : WF g) :
    (∃ r, iterObjects g = some r ∧
      ∀ l q, callsAt r l q = if InRange g.width g.height l then (seen g l).countP q else 0) ∧
    (∃ r, iterObjectsUnbuffered g = some r ∧
      ∀ l q, callsAt r l q = if InRange g.width g.height l then (seenUnbuffered g l).countP q else 0) :=
  ⟨iter_of hg.r _ (fun _ _ h => seen_of h), iter_of hg.w _ (fun _ _ h => seenUnbuffered_of h)⟩

/-- A 2 by 2 grid with contents in both buffers. -/
def demoGrid : OGrid Nat := ⟨[[], [4, 5], [5], [6]], [[6], [], [], [1, 2]], 2, 2⟩

example : WF demoGrid ∧ Tight demoGrid ∧ getLocation demoGrid 5 = some (some ⟨0, 1⟩) ∧
    getLocation demoGrid 9 = some none ∧ getLocationUnbuffered demoGrid 2 = some (some ⟨1, 1⟩) ∧
    getEmptyBags demoGrid = some [⟨0, 0⟩] ∧ seen demoGrid ⟨0, 1⟩ = [4, 5] ∧
    iterObjects demoGrid = some [(⟨0, 1⟩, 4), (⟨0, 1⟩, 5), (⟨1, 0⟩, 5), (⟨1, 1⟩, 6)] :=
  ⟨⟨by decide, by decide, by decide, by decide⟩, ⟨by decide, by decide, by decide, by decide⟩,
    by decide, by decide, by decide, by decide, by decide, by decide⟩

/-! ### C30 -/

/-- **C30**, correct part: `update` does not panic, and the reads after it return what was written.
Full C30 also needs the storage to keep one bag per cell, which is false (below). -/
theorem C30_update_publishes_partial (g : OGrid O) (hg : WF g) :
    ∃ g', update g = some g' ∧ WF g' ∧ g'.width = g.width ∧ g'.height = g.height ∧
      ∀ l, InRange g.width g.height l →
        getObjects g' l = getObjectsUnbuffered g l ∧ getObjectsUnbuffered g' l = getObjectsUnbuffered g l := by
  refine ⟨_, update_eq hg, ⟨?_, hg.w, hg.pw, hg.ph⟩, rfl, rfl, ?_⟩
  · have := hg.r
    unfold Big at *
    dsimp only
    rw [List.length_append]; omega
  · intro l hl
    refine ⟨?_, rfl⟩
    unfold getObjects getObjectsUnbuffered
    dsimp only
    rw [vecGet_take_append hg.w hl]

/-- `n` calls of `update`. -/
def updates : Nat → OGrid O → Option (OGrid O)
  | 0, g => some g
  | n + 1, g => (updates n g).bind update

/-- **C30** is false: every `update` adds one bag per cell to the storage. After `n` updates of a grid
with one bag per cell there are `n + 1` bags per cell. -/
theorem C30_storage_grows_partial (g : OGrid O) (hg : Tight g) (n : Nat) :
    ∃ g', updates n g = some g' ∧ WF g' ∧ g'.locs = g.locs ∧ g'.width = g.width ∧ g'.height = g.height ∧
      g'.rlocs.length = (n + 1) * (g.width * g.height).toNat := by
  induction n with
  | zero => exact ⟨g, rfl, hg.wf, rfl, rfl, rfl, by have := hg.r; unfold Sized at this; omega⟩
  | succ n ih =>
    obtain ⟨g', h1, h2, h3, h4, h5, h6⟩ := ih
    obtain ⟨g'', k1, k2, k3, k4, _⟩ := C30_update_publishes_partial g' h2
    refine ⟨g'', by rw [updates, h1]; exact k1, k2, ?_, k3.trans h4, k4.trans h5, ?_⟩
    · rw [update_eq h2] at k1
      have := Option.some.inj k1
      rw [← this]; exact h3
    · rw [update_eq h2] at k1
      have := Option.some.inj k1
      rw [← this]
      have hw := hg.w
      unfold Sized at hw
      dsimp only
      rw [List.length_append, h6, List.length_take, h3, h4, h5, hw, Nat.min_self, Nat.succ_mul (n + 1)]
      omega

/-- **C30** is false: after `update` on a grid with at least one cell, `apply_to_all_values` panics,
whatever the closure and the option. -/
theorem C30_apply_panics_after_update_partial (g g' : OGrid O) (hg : WF g) (hne : 0 < g.width * g.height)
    (hu : update g = some g') (f : Loc → O → Option O) (o : GridOption) : applyToAllValues g' f o = none := by
  rw [update_eq hg] at hu
  have := (Option.some.inj hu).symm
  subst this
  have hr := hg.r
  have hw := hg.w
  unfold Big at hr hw
  have hlen : (g.locs.take (g.width * g.height).toNat ++ g.rlocs).length ≥ 2 * (g.width * g.height).toNat := by
    rw [List.length_append, List.length_take]; omega
  have hne' : g.locs.take (g.width * g.height).toNat ++ g.rlocs ≠ [] := by
    intro hc; rw [hc] at hlen; simp at hlen; omega
  cases o with
  | READ =>
    show Option.map _ (applyRead f g.width g.height 0 (g.locs.take (g.width * g.height).toNat ++ g.rlocs)) = none
    rw [applyRead_long f hg.pw _ 0 (by omega) hne']; rfl
  | WRITE =>
    show Option.map _ (applyWrite f g.width g.height 0 (g.locs.take (g.width * g.height).toNat ++ g.rlocs) g.locs) = none
    rw [applyWrite_long f hg.pw _ _ 0 (by omega) hne']; rfl
  | READWRITE =>
    show Option.map _ (applyReadWrite f g.width g.height 0 (g.locs.take (g.width * g.height).toNat ++ g.rlocs)
      g.locs) = none
    rw [applyReadWrite_long f hg.pw _ _ 0 (by omega) hne']; rfl

/-- **C30** is false: `update` is not `lazy_update`. It keeps the write buffer, so an object placed once
is published again by the next step although nothing was placed in between. -/
theorem C30_update_is_not_lazy_update_partial :
    (((new 1 2 : Option (OGrid Nat)).bind (fun g => run g [.lazyUpdate, .update, .place 7 ⟨0, 1⟩])).bind
      (fun g => getObjects g ⟨0, 1⟩)) = some (some [7]) ∧
    (((new 1 2 : Option (OGrid Nat)).bind (fun g => run g [.lazyUpdate, .lazyUpdate, .place 7 ⟨0, 1⟩])).bind
      (fun g => getObjects g ⟨0, 1⟩)) = some none ∧
    bagPublished true ([.lazyUpdate, .update, .place 7 ⟨0, 1⟩] : List (ObjOp Nat)) ⟨0, 1⟩ = [] := by decide

/-- **C30** is false, as a negated statement: the storage does not keep one bag per cell. -/
theorem C30_storage_not_kept_partial :
    ¬ ∀ (g g' : OGrid Nat), Tight g → update g = some g' → Tight g' := by
  intro hall
  have h := (hall demoGrid _ ⟨by decide, by decide, by decide, by decide⟩ rfl).r
  exact absurd h (by decide)

example : Tight demoGrid ∧ (update demoGrid).map (fun g => g.rlocs.length) = some 8 ∧
    (update demoGrid).bind (fun g => applyToAllValues g (fun _ o => some o) .READ) = none ∧
    (update demoGrid).bind (fun g => getObjects g ⟨1, 1⟩) = some (some [1, 2]) :=
  ⟨⟨by decide, by decide, by decide, by decide⟩, by decide, by decide, by decide⟩

/-! ### C31 and C32, dense -/

/-- The location the closure is told for the objects stored at `l`. -/
def told (w h : Int) (l : Loc) : Loc := ⟨(l.x * h + l.y) % w, (l.x * h + l.y) / w⟩

theorem toldAt_index {w h : Int} {l : Loc} (hl : InRange w h l) :
    toldAt w (l.x * h + l.y).toNat = told w h l := by
  have := (index_range hl).1
  unfold toldAt told
  rw [show (((l.x * h + l.y).toNat : Nat) : Int) = l.x * h + l.y by omega]

theorem vecGet_index {α : Type} {w h : Int} {v : List α} {l : Loc} (hl : InRange w h l) :
    vecGet v h l = v[(l.x * h + l.y).toNat]? := by
  unfold vecGet; rw [if_pos (index_range hl).1]

theorem len_le {g : OGrid O} (hg : Tight g) : ((0 : Nat) + g.rlocs.length : Int) ≤ g.width * g.height := by
  have h1 : g.rlocs.length = (g.width * g.height).toNat := hg.r
  have := Int.mul_nonneg hg.pw hg.ph
  omega

theorem len_eq {g : OGrid O} (hg : Tight g) : g.rlocs.length = g.locs.length := by
  have h1 : g.rlocs.length = (g.width * g.height).toNat := hg.r
  have h2 : g.locs.length = (g.width * g.height).toNat := hg.w
  omega

/-- **C31/C32**, dense READ: each published bag becomes the `Some` results of the closure on its objects,
called with the location `told`. -/
theorem C32_dense_read_partial (g : OGrid O) (hg : Tight g) (f : Loc → O → Option O) :
    ∃ g', applyToAllValues g f .READ = some g' ∧ Tight g' ∧ g'.width = g.width ∧ g'.height = g.height ∧
      ∀ l, InRange g.width g.height l →
        seen g' l = (seen g l).filterMap (f (told g.width g.height l)) ∧
        seenUnbuffered g' l = seenUnbuffered g l := by
  obtain ⟨v, h1, h2, h3⟩ := applyRead_spec f hg.pw hg.ph g.rlocs 0 (len_le hg)
  refine ⟨{ g with rlocs := v }, by unfold applyToAllValues; rw [h1]; rfl,
    ⟨h2.trans hg.r, hg.w, hg.pw, hg.ph⟩, rfl, rfl, ?_⟩
  intro l hl
  obtain ⟨b, hb⟩ := vecGet_some hg.wf.r hl
  refine ⟨?_, rfl⟩
  rw [seen_of hb]
  apply seen_of
  show vecGet v g.height l = _
  rw [vecGet_index hl] at hb ⊢
  rw [h3, hb]
  simp only [Option.map_some, Nat.zero_add]
  rw [toldAt_index hl]

/-- **C31/C32**, dense WRITE: the `Some` results of the closure on the published objects are added to the
written bag. -/
theorem C32_dense_write_partial (g : OGrid O) (hg : Tight g) (f : Loc → O → Option O) :
    ∃ g', applyToAllValues g f .WRITE = some g' ∧ Tight g' ∧ g'.width = g.width ∧ g'.height = g.height ∧
      ∀ l, InRange g.width g.height l →
        seen g' l = seen g l ∧
        seenUnbuffered g' l = seenUnbuffered g l ++ (seen g l).filterMap (f (told g.width g.height l)) := by
  obtain ⟨v, h1, h2, h3⟩ := applyWrite_spec f hg.pw hg.ph g.rlocs g.locs 0 (len_le hg) (len_eq hg)
  refine ⟨{ g with locs := v }, by unfold applyToAllValues; rw [h1]; rfl,
    ⟨hg.r, h2.trans hg.r, hg.pw, hg.ph⟩, rfl, rfl, ?_⟩
  intro l hl
  obtain ⟨b, hb⟩ := vecGet_some hg.wf.r hl
  obtain ⟨c, hc⟩ := vecGet_some hg.wf.w hl
  refine ⟨rfl, ?_⟩
  rw [seen_of hb, seenUnbuffered_of hc]
  apply seenUnbuffered_of
  show vecGet v g.height l = _
  rw [vecGet_index hl] at hb hc ⊢
  rw [h3 _ c b hc hb, Nat.zero_add, toldAt_index hl]

/-- **C31/C32**, dense READWRITE: a non-empty written bag is changed in place, keeping the objects the
closure returned `None` for; otherwise the `Some` results on the published bag are stored, the first of equal ones. -/
theorem C32_dense_readwrite_partial [EquivBEq O] (g : OGrid O) (hg : Tight g) (f : Loc → O → Option O) :
    ∃ g', applyToAllValues g f .READWRITE = some g' ∧ Tight g' ∧ g'.width = g.width ∧ g'.height = g.height ∧
      ∀ l, InRange g.width g.height l →
        seen g' l = seen g l ∧
        (seenUnbuffered g l ≠ [] → seenUnbuffered g' l =
          (seenUnbuffered g l).map (fun o => (f (told g.width g.height l) o).getD o)) ∧
        (seenUnbuffered g l = [] →
          (∀ x ∈ seenUnbuffered g' l, ∃ o ∈ seen g l, f (told g.width g.height l) o = some x) ∧
          (∀ o ∈ seen g l, ∀ x, f (told g.width g.height l) o = some x → HoldsEqual (seenUnbuffered g' l) x) ∧
          NoneEqual (seenUnbuffered g' l)) := by
  obtain ⟨v, h1, h2, h3⟩ := applyReadWrite_spec f hg.pw hg.ph g.rlocs g.locs 0 (len_le hg) (len_eq hg)
  refine ⟨{ g with locs := v }, by unfold applyToAllValues; rw [h1]; rfl,
    ⟨hg.r, h2.trans hg.r, hg.pw, hg.ph⟩, rfl, rfl, ?_⟩
  intro l hl
  obtain ⟨b, hb⟩ := vecGet_some hg.wf.r hl
  obtain ⟨c, hc⟩ := vecGet_some hg.wf.w hl
  have hnew : seenUnbuffered ({ g with locs := v } : OGrid O) l = applyRWBag (f (told g.width g.height l)) c b := by
    apply seenUnbuffered_of
    show vecGet v g.height l = _
    rw [vecGet_index hl] at hb hc ⊢
    rw [h3 _ c b hc hb, Nat.zero_add, toldAt_index hl]
  refine ⟨rfl, ?_, ?_⟩
  · intro hne
    rw [seenUnbuffered_of hc] at hne
    rw [hnew, seenUnbuffered_of hc]
    unfold applyRWBag
    rw [if_neg (by simpa using hne)]
  · intro he
    rw [seenUnbuffered_of hc] at he
    subst he
    rw [hnew, seen_of hb]
    unfold applyRWBag
    simp only [List.isEmpty_nil, if_true]
    generalize f (told g.width g.height l) = k
    have key : ∀ (b acc : List O), NoneEqual acc →
        (∀ x ∈ b.foldl (pushNew k) acc, x ∈ acc ∨ ∃ o ∈ b, k o = some x) ∧
        (∀ x, HoldsEqual acc x → HoldsEqual (b.foldl (pushNew k) acc) x) ∧
        (∀ o ∈ b, ∀ x, k o = some x → HoldsEqual (b.foldl (pushNew k) acc) x) ∧
        NoneEqual (b.foldl (pushNew k) acc) := by
      intro b
      induction b with
      | nil => intro acc ha; exact ⟨fun x hx => Or.inl hx, fun x hx => hx, by simp, ha⟩
      | cons a b ih =>
        intro acc ha
        rw [List.foldl_cons]
        cases hk : k a with
        | none =>
          have e : pushNew k acc a = acc := by unfold pushNew; rw [hk]
          rw [e]
          obtain ⟨i1, i2, i3, i4⟩ := ih acc ha
          refine ⟨?_, i2, ?_, i4⟩
          · intro x hx
            rcases i1 x hx with h | ⟨o, ho, h⟩
            · exact Or.inl h
            · exact Or.inr ⟨o, List.mem_cons_of_mem _ ho, h⟩
          · intro o ho x hx
            rcases List.mem_cons.1 ho with rfl | ho
            · rw [hk] at hx; exact absurd hx (by simp)
            · exact i3 o ho x hx
        | some y =>
          by_cases hy : acc.contains y = true
          · have e : pushNew k acc a = acc := by unfold pushNew; rw [hk]; exact if_pos hy
            rw [e]
            obtain ⟨i1, i2, i3, i4⟩ := ih acc ha
            refine ⟨?_, i2, ?_, i4⟩
            · intro x hx
              rcases i1 x hx with h | ⟨o, ho, h⟩
              · exact Or.inl h
              · exact Or.inr ⟨o, List.mem_cons_of_mem _ ho, h⟩
            · intro o ho x hx
              rcases List.mem_cons.1 ho with rfl | ho
              · rw [hk] at hx
                have := Option.some.inj hx
                subst this
                exact i2 y ((contains_iff acc y).1 hy)
              · exact i3 o ho x hx
          · have e : pushNew k acc a = acc ++ [y] := by unfold pushNew; rw [hk]; exact if_neg hy
            rw [e]
            have hn : NoneEqual (acc ++ [y]) := by
              rw [NoneEqual, List.pairwise_append]
              refine ⟨ha, List.pairwise_singleton _ _, ?_⟩
              intro p hp q hq
              rw [List.mem_singleton] at hq
              subst hq
              cases hpq : (p == q) with
              | false => rfl
              | true => exact absurd ((contains_iff acc q).2 ⟨p, hp, by rw [BEq.comm]; exact hpq⟩) hy
            obtain ⟨i1, i2, i3, i4⟩ := ih _ hn
            refine ⟨?_, ?_, ?_, i4⟩
            · intro x hx
              rcases i1 x hx with h | ⟨o, ho, h⟩
              · rcases List.mem_append.1 h with h | h
                · exact Or.inl h
                · rw [List.mem_singleton] at h
                  subst h
                  exact Or.inr ⟨a, List.mem_cons_self, hk⟩
              · exact Or.inr ⟨o, List.mem_cons_of_mem _ ho, h⟩
            · rintro x ⟨z, hz, hxz⟩
              exact i2 x ⟨z, List.mem_append_left _ hz, hxz⟩
            · intro o ho x hx
              rcases List.mem_cons.1 ho with rfl | ho
              · rw [hk] at hx
                have := Option.some.inj hx
                subst this
                exact i2 y ⟨y, by simp, BEq.rfl⟩
              · exact i3 o ho x hx
    obtain ⟨k1, _, k3, k4⟩ := key b [] List.Pairwise.nil
    refine ⟨fun x hx => ?_, k3, k4⟩
    rcases k1 x hx with h | h
    · exact absurd h (by simp)
    · exact h

/-- **C32** is false of the dense grid with READWRITE: the object stays although the closure returned
`None` for everything. -/
theorem C32_dense_none_is_ignored_partial :
    (((new 1 1 : Option (OGrid Nat)).bind (fun g => run g [.apply (fun _ _ => none) .READWRITE, .place 7 ⟨0, 0⟩])).bind
      (fun g => getObjectsUnbuffered g ⟨0, 0⟩)) = some (some [7]) := by decide

/-- **C32** is false of the dense grid with WRITE: an object in both buffers stays in the write buffer
although the closure returned `None` for it. -/
theorem C32_dense_write_keeps_partial :
    (((new 1 1 : Option (OGrid Nat)).bind (fun g =>
        run g [.apply (fun _ _ => none) .WRITE, .place 7 ⟨0, 0⟩, .lazyUpdate, .place 7 ⟨0, 0⟩])).bind
      (fun g => getObjectsUnbuffered g ⟨0, 0⟩)) = some (some [7]) := by decide

example : (applyToAllValues demoGrid (fun _ o => if o = 4 then none else some (o + 10)) .READ).map
      (fun g => g.rlocs) = some [[], [15], [15], [16]] ∧
    (applyToAllValues demoGrid (fun _ o => if o = 1 then none else some (o + 10)) .READWRITE).map
      (fun g => g.locs) = some [[16], [14, 15], [15], [1, 12]] := by decide

/-- **C31**, dense: on a single row or column the closure is told the right location. -/
theorem C31_dense_told_iff_partial (w h : Int) (hw : 0 < w) (hh : 0 < h) :
    (∀ l, InRange w h l → told w h l = l) ↔ (w = 1 ∨ h = 1) := by
  constructor
  · intro hall
    by_contra hc
    have := hall ⟨0, 1⟩ ⟨by simp, by dsimp only; omega, by simp, by dsimp only; omega⟩
    simp only [told, Loc.mk.injEq] at this
    rw [Int.zero_mul, Int.zero_add, Int.emod_eq_of_lt (by omega) (by omega)] at this
    omega
  · rintro (rfl | rfl) l ⟨h1, h2, h3, h4⟩
    · have hx : l.x = 0 := by omega
      cases l
      simp only at hx
      subst hx
      simp [told]
    · have hy : l.y = 0 := by omega
      cases l
      simp only at hy
      subst hy
      simp only [told, Loc.mk.injEq]
      simp only at h1 h2
      refine ⟨?_, ?_⟩
      · rw [Int.mul_one, Int.add_zero]; exact Int.emod_eq_of_lt h1 h2
      · rw [Int.mul_one, Int.add_zero]; exact Int.ediv_eq_zero_of_lt h1 h2

/-- **C31**, dense: on a square grid the closure is told the transposed location. -/
theorem C31_dense_square_transposes_partial (n : Int) (l : Loc) (hl : InRange n n l) :
    told n n l = ⟨l.y, l.x⟩ := by
  obtain ⟨h1, h2, h3, h4⟩ := hl
  unfold told
  rw [Int.add_comm, Int.add_mul_emod_self_right, Int.emod_eq_of_lt h3 h4, Int.add_mul_ediv_right _ _ (by omega),
    Int.ediv_eq_zero_of_lt h3 h4, Int.zero_add]

/-- **C31** is false of the dense grid: on a 2 by 3 grid the object stored at (0,1) is presented to the
closure as being at (1,0). -/
theorem C31_dense_wrong_location_partial :
    (((new 2 3 : Option (OGrid Nat)).bind (fun g =>
        run g [.apply (fun l _ => if l = ⟨1, 0⟩ then some 100 else none) .READ, .lazyUpdate, .place 7 ⟨0, 1⟩])).bind
      (fun g => getObjects g ⟨0, 1⟩)) = some (some [100]) := by decide

/-- **C31** is false: the statement quantified over grids, closures and locations fails. -/
theorem C31_dense_not_own_location_partial :
    ¬ ∀ (g g' : OGrid Nat) (f : Loc → Nat → Option Nat) (l : Loc), Tight g → InRange g.width g.height l →
      applyToAllValues g f .READ = some g' → seen g' l = (seen g l).filterMap (f l) := by
  intro hall
  have h := hall demoGrid _ (fun l _ => if l = ⟨0, 1⟩ then some 1 else none) ⟨0, 1⟩
    ⟨by decide, by decide, by decide, by decide⟩ (by decide) rfl
  exact absurd h (by decide)

example : InRange 3 3 ⟨0, 2⟩ ∧ told 3 3 ⟨0, 2⟩ = ⟨2, 0⟩ ∧ told 2 3 ⟨0, 1⟩ = ⟨1, 0⟩ := by decide

end Verif.DenseObject

namespace Verif.SparseObject

open Grid

variable {O : Type} [BEq O]

/-! ### C33 -/

theorem run_shows (w h : Int) (hist : List (ObjOp O)) (hplain : ∀ op ∈ hist, op.Plain) :
    ∃ g, run (new w h) hist = some g ∧ Shows g (bagPublished false hist) (bagWritten false hist) := by
  induction hist with
  | nil =>
    exact ⟨_, rfl, ⟨⟨HMap.WF_nil, HMap.WF_nil⟩, fun l => by simp [new, bagPublished, entry],
      fun l => by simp [new, bagWritten, entry]⟩⟩
  | cons op hist ih =>
    obtain ⟨g, hg, hs⟩ := ih (fun op h => hplain op (List.mem_cons_of_mem _ h))
    have h2 := hplain op List.mem_cons_self
    cases op with
    | place o l => exact ⟨_, by rw [run, hg]; rfl, shows_place hs o l⟩
    | remove o l => exact ⟨_, by rw [run, hg]; rfl, shows_remove hs o l⟩
    | update => exact ⟨_, by rw [run, hg]; rfl, shows_update hs⟩
    | lazyUpdate => exact ⟨_, by rw [run, hg]; rfl, shows_lazy hs⟩
    | apply f o => exact absurd h2 (by simp [ObjOp.Plain])

/-- **C33.** After any program of set / remove / update / lazy_update calls, at any locations,
`get_objects` is the list placed and not removed before the last update, in placement order (`None` when
empty), `get_objects_unbuffered` the list since; no stored bag is empty. -/
theorem C33_sparse_object_grid_is_double_buffered (width height : Int) (hist : List (ObjOp O))
    (hplain : ∀ op ∈ hist, op.Plain) :
    ∃ g, run (new width height) hist = some g ∧ WF g ∧
      (∀ l, getObjects g l = if bagPublished false hist l = [] then none else some (bagPublished false hist l)) ∧
      (∀ l, getObjectsUnbuffered g l = if bagWritten false hist l = [] then none else some (bagWritten false hist l)) ∧
      (∀ e ∈ g.rlocs ++ g.locs, e.2 ≠ []) := by
  obtain ⟨g, hg, hs⟩ := run_shows width height hist hplain
  refine ⟨g, hg, hs.wf, ?_, ?_, ?_⟩
  · intro l; unfold getObjects; rw [hs.read l]; simp [entry]
  · intro l; unfold getObjectsUnbuffered; rw [hs.write l]; simp [entry]
  · rintro ⟨l, b⟩ he hb
    dsimp only at hb
    subst hb
    rcases List.mem_append.1 he with he | he
    · have := HMap.get_of_mem hs.wf.r he
      rw [hs.read l] at this
      unfold entry at this
      split at this
      · exact absurd this (by simp)
      · rename_i h; simp at this; exact h (by simp [this])
    · have := HMap.get_of_mem hs.wf.w he
      rw [hs.write l] at this
      unfold entry at this
      split at this
      · exact absurd this (by simp)
      · rename_i h; simp at this; exact h (by simp [this])

/-- A program with negative and out-of-range locations. -/
def demoHist : List (ObjOp Nat) :=
  [.place 9 ⟨-1, 2⟩, .update, .remove 4 ⟨1, 2⟩, .place 7 ⟨1, 2⟩, .place 8 ⟨1, 2⟩, .place 7 ⟨1, 2⟩, .place 4 ⟨1, 2⟩,
    .remove 1 ⟨0, 0⟩, .place 1 ⟨0, 0⟩]

example : (∀ op ∈ demoHist, op.Plain) ∧ bagPublished false demoHist ⟨1, 2⟩ = [7, 8, 7] ∧
    bagPublished false demoHist ⟨0, 0⟩ = [] ∧ bagWritten false demoHist ⟨-1, 2⟩ = [9] ∧
    ((run (new 2 3) demoHist).map (fun g => getObjects g ⟨1, 2⟩)) = some (some [7, 8, 7]) ∧
    ((run (new 2 3) demoHist).map (fun g => getObjects g ⟨0, 0⟩)) = some none := by
  refine ⟨?_, by decide, by decide, by decide, by decide, by decide⟩
  intro op hop
  simp only [demoHist, List.mem_cons, List.not_mem_nil, or_false] at hop
  rcases hop with h | h | h | h | h | h | h | h | h <;> subst h <;> simp [ObjOp.Plain]

/-! ### C34 -/

/-- The objects a caller of `get_objects` sees at `l`. -/
def seen (g : BGrid O) (l : Loc) : List O := (getObjects g l).getD []

/-- The objects a caller of `get_objects_unbuffered` sees at `l`. -/
def seenUnbuffered (g : BGrid O) (l : Loc) : List O := (getObjectsUnbuffered g l).getD []

theorem contains_iff (b : List O) (o : O) : b.contains o = true ↔ HoldsEqual b o := by
  unfold HoldsEqual
  rw [List.contains_eq_any_beq, List.any_eq_true]

theorem location_of {m : HMap Loc (List O)} (hm : HMap.WF m) (o : O) :
    ((m.find? (fun e => e.2.contains o)).map Prod.fst = none ↔ ∀ l, ¬ HoldsEqual ((HMap.get m l).getD []) o) ∧
    ∀ l, (m.find? (fun e => e.2.contains o)).map Prod.fst = some l → HoldsEqual ((HMap.get m l).getD []) o := by
  constructor
  · rw [Option.map_eq_none_iff, List.find?_eq_none]
    constructor
    · intro hall l hc
      cases hg : HMap.get m l with
      | none =>
        rw [hg] at hc
        obtain ⟨x, hx, _⟩ := hc
        exact absurd hx (by simp)
      | some b =>
        rw [hg] at hc
        exact hall (l, b) ((HMap.get_eq_some_iff hm).1 hg) ((contains_iff b o).2 hc)
    · rintro hall ⟨l, b⟩ he
      have := hall l
      rw [HMap.get_of_mem hm he] at this
      exact fun hc => this ((contains_iff b o).1 hc)
  · intro l hl
    obtain ⟨⟨l', b⟩, he, heq⟩ := Option.map_eq_some_iff.1 hl
    simp only at heq
    subst heq
    rw [HMap.get_of_mem hm (List.mem_of_find?_eq_some he)]
    have hc := List.find?_some he
    exact (contains_iff b o).1 hc

/-- **C34.** `get_location` is a location whose published bag holds an object equal to the argument, and `None` iff
there is none, for every hash order; the same for `get_location_unbuffered`. -/
theorem C34_get_location (g : BGrid O) (hg : WF g) (o : O) :
    ((getLocation g o = none ↔ ∀ l, ¬ HoldsEqual (seen g l) o) ∧ ∀ l, getLocation g o = some l → HoldsEqual (seen g l) o) ∧
    ((getLocationUnbuffered g o = none ↔ ∀ l, ¬ HoldsEqual (seenUnbuffered g l) o) ∧
      ∀ l, getLocationUnbuffered g o = some l → HoldsEqual (seenUnbuffered g l) o) :=
  ⟨location_of hg.r o, location_of hg.w o⟩

/-- **C34.** `get_empty_bags`: exactly the in-range locations where no object is seen, once each. -/
theorem C34_get_empty_bags (g : BGrid O) :
    (getEmptyBags g).Nodup ∧
      ∀ l, l ∈ getEmptyBags g ↔ InRange g.width g.height l ∧ seen g l = [] := by
  unfold getEmptyBags
  refine ⟨(nodup_cells _ _).filter _, ?_⟩
  intro l
  rw [List.mem_filter, mem_cells]
  refine and_congr_right (fun _ => ?_)
  unfold seen getObjects
  cases HMap.get g.rlocs l <;> simp

theorem iter_of {m : HMap Loc (List O)} (hm : HMap.WF m) (l : Loc) (q : O → Bool) :
    callsAt (m.flatMap (fun e => e.2.map (fun o => (e.1, o)))) l q = ((HMap.get m l).getD []).countP q := by
  have he : m.flatMap (fun e => e.2.map (fun o => (e.1, o))) =
      (m.map Prod.fst).flatMap (fun c => ((HMap.get m c).getD []).map (fun o => (c, o))) := by
    rw [List.flatMap_def, List.flatMap_def, List.map_map]
    congr 1
    apply List.map_congr_left
    rintro ⟨c, b⟩ hc
    simp only [Function.comp]
    rw [HMap.get_of_mem hm hc]; rfl
  rw [he, callsAt_tagged _ _ hm]
  split
  · rfl
  · rename_i hc
    rw [HMap.get_eq_none_iff.2 hc]; rfl

/-- **C34.** `iter_objects` calls the closure once for each published placement; the same for
`iter_objects_unbuffered`. -/
theorem C34_iter_objects (g : BGrid O) (hg : WF g) (l : Loc) (q : O → Bool) :
    callsAt (iterObjects g) l q = (seen g l).countP q ∧
    callsAt (iterObjectsUnbuffered g) l q = (seenUnbuffered g l).countP q :=
  ⟨iter_of hg.r l q, iter_of hg.w l q⟩

/-- A grid with contents in both buffers. -/
def demoGrid : BGrid Nat := ⟨[(⟨0, 1⟩, [4, 5, 4]), (⟨1, 1⟩, [6])], [(⟨1, 0⟩, [2])], 2, 2⟩

example : WF demoGrid ∧ getLocation demoGrid 5 = some ⟨0, 1⟩ ∧ getLocation demoGrid 2 = none ∧
    getLocationUnbuffered demoGrid 2 = some ⟨1, 0⟩ ∧ getEmptyBags demoGrid = [⟨0, 0⟩, ⟨1, 0⟩] ∧
    iterObjects demoGrid = [(⟨0, 1⟩, 4), (⟨0, 1⟩, 5), (⟨0, 1⟩, 4), (⟨1, 1⟩, 6)] :=
  ⟨⟨by unfold HMap.WF; decide, by unfold HMap.WF; decide⟩, by decide, by decide, by decide, by decide, by decide⟩

/-! ### C31 and C32, sparse -/

theorem seen_map {m m' : HMap Loc (List O)} {l : Loc} {f : O → Option O}
    (h : (HMap.get m' l).map (fun b => b.map some) = (HMap.get m l).map (fun b => b.map f)) :
    ((HMap.get m' l).getD []).map some = ((HMap.get m l).getD []).map f := by
  cases h1 : HMap.get m' l <;> cases h2 : HMap.get m l <;> rw [h1, h2] at h <;> simp_all

/-- **C31/C32**, sparse READ and WRITE: when the call returns, every object of the buffer was replaced in
place by the closure's result, the closure being told the object's own location. -/
theorem C31_sparse_own_location_partial (g g' : BGrid O) (f : Loc → O → Option O) (l : Loc) :
    (applyToAllValues g f .READ = some g' →
      (seen g' l).map some = (seen g l).map (f l) ∧ seenUnbuffered g' l = seenUnbuffered g l) ∧
    (applyToAllValues g f .WRITE = some g' →
      (seenUnbuffered g' l).map some = (seenUnbuffered g l).map (f l) ∧ seen g' l = seen g l) := by
  constructor
  · intro h
    obtain ⟨m, hm, rfl⟩ := Option.map_eq_some_iff.1 h
    exact ⟨seen_map ((applyMap_some f _ _ hm).2 l), rfl⟩
  · intro h
    obtain ⟨m, hm, rfl⟩ := Option.map_eq_some_iff.1 h
    exact ⟨seen_map ((applyMap_some f _ _ hm).2 l), rfl⟩

/-- **C32** is false of the sparse grid: READ and WRITE panic exactly when the closure returns `None` for
some object of the buffer. -/
theorem C32_sparse_none_panics_partial (g : BGrid O) (hg : WF g) (f : Loc → O → Option O) :
    (applyToAllValues g f .READ = none ↔ ∃ l, ∃ o ∈ seen g l, f l o = none) ∧
    (applyToAllValues g f .WRITE = none ↔ ∃ l, ∃ o ∈ seenUnbuffered g l, f l o = none) := by
  have key : ∀ m : HMap Loc (List O), HMap.WF m →
      (applyMap f m = none ↔ ∃ l, ∃ o ∈ (HMap.get m l).getD [], f l o = none) := by
    intro m hm
    rw [applyMap_none]
    constructor
    · rintro ⟨⟨l, b⟩, he, o, ho, hf⟩
      exact ⟨l, o, by rw [HMap.get_of_mem hm he]; exact ho, hf⟩
    · rintro ⟨l, o, ho, hf⟩
      cases hg : HMap.get m l with
      | none => rw [hg] at ho; simp at ho
      | some b =>
        rw [hg] at ho
        exact ⟨(l, b), (HMap.get_eq_some_iff hm).1 hg, o, ho, hf⟩
  constructor
  · show Option.map _ _ = none ↔ _
    rw [Option.map_eq_none_iff]; exact key _ hg.r
  · show Option.map _ _ = none ↔ _
    rw [Option.map_eq_none_iff]; exact key _ hg.w

/-- **C32**, sparse READWRITE with a closure that always returns `Some`, for every hash order: at a
location with published objects, the written bag is mapped if there is one, else the image of the LAST
published object alone is written; elsewhere nothing changes. -/
theorem C32_sparse_readwrite_partial (g : BGrid O) (hg : WF g) (f : Loc → O → O) :
    ∃ g', applyToAllValues g (fun l o => some (f l o)) .READWRITE = some g' ∧ WF g' ∧
      ∀ l, getObjects g' l = getObjects g l ∧
        getObjectsUnbuffered g' l =
          match getObjects g l, getObjectsUnbuffered g l with
          | none, c => c
          | some _, some b => some (b.map (f l))
          | some r, none => (r.getLast?).map (fun o => [f l o]) := by
  obtain ⟨m', h1, h2, h3⟩ := applyRW_total f g.rlocs g.locs hg.r hg.w
  refine ⟨{ g with locs := m' }, ?_, ⟨hg.r, h2⟩, fun l => ⟨rfl, h3 l⟩⟩
  show Option.map _ _ = _
  rw [h1]; rfl

/-- **C32** is false of the sparse grid with READWRITE: with two objects in one published bag, one is lost
although the closure returns both unchanged. -/
theorem C32_sparse_readwrite_loses_partial :
    ((run (new 1 1) [.apply (fun _ o => some o) .READWRITE, .lazyUpdate, .place 8 ⟨0, 0⟩, .place 7 ⟨0, 0⟩] :
      Option (BGrid Nat)).map (fun g => getObjectsUnbuffered g ⟨0, 0⟩)) = some (some [8]) := by decide

/-- **C32** is false of the sparse grid: a closure that removes an object makes the call panic. -/
theorem C32_sparse_none_panic_witness_partial :
    (run (new 1 1) [.apply (fun _ _ => none) .READ, .lazyUpdate, .place 7 ⟨0, 0⟩] : Option (BGrid Nat)) = none := by
  decide

example : (applyToAllValues demoGrid (fun l o => some (o + (10 * l.y).toNat)) .READ).map (fun g => g.rlocs) =
      some [(⟨0, 1⟩, [14, 15, 14]), (⟨1, 1⟩, [16])] ∧
    (applyToAllValues demoGrid (fun _ o => some (o + 10)) .READWRITE).map (fun g => g.locs) =
      some [(⟨1, 0⟩, [2]), (⟨0, 1⟩, [14]), (⟨1, 1⟩, [16])] := by decide

end Verif.SparseObject
