import Verif.Lemmas.NumberGrid
import Mathlib.Data.List.Perm.Basic

/-!
Properties of the number grids (C20-C23, C25-C27). Programs are lists of calls, newest first.
`DenseNumber.WF` / `SparseNumber.WF` is the shape every grid made by `new` has and keeps
(`C20_...`/`C25_...` include it): queries are proved for every content of that shape.
-/

namespace Verif.DenseNumber

open Grid

variable {T : Type}

/-! ### C20 -/

/-- The program `hist` is made of calls at in-range locations. -/
def InRangeProgram (w h : Int) (hist : List (NumOp T)) : Prop := ∀ op ∈ hist, op.InRange w h

theorem run_shows {w h : Int} {g0 : DGrid T} (hs0 : Shows g0 w h (fun _ => none) (fun _ => none))
    (hist : List (NumOp T)) (hin : InRangeProgram w h hist) (hplain : ∀ op ∈ hist, op.Plain) :
    ∃ g, run g0 hist = some g ∧ Shows g w h (lastPublished hist) (lastWritten hist) := by
  induction hist with
  | nil => exact ⟨g0, rfl, hs0⟩
  | cons op hist ih =>
    obtain ⟨g, hg, hs⟩ := ih (fun op h => hin op (List.mem_cons_of_mem _ h))
      (fun op h => hplain op (List.mem_cons_of_mem _ h))
    have h1 := hin op List.mem_cons_self
    have h2 := hplain op List.mem_cons_self
    cases op with
    | set v l =>
      obtain ⟨g', hg', hs'⟩ := shows_write hs l h1 (some v)
      exact ⟨g', by rw [run, hg]; exact hg', hs'⟩
    | remove l =>
      obtain ⟨g', hg', hs'⟩ := shows_write hs l h1 none
      exact ⟨g', by rw [run, hg]; exact hg', hs'⟩
    | update => exact ⟨_, by rw [run, hg]; rfl, shows_update hs⟩
    | lazyUpdate => exact ⟨_, by rw [run, hg]; rfl, shows_lazy hs⟩
    | apply f o => exact absurd h2 (by simp [NumOp.Plain])

/-- **C20.** After any program of set / remove / update / lazy_update calls at in-range locations,
`get_value` is what was written last before the most recent update and `get_value_unbuffered` what was
written last since; no call panics. -/
theorem C20_dense_number_grid_is_double_buffered (width height : Int) (g0 : DGrid T)
    (hnew : new width height = some g0) (hist : List (NumOp T))
    (hin : InRangeProgram width.natAbs height.natAbs hist) (hplain : ∀ op ∈ hist, op.Plain) :
    ∃ g, run g0 hist = some g ∧ WF g ∧ g.width = width.natAbs ∧ g.height = height.natAbs ∧
      ∀ l, InRange width.natAbs height.natAbs l →
        getValue g l = some (lastPublished hist l) ∧ getValueUnbuffered g l = some (lastWritten hist l) := by
  obtain ⟨g, hg, hs⟩ := run_shows (shows_new hnew) hist hin hplain
  exact ⟨g, hg, hs.wf, hs.width, hs.height, fun l hl => ⟨hs.read l hl, hs.write l hl⟩⟩

/-- A program on a 2 by 3 grid. -/
def demoHist : List (NumOp Nat) :=
  [.set 9 ⟨0, 2⟩, .lazyUpdate, .remove ⟨0, 1⟩, .set 5 ⟨0, 1⟩, .set 7 ⟨1, 2⟩, .set 6 ⟨1, 2⟩]

example : (new 2 3 : Option (DGrid Nat)).isSome ∧ (∀ op ∈ demoHist, op.InRange 2 3 ∧ op.Plain) ∧
    lastPublished demoHist ⟨1, 2⟩ = some 7 ∧ lastPublished demoHist ⟨0, 1⟩ = none ∧
    lastWritten demoHist ⟨0, 2⟩ = some 9 ∧
    (((new 2 3).bind (fun g => run g demoHist)).bind (fun g => getValue g ⟨1, 2⟩)) = some (some 7) := by
  refine ⟨by decide, ?_, by decide, by decide, by decide, by decide⟩
  intro op hop
  simp only [demoHist, List.mem_cons, List.not_mem_nil, or_false] at hop
  rcases hop with h | h | h | h | h | h <;> subst h <;> simp [NumOp.InRange, NumOp.Plain, Grid.InRange]

/-- `update` and `lazy_update` are the same to an observer. -/
theorem C20_update_is_lazy_update (g : DGrid T) (hg : WF g) : update g = lazyUpdate g := by
  have hl : g.locs.length = g.rlocs.length := by rw [show g.locs.length = _ from hg.w, show g.rlocs.length = _ from hg.r]
  unfold update lazyUpdate
  have h1 : List.zipWith (fun (w _ : Option T) => w) g.locs g.rlocs = g.locs := by
    apply List.ext_getElem
    · simp [hl]
    · intro i h1 h2; simp
  have h2 : g.locs.map (fun _ => (none : Option T)) = g.rlocs.map (fun _ => none) := by
    rw [List.map_const', List.map_const', hl]
  rw [h1, h2]

example : WF (⟨[some 1, none], [none, some 2], 1, 2⟩ : DGrid Nat) := ⟨rfl, rfl⟩

/-! ### C21 -/

/-- **C21**, in range: a write at one location is seen there and nowhere else. -/
theorem C21_no_aliasing_in_range_partial (g g' : DGrid T) (hg : WF g) (v : T) (l l' : Loc)
    (hl : InRange g.width g.height l) (hl' : InRange g.width g.height l')
    (hset : setValueLocation g v l = some g') :
    getValueUnbuffered g' l = some (some v) ∧
    (l' ≠ l → getValueUnbuffered g' l' = getValueUnbuffered g l') ∧
    getValue g' l' = getValue g l' := by
  obtain ⟨pub, cur, hs⟩ := shows_self hg
  obtain ⟨g'', h1, hs'⟩ := shows_write hs l hl (some v)
  have : g' = g'' := by
    have := hset.symm.trans h1
    simpa using this
  subst this
  refine ⟨by rw [hs'.write l hl]; simp [upd], fun hne => ?_, ?_⟩
  · rw [hs'.write l' hl', hs.write l' hl']; simp [upd, hne]
  · rw [hs'.read l' hl', hs.read l' hl']

/-- **C21**, exactly which locations are rejected: those whose index `x * height + y` is outside the
vector, which is weaker than being outside the grid. -/
theorem C21_rejected_locations_partial (g : DGrid T) (hg : WF g) (v : T) (l : Loc) :
    setValueLocation g v l = none ↔
      ¬ (0 ≤ l.x * g.height + l.y ∧ l.x * g.height + l.y < g.width * g.height) := by
  have hw : g.locs.length = (g.width * g.height).toNat := hg.w
  unfold setValueLocation vecSet
  rw [Option.map_eq_none_iff]
  split
  · rename_i h
    simp only [reduceCtorEq, false_iff, Classical.not_not]
    omega
  · rename_i h
    simp only [true_iff]
    omega

/-- **C21** is false: on a 2 by 3 grid, the location (0,3), outside the grid, is accepted and is the same
storage as (1,0). -/
theorem C21_out_of_range_aliases_partial :
    ¬ ∀ (width height : Int) (g g' : DGrid Nat) (l l' : Loc), new width height = some g →
      setValueLocation g 7 l = some g' →
      InRange width height l ∧ (l' ≠ l → getValueUnbuffered g' l' = getValueUnbuffered g l') := by
  intro hall
  have h := hall 2 3 _ _ ⟨0, 3⟩ ⟨1, 0⟩ rfl rfl
  exact absurd h.1 (by decide)

/-- The same witness, seen through the API: the value written at (0,3) is read at (1,0). -/
theorem C21_alias_witness_partial :
    (((new 2 3).bind (fun g => setValueLocation g 7 ⟨0, 3⟩)).bind
      (fun g => getValueUnbuffered g ⟨1, 0⟩)) = some (some 7) := by decide

example : WF (⟨[none, none, none, none, none, none], [none, none, none, none, none, none], 2, 3⟩ : DGrid Nat) ∧
    InRange 2 3 ⟨1, 2⟩ := ⟨⟨rfl, rfl⟩, by decide⟩

/-! ### C22 -/

theorem firstCell_of [BEq T] {w h : Int} {v : List (Option T)} (hv : Sized w h v) (value : T) :
    ∃ r, findCell v h (fun e => e == some value) (cells w h) = some r ∧
      FirstCell w h (fun l => ∃ x, vecGet v h l = some (some x) ∧ (x == value) = true) r := by
  obtain ⟨r, h1, h2, h3⟩ := findCell_cells hv.big (fun e => e == some value)
  refine ⟨r, h1, ?_, ?_⟩
  · rw [h2]
    constructor
    · rintro hall l hl ⟨x, hx, he⟩
      have := hall l hl _ hx
      rw [Option.some_beq_some, he] at this
      exact absurd this (by decide)
    · intro hall l hl a ha
      cases a with
      | none => rfl
      | some x =>
        rw [Option.some_beq_some]
        cases he : x == value with
        | false => rfl
        | true => exact absurd ⟨x, ha, he⟩ (hall l hl)
  · intro c hc
    obtain ⟨ha, ⟨a, hb, hb'⟩, hd⟩ := h3 c hc
    refine ⟨ha, ?_, ?_⟩
    · cases a with
      | none => exact absurd hb' (by simp)
      | some x => exact ⟨x, hb, by rw [Option.some_beq_some] at hb'; exact hb'⟩
    · rintro l hl ⟨x, hx, he⟩
      exact hd l hl ⟨_, hx, by rw [Option.some_beq_some]; exact he⟩

/-- **C22.** `get_location` and `get_location_unbuffered`: the first cell holding a value that the value
type's own `==` calls equal to the one searched. Nothing is assumed of that `==`. -/
theorem C22_get_location [BEq T] (g : DGrid T) (hg : WF g) (value : T) :
    (∃ r, getLocation g value = some r ∧
      FirstCell g.width g.height (fun l => ∃ x, getValue g l = some (some x) ∧ (x == value) = true) r) ∧
    (∃ r, getLocationUnbuffered g value = some r ∧
      FirstCell g.width g.height (fun l => ∃ x, getValueUnbuffered g l = some (some x) ∧ (x == value) = true) r) :=
  ⟨firstCell_of hg.r value, firstCell_of hg.w value⟩

/-- **C22.** `get_empty_bags`: exactly the cells without a published value, once each. -/
theorem C22_get_empty_bags (g : DGrid T) (hg : WF g) :
    ∃ r, getEmptyBags g = some r ∧ r.Nodup ∧
      ∀ l, l ∈ r ↔ InRange g.width g.height l ∧ getValue g l = some none := by
  obtain ⟨r, h1, h2, h3⟩ := collect_cells hg.r.big (fun c (e : Option T) => if e.isNone then [c] else []) id
    (by intro c a b hb; split at hb <;> simp_all) (by intro c a; split <;> simp)
  refine ⟨r, h1, h2, ?_⟩
  intro l
  rw [h3]
  constructor
  · rintro ⟨ha, e, he, hm⟩
    refine ⟨ha, ?_⟩
    cases e with
    | none => exact he
    | some v => exact absurd hm (by simp)
  · rintro ⟨ha, he⟩
    exact ⟨ha, none, he, by simp⟩

/-- **C22.** `iter_values` and `iter_values_unbuffered`: exactly the occupied cells, once each. -/
theorem C22_iter_values (g : DGrid T) (hg : WF g) :
    (∃ r, iterValues g = some r ∧ r.Nodup ∧
      ∀ l v, (l, v) ∈ r ↔ InRange g.width g.height l ∧ getValue g l = some (some v)) ∧
    (∃ r, iterValuesUnbuffered g = some r ∧ r.Nodup ∧
      ∀ l v, (l, v) ∈ r ↔ InRange g.width g.height l ∧ getValueUnbuffered g l = some (some v)) := by
  have key : ∀ (vec : List (Option T)), Sized g.width g.height vec →
      ∃ r, collect vec g.height (fun c e => match e with | some v => [(c, v)] | none => [])
        (cells g.width g.height) = some r ∧ r.Nodup ∧
      ∀ l v, (l, v) ∈ r ↔ InRange g.width g.height l ∧ vecGet vec g.height l = some (some v) := by
    intro vec hv
    obtain ⟨r, h1, h2, h3⟩ := collect_cells hv.big
      (fun c (e : Option T) => match e with | some v => [(c, v)] | none => []) Prod.fst
      (by intro c a b hb; cases a <;> simp_all) (by intro c a; cases a <;> simp)
    refine ⟨r, h1, h2, ?_⟩
    intro l v
    rw [h3]
    constructor
    · rintro ⟨ha, e, he, hm⟩
      refine ⟨ha, ?_⟩
      cases e with
      | none => exact absurd hm (by simp)
      | some v' =>
        have : v = v' := by simpa using hm
        rw [this]; exact he
    · rintro ⟨ha, he⟩
      exact ⟨ha, some v, he, by simp⟩
  exact ⟨key _ hg.r, key _ hg.w⟩

/-- A 2 by 2 grid with contents in both buffers. -/
def demoGrid : DGrid Nat := ⟨[none, some 4, some 4, some 5], [some 6, none, none, none], 2, 2⟩

example : WF demoGrid ∧ getLocation demoGrid 4 = some (some ⟨0, 1⟩) ∧ getLocation demoGrid 9 = some none ∧
    getEmptyBags demoGrid = some [⟨0, 0⟩] ∧
    iterValues demoGrid = some [(⟨0, 1⟩, 4), (⟨1, 0⟩, 4), (⟨1, 1⟩, 5)] :=
  ⟨⟨rfl, rfl⟩, by decide, by decide, by decide, by decide⟩

/-! ### C23 -/

/-- **C23.** READ replaces every published value and leaves the write buffer. -/
theorem C23_apply_read (g : DGrid T) (hg : WF g) (f : T → T) (l : Loc) (hl : InRange g.width g.height l) :
    getValue (applyToAllValues g f .READ) l = (getValue g l).map (fun v => v.map f) ∧
    getValueUnbuffered (applyToAllValues g f .READ) l = getValueUnbuffered g l := by
  obtain ⟨pub, cur, hs⟩ := shows_self hg
  have h := shows_apply hs f .READ
  rw [h.read l hl, h.write l hl, hs.read l hl, hs.write l hl]
  exact ⟨rfl, rfl⟩

/-- **C23.** WRITE writes `f (published value)` for every published cell; other write cells and the
read buffer stay. -/
theorem C23_apply_write (g : DGrid T) (hg : WF g) (f : T → T) (l : Loc) (hl : InRange g.width g.height l) :
    getValue (applyToAllValues g f .WRITE) l = getValue g l ∧
    (∀ v, getValue g l = some (some v) →
      getValueUnbuffered (applyToAllValues g f .WRITE) l = some (some (f v))) ∧
    (getValue g l = some none →
      getValueUnbuffered (applyToAllValues g f .WRITE) l = getValueUnbuffered g l) := by
  obtain ⟨pub, cur, hs⟩ := shows_self hg
  have h := shows_apply hs f .WRITE
  rw [h.read l hl, h.write l hl, hs.read l hl, hs.write l hl]
  refine ⟨rfl, ?_, ?_⟩
  · intro v hv
    have : pub l = some v := by simpa using hv
    simp [applyW, this]
  · intro hv
    have : pub l = none := by simpa using hv
    simp [applyW, this]

/-- **C23.** READWRITE stores `f` of the newest value of each cell (the one written since the last update
if any, else the published one) in the write buffer; the read buffer stays. -/
theorem C23_apply_readwrite (g : DGrid T) (hg : WF g) (f : T → T) (l : Loc) (hl : InRange g.width g.height l) :
    getValue (applyToAllValues g f .READWRITE) l = getValue g l ∧
    ∃ pub cur, getValue g l = some pub ∧ getValueUnbuffered g l = some cur ∧
      getValueUnbuffered (applyToAllValues g f .READWRITE) l = some ((cur.or pub).map f) := by
  obtain ⟨pub, cur, hs⟩ := shows_self hg
  have h := shows_apply hs f .READWRITE
  rw [h.read l hl, h.write l hl, hs.read l hl, hs.write l hl]
  refine ⟨rfl, pub l, cur l, rfl, rfl, ?_⟩
  show some (applyRW f (cur l) (pub l)) = _
  cases cur l <;> cases pub l <;> rfl

/-- **C23.** The grid keeps its shape. -/
theorem C23_apply_keeps_shape (g : DGrid T) (hg : WF g) (f : T → T) (o : GridOption) :
    WF (applyToAllValues g f o) ∧ (applyToAllValues g f o).width = g.width ∧
      (applyToAllValues g f o).height = g.height := by
  obtain ⟨pub, cur, hs⟩ := shows_self hg
  have h := shows_apply hs f o
  exact ⟨h.wf, h.width, h.height⟩

example : (applyToAllValues demoGrid (· + 10) .READWRITE).locs = [some 16, some 14, some 14, some 15] ∧
    (applyToAllValues demoGrid (· + 10) .WRITE).locs = [some 6, some 14, some 14, some 15] ∧
    (applyToAllValues demoGrid (· + 10) .READ).rlocs = [none, some 14, some 14, some 15] := by decide

end Verif.DenseNumber

namespace Verif.SparseNumber

open Grid

variable {T : Type}

/-! ### C25 -/

theorem run_shows (w h : Int) (hist : List (NumOp T)) (hplain : ∀ op ∈ hist, op.Plain) (l : Loc) :
    getValue (run (new w h) hist) l = lastPublished hist l ∧
    getValueUnbuffered (run (new w h) hist) l = lastWritten hist l := by
  induction hist with
  | nil => exact ⟨rfl, rfl⟩
  | cons op hist ih =>
    obtain ⟨h1, h2⟩ := ih (fun op h => hplain op (List.mem_cons_of_mem _ h))
    have hp := hplain op List.mem_cons_self
    have hwf : WF (run (new w h : SGrid T) hist) := wf_run (wf_new w h) hist
    cases op with
    | set v l' =>
      refine ⟨h1, ?_⟩
      show HMap.get (HMap.insert _ l' v).1 l = _
      rw [HMap.get_insert, lastWritten]
      exact if_congr Iff.rfl rfl h2
    | remove l' =>
      refine ⟨h1, ?_⟩
      show HMap.get (HMap.remove _ l').1 l = _
      rw [HMap.get_remove, lastWritten]
      exact if_congr Iff.rfl rfl h2
    | update => exact ⟨(getValue_update hwf l).trans h2, rfl⟩
    | lazyUpdate => exact ⟨h2, rfl⟩
    | apply f o => exact absurd hp (by simp [NumOp.Plain])

/-- **C25.** After any program of set / remove / update / lazy_update calls, at any locations, `get_value`
is what was written last before the most recent update, `get_value_unbuffered` what was written last since. -/
theorem C25_sparse_number_grid_is_double_buffered (width height : Int) (hist : List (NumOp T))
    (hplain : ∀ op ∈ hist, op.Plain) :
    WF (run (new width height) hist) ∧
    ∀ l, getValue (run (new width height) hist) l = lastPublished hist l ∧
      getValueUnbuffered (run (new width height) hist) l = lastWritten hist l :=
  ⟨wf_run (wf_new _ _) _, run_shows width height hist hplain⟩

/-- **C25.** `update` and `lazy_update` differ only in the iteration order of the published map. -/
theorem C25_update_is_lazy_update (g : SGrid T) (hg : WF g) :
    (update g).rlocs.Perm (lazyUpdate g).rlocs ∧ (update g).locs = (lazyUpdate g).locs ∧
    ∀ l, getValue (update g) l = getValue (lazyUpdate g) l := by
  have hw : HMap.WF (update g).rlocs := HMap.WF_foldl_insert g.locs id [] HMap.WF_nil
  exact ⟨HMap.perm_of_get hw hg.w (fun l => getValue_update hg l), rfl, fun l => getValue_update hg l⟩

example : (∀ op ∈ DenseNumber.demoHist, op.Plain) ∧
    getValue (run (new 2 3) DenseNumber.demoHist) ⟨1, 2⟩ = some 7 ∧
    getValue (run (new 2 3) (.update :: DenseNumber.demoHist)) ⟨0, 2⟩ = some 9 ∧
    getValue (run (new 2 3) [.lazyUpdate, .set 3 ⟨-4, 100⟩]) ⟨-4, 100⟩ = some 3 := by
  refine ⟨?_, by decide, by decide, by decide⟩
  intro op hop
  simp only [DenseNumber.demoHist, List.mem_cons, List.not_mem_nil, or_false] at hop
  rcases hop with h | h | h | h | h | h <;> subst h <;> simp [NumOp.Plain]

/-! ### C26 -/

/-- **C26.** `get_location` and `get_location_unbuffered`, for every iteration order and whatever the value
type's own `==` does. -/
theorem C26_get_location [BEq T] (g : SGrid T) (hg : WF g) (value : T) :
    ((getLocation g value = none ↔ ∀ l x, getValue g l = some x → (x == value) = false) ∧
      ∀ c, getLocation g value = some c → ∃ x, getValue g c = some x ∧ (x == value) = true) ∧
    ((getLocationUnbuffered g value = none ↔ ∀ l x, getValueUnbuffered g l = some x → (x == value) = false) ∧
      ∀ c, getLocationUnbuffered g value = some c → ∃ x, getValueUnbuffered g c = some x ∧ (x == value) = true) := by
  have key : ∀ (m : HMap Loc T), HMap.WF m →
      ((m.find? (fun e => e.2 == value)).map Prod.fst = none ↔ ∀ l x, HMap.get m l = some x → (x == value) = false) ∧
      ∀ c, (m.find? (fun e => e.2 == value)).map Prod.fst = some c → ∃ x, HMap.get m c = some x ∧ (x == value) = true := by
    intro m hm
    constructor
    · rw [Option.map_eq_none_iff, List.find?_eq_none]
      constructor
      · intro hall l x hl
        have := hall _ ((HMap.get_eq_some_iff hm).1 hl)
        simpa using this
      · rintro hall ⟨l, v⟩ hm'
        have h1 := hall l v (HMap.get_of_mem hm hm')
        simp [h1]
    · intro c hc
      rw [Option.map_eq_some_iff] at hc
      obtain ⟨e, he, rfl⟩ := hc
      have h1 := List.find?_some he
      have h2 := List.mem_of_find?_eq_some he
      exact ⟨e.2, HMap.get_of_mem hm h2, by simpa using h1⟩
  exact ⟨key _ hg.r, key _ hg.w⟩

/-- **C26.** `get_empty_bags`: exactly the in-range locations without a published value, once each. -/
theorem C26_get_empty_bags (g : SGrid T) :
    (getEmptyBags g).Nodup ∧
    ∀ l, l ∈ getEmptyBags g ↔ InRange g.width g.height l ∧ getValue g l = none := by
  refine ⟨(nodup_cells _ _).filter _, ?_⟩
  intro l
  unfold getEmptyBags getValue
  rw [List.mem_filter, mem_cells, Option.isNone_iff_eq_none]

/-- **C26.** `iter_values`: exactly the stored pairs, once each. -/
theorem C26_iter_values (g : SGrid T) (hg : WF g) :
    ((iterValues g).Nodup ∧ ∀ l v, (l, v) ∈ iterValues g ↔ getValue g l = some v) ∧
    ((iterValuesUnbuffered g).Nodup ∧
      ∀ l v, (l, v) ∈ iterValuesUnbuffered g ↔ getValueUnbuffered g l = some v) :=
  ⟨⟨HMap.nodup_of_WF hg.r, fun _ _ => (HMap.get_eq_some_iff hg.r).symm⟩,
   ⟨HMap.nodup_of_WF hg.w, fun _ _ => (HMap.get_eq_some_iff hg.w).symm⟩⟩

/-- A 2 by 2 sparse grid. -/
def demoGrid : SGrid Nat := ⟨[(⟨1, 1⟩, 5), (⟨0, 1⟩, 4), (⟨7, 0⟩, 4)], [(⟨0, 0⟩, 6)], 2, 2⟩

example : WF demoGrid ∧ getLocation demoGrid 4 = some ⟨0, 1⟩ ∧ getLocation demoGrid 9 = none ∧
    getEmptyBags demoGrid = [⟨0, 0⟩, ⟨1, 0⟩] :=
  ⟨⟨by unfold HMap.WF demoGrid; decide, by unfold HMap.WF demoGrid; decide⟩, by decide, by decide, by decide⟩

/-! ### C27 -/

/-- The calls on which the two grids agree: everything but `apply_to_all_values` with WRITE or READWRITE. -/
def Common : NumOp T → Prop
  | .apply _ .READ => True
  | .apply _ _ => False
  | _ => True

/-- Same published and current values at every in-range location, nothing outside. -/
structure Agree (d : DenseNumber.DGrid T) (s : SGrid T) (w h : Int) : Prop where
  dense : DenseNumber.Shows d w h (getValue s) (getValueUnbuffered s)
  width : s.width = w
  height : s.height = h
  wf : WF s
  outR : ∀ l, ¬ InRange w h l → getValue s l = none
  outW : ∀ l, ¬ InRange w h l → getValueUnbuffered s l = none

theorem agree_exec {d : DenseNumber.DGrid T} {s : SGrid T} {w h : Int} (ha : Agree d s w h) (op : NumOp T)
    (hc : Common op) (hin : op.InRange w h) :
    ∃ d', DenseNumber.exec d op = some d' ∧ Agree d' (exec s op) w h := by
  have hwf := wf_exec ha.wf op
  cases op with
  | set v l =>
    obtain ⟨d', h1, h2⟩ := DenseNumber.shows_write ha.dense l hin (some v)
    have he : ∀ k, getValueUnbuffered (exec s (.set v l)) k = upd (getValueUnbuffered s) l (some v) k := by
      intro k
      exact HMap.get_insert _ _ _ _
    refine ⟨d', h1, ?_, ha.width, ha.height, hwf, ha.outR, ?_⟩
    · rw [show getValueUnbuffered (exec s (.set v l)) = upd (getValueUnbuffered s) l (some v) from funext he]
      exact h2
    · intro k hk
      rw [he, upd, if_neg (by rintro rfl; exact hk hin)]
      exact ha.outW k hk
  | remove l =>
    obtain ⟨d', h1, h2⟩ := DenseNumber.shows_write ha.dense l hin none
    have he : ∀ k, getValueUnbuffered (exec s (.remove l)) k = upd (getValueUnbuffered s) l none k := by
      intro k
      exact HMap.get_remove _ _ _
    refine ⟨d', h1, ?_, ha.width, ha.height, hwf, ha.outR, ?_⟩
    · rw [show getValueUnbuffered (exec s (.remove l)) = upd (getValueUnbuffered s) l none from funext he]
      exact h2
    · intro k hk
      rw [he, upd, if_neg (by rintro rfl; exact hk hin)]
      exact ha.outW k hk
  | update =>
    refine ⟨_, rfl, ?_, ha.width, ha.height, hwf, ?_, fun _ _ => rfl⟩
    · rw [show getValue (exec s .update) = getValueUnbuffered s from funext (getValue_update ha.wf)]
      exact DenseNumber.shows_update ha.dense
    · intro k hk
      exact (getValue_update ha.wf k).trans (ha.outW k hk)
  | lazyUpdate =>
    exact ⟨_, rfl, DenseNumber.shows_lazy ha.dense, ha.width, ha.height, hwf, ha.outW, fun _ _ => rfl⟩
  | apply f o =>
    cases o with
    | READ =>
      have he : ∀ k, getValue (exec s (.apply f .READ)) k = (getValue s k).map f := fun k => HMap.get_mapVal _ _ _
      refine ⟨_, rfl, ?_, ha.width, ha.height, hwf, ?_, ha.outW⟩
      · rw [show getValue (exec s (.apply f .READ)) = fun k => (getValue s k).map f from funext he]
        exact DenseNumber.shows_apply ha.dense f .READ
      · intro k hk
        rw [he, ha.outR k hk]; rfl
    | WRITE => exact absurd hc (by simp [Common])
    | READWRITE => exact absurd hc (by simp [Common])

theorem agree_new {w h : Int} (hw : 0 ≤ w) (hh : 0 ≤ h) :
    ∃ d, DenseNumber.new w h = some d ∧ Agree d (new w h : SGrid T) w h := by
  have hp : ¬ w * h < 0 := by have := Int.mul_nonneg hw hh; omega
  have h1 : ((w.natAbs : Nat) : Int) = w := by omega
  have h2 : ((h.natAbs : Nat) : Int) = h := by omega
  cases hn : (DenseNumber.new w h : Option (DenseNumber.DGrid T)) with
  | none => simp [DenseNumber.new, hp] at hn
  | some d =>
    have := DenseNumber.shows_new hn
    rw [h1, h2] at this
    exact ⟨d, rfl, this, rfl, rfl, wf_new w h, fun _ _ => rfl, fun _ _ => rfl⟩

theorem agree_run {w h : Int} {d0 : DenseNumber.DGrid T} {s0 : SGrid T} (ha : Agree d0 s0 w h)
    (hist : List (NumOp T)) (hin : ∀ op ∈ hist, op.InRange w h) (hc : ∀ op ∈ hist, Common op) :
    ∃ d, DenseNumber.run d0 hist = some d ∧ Agree d (run s0 hist) w h := by
  induction hist with
  | nil => exact ⟨d0, rfl, ha⟩
  | cons op hist ih =>
    obtain ⟨d, h1, h2⟩ := ih (fun op h => hin op (List.mem_cons_of_mem _ h))
      (fun op h => hc op (List.mem_cons_of_mem _ h))
    obtain ⟨d', h3, h4⟩ := agree_exec h2 op (hc op List.mem_cons_self) (hin op List.mem_cons_self)
    exact ⟨d', by rw [DenseNumber.run, h1]; exact h3, h4⟩

/-- **C27**, correct part. For programs without `apply_to_all_values` in WRITE / READWRITE mode, the two
grids give the same answers: same values, same empty bags in the same order, the same visited pairs up
to order, and `get_location` finds a value in both or in neither. -/
theorem C27_dense_and_sparse_agree_partial [BEq T] (width height : Int) (hw : 0 ≤ width) (hh : 0 ≤ height)
    (hist : List (NumOp T)) (hin : ∀ op ∈ hist, op.InRange width height) (hc : ∀ op ∈ hist, Common op) :
    ∃ d0 d, DenseNumber.new width height = some d0 ∧ DenseNumber.run d0 hist = some d ∧
      (∀ l, InRange width height l →
        DenseNumber.getValue d l = some (getValue (run (new width height) hist) l) ∧
        DenseNumber.getValueUnbuffered d l = some (getValueUnbuffered (run (new width height) hist) l)) ∧
      DenseNumber.getEmptyBags d = some (getEmptyBags (run (new width height) hist)) ∧
      (∃ r, DenseNumber.iterValues d = some r ∧ r.Perm (iterValues (run (new width height) hist))) ∧
      (∀ v, DenseNumber.getLocation d v = some none ↔ getLocation (run (new width height) hist) v = none) := by
  obtain ⟨d0, h0, ha0⟩ := agree_new (T := T) hw hh
  obtain ⟨d, h1, ha⟩ := agree_run ha0 hist hin hc
  have hd : d.width = width ∧ d.height = height := ⟨ha.dense.width, ha.dense.height⟩
  refine ⟨d0, d, h0, h1, fun l hl => ⟨ha.dense.read l hl, ha.dense.write l hl⟩, ?_, ?_, ?_⟩
  · unfold DenseNumber.getEmptyBags
    rw [collect_spec _ (cells_isSome ha.dense.wf.r.big), getEmptyBags, hd.1, hd.2, ha.width, ha.height]
    congr 1
    have : ∀ (cs : List Loc), (∀ c ∈ cs, InRange width height c) →
        cs.flatMap (fun c => ((vecGet d.rlocs height c).map (fun e => if e.isNone then [c] else [])).getD []) =
        cs.filter (fun c => (HMap.get (run (new width height) hist).rlocs c).isNone) := by
      intro cs
      induction cs with
      | nil => intro _; rfl
      | cons c cs ih =>
        intro hall
        have h2 := ha.dense.read c (hall c List.mem_cons_self)
        rw [DenseNumber.getValue, hd.2] at h2
        rw [List.flatMap_cons, h2, List.filter_cons, ih (fun c h => hall c (List.mem_cons_of_mem _ h))]
        simp only [getValue]
        cases HMap.get (run (new width height) hist).rlocs c <;> simp
    exact this _ (fun c hcm => mem_cells.1 hcm)
  · obtain ⟨⟨r, hr1, hr2, hr3⟩, _⟩ := DenseNumber.C22_iter_values d ha.dense.wf
    refine ⟨r, hr1, (List.perm_ext_iff_of_nodup hr2 (HMap.nodup_of_WF ha.wf.r)).2 ?_⟩
    rintro ⟨l, v⟩
    rw [hr3, hd.1, hd.2]
    have hs : (l, v) ∈ (run (new width height) hist).rlocs ↔ getValue (run (new width height) hist) l = some v :=
      (HMap.get_eq_some_iff ha.wf.r).symm
    rw [hs]
    by_cases hl : InRange width height l
    · rw [ha.dense.read l hl]; simp [hl]
    · rw [ha.outR l hl]; simp [hl]
  · intro v
    obtain ⟨⟨r, hr1, hr2⟩, _⟩ := DenseNumber.C22_get_location d ha.dense.wf v
    rw [hr1, Option.some.injEq, hr2.1, (C26_get_location (run (new width height) hist) ha.wf v).1.1, hd.1, hd.2]
    constructor
    · intro hall l x hx
      by_cases hl : InRange width height l
      · cases he : x == v with
        | false => rfl
        | true =>
          refine absurd ⟨x, ?_, he⟩ (hall l hl)
          show DenseNumber.getValue d l = _
          rw [ha.dense.read l hl, hx]
      · rw [ha.outR l hl] at hx; cases hx
    · rintro hall l hl ⟨x, hv, he⟩
      have hv : DenseNumber.getValue d l = _ := hv
      rw [ha.dense.read l hl] at hv
      rw [hall l x (by simpa using hv)] at he
      cases he

/-- **C27**, correct part for READWRITE: the two grids also agree after it when every cell written since
the last update holds a published value too. -/
theorem C27_readwrite_agrees_partial (d : DenseNumber.DGrid T) (s : SGrid T) (w h : Int) (ha : Agree d s w h)
    (f : T → T) (hsub : ∀ l, getValueUnbuffered s l ≠ none → getValue s l ≠ none) :
    Agree (DenseNumber.applyToAllValues d f .READWRITE) (applyToAllValues s f .READWRITE) w h := by
  have hwf := wf_exec ha.wf (.apply f .READWRITE)
  have he : ∀ k, getValueUnbuffered (applyToAllValues s f .READWRITE) k =
      DenseNumber.applyRW f (getValueUnbuffered s k) (getValue s k) := by
    intro k
    show HMap.get (s.rlocs.foldl (applyRW f) s.locs) k = _
    rw [foldRW_get f _ _ ha.wf.r]
    have hk := hsub k
    unfold getValueUnbuffered getValue at *
    cases h1 : HMap.get s.rlocs k with
    | none =>
      cases h2 : HMap.get s.locs k with
      | none => rfl
      | some v => rw [h1, h2] at hk; simp at hk
    | some r => cases h2 : HMap.get s.locs k <;> rfl
  refine ⟨?_, ha.width, ha.height, hwf, ha.outR, ?_⟩
  · rw [show getValueUnbuffered (applyToAllValues s f .READWRITE) =
      fun k => DenseNumber.applyRW f (getValueUnbuffered s k) (getValue s k) from funext he]
    exact DenseNumber.shows_apply ha.dense f .READWRITE
  · intro k hk
    rw [he, ha.outR k hk, ha.outW k hk]; rfl

/-- **C27** is false for WRITE: the dense grid writes `f (published)`, the sparse grid changes the values
written since the update. -/
theorem C27_write_differs_partial :
    ((DenseNumber.new 1 1).bind (fun g => DenseNumber.run g [.apply (· + 10) .WRITE, .lazyUpdate, .set 1 ⟨0, 0⟩])).bind
        (fun g => DenseNumber.getValueUnbuffered g ⟨0, 0⟩) = some (some 11) ∧
    getValueUnbuffered (run (new 1 1) [.apply (· + 10) .WRITE, .lazyUpdate, .set 1 ⟨0, 0⟩]) ⟨0, 0⟩ = none := by
  decide

/-- **C27** is false for READWRITE: a cell written since the update but not published is changed by the
dense grid only. -/
theorem C27_readwrite_differs_partial :
    ((DenseNumber.new 1 1).bind (fun g => DenseNumber.run g [.apply (· + 10) .READWRITE, .set 1 ⟨0, 0⟩])).bind
        (fun g => DenseNumber.getValueUnbuffered g ⟨0, 0⟩) = some (some 11) ∧
    getValueUnbuffered (run (new 1 1) [.apply (· + 10) .READWRITE, .set 1 ⟨0, 0⟩]) ⟨0, 0⟩ = some 1 := by
  decide

/-- **C27** is false. -/
theorem C27_not_interchangeable_partial :
    ¬ ∀ (hist : List (NumOp Nat)) (d0 d : DenseNumber.DGrid Nat), (∀ op ∈ hist, op.InRange 1 1) →
      DenseNumber.new 1 1 = some d0 → DenseNumber.run d0 hist = some d →
      DenseNumber.getValueUnbuffered d ⟨0, 0⟩ = some (getValueUnbuffered (run (new 1 1) hist) ⟨0, 0⟩) := by
  intro hall
  have := hall [.apply (· + 10) .WRITE, .lazyUpdate, .set 1 ⟨0, 0⟩] _ _ (by
    intro op hop
    simp only [List.mem_cons, List.not_mem_nil, or_false] at hop
    rcases hop with h | h | h <;> subst h <;> simp [NumOp.InRange, Grid.InRange]) rfl rfl
  exact absurd this (by decide)

example : ∀ op ∈ (NumOp.apply (· + 1) .READ :: DenseNumber.demoHist), op.InRange 2 3 ∧ Common op := by
  intro op hop
  simp only [DenseNumber.demoHist, List.mem_cons, List.not_mem_nil, or_false] at hop
  rcases hop with h | h | h | h | h | h | h <;> subst h <;> simp [NumOp.InRange, Common, Grid.InRange]

end Verif.SparseNumber
