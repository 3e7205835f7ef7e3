import Verif.Lemmas.ParGrid
import Verif.Props.NumberGrid

/-!
Properties of the grids under the feature `parallel` (C102-C108). Programs are lists of calls, newest first. `cpus` is the number
of processors and `hash` the hash function; every statement holds for all of them. The hypothesis on `shardAmount` only says that
the number of shards fits a machine word.
-/

namespace Verif.ParGrid

open Grid DBDashMap ParGridSpec

variable {T O I : Type} [DecidableEq I]

/-! ### C102 -/

/-- **C102.** After any program of set / update / lazy_update calls, at every location: `get_value_unbuffered` is the value
written last since the latest `lazy_update`, `get_value` is the published one; no call panics. -/
theorem C102_parallel_number_grids_are_double_buffered {cpus : Nat} (hc : shardAmount cpus ≤ 2 ^ 64) (hash : Loc → Nat)
    (width height : Int) (h : List (NOp T)) (hp : ∀ op ∈ h, NPlain op) (g0 : NGrid T)
    (hg0 : g0 = NGrid.newDense cpus hash width height ∨ g0 = NGrid.newSparse cpus hash width height) :
    ∃ g, NGrid.run g0 h = some g ∧ ∀ l, g.getValue l = some (published h l) ∧ g.getValueUnbuffered l = some (written h l) := by
  have h0 : NShows g0 (fun _ => none) (fun _ => none) := by
    rcases hg0 with rfl | rfl
    · exact (nshows_new hc hash width height).1
    · exact (nshows_new hc hash width height).2
  obtain ⟨g, h1, h2⟩ := nshows_run h0 h hp
  refine ⟨g, h1, fun l => ⟨?_, ?_⟩⟩
  · unfold NGrid.getValue
    rw [getRead_abs h2.inv, h2.read]
  · unfold NGrid.getValueUnbuffered
    rw [getWrite_abs h2.inv, h2.write]

/-- Every program runs, also with `apply_to_all_values`. -/
theorem nshows_any {g0 : NGrid T} (h0 : Inv g0.locs) (h : List (NOp T)) : ∃ g, NGrid.run g0 h = some g ∧ Inv g.locs := by
  induction h with
  | nil => exact ⟨g0, rfl, h0⟩
  | cons op h ih =>
    obtain ⟨g, h1, h2⟩ := ih
    obtain ⟨g', h3, _, _, h4⟩ := nshows_exec ⟨h2, rfl, rfl⟩ op
    refine ⟨g', by rw [NGrid.run, h1]; exact h3, ?_⟩
    cases op with
    | set v l => exact h4.inv
    | update => exact h4.inv
    | lazyUpdate => exact h4.inv
    | apply f o => cases o <;> exact h4.inv

/-- **C102**, `apply_to_all_values`: after any program whatsoever, it changes the written values only, cell by cell: READ writes
the closure of the published value, WRITE maps the written value, READWRITE maps the written value, or the published one where
nothing is written, in the cells that have a published value. -/
theorem C102_apply_to_all_values {cpus : Nat} (hc : shardAmount cpus ≤ 2 ^ 64) (hash : Loc → Nat) (width height : Int)
    (h : List (NOp T)) (f : T → T) (o : GridOption) :
    ∃ g g', NGrid.run (NGrid.newDense cpus hash width height) h = some g ∧ g.applyToAllValues f o = some g' ∧
      ∀ l r w, g.getValue l = some r → g.getValueUnbuffered l = some w →
        g'.getValue l = some r ∧
        g'.getValueUnbuffered l = some (match o with
          | .READ => (r.map f).or w
          | .WRITE => w.map f
          | .READWRITE => match r with | none => w | some v => some (f (w.getD v))) := by
  obtain ⟨g, h1, h2⟩ := nshows_any (nshows_new (T := T) hc hash width height).1.inv h
  obtain ⟨g', h3, _, _, h4⟩ := nshows_exec ⟨h2, rfl, rfl⟩ (.apply f o)
  refine ⟨g, g', h1, h3, ?_⟩
  intro l r w hr hw
  unfold NGrid.getValue at hr
  unfold NGrid.getValueUnbuffered at hw
  rw [getRead_abs h2] at hr
  rw [getWrite_abs h2] at hw
  injection hr with hr
  injection hw with hw
  subst hr hw
  unfold NGrid.getValue NGrid.getValueUnbuffered
  cases o with
  | READ => rw [getRead_abs h4.inv, getWrite_abs h4.inv, h4.read, h4.write]; exact ⟨rfl, rfl⟩
  | WRITE => rw [getRead_abs h4.inv, getWrite_abs h4.inv, h4.read, h4.write]; exact ⟨rfl, rfl⟩
  | READWRITE =>
    rw [getRead_abs h4.inv, getWrite_abs h4.inv, h4.read, h4.write]
    exact ⟨rfl, rfl⟩

theorem nsize_run {g0 : NGrid T} (h0 : Inv g0.locs) (h : List (NOp T)) :
    ∃ g, NGrid.run g0 h = some g ∧ Inv g.locs ∧ g.width = g0.width ∧ g.height = g0.height := by
  induction h with
  | nil => exact ⟨g0, rfl, h0, rfl, rfl⟩
  | cons op h ih =>
    obtain ⟨g, h1, h2, e1, e2⟩ := ih
    obtain ⟨g', h3, e3, e4, h4⟩ := nshows_exec ⟨h2, rfl, rfl⟩ op
    refine ⟨g', by rw [NGrid.run, h1]; exact h3, ?_, e3.trans e1, e4.trans e2⟩
    cases op with
    | set v l => exact h4.inv
    | update => exact h4.inv
    | lazyUpdate => exact h4.inv
    | apply f o => cases o <;> exact h4.inv

/-- **C102**, the size: whatever is called, a dense grid keeps the absolute values of the width and the height it was made with
and a sparse one the width and the height themselves. -/
theorem C102_size {cpus : Nat} (hc : shardAmount cpus ≤ 2 ^ 64) (hash : Loc → Nat) (width height : Int) (h : List (NOp T)) :
    (∃ g, NGrid.run (NGrid.newDense cpus hash width height) h = some g ∧ g.width = max width (-width) ∧ g.height = max height (-height)) ∧
    ∃ g, NGrid.run (NGrid.newSparse cpus hash width height) h = some g ∧ g.width = width ∧ g.height = height := by
  obtain ⟨g, h1, _, e1, e2⟩ := nsize_run (nshows_new (T := T) hc hash width height).1.inv h
  obtain ⟨g', h1', _, e1', e2'⟩ := nsize_run (nshows_new (T := T) hc hash width height).2.inv h
  exact ⟨⟨g, h1, e1.trans (by simp only [NGrid.newDense]; omega), e2.trans (by simp only [NGrid.newDense]; omega)⟩, g', h1', e1', e2'⟩

/-- A program for the number grids. -/
def demoN : List (NOp Nat) := [.set 3 ⟨0, 1⟩, .update, .set 2 ⟨0, 0⟩, .lazyUpdate, .set 1 ⟨0, 1⟩]

example : (∀ op ∈ demoN, NPlain op) ∧ published demoN ⟨0, 1⟩ = some 1 ∧ published demoN ⟨0, 0⟩ = some 2 ∧
    written demoN ⟨0, 0⟩ = some 2 ∧ written demoN ⟨0, 1⟩ = some 3 := by
  refine ⟨?_, by decide +kernel, by decide +kernel, by decide +kernel, by decide +kernel⟩
  intro op hop
  simp only [demoN, List.mem_cons, List.not_mem_nil, or_false] at hop
  rcases hop with h | h | h | h | h <;> subst h <;> simp [NPlain]

example : (((NGrid.run (NGrid.newDense 1 (fun l => l.x.natAbs) 2 2) demoN).bind
      (fun g => g.applyToAllValues (fun v => v + 10) .READ)).bind (fun g => g.getValueUnbuffered ⟨0, 1⟩)) = some (some 11) := by
  decide +kernel

/-! ### C103 -/

/-- The same call on the grid without the feature. -/
def toSeq : NOp T → NumOp T
  | .set v l => .set v l
  | .update => .update
  | .lazyUpdate => .lazyUpdate
  | .apply f o => .apply f o

/-- The call is a write or a `lazy_update`. -/
def SetLazy : NOp T → Prop
  | .set _ _ => True
  | .lazyUpdate => True
  | _ => False

theorem written_seq (h : List (NOp T)) (hp : ∀ op ∈ h, SetLazy op) (l : Loc) :
    written h l = lastWritten (h.map toSeq) l ∧ published h l = lastPublished (h.map toSeq) l := by
  induction h with
  | nil => exact ⟨rfl, rfl⟩
  | cons op h ih =>
    have ih' := ih (fun o ho => hp o (List.mem_cons_of_mem _ ho))
    have := hp op List.mem_cons_self
    cases op with
    | set v l' =>
      refine ⟨?_, ih'.2⟩
      show (if l = l' then some v else written h l) = if l = l' then some v else lastWritten (h.map toSeq) l
      rw [ih'.1]
    | lazyUpdate => exact ⟨rfl, ih'.1⟩
    | update => exact absurd this (by simp [SetLazy])
    | apply f o => exact absurd this (by simp [SetLazy])

/-- **C103**, for programs of set and lazy_update calls (what the engine itself does): the sparse grid gives the same answers
with and without the feature, everywhere. What is missing: `update` and `apply_to_all_values`, where it is false. -/
theorem C103_sparse_agrees_partial {cpus : Nat} (hc : shardAmount cpus ≤ 2 ^ 64) (hash : Loc → Nat) (width height : Int)
    (h : List (NOp T)) (hp : ∀ op ∈ h, SetLazy op) :
    ∃ g, NGrid.run (NGrid.newSparse cpus hash width height) h = some g ∧ ∀ l,
      g.getValue l = some (SparseNumber.getValue (SparseNumber.run (SparseNumber.new width height) (h.map toSeq)) l) ∧
      g.getValueUnbuffered l =
        some (SparseNumber.getValueUnbuffered (SparseNumber.run (SparseNumber.new width height) (h.map toSeq)) l) := by
  have hplain : ∀ op ∈ h, NPlain op := by
    intro op hop
    have := hp op hop
    cases op <;> simp_all [SetLazy, NPlain]
  obtain ⟨g, h1, h2⟩ := C102_parallel_number_grids_are_double_buffered hc hash width height h hplain _ (Or.inr rfl)
  refine ⟨g, h1, fun l => ?_⟩
  have h3 := (SparseNumber.C25_sparse_number_grid_is_double_buffered width height (h.map toSeq) (by
    intro op hop
    obtain ⟨op', ho', rfl⟩ := List.mem_map.1 hop
    have := hp op' ho'
    cases op' <;> simp_all [SetLazy, toSeq, NumOp.Plain])).2 l
  rw [(h2 l).1, (h2 l).2, h3.1, h3.2, (written_seq h hp l).1, (written_seq h hp l).2]
  exact ⟨rfl, rfl⟩

/-- **C103** for the dense grid: the same inside the grid. -/
theorem C103_dense_agrees_partial {cpus : Nat} (hc : shardAmount cpus ≤ 2 ^ 64) (hash : Loc → Nat) (width height : Int)
    (g0 : DenseNumber.DGrid T) (hnew : DenseNumber.new width height = some g0) (h : List (NOp T)) (hp : ∀ op ∈ h, SetLazy op)
    (hin : DenseNumber.InRangeProgram width.natAbs height.natAbs (h.map toSeq)) :
    ∃ g d, NGrid.run (NGrid.newDense cpus hash width height) h = some g ∧ DenseNumber.run g0 (h.map toSeq) = some d ∧
      ∀ l, InRange width.natAbs height.natAbs l →
        g.getValue l = DenseNumber.getValue d l ∧ g.getValueUnbuffered l = DenseNumber.getValueUnbuffered d l := by
  have hplain : ∀ op ∈ h, NPlain op := by
    intro op hop
    have := hp op hop
    cases op <;> simp_all [SetLazy, NPlain]
  obtain ⟨g, h1, h2⟩ := C102_parallel_number_grids_are_double_buffered hc hash width height h hplain _ (Or.inl rfl)
  obtain ⟨d, k1, _, _, _, k2⟩ := DenseNumber.C20_dense_number_grid_is_double_buffered width height g0 hnew (h.map toSeq) hin (by
    intro op hop
    obtain ⟨op', ho', rfl⟩ := List.mem_map.1 hop
    have := hp op' ho'
    cases op' <;> simp_all [SetLazy, toSeq, NumOp.Plain])
  refine ⟨g, d, h1, k1, fun l hl => ?_⟩
  rw [(h2 l).1, (h2 l).2, (k2 l hl).1, (k2 l hl).2, (written_seq h hp l).1, (written_seq h hp l).2]
  exact ⟨rfl, rfl⟩

/-- **C103** is false with `update`: after set, update, update the value is still published under the feature, gone without. -/
theorem C103_update_differs_partial :
    ((NGrid.run (NGrid.newSparse 1 (fun _ => 0) 2 2) [.update, .update, .set 5 ⟨0, 0⟩] : Option (NGrid Nat)).bind
      (fun g => g.getValue ⟨0, 0⟩)) = some (some 5) ∧
    SparseNumber.getValue (SparseNumber.run (SparseNumber.new 2 2) [.update, .update, .set 5 ⟨0, 0⟩]) (⟨0, 0⟩ : Loc) =
      (none : Option Nat) := by decide +kernel

/-- **C103** is false with `apply_to_all_values` READ: the published value changes at once without the feature, only at the next
update under it. -/
theorem C103_apply_read_differs_partial :
    ((NGrid.run (NGrid.newSparse 1 (fun _ => 0) 2 2) [.apply (· + 1) .READ, .lazyUpdate, .set 5 ⟨0, 0⟩] : Option (NGrid Nat)).bind
      (fun g => g.getValue ⟨0, 0⟩)) = some (some 5) ∧
    SparseNumber.getValue (SparseNumber.run (SparseNumber.new 2 2) [.apply (· + 1) .READ, .lazyUpdate, .set 5 ⟨0, 0⟩])
      (⟨0, 0⟩ : Loc) = some 6 := by decide +kernel

/-- **C103** is false as a whole. -/
theorem C103_not_interchangeable_partial :
    ¬ ∀ (h : List (NOp Nat)) (l : Loc), ((NGrid.run (NGrid.newSparse 1 (fun _ => 0) 2 2) h).bind (fun g => g.getValue l)) =
      some (SparseNumber.getValue (SparseNumber.run (SparseNumber.new 2 2) (h.map toSeq)) l) := by
  intro hall
  have := hall [.update, .update, .set 5 ⟨0, 0⟩] ⟨0, 0⟩
  rw [C103_update_differs_partial.1] at this
  exact absurd this (by decide +kernel)

example : (∀ op ∈ ([.set 3 ⟨0, 1⟩, .lazyUpdate, .set 2 ⟨0, 0⟩] : List (NOp Nat)), SetLazy op) ∧
    (DenseNumber.new 2 3 : Option (DenseNumber.DGrid Nat)).isSome := by
  refine ⟨?_, by decide +kernel⟩
  intro op hop
  simp only [List.mem_cons, List.not_mem_nil, or_false] at hop
  rcases hop with h | h | h <;> subst h <;> simp [SetLazy]

/-! ### C104 -/

theorem nonEmpty_held (ident : O → I) (os : List O) : nonEmpty (heldBag ident os) = heldBag ident os := by
  unfold heldBag
  split
  · rfl
  · rename_i h
    have hb : bagOf ident os ≠ [] := fun hb => h ((bagOf_nil_iff ident os).1 hb)
    unfold nonEmpty
    split
    · rename_i hc
      injection hc with hc
      exact absurd hc hb
    · rfl

/-- **C104**, what the parallel object grids answer after any program of placements, updates and lazy updates: the location
of an object is that of its latest placement (written: since the latest `lazy_update`; published: in what was published), and the
bag of a location holds each object placed there once, in the order of the latest placements *there* — also those that have been
placed elsewhere since. No call panics. -/
theorem C104_bags_and_locations_partial {cpus : Nat} (hc : shardAmount cpus ≤ 2 ^ 64) (ident : O → I) (hashO : I → Nat)
    (hashL : Loc → Nat) (width height : Int) (h : List (POp O)) (hp : ∀ op ∈ h, OPlain op) :
    ∃ g, OGrid.run ident (OGrid.new cpus hashO hashL width height) h = some g ∧
      (∀ o, g.getLocation ident o = some ((publishedOf ident h (ident o)).map Prod.snd) ∧
        g.getLocationUnbuffered ident o = some ((latest ident (placements h) (ident o)).map Prod.snd) ∧
        g.get ident o = some ((publishedOf ident h (ident o)).map Prod.fst)) ∧
      ∀ l, (∃ bag, IsBag ident (publishedAt h l) bag ∧ g.getObjects l = some (if bag = [] then none else some bag)) ∧
        ∃ bag, IsBag ident (placedAt (placements h) l) bag ∧
          g.getObjectsUnbuffered l = some (if bag = [] then none else some bag) := by
  obtain ⟨g, h1, _, _, h2⟩ := oshows_run ident (oshows_new hc hashO hashL width height) h hp
  refine ⟨g, h1, fun o => ⟨?_, ?_, ?_⟩, fun l => ⟨⟨bagOf ident (publishedAt h l), bagOf_isBag ident _, ?_⟩,
    ⟨bagOf ident (placedAt (placements h) l), bagOf_isBag ident _, ?_⟩⟩⟩
  · unfold OGrid.getLocation
    rw [getRead_abs h2.invO, h2.readO]
    rfl
  · unfold OGrid.getLocationUnbuffered
    rw [getWrite_abs h2.invO, h2.writeO]
    rfl
  · unfold OGrid.get
    rw [getRead_abs h2.invO, h2.readO]
    rfl
  · unfold OGrid.getObjects
    rw [getRead_abs h2.invL, h2.readL]
    show some (nonEmpty (heldBag ident _)) = _
    rw [nonEmpty_held]
    unfold heldBag
    simp only [bagOf_nil_iff]
  · unfold OGrid.getObjectsUnbuffered
    rw [getWrite_abs h2.invL, h2.writeL]
    show some (nonEmpty (heldBag ident _)) = _
    rw [nonEmpty_held]
    unfold heldBag
    simp only [bagOf_nil_iff]

theorem latest_ident {ident : O → I} {ps : List (O × Loc)} {i : I} {e : O × Loc} (h : latest ident ps i = some e) :
    ident e.1 = i := by
  unfold latest at h
  have := List.find?_some h
  exact of_decide_eq_true this

theorem latest_of_nodup (ident : O → I) {ps : List (O × Loc)} (h : (ps.map (fun p => ident p.1)).Nodup) (o : O) (l : Loc) :
    latest ident ps (ident o) = some (o, l) ↔ (o, l) ∈ ps := by
  unfold latest
  constructor
  · intro hf
    exact List.mem_reverse.1 (List.mem_of_find?_eq_some hf)
  · intro hm
    cases hf : ps.reverse.find? (fun p => decide (ident p.1 = ident o)) with
    | none =>
      rw [List.find?_eq_none] at hf
      exact absurd (hf (o, l) (List.mem_reverse.2 hm)) (by simp)
    | some q =>
      have hq := List.find?_some hf
      have hq' := List.mem_reverse.1 (List.mem_of_find?_eq_some hf)
      rw [decide_eq_true_iff] at hq
      have : q = (o, l) := List.inj_on_of_nodup_map h hq' hm hq
      rw [this]

theorem nodup_placedAt (ident : O → I) {ps : List (O × Loc)} (h : (ps.map (fun p => ident p.1)).Nodup) (l : Loc) :
    ((placedAt ps l).map ident).Nodup := by
  unfold placedAt
  rw [List.map_map]
  exact h.sublist (List.filter_sublist.map _)

/-- **C104**, the whole property, where each object is placed at most once between two lazy updates: an object has the written
location `l` iff it is in the written bag of `l`, and the bags are the placements in order. -/
theorem C104_each_object_in_its_bag_partial {cpus : Nat} (hc : shardAmount cpus ≤ 2 ^ 64) (ident : O → I) (hashO : I → Nat)
    (hashL : Loc → Nat) (width height : Int) (h : List (POp O)) (hp : ∀ op ∈ h, OPlain op)
    (honce : ((placements h).map (fun p => ident p.1)).Nodup) (g : OGrid O I)
    (hg : OGrid.run ident (OGrid.new cpus hashO hashL width height) h = some g) (l : Loc) :
    g.getObjectsUnbuffered l = some (if placedAt (placements h) l = [] then none else some (placedAt (placements h) l)) ∧
    g.lazyUpdate.getObjects l = g.getObjectsUnbuffered l ∧
    (∀ o, g.lazyUpdate.getLocation ident o = g.getLocationUnbuffered ident o) ∧
    ∀ o, (∃ x, ident x = ident o ∧ x ∈ placedAt (placements h) l) ↔ g.getLocationUnbuffered ident o = some (some l) := by
  obtain ⟨g1, h1, _, _, h2⟩ := oshows_run ident (oshows_new hc hashO hashL width height) h hp
  have : g1 = g := by
    have := h1.symm.trans hg
    simpa using this
  subst this
  have h3 := oshows_lazy h2
  refine ⟨?_, ?_, ?_, ?_⟩
  · unfold OGrid.getObjectsUnbuffered
    rw [getWrite_abs h2.invL, h2.writeL]
    show some (nonEmpty (heldBag ident _)) = _
    rw [nonEmpty_held]
    unfold heldBag
    rw [bagOf_once ident (nodup_placedAt ident honce l)]
  · unfold OGrid.getObjectsUnbuffered OGrid.getObjects
    rw [getWrite_abs h2.invL, h2.writeL, getRead_abs h3.invL, h3.readL]
  · intro o
    unfold OGrid.getLocation OGrid.getLocationUnbuffered
    rw [getWrite_abs h2.invO, h2.writeO, getRead_abs h3.invO, h3.readO]
  · intro o
    unfold OGrid.getLocationUnbuffered
    rw [getWrite_abs h2.invO, h2.writeO, Option.map_some, Option.some_inj, Option.map_eq_some_iff]
    constructor
    · rintro ⟨x, hx, hm⟩
      unfold placedAt at hm
      obtain ⟨p, hp1, rfl⟩ := List.mem_map.1 hm
      obtain ⟨hp1, hp2⟩ := List.mem_filter.1 hp1
      rw [decide_eq_true_iff] at hp2
      refine ⟨p, ?_, hp2⟩
      rw [← hx]
      exact (latest_of_nodup ident honce p.1 p.2).2 hp1
    · rintro ⟨p, hp1, hp2⟩
      have hid : ident p.1 = ident o := latest_ident hp1
      refine ⟨p.1, hid, ?_⟩
      unfold placedAt
      refine List.mem_map.2 ⟨p, List.mem_filter.2 ⟨?_, decide_eq_true hp2⟩, rfl⟩
      exact List.mem_reverse.1 (List.mem_of_find?_eq_some hp1)

theorem iterCells_eq {db : DB Loc (List O)} (hi : Inv db) (cs : List Loc) :
    iterCells db cs = some (cs.flatMap (fun c => (((abs db).read c).getD []).map (fun o => (c, o)))) := by
  induction cs with
  | nil => rfl
  | cons c cs ih =>
    rw [iterCells, getRead_abs hi, ih, List.flatMap_cons]
    cases (abs db).read c <;> rfl

theorem filter_tagged {f : Loc → List O} (l : Loc) : ∀ cs : List Loc, cs.Nodup →
    ((cs.flatMap (fun c => (f c).map (fun o => (c, o)))).filter (fun p => decide (p.1 = l))).map Prod.snd =
      if l ∈ cs then f l else []
  | [], _ => rfl
  | c :: cs, h => by
    rw [List.flatMap_cons, List.filter_append, List.map_append, filter_tagged l cs (List.nodup_cons.1 h).2]
    by_cases hc : c = l
    · subst hc
      rw [if_neg (List.nodup_cons.1 h).1, if_pos List.mem_cons_self, List.append_nil, List.filter_map, List.map_map]
      have : ((fun p : Loc × O => decide (p.1 = c)) ∘ fun o => (c, o)) = fun _ => true := by funext o; simp
      rw [this, List.filter_true]
      exact List.map_id _
    · have e : ((f c).map (fun o => (c, o))).filter (fun p => decide (p.1 = l)) = [] := by
        rw [List.filter_eq_nil_iff]
        intro p hp
        obtain ⟨o, _, rfl⟩ := List.mem_map.1 hp
        simpa using hc
      rw [e, List.map_nil, List.nil_append]
      by_cases hl : l ∈ cs
      · rw [if_pos hl, if_pos (List.mem_cons_of_mem _ hl)]
      · have : l ∉ c :: cs := by
          rw [List.mem_cons]
          rintro (h | h)
          · exact hc h.symm
          · exact hl h
        rw [if_neg hl, if_neg this]

/-- **C104**, the iteration: after any program of placements, updates and lazy updates `iter_objects` does not panic and calls
its closure, at each location inside the grid, on exactly the objects that `get_objects` answers there, in the same order, and
nowhere outside. -/
theorem C104_iter_objects_partial {cpus : Nat} (hc : shardAmount cpus ≤ 2 ^ 64) (ident : O → I) (hashO : I → Nat)
    (hashL : Loc → Nat) (width height : Int) (h : List (POp O)) (hp : ∀ op ∈ h, OPlain op) (g : OGrid O I)
    (hg : OGrid.run ident (OGrid.new cpus hashO hashL width height) h = some g) :
    ∃ calls, g.iterObjects = some calls ∧ ∀ l : Loc, ∃ bag, g.getObjects l = some bag ∧
      (calls.filter (fun c => decide (c.1 = l))).map Prod.snd =
        if 0 ≤ l.x ∧ l.x < width ∧ 0 ≤ l.y ∧ l.y < height then bag.getD [] else [] := by
  obtain ⟨g1, h1, e1, e2, h2⟩ := oshows_run ident (oshows_new hc hashO hashL width height) h hp
  have : g1 = g := by
    have := h1.symm.trans hg
    simpa using this
  subst this
  refine ⟨_, iterCells_eq h2.invL _, fun l => ⟨_, by unfold OGrid.getObjects; rw [getRead_abs h2.invL]; rfl, ?_⟩⟩
  rw [filter_tagged l _ (nodup_cells _ _), h2.readL, nonEmpty_held]
  have hm : l ∈ cells g1.width g1.height ↔ 0 ≤ l.x ∧ l.x < width ∧ 0 ≤ l.y ∧ l.y < height := by
    rw [mem_cells, e1, e2]
    rfl
  by_cases hl : l ∈ cells g1.width g1.height
  · rw [if_pos hl, if_pos (hm.1 hl)]
  · rw [if_neg hl, if_neg (fun h => hl (hm.2 h))]

/-- Every placement is the latest of its object or has one after it, with the same identity. -/
theorem latest_exists (ident : O → I) {ps : List (O × Loc)} {e : O × Loc} (he : e ∈ ps) :
    ∃ e', latest ident ps (ident e.1) = some e' ∧ e' ∈ ps ∧ ident e'.1 = ident e.1 := by
  cases hl : latest ident ps (ident e.1) with
  | none =>
    unfold latest at hl
    rw [List.find?_eq_none] at hl
    exact absurd (hl e (List.mem_reverse.2 he)) (by simp)
  | some e' =>
    exact ⟨e', rfl, List.mem_reverse.1 (List.mem_of_find?_eq_some hl), latest_ident hl⟩

theorem latestThere (ident : O → I) (x : O) : ∀ {os : List O}, x ∈ os →
    ∃ pre y post, os = pre ++ y :: post ∧ ident y = ident x ∧ ∀ z ∈ post, ident z ≠ ident y
  | o :: os, hx => by
    by_cases h : ∃ z ∈ os, ident z = ident x
    · obtain ⟨z, hz, hi⟩ := h
      obtain ⟨pre, y, post, e, h1, h2⟩ := latestThere ident z hz
      exact ⟨o :: pre, y, post, by rw [e]; rfl, h1.trans hi, h2⟩
    · have hox : o = x := by
        rcases List.mem_cons.1 hx with e | e
        · exact e.symm
        · exact absurd ⟨x, e, rfl⟩ h
      exact ⟨[], o, os, rfl, by rw [hox], fun z hz e => h ⟨z, hz, by rw [e, hox]⟩⟩

/-- C104, exactly when: after any program of placements, updates and lazy updates, every object in a written bag has the location of the bag
exactly if, since the latest lazy update, no object has been placed at two locations; the same is then published by a lazy update. -/
theorem C104_ghosts_exactly_partial {cpus : Nat} (hc : shardAmount cpus ≤ 2 ^ 64) (ident : O → I) (hashO : I → Nat)
    (hashL : Loc → Nat) (width height : Int) (h : List (POp O)) (hp : ∀ op ∈ h, OPlain op) :
    ∃ g, OGrid.run ident (OGrid.new cpus hashO hashL width height) h = some g ∧
      ((∀ l b, g.getObjectsUnbuffered l = some (some b) → ∀ o ∈ b, g.getLocationUnbuffered ident o = some (some l)) ↔
        ∀ e ∈ placements h, ∀ e' ∈ placements h, ident e.1 = ident e'.1 → e.2 = e'.2) ∧
      ∀ l o, g.lazyUpdate.getObjects l = g.getObjectsUnbuffered l ∧
        g.lazyUpdate.getLocation ident o = g.getLocationUnbuffered ident o := by
  obtain ⟨g, h1, _, _, h2⟩ := oshows_run ident (oshows_new hc hashO hashL width height) h hp
  have h3 := oshows_lazy h2
  have hb : ∀ l, g.getObjectsUnbuffered l = some (heldBag ident (placedAt (placements h) l)) := by
    intro l
    unfold OGrid.getObjectsUnbuffered
    rw [getWrite_abs h2.invL, h2.writeL]
    show some (nonEmpty (heldBag ident _)) = _
    rw [nonEmpty_held]
  have hl : ∀ o, g.getLocationUnbuffered ident o = some ((latest ident (placements h) (ident o)).map Prod.snd) := by
    intro o
    unfold OGrid.getLocationUnbuffered
    rw [getWrite_abs h2.invO, h2.writeO]
    rfl
  refine ⟨g, h1, ⟨fun hall => ?_, fun hone l b hg o ho => ?_⟩, fun l o => ⟨?_, ?_⟩⟩
  · have key : ∀ e ∈ placements h, ∃ e', latest ident (placements h) (ident e.1) = some e' ∧ e'.2 = e.2 := by
      intro e he
      have hm : e.1 ∈ placedAt (placements h) e.2 :=
        List.mem_map.2 ⟨e, List.mem_filter.2 ⟨he, decide_eq_true rfl⟩, rfl⟩
      obtain ⟨pre, y, post, k1, k2, k3⟩ := latestThere ident e.1 hm
      have hy : y ∈ bagOf ident (placedAt (placements h) e.2) := ((bagOf_isBag ident _).latest y).2 ⟨pre, post, k1, k3⟩
      have hne : placedAt (placements h) e.2 ≠ [] := List.ne_nil_of_mem hm
      have := hall e.2 (bagOf ident (placedAt (placements h) e.2)) (by rw [hb]; unfold heldBag; rw [if_neg hne]) y hy
      rw [hl, k2, Option.some_inj, Option.map_eq_some_iff] at this
      exact this
    intro e he e' he' hi
    obtain ⟨f, f1, f2⟩ := key e he
    obtain ⟨f', f1', f2'⟩ := key e' he'
    rw [hi, f1', Option.some_inj] at f1
    subst f1
    rw [← f2, f2']
  · rw [hb, Option.some_inj] at hg
    unfold heldBag at hg
    by_cases hn : placedAt (placements h) l = []
    · rw [if_pos hn] at hg; cases hg
    · rw [if_neg hn, Option.some_inj] at hg
      subst hg
      have hm := (bagOf_isBag ident (placedAt (placements h) l)).sublist.subset ho
      unfold placedAt at hm
      obtain ⟨e, he, rfl⟩ := List.mem_map.1 hm
      obtain ⟨he1, he2⟩ := List.mem_filter.1 he
      rw [decide_eq_true_iff] at he2
      obtain ⟨e', k1, k2, k3⟩ := latest_exists ident he1
      rw [hl, k1, Option.map_some, hone e' k2 e he1 k3, he2]
  · rw [hb]
    unfold OGrid.getObjects
    rw [getRead_abs h3.invL, h3.readL]
    show some (nonEmpty (heldBag ident _)) = _
    rw [nonEmpty_held]
  · unfold OGrid.getLocation OGrid.getLocationUnbuffered
    rw [getWrite_abs h2.invO, h2.writeO, getRead_abs h3.invO, h3.readO]

/-- A program that places an object twice, at the same location. -/
example : ∀ e ∈ placements ([.place 7 ⟨1, 1⟩, .place 8 ⟨0, 1⟩, .place 7 ⟨1, 1⟩, .lazyUpdate, .place 7 ⟨0, 0⟩] : List (POp Nat)),
    ∀ e' ∈ placements ([.place 7 ⟨1, 1⟩, .place 8 ⟨0, 1⟩, .place 7 ⟨1, 1⟩, .lazyUpdate, .place 7 ⟨0, 0⟩] : List (POp Nat)),
      id e.1 = id e'.1 → e.2 = e'.2 := by decide

/-- **C104** is false in general: an object placed twice stays in its first bag, so two bags show it. -/
theorem C104_ghost_partial :
    ¬ ∀ (h : List (POp Nat)) (g : OGrid Nat Nat) (o : Nat) (l : Loc) (b : List Nat), (∀ op ∈ h, OPlain op) →
      OGrid.run id (OGrid.new 1 id (fun _ => 0) 4 4) h = some g → g.getObjects l = some (some b) → o ∈ b →
      g.getLocation id o = some (some l) := by
  intro hall
  have hplain : ∀ op ∈ ([.lazyUpdate, .place 7 ⟨1, 1⟩, .place 7 ⟨0, 0⟩] : List (POp Nat)), OPlain op := by
    intro op hop
    simp only [List.mem_cons, List.not_mem_nil, or_false] at hop
    rcases hop with h | h | h <;> subst h <;> simp [OPlain]
  have h1 : ((OGrid.run id (OGrid.new 1 id (fun _ => 0) 4 4) [.lazyUpdate, .place 7 ⟨1, 1⟩, .place 7 ⟨0, 0⟩] :
      Option (OGrid Nat Nat)).bind (fun g => g.getObjects ⟨0, 0⟩)) = some (some [7]) := by decide +kernel
  have h2 : ((OGrid.run id (OGrid.new 1 id (fun _ => 0) 4 4) [.lazyUpdate, .place 7 ⟨1, 1⟩, .place 7 ⟨0, 0⟩] :
      Option (OGrid Nat Nat)).bind (fun g => g.getLocation id 7)) = some (some ⟨1, 1⟩) := by decide +kernel
  obtain ⟨g, hg, h1⟩ := Option.bind_eq_some_iff.1 h1
  rw [hg, Option.bind_some] at h2
  have h3 := hall _ g 7 ⟨0, 0⟩ [7] hplain hg h1 (by simp)
  rw [h2] at h3
  exact absurd h3 (by decide)

/-- The same across an `update`: the object placed at (0,0), updated, placed at (1,1), updated, is published in both bags. -/
theorem C104_ghost_after_update_partial :
    ((OGrid.run id (OGrid.new 1 id (fun _ => 0) 4 4) [.update, .place 7 ⟨1, 1⟩, .update, .place 7 ⟨0, 0⟩] :
      Option (OGrid Nat Nat)).bind (fun g => g.getObjects ⟨0, 0⟩)) = some (some [7]) ∧
    ((OGrid.run id (OGrid.new 1 id (fun _ => 0) 4 4) [.update, .place 7 ⟨1, 1⟩, .update, .place 7 ⟨0, 0⟩] :
      Option (OGrid Nat Nat)).bind (fun g => g.getObjects ⟨1, 1⟩)) = some (some [7]) := by decide +kernel

/-- A program for the object grids. -/
def demoO : List (POp Nat) := [.place 3 ⟨0, 1⟩, .place 1 ⟨2, 2⟩, .lazyUpdate, .place 2 ⟨0, 1⟩, .place 1 ⟨0, 1⟩]

example : (∀ op ∈ demoO, OPlain op) ∧ ((placements demoO).map (fun p => (id p.1 : Nat))).Nodup ∧
    publishedAt demoO ⟨0, 1⟩ = [1, 2] ∧ placedAt (placements demoO) ⟨2, 2⟩ = [1] := by
  refine ⟨?_, by decide +kernel, by decide +kernel, by decide +kernel⟩
  intro op hop
  simp only [demoO, List.mem_cons, List.not_mem_nil, or_false] at hop
  rcases hop with h | h | h | h | h <;> subst h <;> simp [OPlain]

/-! ### C105 -/

/-- A grid some program leads to. -/
def Reachable (ident : O → I) (g : OGrid O I) : Prop :=
  ∃ (cpus : Nat) (hashO : I → Nat) (hashL : Loc → Nat) (w h : Int) (hist : List (POp O)), shardAmount cpus ≤ 2 ^ 64 ∧
    OGrid.run ident (OGrid.new cpus hashO hashL w h) hist = some g

theorem Reachable.wf {ident : O → I} {g : OGrid O I} (h : Reachable ident g) : OWf ident g := by
  obtain ⟨cpus, hashO, hashL, w, hh, hist, hc, hr⟩ := h
  exact (owf_run ident (owf_new hc ident hashO hashL w hh) hist g hr).1

theorem getObjectsUnbuffered_abs {g : OGrid O I} (h : Inv g.loc2objs) (l : Loc) :
    g.getObjectsUnbuffered l = some (nonEmpty ((abs g.loc2objs).write l)) := by
  unfold OGrid.getObjectsUnbuffered
  rw [getWrite_abs h]
  rfl

theorem getObjects_abs {g : OGrid O I} (h : Inv g.loc2objs) (l : Loc) :
    g.getObjects l = some (nonEmpty ((abs g.loc2objs).read l)) := by
  unfold OGrid.getObjects
  rw [getRead_abs h]
  rfl

/-- **C105**, what `remove_object` does in any reachable grid: it panics iff the object has a published location at which no bag
is being written; else the object has no written location any more, it leaves the written bag of its *published* location, and
nothing else changes. What is missing: the written bag of its *written* location, which keeps it. -/
theorem C105_remove_object_partial (ident : O → I) (g : OGrid O I) (hg : Reachable ident g) (o : O) :
    (g.removeObject ident o = none ↔
      ∃ l, g.getLocation ident o = some (some l) ∧ getWrite g.loc2objs l = some none) ∧
    ∀ g', g.removeObject ident o = some g' →
      (∀ x, g'.getLocation ident x = g.getLocation ident x ∧
        g'.getLocationUnbuffered ident x = if ident x = ident o then some none else g.getLocationUnbuffered ident x) ∧
      ∀ l, g'.getObjects l = g.getObjects l ∧ getWrite g'.loc2objs l = if g.getLocation ident o = some (some l) then
        (getWrite g.loc2objs l).map (fun b => b.map (fun b => b.filter (fun x => decide (ident x ≠ ident o))))
        else getWrite g.loc2objs l := by
  have hw := hg.wf
  obtain ⟨h1, h2⟩ := remove_object_sim ident hw o
  have hgl : ∀ x, g.getLocation ident x = some (((abs g.obj2loc).read (ident x)).map Prod.snd) := by
    intro x
    unfold OGrid.getLocation
    rw [getRead_abs hw.invO]
    rfl
  refine ⟨?_, ?_⟩
  · rw [h1, hgl]
    constructor
    · rintro ⟨e, he, hb⟩
      exact ⟨e.2, by rw [he]; rfl, by rw [getWrite_abs hw.invL, hb]⟩
    · rintro ⟨l, hl, hb⟩
      rw [Option.some_inj, Option.map_eq_some_iff] at hl
      obtain ⟨e, he, rfl⟩ := hl
      rw [getWrite_abs hw.invL, Option.some_inj] at hb
      exact ⟨e, he, hb⟩
  · intro g' hg'
    obtain ⟨k1, _, _, k2, k3, k4, k5⟩ := h2 g' hg'
    refine ⟨fun x => ⟨?_, ?_⟩, fun l => ⟨?_, ?_⟩⟩
    · rw [hgl]
      unfold OGrid.getLocation
      rw [getRead_abs k1.invO, k2]
      rfl
    · unfold OGrid.getLocationUnbuffered
      rw [getWrite_abs k1.invO, getWrite_abs hw.invO, k3]
      dsimp only
      split <;> rfl
    · rw [getObjects_abs k1.invL, getObjects_abs hw.invL, k4]
    · rw [getWrite_abs k1.invL, getWrite_abs hw.invL, k5, hgl]
      dsimp only
      simp only [Option.some_inj]
      split <;> rfl

/-- **C105**: right after a `lazy_update`, removing any published object panics. -/
theorem C105_remove_right_after_lazy_update_panics_partial {cpus : Nat} (hc : shardAmount cpus ≤ 2 ^ 64) (ident : O → I)
    (hashO : I → Nat) (hashL : Loc → Nat) (width height : Int) (h : List (POp O)) (hp : ∀ op ∈ h, OPlain op) (o : O) :
    OGrid.run ident (OGrid.new cpus hashO hashL width height) (.remove o :: .lazyUpdate :: h) = none ↔
      ∃ e, e ∈ placements h ∧ ident e.1 = ident o := by
  obtain ⟨g, h1, _, _, h2⟩ := oshows_run ident (oshows_new hc hashO hashL width height) h hp
  have h3 := oshows_lazy h2
  have hr : OGrid.run ident (OGrid.new cpus hashO hashL width height) (.lazyUpdate :: h) = some g.lazyUpdate := by
    rw [OGrid.run, h1]
    rfl
  have hwf := (owf_run ident (owf_new hc ident hashO hashL width height) _ _ hr).1
  rw [OGrid.run, hr, Option.bind_some]
  show g.lazyUpdate.removeObject ident o = none ↔ _
  rw [(remove_object_sim ident hwf o).1, h3.readO, h3.writeL]
  constructor
  · rintro ⟨e, he, _⟩
    exact ⟨e, List.mem_reverse.1 (List.mem_of_find?_eq_some he), latest_ident he⟩
  · rintro ⟨e, he, hid⟩
    cases hf : latest ident (placements h) (ident o) with
    | none =>
      unfold latest at hf
      rw [List.find?_eq_none] at hf
      exact absurd (hf e (List.mem_reverse.2 he)) (by simp [hid])
    | some e' => exact ⟨e', rfl, rfl⟩

/-- **C105** is false: the object moved from (0,0) to (1,1) and removed is still in the bag of (1,1). -/
theorem C105_removed_object_stays_partial :
    ((OGrid.run id (OGrid.new 1 id (fun _ => 0) 4 4)
      [.lazyUpdate, .remove 7, .place 8 ⟨0, 0⟩, .place 7 ⟨1, 1⟩, .lazyUpdate, .place 7 ⟨0, 0⟩] :
      Option (OGrid Nat Nat)).bind (fun g => g.getObjects ⟨1, 1⟩)) = some (some [7]) := by decide +kernel

/-- **C105** is false, the panic: one object, published, removed. -/
theorem C105_panic_partial :
    (OGrid.run id (OGrid.new 1 id (fun _ => 0) 4 4) [.remove 7, .lazyUpdate, .place 7 ⟨0, 0⟩] : Option (OGrid Nat Nat)).isNone =
      true := by decide +kernel

/-- **C105**, where the property holds: if the object was placed since the latest `lazy_update` only where it is published (or
nowhere), and each object once, then after `remove_object` no written bag shows it. -/
theorem C105_removed_if_not_moved_partial (ident : O → I) (g : OGrid O I) (hg : Reachable ident g) (o : O) (g' : OGrid O I)
    (hr : g.removeObject ident o = some g')
    (hstay : ∀ l b x, g.getObjectsUnbuffered l = some (some b) → x ∈ b → ident x = ident o →
      g.getLocation ident o = some (some l)) :
    ∀ l b x, g'.getObjectsUnbuffered l = some (some b) → x ∈ b → ident x ≠ ident o := by
  have hw := hg.wf
  obtain ⟨k1, _, _, k2, k3, k4, k5⟩ := (remove_object_sim ident hw o).2 g' hr
  intro l b x hb hx hid
  have hne : ∀ {m : Option (List O)} {b : List O}, nonEmpty m = some b → m = some b := by
    intro m b h
    unfold nonEmpty at h
    split at h
    · exact absurd h (by simp)
    · exact h
  rw [getObjectsUnbuffered_abs k1.invL, Option.some_inj] at hb
  have hb := hne hb
  rw [k5] at hb
  dsimp only at hb
  split at hb
  · obtain ⟨b', _, rfl⟩ := Option.map_eq_some_iff.1 hb
    exact (of_decide_eq_true (List.mem_filter.1 hx).2) hid
  · rename_i hl
    have hbb : g.getObjectsUnbuffered l = some (some b) := by
      rw [getObjectsUnbuffered_abs hw.invL, hb]
      cases b with
      | nil => cases hx
      | cons y ys => rfl
    have := hstay l b x hbb hx hid
    unfold OGrid.getLocation at this
    rw [getRead_abs hw.invO, Option.map_some, Option.some_inj] at this
    exact hl this

example : Reachable (id : Nat → Nat) (OGrid.new 1 id (fun _ => 0) 4 4 : OGrid Nat Nat) :=
  ⟨1, id, fun _ => 0, 4, 4, [], by decide +kernel, rfl⟩

example : ((OGrid.run id (OGrid.new 1 id (fun _ => 0) 4 4)
      [.remove 7, .place 8 ⟨0, 0⟩, .place 7 ⟨0, 0⟩, .lazyUpdate, .place 7 ⟨0, 0⟩] :
      Option (OGrid Nat Nat)).bind (fun g => g.getObjectsUnbuffered ⟨0, 0⟩)) = some (some [8]) := by decide +kernel

/-! ### C106 -/

/-- **C106**, `apply_to_all_values` on the parallel object grids, in any reachable grid: it never panics, the three options do the
same, no bag changes, no published location changes; and with a closure that keeps the identity, the written object is the closure
of the published one, at the published location, where the closure answers. What is missing: the bags, which keep the old
objects. -/
theorem C106_apply_to_all_values_partial (ident : O → I) (g : OGrid O I) (hg : Reachable ident g) (f : Loc → O → Option O) :
    ∃ g', (∀ opt, g.applyToAllValues ident f opt = some g') ∧ g'.loc2objs = g.loc2objs ∧
      (∀ x, g'.getLocation ident x = g.getLocation ident x ∧ g'.get ident x = g.get ident x) ∧
      ((∀ l o x, f l o = some x → ident x = ident o) → ∀ x o l, g.get ident x = some (some o) →
        g.getLocation ident x = some (some l) →
        g'.lazyUpdate.get ident x = (match f l o with | some y => some (some y) | none => g.lazyUpdate.get ident x) ∧
        g'.lazyUpdate.getLocation ident x =
          (match f l o with | some _ => some (some l) | none => g.lazyUpdate.getLocation ident x)) := by
  have hw := hg.wf
  obtain ⟨g', h1, h2, h3, _, _, h4, h5⟩ := apply_sim ident hw f .READ
  refine ⟨g', ?_, h3, ?_, ?_⟩
  · intro opt
    cases opt <;> exact h1
  · intro x
    unfold OGrid.getLocation OGrid.get
    rw [getRead_abs h2.invO, getRead_abs hw.invO, h4]
    exact ⟨rfl, rfl⟩
  · intro hf x o l ho hl
    have hl1 := (lazyUpdate_sim h2.invO)
    have hl2 := (lazyUpdate_sim hw.invO)
    have hread : (abs g.obj2loc).read (ident x) = some (o, l) := by
      unfold OGrid.get at ho
      unfold OGrid.getLocation at hl
      rw [getRead_abs hw.invO, Option.map_some, Option.some_inj, Option.map_eq_some_iff] at ho hl
      obtain ⟨e, he, rfl⟩ := ho
      obtain ⟨e', he', rfl⟩ := hl
      rw [he] at he'
      injection he' with he'
      subst he'
      exact he
    have hwr : (abs g'.obj2loc).write (ident x) =
        ((f l o).map (fun y => (y, l))).or ((abs g.obj2loc).write (ident x)) := by
      rw [h5, moveObjects_get ident f hf _ _ hw.invO.r.wf_flatten ?_]
      · have : HMap.get g.obj2loc.rShards.flatten (ident x) = some (o, l) := by
          rw [hw.invO.r.get_flatten]
          exact hread
        rw [this]
        rfl
      · intro e he
        refine hw.keyR e.1 e.2 ?_
        have := hw.invO.r.get_flatten e.1
        have h6 := HMap.get_of_mem hw.invO.r.wf_flatten he
        rw [this] at h6
        exact h6
    unfold OGrid.get OGrid.getLocation
    show (getRead (DBDashMap.lazyUpdate g'.obj2loc) _).map _ = _ ∧ (getRead (DBDashMap.lazyUpdate g'.obj2loc) _).map _ = _
    rw [getRead_abs hl1.1, hl1.2]
    dsimp only
    rw [hwr]
    cases f l o with
    | some y => exact ⟨rfl, rfl⟩
    | none =>
      dsimp only [OGrid.lazyUpdate]
      rw [getRead_abs hl2.1, hl2.2]
      exact ⟨rfl, rfl⟩

/-- An object with an identity and a value. -/
abbrev Item := Nat × Nat

/-- **C106** is false: after `apply_to_all_values` and `lazy_update` the bags still hold the old objects (here, after placing
again what `get` gives, the object in the bag of (0,0) before the update has the old value). -/
theorem C106_bags_keep_old_objects_partial :
    ((OGrid.run Prod.fst (OGrid.new 1 id (fun _ => 0) 4 4)
      [.update, .apply (fun _ x => some (x.1, x.2 + 1)) .READWRITE, .update, .place (7, 1) ⟨0, 0⟩] :
      Option (OGrid Item Nat)).bind (fun g => g.getObjects ⟨0, 0⟩)) = some (some [(7, 1)]) ∧
    ((OGrid.run Prod.fst (OGrid.new 1 id (fun _ => 0) 4 4)
      [.update, .apply (fun _ x => some (x.1, x.2 + 1)) .READWRITE, .update, .place (7, 1) ⟨0, 0⟩] :
      Option (OGrid Item Nat)).bind (fun g => g.get Prod.fst (7, 0))) = some (some (7, 2)) := by decide +kernel

example : ∀ (l : Loc) (o x : Item), (fun (_ : Loc) (x : Item) => some (x.1, x.2 + 1)) l o = some x → x.1 = o.1 := by
  intro l o x h
  injection h with h
  rw [← h]

/-! ### C107 -/

/-- The threads of concurrent `set_object_location` calls, before their first step. -/
def startAll (ps : List (O × Loc)) : List (Thread O) := ps.map (fun p => ⟨p.1, p.2, .start⟩)

theorem cinv_start (ident : O → I) {g : OGrid O I} (hg : OWf ident g) (ps : List (O × Loc))
    (hd : (ps.map (fun p => ident p.1)).Nodup) :
    CInv ident (abs g.loc2objs).read (abs g.loc2objs).write (abs g.obj2loc).read (abs g.obj2loc).write ⟨g, startAll ps⟩ := by
  have hpc : ∀ (j : Nat) (t : Thread O), (startAll ps)[j]? = some t → t.pc = .start := by
    intro j t ht
    unfold startAll at ht
    rw [List.getElem?_map, Option.map_eq_some_iff] at ht
    obtain ⟨p, _, rfl⟩ := ht
    rfl
  refine ⟨hg.invO, hg.invL, rfl, rfl, ?_, ?_, ?_, ?_, ?_, ?_, ?_⟩
  · intro j k t u ht hu he
    unfold startAll at ht hu
    rw [List.getElem?_map, Option.map_eq_some_iff] at ht hu
    obtain ⟨p, hp, rfl⟩ := ht
    obtain ⟨q, hq, rfl⟩ := hu
    have h1 : (ps.map (fun p => ident p.1))[j]? = some (ident p.1) := by rw [List.getElem?_map, hp]; rfl
    have h2 : (ps.map (fun p => ident p.1))[k]? = some (ident q.1) := by rw [List.getElem?_map, hq]; rfl
    have hlt : j < (ps.map (fun p => ident p.1)).length := (List.getElem?_eq_some_iff.1 h1).1
    exact (List.getElem?_inj hlt hd).1 (by rw [h1, h2]; exact congrArg some he)
  · intro j t ht hd
    rw [hpc j t ht] at hd
    exact absurd hd (by decide +kernel)
  · intro i _
    rfl
  · intro j t ht hd
    rw [hpc j t ht] at hd
    exact absurd hd (by decide +kernel)
  · intro l b0 hb0
    exact ⟨b0, hb0, fun x hx _ => hx⟩
  · intro j t ht _ hd
    rw [hpc j t ht] at hd
    rcases hd with hd | hd <;> exact absurd hd (by decide +kernel)
  · intro l b x hb hx
    exact Or.inl ⟨b, hb, hx⟩

/-- Every thread makes at least three steps. -/
def Complete (n : Nat) (sched : List Nat) : Prop := ∀ j, j < n → 3 ≤ sched.count j

/-- **C107**, concurrent placements of distinct objects, for every interleaving in which all of them finish: no step panics, the
published side does not change, the written location of every object is right, no object is invented, and the bag of a location
holds every object placed there and all it held before, provided the bag existed before the placements or one object only goes
there. What is missing: two objects placed at a location without a written bag. -/
theorem C107_concurrent_placements_partial (ident : O → I) (g : OGrid O I) (hg : Reachable ident g) (ps : List (O × Loc))
    (hd : (ps.map (fun p => ident p.1)).Nodup) (sched : List Nat) (hs : Complete ps.length sched) :
    ∃ c, Conc.runAll ident ⟨g, startAll ps⟩ sched = some c ∧
      (∀ p ∈ ps, c.grid.getLocationUnbuffered ident p.1 = some (some p.2)) ∧
      (∀ x, ident x ∉ ps.map (fun p => ident p.1) →
        c.grid.getLocationUnbuffered ident x = g.getLocationUnbuffered ident x) ∧
      (∀ l, c.grid.getObjects l = g.getObjects l) ∧ (∀ x, c.grid.getLocation ident x = g.getLocation ident x) ∧
      (∀ l b x, c.grid.getObjectsUnbuffered l = some (some b) → x ∈ b →
        (∃ b0, g.getObjectsUnbuffered l = some (some b0) ∧ x ∈ b0) ∨ (x, l) ∈ ps) ∧
      (∀ p ∈ ps, (getWrite g.loc2objs p.2 ≠ some none ∨ ∀ q ∈ ps, q.2 = p.2 → q = p) →
        ∃ b, c.grid.getObjectsUnbuffered p.2 = some (some b) ∧ p.1 ∈ b) ∧
      (∀ l b0 x, g.getObjectsUnbuffered l = some (some b0) → x ∈ b0 → ident x ∉ ps.map (fun p => ident p.1) →
        ∃ b, c.grid.getObjectsUnbuffered l = some (some b) ∧ x ∈ b) := by
  have hw := hg.wf
  obtain ⟨c, h1, h2⟩ := cinv_run ident sched (cinv_start ident hw ps hd)
  have hth := run_threads ident sched h1
  have hth' : c.threads.map (fun t => (t.object, t.loc)) = ps := by
    rw [hth]
    show (startAll ps).map _ = ps
    unfold startAll
    rw [List.map_map]
    exact List.map_id ps
  have hfin := run_finishes ident sched h1 (by
    intro j t ht
    have ht' : (startAll ps)[j]? = some t := ht
    unfold startAll at ht'
    rw [List.getElem?_map, Option.map_eq_some_iff] at ht'
    obtain ⟨p, hp, rfl⟩ := ht'
    exact hs j (List.getElem?_eq_some_iff.1 hp).1)
  have thread : ∀ p ∈ ps, ∃ (j : Nat) (t : Thread O), c.threads[j]? = some t ∧ t.object = p.1 ∧ t.loc = p.2 := by
    intro p hp
    rw [← hth'] at hp
    obtain ⟨t, ht, rfl⟩ := List.mem_map.1 hp
    obtain ⟨j, hj⟩ := List.mem_iff_getElem?.1 ht
    exact ⟨j, t, hj, rfl, rfl⟩
  have thread' : ∀ (j : Nat) (t : Thread O), c.threads[j]? = some t → (t.object, t.loc) ∈ ps := by
    intro j t ht
    rw [← hth']
    exact List.mem_map.2 ⟨t, List.mem_iff_getElem?.2 ⟨j, ht⟩, rfl⟩
  have vis : ∀ {m : Option (List O)} {b : List O}, nonEmpty m = some b → m = some b := by
    intro m b h
    unfold nonEmpty at h
    split at h
    · exact absurd h (by simp)
    · exact h
  have vis' : ∀ {b : List O} {x : O}, x ∈ b → nonEmpty (some b) = some b := by
    intro b x hx
    cases b with
    | nil => cases hx
    | cons y ys => rfl
  refine ⟨c, h1, ?_, ?_, ?_, ?_, ?_, ?_, ?_⟩
  · intro p hp
    obtain ⟨j, t, ht, ho, hl⟩ := thread p hp
    have := h2.locDone j t ht (hfin j t ht)
    unfold OGrid.getLocationUnbuffered
    rw [getWrite_abs h2.invO, ← ho, this, ← hl]
    rfl
  · intro x hx
    unfold OGrid.getLocationUnbuffered
    rw [getWrite_abs h2.invO, getWrite_abs hw.invO, h2.locOther (ident x)]
    intro j t ht _ he
    exact hx (List.mem_map.2 ⟨_, thread' j t ht, he⟩)
  · intro l
    rw [getObjects_abs h2.invL, getObjects_abs hw.invL, h2.readL]
  · intro x
    unfold OGrid.getLocation
    rw [getRead_abs h2.invO, getRead_abs hw.invO, h2.readO]
  · intro l b x hb hx
    rw [getObjectsUnbuffered_abs h2.invL, Option.some_inj] at hb
    rcases h2.bagOnly l b x (vis hb) hx with ⟨b0, hb0, hx0⟩ | ⟨j, t, ht, hl, ho⟩
    · left
      refine ⟨b0, ?_, hx0⟩
      rw [getObjectsUnbuffered_abs hw.invL, hb0, vis' hx0]
    · right
      have := thread' j t ht
      rw [hl, ho] at this
      exact this
  · intro p hp hsafe
    obtain ⟨j, t, ht, ho, hl⟩ := thread p hp
    have hsf : Safe (abs g.loc2objs).write c.threads t.loc := by
      rcases hsafe with h | h
      · left
        rw [hl]
        cases hb : (abs g.loc2objs).write p.2 with
        | none =>
          rw [getWrite_abs hw.invL, hb] at h
          exact absurd rfl h
        | some b => exact ⟨b, rfl⟩
      · right
        intro i k u v hu hv hlu hlv
        have e1 := h _ (thread' i u hu) (hlu.trans hl)
        have e2 := h _ (thread' k v hv) (hlv.trans hl)
        refine h2.distinct i k u v hu hv ?_
        have e3 : (u.object, u.loc) = (v.object, v.loc) := e1.trans e2.symm
        injection e3 with e3
        rw [e3]
    obtain ⟨b, hb, hm⟩ := h2.bagDone j t ht hsf (Or.inr (hfin j t ht))
    refine ⟨b, ?_, by rw [← ho]; exact hm⟩
    rw [getObjectsUnbuffered_abs h2.invL, ← hl, hb, vis' hm]
  · intro l b0 x hb0 hx hni
    rw [getObjectsUnbuffered_abs hw.invL, Option.some_inj] at hb0
    obtain ⟨b, hb, hall⟩ := h2.bagKept l b0 (vis hb0)
    have hm := hall x hx (by
      intro j t ht he
      exact hni (List.mem_map.2 ⟨_, thread' j t ht, he⟩))
    refine ⟨b, ?_, hm⟩
    rw [getObjectsUnbuffered_abs h2.invL, hb, vis' hm]

/-- **C107** is false: two threads place the objects 1 and 2 at the same new location; both find no bag, and the second insert
replaces the bag of the first. -/
theorem C107_lost_object_partial :
    ((Conc.runAll id ⟨OGrid.new 1 id (fun _ => 0) 4 4, startAll [(1, ⟨0, 0⟩), (2, ⟨0, 0⟩)]⟩ [0, 1, 0, 1, 0, 1, 0, 1] :
      Option (Conc Nat Nat)).bind (fun c => c.grid.getObjectsUnbuffered ⟨0, 0⟩)) = some (some [2]) ∧
    ((Conc.runAll id ⟨OGrid.new 1 id (fun _ => 0) 4 4, startAll [(1, ⟨0, 0⟩), (2, ⟨0, 0⟩)]⟩ [0, 1, 0, 1, 0, 1, 0, 1] :
      Option (Conc Nat Nat)).bind (fun c => c.grid.getLocationUnbuffered id 1)) = some (some ⟨0, 0⟩) ∧
    Complete 2 [0, 1, 0, 1, 0, 1] := by
  refine ⟨by decide +kernel, by decide +kernel, ?_⟩
  intro j hj
  rcases (by omega : j = 0 ∨ j = 1) with rfl | rfl <;> decide

example : (([(1, ⟨0, 0⟩), (2, ⟨0, 1⟩)] : List (Nat × Loc)).map (fun p => (id p.1 : Nat))).Nodup ∧
    ∀ p ∈ ([(1, ⟨0, 0⟩), (2, ⟨0, 1⟩)] : List (Nat × Loc)), ∀ q ∈ ([(1, ⟨0, 0⟩), (2, ⟨0, 1⟩)] : List (Nat × Loc)),
      q.2 = p.2 → q = p := by decide +kernel

/-! ### C108 -/

theorem emptyBags_filter {db : DB Loc (List O)} (hi : Inv db) (cs : List Loc) :
    emptyBags db cs = some (cs.filter (fun c => ((abs db).read c).isNone)) := by
  induction cs with
  | nil => rfl
  | cons c cs ih =>
    unfold emptyBags
    rw [getRead_abs hi, Option.bind_some, ih]
    cases hb : (abs db).read c <;> simp [hb]

theorem mem_cells' (w h : Int) (l : Loc) : l ∈ cells w h ↔ InRange w h l := mem_cells

/-- **C108**, after any program of placements, updates and lazy updates: `get_empty_bags` lists exactly the cells where nothing
is published, each once, and `get_random_empty_bag` answers the first location drawn where nothing is published. What is missing:
programs that remove objects. -/
theorem C108_empty_bags_partial {cpus : Nat} (hc : shardAmount cpus ≤ 2 ^ 64) (ident : O → I) (hashO : I → Nat)
    (hashL : Loc → Nat) (width height : Int) (h : List (POp O)) (hp : ∀ op ∈ h, OPlain op) :
    ∃ g es, OGrid.run ident (OGrid.new cpus hashO hashL width height) h = some g ∧ g.getEmptyBags = some es ∧ es.Nodup ∧
      (∀ l, l ∈ es ↔ InRange width height l ∧ publishedAt h l = []) ∧
      ∀ draws, g.getRandomEmptyBag draws =
        if width ≤ 0 ∨ height ≤ 0 then .panic
        else match draws.find? (fun d => (publishedAt h d).isEmpty) with
          | none => .looping
          | some d => .returned (some d) := by
  obtain ⟨g, h1, hw, hh, h2⟩ := oshows_run ident (oshows_new hc hashO hashL width height) h hp
  have hw' : g.width = width := hw
  have hh' : g.height = height := hh
  have hnone : ∀ l, ((abs g.loc2objs).read l).isNone = (publishedAt h l).isEmpty := by
    intro l
    rw [h2.readL]
    dsimp only
    unfold heldBag
    by_cases he : publishedAt h l = []
    · rw [if_pos he, he]; rfl
    · rw [if_neg he]
      cases hq : publishedAt h l with
      | nil => exact absurd hq he
      | cons a as => rfl
  refine ⟨g, (cells width height).filter (fun c => ((abs g.loc2objs).read c).isNone), h1, ?_, ?_, ?_, ?_⟩
  · unfold OGrid.getEmptyBags
    rw [emptyBags_filter h2.invL, hw', hh']
  · exact (nodup_cells width height).filter _
  · intro l
    rw [List.mem_filter, mem_cells', hnone, List.isEmpty_iff]
  · intro draws
    unfold OGrid.getRandomEmptyBag
    rw [hw', hh']
    split
    · rfl
    · induction draws with
      | nil => rfl
      | cons d ds ih =>
        unfold randomLoop
        rw [getRead_abs h2.invL]
        have := hnone d
        cases hb : (abs g.loc2objs).read d with
        | none =>
          rw [hb] at this
          rw [List.find?_cons_of_pos (by rw [← this]; rfl)]
        | some b =>
          rw [hb] at this
          rw [List.find?_cons_of_neg (by rw [← this]; simp)]
          exact ih

/-- **C108**, in any reachable grid, removals included: every cell listed is in range and shows no objects, each is listed
once; an empty cell is left out exactly if it shows a bag without objects. A location returned by `get_random_empty_bag` was
drawn and shows no objects, and the search goes on exactly if all the locations drawn so far show a bag. -/
theorem C108_listed_exactly_partial (ident : O → I) (g : OGrid O I) (hg : Reachable ident g) :
    (∃ es, g.getEmptyBags = some es ∧ es.Nodup ∧
      (∀ l ∈ es, InRange g.width g.height l ∧ g.getObjects l = some none) ∧
      (∀ l, InRange g.width g.height l → g.getObjects l = some none →
        (l ∉ es ↔ getRead g.loc2objs l = some (some [])))) ∧
    (∀ draws d, g.getRandomEmptyBag draws = .returned (some d) → d ∈ draws ∧ g.getObjects d = some none) ∧
    (0 < g.width → 0 < g.height → ∀ draws, g.getRandomEmptyBag draws = .looping ↔
      ∀ d ∈ draws, ∃ bag, getRead g.loc2objs d = some (some bag)) := by
  have hi := hg.wf.invL
  refine ⟨⟨(cells g.width g.height).filter (fun c => ((abs g.loc2objs).read c).isNone), emptyBags_filter hi _,
    (nodup_cells _ _).filter _, ?_, ?_⟩, ?_, ?_⟩
  · intro l hl
    rw [List.mem_filter, mem_cells', Option.isNone_iff_eq_none] at hl
    refine ⟨hl.1, ?_⟩
    rw [getObjects_abs hi, hl.2]
    rfl
  · intro l hl ho
    rw [List.mem_filter, mem_cells', Option.isNone_iff_eq_none, getRead_abs hi, Option.some.injEq]
    rw [getObjects_abs hi, Option.some.injEq] at ho
    cases hq : (abs g.loc2objs).read l with
    | none => simp [hl]
    | some b =>
      rw [hq] at ho
      cases b with
      | nil => simp
      | cons x xs => simp [nonEmpty] at ho
  · intro draws d hd
    unfold OGrid.getRandomEmptyBag at hd
    by_cases hw : g.width ≤ 0 ∨ g.height ≤ 0
    · rw [if_pos hw] at hd; cases hd
    · rw [if_neg hw] at hd
      induction draws with
      | nil => cases hd
      | cons x xs ih =>
        unfold randomLoop at hd
        rw [getRead_abs hi] at hd
        cases hb : (abs g.loc2objs).read x with
        | none =>
          rw [hb] at hd
          simp only [Draw.returned.injEq, Option.some.injEq] at hd
          refine ⟨by rw [hd]; simp, ?_⟩
          rw [getObjects_abs hi, ← hd, hb]
          rfl
        | some b =>
          rw [hb] at hd
          exact ⟨List.mem_cons_of_mem _ (ih hd).1, (ih hd).2⟩
  · intro h1 h2 draws
    unfold OGrid.getRandomEmptyBag
    rw [if_neg (by omega)]
    induction draws with
    | nil => simp [randomLoop]
    | cons x xs ih =>
      unfold randomLoop
      rw [List.forall_mem_cons, ← ih, getRead_abs hi]
      cases hb : (abs g.loc2objs).read x with
      | none => simp
      | some b => simp

/-- **C108** is false after a removal: the bag of (0,0) is empty (`get_objects` answers None) but is not listed. -/
theorem C108_emptied_bag_not_listed_partial :
    ((OGrid.run id (OGrid.new 1 id (fun _ => 0) 2 1)
      [.lazyUpdate, .remove 7, .place 7 ⟨0, 0⟩, .lazyUpdate, .place 7 ⟨0, 0⟩] :
      Option (OGrid Nat Nat)).bind (fun g => g.getObjects ⟨0, 0⟩)) = some none ∧
    ((OGrid.run id (OGrid.new 1 id (fun _ => 0) 2 1)
      [.lazyUpdate, .remove 7, .place 7 ⟨0, 0⟩, .lazyUpdate, .place 7 ⟨0, 0⟩] :
      Option (OGrid Nat Nat)).bind (fun g => g.getEmptyBags)) = some [⟨1, 0⟩] := by decide +kernel

example : ((OGrid.run id (OGrid.new 1 id (fun _ => 0) 2 1) [.lazyUpdate, .place 7 ⟨0, 0⟩] :
      Option (OGrid Nat Nat)).bind (fun g => g.getEmptyBags)) = some [⟨1, 0⟩] := by decide +kernel

end Verif.ParGrid
