import Verif.Spec.Hashes
import Verif.Props.ParField2D
import Verif.Props.ParGrid

/-!
Under the feature `parallel` the random keys of the hasher, the number of processors and the names of the objects do not matter (C257).
-/

namespace Verif.ParGrid

open Grid DBDashMap

variable {T O P I J V V' : Type} [DecidableEq I] [DecidableEq J]

/-- Two plain maps with the same entries, up to the names. -/
structure MRel (ident : O → I) (ident' : P → J) (φ : O → P) (g : V → V') (m : I → Option V) (m' : J → Option V') : Prop where
  same : ∀ o, m' (ident' (φ o)) = (m (ident o)).map g
  old : ∀ i, m i ≠ none → ∃ o, ident o = i
  new : ∀ j, m' j ≠ none → ∃ o, ident' (φ o) = j

section
variable {ident : O → I} {ident' : P → J} {φ : O → P} {g : V → V'} {m w : I → Option V} {m' w' : J → Option V'}

omit [DecidableEq I] [DecidableEq J] in
theorem MRel.none : MRel ident ident' φ g (fun _ => (Option.none : Option V)) (fun _ => (Option.none : Option V')) :=
  ⟨fun _ => rfl, fun _ h => absurd rfl h, fun _ h => absurd rfl h⟩

theorem MRel.set (hn : Names ident ident' φ) (h : MRel ident ident' φ g m m') (o : O) (v : Option V) :
    MRel ident ident' φ g (fun i => if i = ident o then v else m i) (fun j => if j = ident' (φ o) then v.map g else m' j) := by
  refine ⟨fun a => ?_, fun i hi => ?_, fun j hj => ?_⟩
  · by_cases ha : ident a = ident o
    · rw [if_pos ha, if_pos ((hn a o).2 ha)]
    · rw [if_neg ha, if_neg (fun hc => ha ((hn a o).1 hc)), h.same]
  · by_cases ha : i = ident o
    · exact ⟨o, ha.symm⟩
    · rw [if_neg ha] at hi; exact h.old i hi
  · by_cases ha : j = ident' (φ o)
    · exact ⟨o, ha.symm⟩
    · rw [if_neg ha] at hj; exact h.new j hj

omit [DecidableEq I] [DecidableEq J] in
theorem MRel.or (h : MRel ident ident' φ g m m') (k : MRel ident ident' φ g w w') :
    MRel ident ident' φ g (fun i => (w i).or (m i)) (fun j => (w' j).or (m' j)) := by
  refine ⟨fun a => ?_, fun i hi => ?_, fun j hj => ?_⟩
  · rw [k.same, h.same]; cases w (ident a) <;> rfl
  · cases hw : w i with
    | some x => exact k.old i (by rw [hw]; simp)
    | none => rw [hw] at hi; exact h.old i hi
  · cases hw : w' j with
    | some x => exact k.new j (by rw [hw]; simp)
    | none => rw [hw] at hj; exact h.new j hj

omit [DecidableEq I] [DecidableEq J] in
/-- Equally many entries. -/
theorem MRel.size (hn : Names ident ident' φ) (h : MRel ident ident' φ g m m') {a b : Nat} (ha : HasSize m a) (hb : HasSize m' b) :
    a = b := by
  obtain ⟨l, l1, l2, rfl⟩ := ha
  obtain ⟨l', k1, k2, rfl⟩ := hb
  have hos : ∃ os : List O, os.map ident = l := by
    have hall : ∀ i ∈ l, ∃ o, ident o = i := fun i hi => h.old i ((l2 i).1 hi)
    clear l1 l2 h
    induction l with
    | nil => exact ⟨[], rfl⟩
    | cons i l ih =>
      obtain ⟨os, rfl⟩ := ih (fun i hi => hall i (List.mem_cons_of_mem _ hi))
      obtain ⟨o, rfl⟩ := hall i List.mem_cons_self
      exact ⟨o :: os, rfl⟩
  obtain ⟨os, rfl⟩ := hos
  have hnd : (os.map (fun o => ident' (φ o))).Nodup := by
    rw [List.Nodup, List.pairwise_map] at l1 ⊢
    exact l1.imp (fun hab hc => hab ((hn _ _).1 hc))
  have hmem : ∀ j, j ∈ os.map (fun o => ident' (φ o)) ↔ j ∈ l' := by
    intro j
    rw [k2]
    constructor
    · intro hj
      obtain ⟨o, ho, rfl⟩ := List.mem_map.1 hj
      have := (l2 (ident o)).1 (List.mem_map_of_mem ho)
      rw [h.same]
      simpa using this
    · intro hj
      obtain ⟨o, rfl⟩ := h.new j hj
      rw [h.same] at hj
      have : ident o ∈ os.map ident := (l2 _).2 (by simpa using hj)
      obtain ⟨o', ho', he⟩ := List.mem_map.1 this
      exact List.mem_map.2 ⟨o', ho', (hn o' o).2 he⟩
  have hp := (List.perm_ext_iff_of_nodup hnd k1).2 hmem
  rw [← hp.length_eq, List.length_map, List.length_map]
end

/-! ### Number grids -/

theorem nsame_exec {g g' : NGrid T} {r w : Loc → Option T} (h : NShows g r w) (h' : NShows g' r w) (op : NOp T) :
    ∃ k k' r' w', g.exec op = some k ∧ g'.exec op = some k' ∧ NShows k r' w' ∧ NShows k' r' w' := by
  obtain ⟨k, e, _, _, s⟩ := nshows_exec h op
  obtain ⟨k', e', _, _, s'⟩ := nshows_exec h' op
  cases op with
  | set v l => exact ⟨k, k', _, _, e, e', s, s'⟩
  | update => exact ⟨k, k', _, _, e, e', s, s'⟩
  | lazyUpdate => exact ⟨k, k', _, _, e, e', s, s'⟩
  | apply f o => cases o <;> exact ⟨k, k', _, _, e, e', s, s'⟩

theorem nsame_run {g0 g0' : NGrid T} {r0 w0 : Loc → Option T} (h0 : NShows g0 r0 w0) (h0' : NShows g0' r0 w0) (h : List (NOp T)) :
    ∃ g g' r w, NGrid.run g0 h = some g ∧ NGrid.run g0' h = some g' ∧ NShows g r w ∧ NShows g' r w := by
  induction h with
  | nil => exact ⟨g0, g0', r0, w0, rfl, rfl, h0, h0'⟩
  | cons op h ih =>
    obtain ⟨g, g', r, w, e, e', s, s'⟩ := ih
    obtain ⟨k, k', r', w', a, a', b, b'⟩ := nsame_exec s s' op
    exact ⟨k, k', r', w', by rw [NGrid.run, e]; exact a, by rw [NGrid.run, e']; exact a', b, b'⟩

/-- **C257**, number grids: after any program, closures included, two grids with different hash functions and numbers of processors
answer alike. -/
theorem C257_number_grids_partial {cpus cpus' : Nat} (hc : shardAmount cpus ≤ 2 ^ 64) (hc' : shardAmount cpus' ≤ 2 ^ 64)
    (hash hash' : Loc → Nat) (width height : Int) (h : List (NOp T)) :
    (∃ g g', NGrid.run (NGrid.newDense cpus hash width height) h = some g ∧
      NGrid.run (NGrid.newDense cpus' hash' width height) h = some g' ∧ g.Alike g') ∧
    ∃ g g', NGrid.run (NGrid.newSparse cpus hash width height) h = some g ∧
      NGrid.run (NGrid.newSparse cpus' hash' width height) h = some g' ∧ g.Alike g' := by
  have fin : ∀ {g g' : NGrid T} {r w : Loc → Option T}, NShows g r w → NShows g' r w → g.Alike g' := by
    intro g g' r w s s'
    refine ⟨fun l => ?_, fun l => ?_⟩
    · unfold NGrid.getValue; rw [getRead_abs s.inv, getRead_abs s'.inv, s.read, s'.read]
    · unfold NGrid.getValueUnbuffered; rw [getWrite_abs s.inv, getWrite_abs s'.inv, s.write, s'.write]
  obtain ⟨g, g', r, w, e, e', s, s'⟩ := nsame_run (nshows_new (T := T) hc hash width height).1 (nshows_new hc' hash' width height).1 h
  obtain ⟨k, k', r', w', a, a', b, b'⟩ :=
    nsame_run (nshows_new (T := T) hc hash width height).2 (nshows_new hc' hash' width height).2 h
  exact ⟨⟨g, g', e, e', fin s s'⟩, ⟨k, k', a, a', fin b b'⟩⟩

/-! ### Object grids -/

/-- Two grids that hold the same, up to the names. -/
structure ORel (ident : O → I) (ident' : P → J) (φ : O → P) (g : OGrid O I) (g' : OGrid P J) : Prop where
  wf : OWf ident g
  wf' : OWf ident' g'
  width : g'.width = g.width
  height : g'.height = g.height
  readO : MRel ident ident' φ (fun e : O × Loc => (φ e.1, e.2)) (abs g.obj2loc).read (abs g'.obj2loc).read
  writeO : MRel ident ident' φ (fun e : O × Loc => (φ e.1, e.2)) (abs g.obj2loc).write (abs g'.obj2loc).write
  readL : ∀ l, (abs g'.loc2objs).read l = ((abs g.loc2objs).read l).map (List.map φ)
  writeL : ∀ l, (abs g'.loc2objs).write l = ((abs g.loc2objs).write l).map (List.map φ)

section
variable {ident : O → I} {ident' : P → J} {φ : O → P}

theorem filter_names (hn : Names ident ident' φ) (o : O) (b : List O) :
    (b.map φ).filter (fun x => decide (ident' x ≠ ident' (φ o))) = (b.filter (fun x => decide (ident x ≠ ident o))).map φ := by
  rw [List.filter_map]
  congr 1
  apply List.filter_congr
  intro x _
  simp only [Function.comp, decide_eq_decide]
  exact not_congr (hn x o)

theorem push_names (hn : Names ident ident' φ) (o : O) (b : List O) :
    pushObject ident' (φ o) (b.map φ) = (pushObject ident o b).map φ := by
  unfold pushObject
  rw [filter_names hn, List.map_append]
  rfl

theorem keyed_flatten {ident : O → I} {g : OGrid O I} (hw : OWf ident g) : ∀ e ∈ g.obj2loc.rShards.flatten, ident e.2.1 = e.1 := by
  intro e he
  refine hw.keyR e.1 e.2 ?_
  have h6 := HMap.get_of_mem hw.invO.r.wf_flatten he
  rw [hw.invO.r.get_flatten e.1] at h6
  exact h6

/-- What a closure that keeps identities does to the written places. -/
theorem apply_write {ident : O → I} {g g' : OGrid O I} (hw : OWf ident g) {f : Loc → O → Option O} (hf : KeepsIdentity ident f)
    (h : (abs g'.obj2loc).write = g.obj2loc.rShards.flatten.foldl (moveObject ident f) (abs g.obj2loc).write) (i : I) :
    (abs g'.obj2loc).write i =
      (((abs g.obj2loc).read i).bind (fun e => (f e.2 e.1).map (fun x => (x, e.2)))).or ((abs g.obj2loc).write i) := by
  rw [h, moveObjects_get ident f hf _ _ hw.invO.r.wf_flatten (keyed_flatten hw), hw.invO.r.get_flatten]
  rfl

theorem orel_exec (hn : Names ident ident' φ) {g : OGrid O I} {g' : OGrid P J} (h : ORel ident ident' φ g g') {op : POp O} {op' : POp P}
    (hop : op.Renamed ident ident' φ op') : Both (ORel ident ident' φ) (g.exec ident op) (g'.exec ident' op') := by
  cases hop with
  | place o l =>
    obtain ⟨k, e, w1, h1, s⟩ := oshows_place ident (oshows_self h.wf.invO h.wf.invL) o l
    obtain ⟨k', e', w1', h1', s'⟩ := oshows_place ident' (oshows_self h.wf'.invO h.wf'.invL) (φ o) l
    have wk := owf_exec ident h.wf (.place o l) e
    have wk' := owf_exec ident' h.wf' (.place (φ o) l) e'
    show Both _ (g.setObjectLocation ident o l) (g'.setObjectLocation ident' (φ o) l)
    rw [e, e']
    refine ⟨wk.1, wk'.1, by rw [w1, w1', h.width], by rw [h1, h1', h.height], ?_, ?_, ?_, ?_⟩
    · rw [s.readO, s'.readO]; exact h.readO
    · rw [s.writeO, s'.writeO]; exact h.writeO.set hn o (some (o, l))
    · intro c; rw [s.readL, s'.readL]; exact h.readL c
    · intro c
      rw [s.writeL, s'.writeL]
      dsimp only
      by_cases hcl : c = l
      · rw [if_pos hcl, if_pos hcl, h.writeL, Option.map_some]
        congr 1
        rw [← push_names hn]
        cases (abs g.loc2objs).write l <;> rfl
      · rw [if_neg hcl, if_neg hcl, h.writeL]
  | remove o =>
    obtain ⟨a, b⟩ := remove_object_sim ident h.wf o
    obtain ⟨a', b'⟩ := remove_object_sim ident' h.wf' (φ o)
    show Both _ (g.removeObject ident o) (g'.removeObject ident' (φ o))
    have hiff : g.removeObject ident o = none ↔ g'.removeObject ident' (φ o) = none := by
      rw [a, a', h.readO.same]
      constructor
      · rintro ⟨e, e1, e2⟩
        exact ⟨(φ e.1, e.2), by rw [e1]; rfl, by rw [h.writeL, e2]; rfl⟩
      · rintro ⟨e, e1, e2⟩
        obtain ⟨x, x1, x2⟩ := Option.map_eq_some_iff.1 e1
        refine ⟨x, x1, ?_⟩
        rw [h.writeL, ← x2] at e2
        simpa using e2
    cases hr : g.removeObject ident o with
    | none => rw [hiff.1 hr]; trivial
    | some k =>
      cases hr' : g'.removeObject ident' (φ o) with
      | none => exact absurd (hiff.2 hr') (by rw [hr]; simp)
      | some k' =>
        obtain ⟨c1, c2, c3, c4, c5, c6, c7⟩ := b k hr
        obtain ⟨d1, d2, d3, d4, d5, d6, d7⟩ := b' k' hr'
        refine ⟨c1, d1, by rw [d2, c2, h.width], by rw [d3, c3, h.height], ?_, ?_, ?_, ?_⟩
        · rw [c4, d4]; exact h.readO
        · rw [c5, d5]; exact h.writeO.set hn o none
        · intro l; rw [c6, d6]; exact h.readL l
        · intro l
          rw [c7, d7]
          dsimp only
          have hpl : ((abs g'.obj2loc).read (ident' (φ o))).map Prod.snd = ((abs g.obj2loc).read (ident o)).map Prod.snd := by
            rw [h.readO.same]; cases (abs g.obj2loc).read (ident o) <;> rfl
          rw [hpl, h.writeL]
          by_cases hl : ((abs g.obj2loc).read (ident o)).map Prod.snd = some l
          · rw [if_pos hl, if_pos hl]
            cases (abs g.loc2objs).write l with
            | none => rfl
            | some x => exact congrArg some (filter_names hn o x)
          · rw [if_neg hl, if_neg hl]
  | removeAt o l =>
    obtain ⟨k, e, c1, c2, c3, c4, c5, c6⟩ := removeAt_sim ident h.wf o l
    obtain ⟨k', e', d1, d2, d3, d4, d5, d6⟩ := removeAt_sim ident' h.wf' (φ o) l
    show Both _ (g.removeObjectLocation ident o l) (g'.removeObjectLocation ident' (φ o) l)
    rw [e, e']
    refine ⟨c1, d1, by rw [d2, c2, h.width], by rw [d3, c3, h.height], ?_, ?_, ?_, ?_⟩
    · rw [c4, d4]; exact h.readO
    · rw [c4, d4]; exact h.writeO
    · intro c; rw [c5, d5]; exact h.readL c
    · intro c
      rw [c6, d6]
      dsimp only
      rw [h.writeL, h.writeL]
      by_cases hcl : c = l
      · rw [if_pos hcl, if_pos hcl]
        cases (abs g.loc2objs).write l with
        | none => rfl
        | some x => exact congrArg some (filter_names hn o x)
      · rw [if_neg hcl, if_neg hcl]
  | update =>
    have s := oshows_update (oshows_self h.wf.invO h.wf.invL)
    have s' := oshows_update (oshows_self h.wf'.invO h.wf'.invL)
    have wk := owf_exec ident h.wf .update rfl
    have wk' := owf_exec ident' h.wf' .update rfl
    refine ⟨wk.1, wk'.1, h.width, h.height, ?_, ?_, ?_, ?_⟩
    · rw [s.readO, s'.readO]; exact h.readO.or h.writeO
    · rw [s.writeO, s'.writeO]; exact h.writeO
    · intro l
      rw [s.readL, s'.readL]
      dsimp only
      rw [h.readL, h.writeL]
      cases (abs g.loc2objs).write l <;> rfl
    · intro l; rw [s.writeL, s'.writeL]; exact h.writeL l
  | lazyUpdate =>
    have s := oshows_lazy (oshows_self h.wf.invO h.wf.invL)
    have s' := oshows_lazy (oshows_self h.wf'.invO h.wf'.invL)
    have wk := owf_exec ident h.wf .lazyUpdate rfl
    have wk' := owf_exec ident' h.wf' .lazyUpdate rfl
    refine ⟨wk.1, wk'.1, h.width, h.height, ?_, ?_, ?_, ?_⟩
    · rw [s.readO, s'.readO]; exact h.writeO
    · rw [s.writeO, s'.writeO]; exact MRel.none
    · intro l; rw [s.readL, s'.readL]; exact h.writeL l
    · intro l; rw [s.writeL, s'.writeL]; rfl
  | apply f f' opt same keeps keeps' =>
    obtain ⟨k, e, c1, c2, c3, c4, c5, c6⟩ := apply_sim ident h.wf f opt
    obtain ⟨k', e', d1, d2, d3, d4, d5, d6⟩ := apply_sim ident' h.wf' f' opt
    show Both _ (g.applyToAllValues ident f opt) (g'.applyToAllValues ident' f' opt)
    rw [e, e']
    refine ⟨c1, d1, by rw [d3, c3, h.width], by rw [d4, c4, h.height], ?_, ?_, ?_, ?_⟩
    · rw [c5, d5]; exact h.readO
    · have e1 : (abs k.obj2loc).write = fun i =>
          (((abs g.obj2loc).read i).bind (fun e => (f e.2 e.1).map (fun x => (x, e.2)))).or ((abs g.obj2loc).write i) :=
        funext (apply_write h.wf keeps c6)
      have e2 : (abs k'.obj2loc).write = fun i =>
          (((abs g'.obj2loc).read i).bind (fun e => (f' e.2 e.1).map (fun x => (x, e.2)))).or ((abs g'.obj2loc).write i) :=
        funext (apply_write h.wf' keeps' d6)
      rw [e1, e2]
      refine MRel.or h.writeO ⟨fun o => ?_, fun i hi => ?_, fun j hj => ?_⟩
      · rw [h.readO.same]
        cases (abs g.obj2loc).read (ident o) with
        | none => rfl
        | some x =>
          dsimp only [Option.map_some, Option.bind_some]
          rw [same]
          cases f x.2 x.1 <;> rfl
      · refine h.readO.old i (fun hc => hi ?_)
        rw [hc]; rfl
      · refine h.readO.new j (fun hc => hj ?_)
        rw [hc]; rfl
    · intro l; rw [c2, d2]; exact h.readL l
    · intro l; rw [c2, d2]; exact h.writeL l

theorem orel_run (hn : Names ident ident' φ) {g0 : OGrid O I} {g0' : OGrid P J} (h0 : ORel ident ident' φ g0 g0') {h : List (POp O)}
    {h' : List (POp P)} (hr : List.Forall₂ (POp.Renamed ident ident' φ) h h') :
    Both (ORel ident ident' φ) (OGrid.run ident g0 h) (OGrid.run ident' g0' h') := by
  induction hr with
  | nil => exact h0
  | @cons op op' h h' hop _ ih =>
    rw [OGrid.run, OGrid.run]
    cases e : OGrid.run ident g0 h with
    | none =>
      cases e' : OGrid.run ident' g0' h' with
      | none => trivial
      | some k' => rw [e, e'] at ih; exact ih.elim
    | some k =>
      cases e' : OGrid.run ident' g0' h' with
      | none => rw [e, e'] at ih; exact ih.elim
      | some k' => rw [e, e'] at ih; exact orel_exec hn ih hop

theorem orel_alike (hn : Names ident ident' φ) {g : OGrid O I} {g' : OGrid P J} (h : ORel ident ident' φ g g') :
    g.Alike ident ident' φ g' := by
  have hread : ∀ l, ((abs g'.loc2objs).read l).isNone = ((abs g.loc2objs).read l).isNone := by
    intro l; rw [h.readL]; cases (abs g.loc2objs).read l <;> rfl
  refine ⟨fun o => ?_, fun o => ?_, fun o => ?_, fun o => ?_, fun l => ?_, fun l => ?_, ?_, fun draws => ?_, ?_⟩
  · unfold OGrid.get
    rw [getRead_abs h.wf.invO, getRead_abs h.wf'.invO, h.readO.same]
    cases (abs g.obj2loc).read (ident o) <;> rfl
  · unfold OGrid.getLocation
    rw [getRead_abs h.wf.invO, getRead_abs h.wf'.invO, h.readO.same]
    cases (abs g.obj2loc).read (ident o) <;> rfl
  · unfold OGrid.getLocationUnbuffered
    rw [getWrite_abs h.wf.invO, getWrite_abs h.wf'.invO, h.writeO.same]
    cases (abs g.obj2loc).write (ident o) <;> rfl
  · unfold OGrid.getUnbuffered
    rw [getWrite_abs h.wf.invO, getWrite_abs h.wf'.invO, h.writeO.same, Option.bind_some, Option.bind_some]
    cases (abs g.obj2loc).write (ident o) with
    | none => rfl
    | some e =>
      dsimp only [Option.map_some]
      rw [getWrite_abs h.wf.invL, getWrite_abs h.wf'.invL, h.writeL, Option.bind_some, Option.bind_some]
      cases (abs g.loc2objs).write e.2 with
      | none => rfl
      | some b =>
        dsimp only [Option.map_some]
        rw [List.find?_map]
        congr 3
        funext x
        simp only [Function.comp, decide_eq_decide]
        exact hn x o
  · rw [getObjects_abs h.wf.invL, getObjects_abs h.wf'.invL, h.readL]
    rcases (abs g.loc2objs).read l with _ | ⟨_ | ⟨a, b⟩⟩ <;> rfl
  · rw [getObjectsUnbuffered_abs h.wf.invL, getObjectsUnbuffered_abs h.wf'.invL, h.writeL]
    rcases (abs g.loc2objs).write l with _ | ⟨_ | ⟨a, b⟩⟩ <;> rfl
  · unfold OGrid.getEmptyBags
    rw [emptyBags_filter h.wf.invL, emptyBags_filter h.wf'.invL, h.width, h.height]
    simp only [hread]
  · unfold OGrid.getRandomEmptyBag
    rw [h.width, h.height]
    congr 1
    induction draws with
    | nil => rfl
    | cons d ds ih =>
      unfold randomLoop
      rw [getRead_abs h.wf.invL, getRead_abs h.wf'.invL, h.readL, ih]
      cases (abs g.loc2objs).read d <;> rfl
  · unfold OGrid.iterObjects
    rw [iterCells_eq h.wf.invL, iterCells_eq h.wf'.invL, h.width, h.height, Option.map_some, List.map_flatMap]
    congr 1
    apply List.flatMap_congr
    intro c _
    rw [h.readL]
    cases (abs g.loc2objs).read c with
    | none => rfl
    | some b => simp
end

/-- **C257**, object grids: two runs of a program with different hash functions, numbers of processors and names both panic, or
both grids answer alike. The closures of `apply_to_all_values` leave the objects their identities. -/
theorem C257_object_grids_partial {cpus cpus' : Nat} (hc : shardAmount cpus ≤ 2 ^ 64) (hc' : shardAmount cpus' ≤ 2 ^ 64)
    (ident : O → I) (ident' : P → J) (φ : O → P) (hn : Names ident ident' φ) (hashO : I → Nat) (hashO' : J → Nat)
    (hashL hashL' : Loc → Nat) (width height : Int) (h : List (POp O)) (h' : List (POp P))
    (hr : List.Forall₂ (POp.Renamed ident ident' φ) h h') :
    Both (OGrid.Alike ident ident' φ) (OGrid.run ident (OGrid.new cpus hashO hashL width height) h)
      (OGrid.run ident' (OGrid.new cpus' hashO' hashL' width height) h') := by
  have s := oshows_new (O := O) hc hashO hashL width height
  have s' := oshows_new (O := P) hc' hashO' hashL' width height
  have h0 : ORel ident ident' φ (OGrid.new cpus hashO hashL width height) (OGrid.new cpus' hashO' hashL' width height) := by
    refine ⟨owf_new hc ident hashO hashL width height, owf_new hc' ident' hashO' hashL' width height, rfl, rfl, ?_, ?_, ?_, ?_⟩
    · rw [s.readO, s'.readO]; exact MRel.none
    · rw [s.writeO, s'.writeO]; exact MRel.none
    · intro l; rw [s.readL, s'.readL]; rfl
    · intro l; rw [s.writeL, s'.writeL]; rfl
  have := orel_run hn h0 hr
  revert this
  cases OGrid.run ident (OGrid.new cpus hashO hashL width height) h <;>
    cases OGrid.run ident' (OGrid.new cpus' hashO' hashL' width height) h' <;> intro this
  · trivial
  · exact this
  · exact this
  · exact orel_alike hn this

/-- Two agents that become the same one: identity 3. -/
def demoMerge : List (POp (Nat × Nat)) :=
  [.lazyUpdate, .apply (fun _ x => some (3, x.2)) .READ, .lazyUpdate, .place (2, 20) ⟨1, 1⟩, .place (1, 10) ⟨0, 0⟩]

/-- **C257** is false if a closure gives two objects the same identity: which of them stays depends on the hash function. -/
theorem C257_merged_negation_partial :
    ((OGrid.run Prod.fst (OGrid.new 1 (fun i => i * 2 ^ 55) (fun _ => 0) 4 4) demoMerge).bind (fun g => g.getLocation Prod.fst (3, 0))) =
      some (some ⟨1, 1⟩) ∧
    ((OGrid.run Prod.fst (OGrid.new 1 (fun i => (3 - i) * 2 ^ 55) (fun _ => 0) 4 4) demoMerge).bind (fun g => g.getLocation Prod.fst (3, 0))) =
      some (some ⟨0, 0⟩) := by
  constructor <;> decide +kernel


/-- Objects 1 and 2 under the names 11 and 12; one is removed, the other changed by a closure. -/
example : Names (id : Nat → Nat) (id : Nat → Nat) (fun n => n + 10) ∧
    List.Forall₂ (POp.Renamed (id : Nat → Nat) (id : Nat → Nat) (fun n => n + 10))
      [.apply (fun _ o => some o) .READ, .remove 1, .place 1 ⟨0, 0⟩, .update, .place 2 ⟨1, 1⟩, .place 1 ⟨0, 0⟩]
      [.apply (fun _ o => some o) .READ, .remove 11, .place 11 ⟨0, 0⟩, .update, .place 12 ⟨1, 1⟩, .place 11 ⟨0, 0⟩] ∧
    (OGrid.run (id : Nat → Nat) (OGrid.new 1 id (fun _ => 0) 4 4)
      [.apply (fun _ o => some o) .READ, .remove 1, .place 1 ⟨0, 0⟩, .update, .place 2 ⟨1, 1⟩, .place 1 ⟨0, 0⟩]).isSome = true := by
  refine ⟨fun a b => by simp, ?_, by decide +kernel⟩
  exact .cons (.apply _ _ _ (fun _ _ => rfl) (fun _ o x h => by injection h with h; rw [h]) (fun _ o x h => by injection h with h; rw [h]))
    (.cons (.remove 1) (.cons (.place 1 _) (.cons .update (.cons (.place 2 _) (.cons (.place 1 _) .nil)))))

end Verif.ParGrid

namespace Verif.ParField2D

open Grid Torus DBDashMap Field2D ParGrid

variable {O P I J : Type} [DecidableEq I] [DecidableEq J]

/-- Two fields that hold the same, up to the names. -/
structure FRel (ident : O → I) (ident' : P → J) (φ : O → P) (f : PField O I) (f' : PField P J) : Prop where
  shows_ : FShows f f.width f.height f.discretization f.toroidal (abs f.floc).read (abs f.floc).write (abs f.fbag).read (abs f.fbag).write
  shows' : FShows f' f.width f.height f.discretization f.toroidal (abs f'.floc).read (abs f'.floc).write (abs f'.fbag).read (abs f'.fbag).write
  readO : MRel ident ident' φ (fun e : O × Pos => (φ e.1, e.2)) (abs f.floc).read (abs f'.floc).read
  writeO : MRel ident ident' φ (fun e : O × Pos => (φ e.1, e.2)) (abs f.floc).write (abs f'.floc).write
  readL : ∀ l, (abs f'.fbag).read l = ((abs f.fbag).read l).map (List.map φ)
  writeL : ∀ l, (abs f'.fbag).write l = ((abs f.fbag).write l).map (List.map φ)

section
variable {ident : O → I} {ident' : P → J} {φ : O → P}

theorem frel_of {f : PField O I} {f' : PField P J} {w h d : ℚ} {t : Bool} {rl wl : I → Option (O × Pos)} {rl' wl' : J → Option (P × Pos)}
    {rb wb : Loc → Option (List O)} {rb' wb' : Loc → Option (List P)} (s : FShows f w h d t rl wl rb wb) (s' : FShows f' w h d t rl' wl' rb' wb')
    (h1 : MRel ident ident' φ (fun e : O × Pos => (φ e.1, e.2)) rl rl') (h2 : MRel ident ident' φ (fun e : O × Pos => (φ e.1, e.2)) wl wl')
    (h3 : ∀ l, rb' l = (rb l).map (List.map φ)) (h4 : ∀ l, wb' l = (wb l).map (List.map φ)) : FRel ident ident' φ f f' := by
  obtain ⟨rfl, rfl, rfl, rfl, i1, i2, i3, rfl, rfl, i4, i5, rfl, rfl⟩ := s
  obtain ⟨j1, j2, j3, j4, k1, k2, k3, rfl, rfl, k4, k5, rfl, rfl⟩ := s'
  exact ⟨⟨rfl, rfl, rfl, rfl, i1, i2, i3, rfl, rfl, i4, i5, rfl, rfl⟩, ⟨j1, j2, j3, j4, k1, k2, k3, rfl, rfl, k4, k5, rfl, rfl⟩, h1, h2, h3, h4⟩

theorem frel_exec (hn : Names ident ident' φ) {f : PField O I} {f' : PField P J} (h : FRel ident ident' φ f f') (op : ROp O) :
    ∃ k k', f.exec ident op = some k ∧ f'.exec ident' (op.rename φ) = some k' ∧ FRel ident ident' φ k k' := by
  cases op with
  | place o l =>
    obtain ⟨k, e, s⟩ := fshows_place ident h.shows_ o l
    obtain ⟨k', e', s'⟩ := fshows_place ident' h.shows' (φ o) l
    refine ⟨k, k', e, e', frel_of s s' h.readO (h.writeO.set hn o (some (o, l))) h.readL (fun c => ?_)⟩
    by_cases hcl : c = discretize f.discretization l
    · rw [if_pos hcl, if_pos hcl, h.writeL, Option.map_some, List.map_append]
      congr 2
      cases (abs f.fbag).write c <;> rfl
    · rw [if_neg hcl, if_neg hcl, h.writeL]
  | update =>
    refine ⟨_, _, rfl, rfl, frel_of (fshows_update h.shows_) (fshows_update h.shows') (h.readO.or h.writeO) h.writeO (fun c => ?_) h.writeL⟩
    rw [h.readL, h.writeL]
    cases (abs f.fbag).write c <;> rfl
  | lazyUpdate =>
    exact ⟨_, _, rfl, rfl, frel_of (fshows_lazy h.shows_) (fshows_lazy h.shows') h.writeO MRel.none h.writeL (fun _ => rfl)⟩

theorem frel_run (hn : Names ident ident' φ) {f0 : PField O I} {f0' : PField P J} (h0 : FRel ident ident' φ f0 f0') (hist : List (ROp O)) :
    ∃ f f', PField.run ident f0 hist = some f ∧ PField.run ident' f0' (hist.map (ROp.rename φ)) = some f' ∧ FRel ident ident' φ f f' := by
  induction hist with
  | nil => exact ⟨f0, f0', rfl, rfl, h0⟩
  | cons op hist ih =>
    obtain ⟨f, f', e, e', s⟩ := ih
    obtain ⟨k, k', a, a', b⟩ := frel_exec hn s op
    exact ⟨k, k', by rw [PField.run, e]; exact a, by rw [List.map_cons, PField.run, e']; exact a', b⟩

theorem frel_scan {f : PField O I} {f' : PField P J} (h : FRel ident ident' φ f f') {keep : Loc → O → Bool} {keep' : Loc → P → Bool}
    (hk : ∀ b o, keep' b (φ o) = keep b o) (cs : List Loc) : f'.scan keep' cs = (f.scan keep cs).map (List.map φ) := by
  induction cs with
  | nil => rfl
  | cons c cs ih =>
    have hb : f'.bagId c = f.bagId c := by
      unfold PField.bagId; rw [h.shows'.width, h.shows'.height, h.shows'.disc]
    unfold PField.scan
    rw [hb]
    cases f.bagId c with
    | none => rfl
    | some b =>
      dsimp only
      rw [getRead_abs h.shows_.invL, getRead_abs h.shows'.invL, h.readL, ih]
      cases (abs f.fbag).read b with
      | none => rfl
      | some bag =>
        dsimp only [Option.map_some]
        have hf : (bag.map φ).filter (keep' b) = (bag.filter (keep b)).map φ := by
          rw [List.filter_map]
          congr 1
          apply List.filter_congr
          intro x _
          exact hk b x
        rw [hf]
        cases f.scan keep cs with
        | none => rfl
        | some r => simp

theorem frel_alike (hn : Names ident ident' φ) {f : PField O I} {f' : PField P J} (h : FRel ident ident' φ f f') :
    f.Alike ident ident' φ f' := by
  have hcell : ∀ p, f'.cellOf p = f.cellOf p := by intro p; rw [cellOf_eq, cellOf_eq, h.shows'.disc]
  have hcells : ∀ p dist, f'.searchCells p dist = f.searchCells p dist := by
    intro p dist
    unfold PField.searchCells
    rw [hcell, h.shows'.disc, h.shows'.width, h.shows'.height, h.shows'.tor]
  have hlen : rLen f'.findex = rLen f.findex := by
    refine (MRel.size hn (g := fun e : O × Loc => (φ e.1, e.2)) ?_ (rLen_hasSize h.shows_.invI) (rLen_hasSize h.shows'.invI)).symm
    rw [h.shows_.readI, h.shows'.readI]
    refine ⟨fun o => ?_, fun i hi => h.readO.old i (fun hc => hi (by rw [hc]; rfl)),
      fun j hj => h.readO.new j (fun hc => hj (by rw [hc]; rfl))⟩
    rw [h.readO.same]
    cases (abs f.floc).read (ident o) <;> rfl
  refine ⟨fun o => ?_, fun o => ?_, fun o => ?_, fun o => ?_, fun p => ?_, hlen, fun p => ?_, fun locOf locOf' p dist hl => ?_,
    fun p dist => ?_⟩
  · unfold PField.get
    rw [getRead_abs h.shows_.invO, getRead_abs h.shows'.invO, h.readO.same]
    cases (abs f.floc).read (ident o) <;> rfl
  · unfold PField.getLocation
    rw [getRead_abs h.shows_.invO, getRead_abs h.shows'.invO, h.readO.same]
    cases (abs f.floc).read (ident o) <;> rfl
  · unfold PField.getLocationUnbuffered
    rw [getWrite_abs h.shows_.invO, getWrite_abs h.shows'.invO, h.writeO.same]
    cases (abs f.floc).write (ident o) <;> rfl
  · unfold PField.getUnbuffered
    rw [getWrite_abs h.shows_.invO, getWrite_abs h.shows'.invO, h.writeO.same, Option.bind_some, Option.bind_some]
    cases (abs f.floc).write (ident o) with
    | none => rfl
    | some e =>
      dsimp only [Option.map_some]
      rw [hcell, getWrite_abs h.shows_.invL, getWrite_abs h.shows'.invL, h.writeL, Option.bind_some, Option.bind_some]
      cases (abs f.fbag).write (f.cellOf e.2) with
      | none => rfl
      | some b =>
        dsimp only [Option.map_some]
        rw [List.find?_map]
        congr 3
        funext x
        simp only [Function.comp, decide_eq_decide]
        exact hn x o
  · unfold PField.getObjects
    rw [hcell, getRead_abs h.shows_.invL, getRead_abs h.shows'.invL, h.readL]
    cases (abs f.fbag).read (f.cellOf p) <;> rfl
  · unfold PField.numObjectsAtLocation
    rw [hcell, getRead_abs h.shows_.invL, getRead_abs h.shows'.invL, h.readL]
    cases (abs f.fbag).read (f.cellOf p) <;> simp
  · unfold PField.getNeighborsWithinDistance
    rw [hlen, hcells]
    by_cases h0 : rLen f.findex = 0
    · rw [if_pos h0, if_pos h0]; rfl
    · rw [if_neg h0, if_neg h0]
      by_cases h1 : dist ≤ 0
      · rw [if_pos h1, if_pos h1]; rfl
      · rw [if_neg h1, if_neg h1]
        refine frel_scan h (fun b o => ?_) _
        unfold PField.keepExact
        rw [hl, h.shows'.disc, h.shows'.width, h.shows'.height, h.shows'.tor]
  · unfold PField.getNeighborsWithinRelaxDistance
    rw [hlen, hcells]
    by_cases h0 : rLen f.findex = 0
    · rw [if_pos h0, if_pos h0]; rfl
    · rw [if_neg h0, if_neg h0]
      by_cases h1 : dist ≤ 0
      · rw [if_pos h1, if_pos h1]; rfl
      · rw [if_neg h1, if_neg h1]
        exact frel_scan h (fun _ _ => rfl) _
end

/-- **C257**, continuous fields: after any program, two fields with different hash functions, numbers of processors and names answer
alike, whatever the sizes. -/
theorem C257_fields_partial {cpus cpus' : Nat} (hc : shardAmount cpus ≤ 2 ^ 64) (hc' : shardAmount cpus' ≤ 2 ^ 64) (ident : O → I)
    (ident' : P → J) (φ : O → P) (hn : Names ident ident' φ) (hashO : I → Nat) (hashO' : J → Nat) (hashL hashL' : Loc → Nat) (w h d : ℚ)
    (t : Bool) (hist : List (ROp O)) :
    ∃ f f', PField.run ident (PField.new cpus hashO hashL w h d t) hist = some f ∧
      PField.run ident' (PField.new cpus' hashO' hashL' w h d t) (hist.map (ROp.rename φ)) = some f' ∧ f.Alike ident ident' φ f' := by
  obtain ⟨f, f', e, e', s⟩ := frel_run hn (frel_of (fshows_new (O := O) hc hashO hashL w h d t) (fshows_new (O := P) hc' hashO' hashL' w h d t)
    MRel.none MRel.none (fun _ => rfl) (fun _ => rfl)) hist
  exact ⟨f, f', e, e', frel_alike hn s⟩

/-- Two objects near each other, under other names and with another hash function. -/
example : ((PField.run id (PField.new 1 id (fun _ => 0) 4 4 1 false) [.lazyUpdate, .place 8 ⟨2, 1⟩, .place 7 ⟨1, 1⟩] : Option (PField Nat Nat)).bind
      (fun f => f.getNeighborsWithinRelaxDistance ⟨1, 1⟩ 1)) = some [7, 8] ∧
    ((PField.run id (PField.new 3 (fun _ => 5) (fun l => l.x.toNat * 2 ^ 55) 4 4 1 false)
      ([.lazyUpdate, .place 8 ⟨2, 1⟩, .place 7 ⟨1, 1⟩].map (ROp.rename (fun n => n + 10))) : Option (PField Nat Nat)).bind
      (fun f => f.getNeighborsWithinRelaxDistance ⟨1, 1⟩ 1)) = some [17, 18] := by
  refine ⟨by decide +kernel, by decide +kernel⟩

end Verif.ParField2D
