import Verif.Spec.ParOthers
import Verif.Props.Hashes

/-!
Under the feature `parallel` the objects do not influence each other if the program publishes with `lazy_update` (C258).
-/

namespace Verif.ParGrid

open Grid DBDashMap

variable {T O I V : Type} [DecidableEq I]

/-- A plain map without the keys outside the set. -/
def mcut (Q : I → Bool) (m : I → Option V) : I → Option V := fun i => if Q i = true then m i else none

omit [DecidableEq I] in
theorem mcut_or (Q : I → Bool) (m w : I → Option V) : mcut Q (fun i => (w i).or (m i)) = fun i => (mcut Q w i).or (mcut Q m i) := by
  funext i
  unfold mcut
  by_cases h : Q i = true
  · rw [if_pos h, if_pos h, if_pos h]
  · rw [if_neg h, if_neg h, if_neg h]; rfl

theorem mcut_set_in {Q : I → Bool} (m : I → Option V) {k : I} (hk : Q k = true) (v : Option V) :
    mcut Q (fun i => if i = k then v else m i) = fun i => if i = k then v else mcut Q m i := by
  funext i
  unfold mcut
  dsimp only
  by_cases h : i = k
  · subst h; rw [if_pos hk, if_pos rfl, if_pos rfl]
  · rw [if_neg h, if_neg h]

theorem mcut_set_out {Q : I → Bool} (m : I → Option V) {k : I} (hk : Q k = false) (v : Option V) :
    mcut Q (fun i => if i = k then v else m i) = mcut Q m := by
  funext i
  unfold mcut
  dsimp only
  by_cases h : i = k
  · subst h; rw [hk]; rfl
  · rw [if_neg h]

omit [DecidableEq I] in
theorem mcut_none (Q : I → Bool) : mcut Q (fun _ => (none : Option V)) = fun _ => none := by
  funext i; unfold mcut; by_cases h : Q i = true
  · rw [if_pos h]
  · rw [if_neg h]

/-! ### Number grids -/

theorem ncut_exec {Q : Loc → Bool} {g g' k : NGrid T} {r w : Loc → Option T} (h : NShows g r w) (h' : NShows g' (mcut Q r) (mcut Q w))
    (op : NOp T) (e : g.exec op = some k) : ∃ r2 w2, NShows k r2 w2 ∧
      ((op.about Q = true → ∃ k', g'.exec op = some k' ∧ NShows k' (mcut Q r2) (mcut Q w2)) ∧
        (op.about Q = false → NShows g' (mcut Q r2) (mcut Q w2))) := by
  obtain ⟨k1, e1, _, _, s⟩ := nshows_exec h op
  obtain ⟨k', e', _, _, s'⟩ := nshows_exec h' op
  rw [e] at e1
  obtain rfl := Option.some.inj e1
  cases op with
  | set v l =>
    refine ⟨_, _, s, fun ha => ⟨k', e', ?_⟩, fun ha => ?_⟩
    · rw [mcut_set_in w (k := l) ha]; exact s'
    · rw [mcut_set_out w (k := l) ha]; exact h'
  | update => exact ⟨_, _, s, fun _ => ⟨k', e', by rw [mcut_or]; exact s'⟩, fun ha => by simp [NOp.about] at ha⟩
  | lazyUpdate => exact ⟨_, _, s, fun _ => ⟨k', e', by rw [mcut_none]; exact s'⟩, fun ha => by simp [NOp.about] at ha⟩
  | apply f o =>
    have key : ∀ (n : Loc → Option T) (m : Loc → Option T), NShows k' (mcut Q r) n → m = n → NShows k' (mcut Q r) m := by
      intro n m hs hm; rw [hm]; exact hs
    cases o with
    | READ =>
      refine ⟨_, _, s, fun _ => ⟨k', e', key _ _ s' ?_⟩, fun ha => by simp [NOp.about] at ha⟩
      funext l; unfold mcut
      by_cases hq : Q l = true
      · simp only [hq, if_true]
      · simp only [hq]; rfl
    | WRITE =>
      refine ⟨_, _, s, fun _ => ⟨k', e', key _ _ s' ?_⟩, fun ha => by simp [NOp.about] at ha⟩
      funext l; unfold mcut
      by_cases hq : Q l = true
      · simp only [hq, if_true]
      · simp only [hq]; rfl
    | READWRITE =>
      refine ⟨_, _, s, fun _ => ⟨k', e', key _ _ s' ?_⟩, fun ha => by simp [NOp.about] at ha⟩
      funext l; unfold mcut
      by_cases hq : Q l = true
      · simp only [hq, if_true]
      · simp only [hq]; rfl

theorem ncut_run {Q : Loc → Bool} {g0 g0' : NGrid T} {r0 w0 : Loc → Option T} (h0 : NShows g0 r0 w0)
    (h0' : NShows g0' (mcut Q r0) (mcut Q w0)) (h : List (NOp T)) :
    ∃ g g' r w, NGrid.run g0 h = some g ∧ NGrid.run g0' (h.filter (NOp.about Q)) = some g' ∧ NShows g r w ∧
      NShows g' (mcut Q r) (mcut Q w) := by
  induction h with
  | nil => exact ⟨g0, g0', r0, w0, rfl, rfl, h0, h0'⟩
  | cons op h ih =>
    obtain ⟨g, g', r, w, e, e', s, s'⟩ := ih
    obtain ⟨k, ek, _⟩ := nshows_exec s op
    obtain ⟨r2, w2, s2, hin, hout⟩ := ncut_exec s s' op ek
    have run1 : NGrid.run g0 (op :: h) = some k := by rw [NGrid.run, e]; exact ek
    by_cases ha : op.about Q = true
    · obtain ⟨k', ek', s2'⟩ := hin ha
      exact ⟨k, k', r2, w2, run1, by rw [List.filter_cons_of_pos ha, NGrid.run, e']; exact ek', s2, s2'⟩
    · exact ⟨k, g', r2, w2, run1, by rw [List.filter_cons_of_neg ha]; exact e', s2, hout (by simpa using ha)⟩

/-- **C258**, number grids: the values of some cells do not depend on the calls about the other cells, whatever the program. -/
theorem C258_number_grids_partial {cpus : Nat} (hc : shardAmount cpus ≤ 2 ^ 64) (hash : Loc → Nat) (width height : Int) (Q : Loc → Bool)
    (h : List (NOp T)) :
    (∃ g g', NGrid.run (NGrid.newDense cpus hash width height) h = some g ∧
      NGrid.run (NGrid.newDense cpus hash width height) (h.filter (NOp.about Q)) = some g' ∧
      ∀ l, Q l = true → g'.getValue l = g.getValue l ∧ g'.getValueUnbuffered l = g.getValueUnbuffered l) ∧
    ∃ g g', NGrid.run (NGrid.newSparse cpus hash width height) h = some g ∧
      NGrid.run (NGrid.newSparse cpus hash width height) (h.filter (NOp.about Q)) = some g' ∧
      ∀ l, Q l = true → g'.getValue l = g.getValue l ∧ g'.getValueUnbuffered l = g.getValueUnbuffered l := by
  have fin : ∀ {g g' : NGrid T} {r w : Loc → Option T}, NShows g r w → NShows g' (mcut Q r) (mcut Q w) →
      ∀ l, Q l = true → g'.getValue l = g.getValue l ∧ g'.getValueUnbuffered l = g.getValueUnbuffered l := by
    intro g g' r w s s' l hl
    refine ⟨?_, ?_⟩
    · unfold NGrid.getValue; rw [getRead_abs s.inv, getRead_abs s'.inv, s.read, s'.read]; unfold mcut; rw [if_pos hl]
    · unfold NGrid.getValueUnbuffered; rw [getWrite_abs s.inv, getWrite_abs s'.inv, s.write, s'.write]; unfold mcut; rw [if_pos hl]
  obtain ⟨n1, n2⟩ := nshows_new (T := T) hc hash width height
  obtain ⟨g, g', r, w, e, e', s, s'⟩ := ncut_run (Q := Q) n1 (by rw [mcut_none]; exact n1) h
  obtain ⟨k, k', r', w', a, a', b, b'⟩ := ncut_run (Q := Q) n2 (by rw [mcut_none]; exact n2) h
  exact ⟨⟨g, g', e, e', fin s s'⟩, ⟨k, k', a, a', fin b b'⟩⟩

/-- A cell with and without the calls about another one. -/
example : ((NGrid.run (NGrid.newDense 1 (fun _ => 0) 3 3) [.update, .apply (· + 1) .READ, .lazyUpdate, .set 5 ⟨1, 1⟩, .set 3 ⟨0, 0⟩] :
      Option (NGrid Nat)).bind (fun g => g.getValue ⟨0, 0⟩)) = some (some 4) ∧
    ((NGrid.run (NGrid.newDense 1 (fun _ => 0) 3 3) ([.update, .apply (· + 1) .READ, .lazyUpdate, .set 5 ⟨1, 1⟩, .set 3 ⟨0, 0⟩].filter
      (NOp.about (fun l => decide (l = ⟨0, 0⟩)))) : Option (NGrid Nat)).bind (fun g => g.getValue ⟨0, 0⟩)) = some (some 4) := by
  refine ⟨by decide +kernel, by decide +kernel⟩

/-! ### Object grids -/

/-- The second grid has the places of the first one, of the objects in the set. -/
structure CutPlaces (ident : O → I) (Q : I → Bool) (g g' : OGrid O I) : Prop where
  wf : OWf ident g
  wf' : OWf ident g'
  width : g'.width = g.width
  height : g'.height = g.height
  readO : (abs g'.obj2loc).read = mcut Q (abs g.obj2loc).read
  writeO : (abs g'.obj2loc).write = mcut Q (abs g.obj2loc).write

/-- The second grid has the bags of the first one, of the objects in the set. -/
structure CutBags (ident : O → I) (Q : I → Bool) (g g' : OGrid O I) : Prop where
  readL : ∀ l, ((abs g'.loc2objs).read l).getD [] = (((abs g.loc2objs).read l).getD []).filter (fun x => Q (ident x))
  writeL : ∀ l, ((abs g'.loc2objs).write l).getD [] = (((abs g.loc2objs).write l).getD []).filter (fun x => Q (ident x))

section
variable {ident : O → I} {Q : I → Bool}

theorem filter_out {o : O} (ho : Q (ident o) = false) (b : List O) :
    (b.filter (fun x => decide (ident x ≠ ident o))).filter (fun x => Q (ident x)) = b.filter (fun x => Q (ident x)) := by
  rw [List.filter_filter]
  apply List.filter_congr
  intro x _
  by_cases hx : Q (ident x) = true
  · have : ident x ≠ ident o := fun hc => by rw [hc, ho] at hx; exact absurd hx (by simp)
    simp [hx, this]
  · simp [hx]

theorem filter_in (o : O) (b : List O) :
    (b.filter (fun x => decide (ident x ≠ ident o))).filter (fun x => Q (ident x)) =
      (b.filter (fun x => Q (ident x))).filter (fun x => decide (ident x ≠ ident o)) := by
  rw [List.filter_filter, List.filter_filter]
  apply List.filter_congr
  intro x _
  exact Bool.and_comm _ _

theorem push_in {o : O} (ho : Q (ident o) = true) (b : List O) :
    (pushObject ident o b).filter (fun x => Q (ident x)) = pushObject ident o (b.filter (fun x => Q (ident x))) := by
  unfold pushObject
  rw [List.filter_append, filter_in]
  congr 1
  simp [ho]

theorem push_out {o : O} (ho : Q (ident o) = false) (b : List O) :
    (pushObject ident o b).filter (fun x => Q (ident x)) = b.filter (fun x => Q (ident x)) := by
  unfold pushObject
  rw [List.filter_append, filter_out ho]
  simp [ho]

theorem getD_map_filter (p : O → Bool) (b : Option (List O)) : (b.map (fun x => x.filter p)).getD [] = (b.getD []).filter p := by
  cases b <;> rfl

/-- A call about the set. -/
theorem cutPlaces_in {g g' k k' : OGrid O I} (h : CutPlaces ident Q g g') {op : POp O} (hk : op.Keeps ident) (ha : op.about ident Q = true)
    (e : g.exec ident op = some k) (e' : g'.exec ident op = some k') : CutPlaces ident Q k k' := by
  obtain ⟨wk, w1, h1⟩ := owf_exec ident h.wf op e
  obtain ⟨wk', w1', h1'⟩ := owf_exec ident h.wf' op e'
  have build : (abs k'.obj2loc).read = mcut Q (abs k.obj2loc).read → (abs k'.obj2loc).write = mcut Q (abs k.obj2loc).write →
      CutPlaces ident Q k k' := fun a b => ⟨wk, wk', by rw [w1', w1, h.width], by rw [h1', h1, h.height], a, b⟩
  cases op with
  | place o l =>
    obtain ⟨k1, f1, _, _, s⟩ := oshows_place ident (oshows_self h.wf.invO h.wf.invL) o l
    obtain ⟨k2, f2, _, _, s'⟩ := oshows_place ident (oshows_self h.wf'.invO h.wf'.invL) o l
    obtain rfl := Option.some.inj (e.symm.trans f1)
    obtain rfl := Option.some.inj (e'.symm.trans f2)
    refine build (by rw [s.readO, s'.readO, h.readO]) ?_
    rw [s.writeO, s'.writeO, h.writeO, mcut_set_in _ (k := ident o) ha]
  | remove o =>
    obtain ⟨_, _, _, c4, c5, _⟩ := (remove_object_sim ident h.wf o).2 k e
    obtain ⟨_, _, _, d4, d5, _⟩ := (remove_object_sim ident h.wf' o).2 k' e'
    refine build (by rw [c4, d4, h.readO]) ?_
    rw [c5, d5, h.writeO, mcut_set_in _ (k := ident o) ha]
  | removeAt o l =>
    obtain ⟨k1, f1, _, _, _, c4, _⟩ := removeAt_sim ident h.wf o l
    obtain ⟨k2, f2, _, _, _, d4, _⟩ := removeAt_sim ident h.wf' o l
    obtain rfl := Option.some.inj (e.symm.trans f1)
    obtain rfl := Option.some.inj (e'.symm.trans f2)
    exact build (by rw [c4, d4, h.readO]) (by rw [c4, d4, h.writeO])
  | update =>
    have s := oshows_update (oshows_self h.wf.invO h.wf.invL)
    have s' := oshows_update (oshows_self h.wf'.invO h.wf'.invL)
    obtain rfl := Option.some.inj e
    obtain rfl := Option.some.inj e'
    refine build ?_ (by rw [s.writeO, s'.writeO, h.writeO])
    rw [s.readO, s'.readO, h.readO, h.writeO, mcut_or]
  | lazyUpdate =>
    have s := oshows_lazy (oshows_self h.wf.invO h.wf.invL)
    have s' := oshows_lazy (oshows_self h.wf'.invO h.wf'.invL)
    obtain rfl := Option.some.inj e
    obtain rfl := Option.some.inj e'
    exact build (by rw [s.readO, s'.readO, h.writeO]) (by rw [s.writeO, s'.writeO, mcut_none])
  | apply f opt =>
    obtain ⟨k1, f1, _, _, _, _, c5, c6⟩ := apply_sim ident h.wf f opt
    obtain ⟨k2, f2, _, _, _, _, d5, d6⟩ := apply_sim ident h.wf' f opt
    obtain rfl := Option.some.inj (e.symm.trans f1)
    obtain rfl := Option.some.inj (e'.symm.trans f2)
    refine build (by rw [c5, d5, h.readO]) ?_
    funext i
    have e1 := apply_write h.wf hk c6 i
    have e2 := apply_write h.wf' hk d6 i
    rw [e2, h.readO, h.writeO]
    show _ = if Q i = true then (abs k.obj2loc).write i else none
    rw [e1]
    unfold mcut
    by_cases hq : Q i = true
    · rw [if_pos hq, if_pos hq, if_pos hq]
    · rw [if_neg hq, if_neg hq, if_neg hq]; rfl

theorem cutBags_in {g g' k k' : OGrid O I} (hp : CutPlaces ident Q g g') (h : CutBags ident Q g g') {op : POp O}
    (hu : op.isUpdate = false) (ha : op.about ident Q = true)
    (e : g.exec ident op = some k) (e' : g'.exec ident op = some k') : CutBags ident Q k k' := by
  cases op with
  | place o l =>
    obtain ⟨k1, f1, _, _, s⟩ := oshows_place ident (oshows_self hp.wf.invO hp.wf.invL) o l
    obtain ⟨k2, f2, _, _, s'⟩ := oshows_place ident (oshows_self hp.wf'.invO hp.wf'.invL) o l
    obtain rfl := Option.some.inj (e.symm.trans f1)
    obtain rfl := Option.some.inj (e'.symm.trans f2)
    refine ⟨fun c => by rw [s.readL, s'.readL]; exact h.readL c, fun c => ?_⟩
    rw [s.writeL, s'.writeL]
    dsimp only
    by_cases hc : c = l
    · rw [if_pos hc, if_pos hc, Option.getD_some, Option.getD_some, h.writeL, push_in (o := o) ha]
    · rw [if_neg hc, if_neg hc]; exact h.writeL c
  | remove o =>
    obtain ⟨_, _, _, _, _, c6, c7⟩ := (remove_object_sim ident hp.wf o).2 k e
    obtain ⟨_, _, _, _, _, d6, d7⟩ := (remove_object_sim ident hp.wf' o).2 k' e'
    refine ⟨fun c => by rw [c6, d6]; exact h.readL c, fun c => ?_⟩
    rw [c7, d7]
    dsimp only
    have hr : (abs g'.obj2loc).read (ident o) = (abs g.obj2loc).read (ident o) := by
      rw [hp.readO]; unfold mcut; exact if_pos ha
    rw [hr]
    by_cases hc : ((abs g.obj2loc).read (ident o)).map Prod.snd = some c
    · rw [if_pos hc, if_pos hc, getD_map_filter, getD_map_filter, h.writeL, filter_in]
    · rw [if_neg hc, if_neg hc]; exact h.writeL c
  | removeAt o l =>
    obtain ⟨k1, f1, _, _, _, _, c5, c6⟩ := removeAt_sim ident hp.wf o l
    obtain ⟨k2, f2, _, _, _, _, d5, d6⟩ := removeAt_sim ident hp.wf' o l
    obtain rfl := Option.some.inj (e.symm.trans f1)
    obtain rfl := Option.some.inj (e'.symm.trans f2)
    refine ⟨fun c => by rw [c5, d5]; exact h.readL c, fun c => ?_⟩
    rw [c6, d6]
    dsimp only
    by_cases hc : c = l
    · rw [if_pos hc, if_pos hc, getD_map_filter, getD_map_filter, h.writeL, filter_in]
    · rw [if_neg hc, if_neg hc]; exact h.writeL c
  | update => simp [POp.isUpdate] at hu
  | lazyUpdate =>
    have s := oshows_lazy (oshows_self hp.wf.invO hp.wf.invL)
    have s' := oshows_lazy (oshows_self hp.wf'.invO hp.wf'.invL)
    obtain rfl := Option.some.inj e
    obtain rfl := Option.some.inj e'
    exact ⟨fun c => by rw [s.readL, s'.readL]; exact h.writeL c, fun c => by rw [s.writeL, s'.writeL]; rfl⟩
  | apply f opt =>
    obtain ⟨k1, f1, _, c2, _⟩ := apply_sim ident hp.wf f opt
    obtain ⟨k2, f2, _, d2, _⟩ := apply_sim ident hp.wf' f opt
    obtain rfl := Option.some.inj (e.symm.trans f1)
    obtain rfl := Option.some.inj (e'.symm.trans f2)
    exact ⟨fun c => by rw [c2, d2]; exact h.readL c, fun c => by rw [c2, d2]; exact h.writeL c⟩

/-- A call about another object. -/
theorem cutPlaces_out {g g' k : OGrid O I} (h : CutPlaces ident Q g g') {op : POp O} (ha : op.about ident Q = false)
    (e : g.exec ident op = some k) : CutPlaces ident Q k g' := by
  obtain ⟨wk, w1, h1⟩ := owf_exec ident h.wf op e
  have build : (abs g'.obj2loc).read = mcut Q (abs k.obj2loc).read → (abs g'.obj2loc).write = mcut Q (abs k.obj2loc).write →
      CutPlaces ident Q k g' := fun a b => ⟨wk, h.wf', by rw [w1, h.width], by rw [h1, h.height], a, b⟩
  cases op with
  | place o l =>
    obtain ⟨k1, f1, _, _, s⟩ := oshows_place ident (oshows_self h.wf.invO h.wf.invL) o l
    obtain rfl := Option.some.inj (e.symm.trans f1)
    exact build (by rw [s.readO, h.readO]) (by rw [s.writeO, h.writeO, mcut_set_out _ (k := ident o) ha])
  | remove o =>
    obtain ⟨_, _, _, c4, c5, _⟩ := (remove_object_sim ident h.wf o).2 k e
    exact build (by rw [c4, h.readO]) (by rw [c5, h.writeO, mcut_set_out _ (k := ident o) ha])
  | removeAt o l =>
    obtain ⟨k1, f1, _, _, _, c4, _⟩ := removeAt_sim ident h.wf o l
    obtain rfl := Option.some.inj (e.symm.trans f1)
    exact build (by rw [c4, h.readO]) (by rw [c4, h.writeO])
  | update => simp [POp.about] at ha
  | lazyUpdate => simp [POp.about] at ha
  | apply f opt => simp [POp.about] at ha

theorem cutBags_out {g g' k : OGrid O I} (hp : CutPlaces ident Q g g') (h : CutBags ident Q g g') {op : POp O}
    (ha : op.about ident Q = false) (e : g.exec ident op = some k) : CutBags ident Q k g' := by
  cases op with
  | place o l =>
    obtain ⟨k1, f1, _, _, s⟩ := oshows_place ident (oshows_self hp.wf.invO hp.wf.invL) o l
    obtain rfl := Option.some.inj (e.symm.trans f1)
    refine ⟨fun c => by rw [s.readL]; exact h.readL c, fun c => ?_⟩
    rw [s.writeL]
    dsimp only
    by_cases hc : c = l
    · rw [if_pos hc, Option.getD_some, push_out (o := o) ha, hc]; exact h.writeL l
    · rw [if_neg hc]; exact h.writeL c
  | remove o =>
    obtain ⟨_, _, _, _, _, c6, c7⟩ := (remove_object_sim ident hp.wf o).2 k e
    refine ⟨fun c => by rw [c6]; exact h.readL c, fun c => ?_⟩
    rw [c7]
    dsimp only
    by_cases hc : ((abs g.obj2loc).read (ident o)).map Prod.snd = some c
    · rw [if_pos hc, getD_map_filter, filter_out (ident := ident) (Q := Q) (show Q (ident o) = false from ha)]; exact h.writeL c
    · rw [if_neg hc]; exact h.writeL c
  | removeAt o l =>
    obtain ⟨k1, f1, _, _, _, _, c5, c6⟩ := removeAt_sim ident hp.wf o l
    obtain rfl := Option.some.inj (e.symm.trans f1)
    refine ⟨fun c => by rw [c5]; exact h.readL c, fun c => ?_⟩
    rw [c6]
    dsimp only
    by_cases hc : c = l
    · rw [if_pos hc, getD_map_filter, filter_out (o := o) ha, hc]; exact h.writeL l
    · rw [if_neg hc]; exact h.writeL c
  | update => simp [POp.about] at ha
  | lazyUpdate => simp [POp.about] at ha
  | apply f opt => simp [POp.about] at ha

theorem cut_run {g0 : OGrid O I} (h0 : CutPlaces ident Q g0 g0) (b0 : CutBags ident Q g0 g0) :
    ∀ (hist : List (POp O)) (g g' : OGrid O I), (∀ op ∈ hist, op.Keeps ident) → OGrid.run ident g0 hist = some g →
      OGrid.run ident g0 (pAbout ident Q hist) = some g' →
      CutPlaces ident Q g g' ∧ ((∀ op ∈ hist, op.isUpdate = false) → CutBags ident Q g g') := by
  intro hist
  induction hist with
  | nil =>
    intro g g' _ e e'
    obtain rfl := Option.some.inj e
    obtain rfl := Option.some.inj e'
    exact ⟨h0, fun _ => b0⟩
  | cons op hist ih =>
    intro g g' hk e e'
    rw [OGrid.run] at e
    obtain ⟨k, ek, e⟩ := Option.bind_eq_some_iff.1 e
    have hk' : ∀ op ∈ hist, op.Keeps ident := fun o ho => hk o (List.mem_cons_of_mem _ ho)
    by_cases ha : op.about ident Q = true
    · rw [pAbout, List.filter_cons_of_pos ha, OGrid.run] at e'
      obtain ⟨k', ek', e'⟩ := Option.bind_eq_some_iff.1 e'
      obtain ⟨p, b⟩ := ih k k' hk' ek ek'
      refine ⟨cutPlaces_in p (hk op List.mem_cons_self) ha e e', fun hu => ?_⟩
      exact cutBags_in p (b (fun o ho => hu o (List.mem_cons_of_mem _ ho))) (hu op List.mem_cons_self) ha e e'
    · rw [pAbout, List.filter_cons_of_neg ha] at e'
      obtain ⟨p, b⟩ := ih k g' hk' ek e'
      have ha' : op.about ident Q = false := by simpa using ha
      exact ⟨cutPlaces_out p ha' e, fun hu => cutBags_out p (b (fun o ho => hu o (List.mem_cons_of_mem _ ho))) ha' e⟩

theorem only_nonEmpty {p : O → Bool} {b b' : Option (List O)} (h : b'.getD [] = (b.getD []).filter p) :
    nonEmpty b' = only p (nonEmpty b) := by
  have h1 : nonEmpty b' = if (b'.getD []).isEmpty then none else some (b'.getD []) := by
    rcases b' with _ | ⟨_ | ⟨x, l⟩⟩ <;> rfl
  rw [h1, h]
  rcases b with _ | ⟨_ | ⟨x, l⟩⟩ <;> rfl

theorem samePlaces_of {g g' : OGrid O I} (h : CutPlaces ident Q g g') : g.SamePlaces ident Q g' := by
  have r : ∀ i, Q i = true → (abs g'.obj2loc).read i = (abs g.obj2loc).read i := by
    intro i hi; rw [h.readO]; unfold mcut; exact if_pos hi
  have w : ∀ i, Q i = true → (abs g'.obj2loc).write i = (abs g.obj2loc).write i := by
    intro i hi; rw [h.writeO]; unfold mcut; exact if_pos hi
  refine ⟨fun o ho => ?_, fun o ho => ?_, fun o ho => ?_, fun o ho => ?_⟩
  · unfold OGrid.get; rw [getRead_abs h.wf.invO, getRead_abs h.wf'.invO, r _ ho]
  · unfold OGrid.getLocation; rw [getRead_abs h.wf.invO, getRead_abs h.wf'.invO, r _ ho]
  · unfold OGrid.getLocationUnbuffered; rw [getWrite_abs h.wf.invO, getWrite_abs h.wf'.invO, w _ ho]
  · unfold OGrid.getLocation
    rw [getRead_abs h.wf'.invO, h.readO]
    unfold mcut
    rw [ho]; rfl

theorem find_cut {o : O} (ho : Q (ident o) = true) (b : List O) :
    (b.filter (fun x => Q (ident x))).find? (fun x => decide (ident x = ident o)) = b.find? (fun x => decide (ident x = ident o)) := by
  rw [List.find?_filter]
  congr 1
  funext x
  by_cases hx : ident x = ident o
  · simp [hx, ho]
  · simp [hx]

theorem sameBags_of {g g' : OGrid O I} (h : CutPlaces ident Q g g') (b : CutBags ident Q g g') : g.SameBags ident Q g' := by
  refine ⟨fun l => ?_, fun l => ?_, fun o a a' ho ha ha' => ?_, ?_⟩
  · rw [getObjects_abs h.wf.invL, getObjects_abs h.wf'.invL, only_nonEmpty (b.readL l)]; rfl
  · rw [getObjectsUnbuffered_abs h.wf.invL, getObjectsUnbuffered_abs h.wf'.invL, only_nonEmpty (b.writeL l)]; rfl
  · unfold OGrid.getUnbuffered at ha ha'
    rw [getWrite_abs h.wf.invO, Option.bind_some] at ha
    rw [getWrite_abs h.wf'.invO, Option.bind_some] at ha'
    have w : (abs g'.obj2loc).write (ident o) = (abs g.obj2loc).write (ident o) := by
      rw [h.writeO]; unfold mcut; exact if_pos ho
    rw [w] at ha'
    cases hw : (abs g.obj2loc).write (ident o) with
    | none => rw [hw] at ha ha'; exact (Option.some.inj ha').symm.trans (Option.some.inj ha)
    | some e =>
      rw [hw] at ha ha'
      dsimp only at ha ha'
      rw [getWrite_abs h.wf.invL, Option.bind_some] at ha
      rw [getWrite_abs h.wf'.invL, Option.bind_some] at ha'
      have hb := b.writeL e.2
      cases hx : (abs g.loc2objs).write e.2 with
      | none => rw [hx] at ha; simp at ha
      | some x =>
        cases hx' : (abs g'.loc2objs).write e.2 with
        | none => rw [hx'] at ha'; simp at ha'
        | some x' =>
          rw [hx] at ha hb
          rw [hx'] at ha' hb
          rw [Option.getD_some, Option.getD_some] at hb
          rw [← Option.some.inj ha, ← Option.some.inj ha', hb, find_cut ho]
  · unfold OGrid.iterObjects
    rw [iterCells_eq h.wf.invL, iterCells_eq h.wf'.invL, h.width, h.height, Option.map_some, List.filter_flatMap]
    congr 1
    apply List.flatMap_congr
    intro c _
    rw [b.readL, List.filter_map]
    rfl

theorem cut_new {cpus : Nat} (hc : shardAmount cpus ≤ 2 ^ 64) (hashO : I → Nat) (hashL : Loc → Nat) (width height : Int) :
    CutPlaces ident Q (OGrid.new cpus hashO hashL width height) (OGrid.new cpus hashO hashL width height) ∧
    CutBags ident Q (OGrid.new cpus hashO hashL width height) (OGrid.new cpus hashO hashL width height) := by
  have s := oshows_new (O := O) hc hashO hashL width height
  have w := owf_new hc ident hashO hashL width height
  refine ⟨⟨w, w, rfl, rfl, ?_, ?_⟩, fun l => ?_, fun l => ?_⟩
  · rw [s.readO, mcut_none]
  · rw [s.writeO, mcut_none]
  · rw [s.readL]; rfl
  · rw [s.writeL]; rfl
end

/-- **C258**, object grids: a program and the same program without the calls about the objects outside a set agree about what the
objects of the set are and where they are; if the program never calls `update`, they agree also about the bags. Closures leave the
objects their identities. Neither program panics. -/
theorem C258_object_grids_partial {cpus : Nat} (hc : shardAmount cpus ≤ 2 ^ 64) (ident : O → I) (Q : I → Bool) (hashO : I → Nat)
    (hashL : Loc → Nat) (width height : Int) (hist : List (POp O)) (g g' : OGrid O I) (hk : ∀ op ∈ hist, op.Keeps ident)
    (e : OGrid.run ident (OGrid.new cpus hashO hashL width height) hist = some g)
    (e' : OGrid.run ident (OGrid.new cpus hashO hashL width height) (pAbout ident Q hist) = some g') :
    g.SamePlaces ident Q g' ∧ ((∀ op ∈ hist, op.isUpdate = false) → g.SameBags ident Q g') := by
  obtain ⟨p, b⟩ := cut_new (ident := ident) (Q := Q) hc hashO hashL width height
  obtain ⟨p, b⟩ := cut_run p b hist g g' hk e e'
  exact ⟨samePlaces_of p, fun hu => sameBags_of p (b hu)⟩

/-- **C258**, object grids: a program without `remove_object` does not panic, with or without the calls about other objects. -/
theorem C258_no_panic_partial {cpus : Nat} (hc : shardAmount cpus ≤ 2 ^ 64) (ident : O → I) (Q : I → Bool) (hashO : I → Nat)
    (hashL : Loc → Nat) (width height : Int) (hist : List (POp O)) (hr : ∀ op ∈ hist, op.isRemove = false) :
    (∃ g, OGrid.run ident (OGrid.new cpus hashO hashL width height) hist = some g) ∧
    ∃ g', OGrid.run ident (OGrid.new cpus hashO hashL width height) (pAbout ident Q hist) = some g' := by
  have key : ∀ hist : List (POp O), (∀ op ∈ hist, op.isRemove = false) →
      ∃ g, OGrid.run ident (OGrid.new cpus hashO hashL width height) hist = some g ∧ OWf ident g := by
    intro hist
    induction hist with
    | nil => intro _; exact ⟨_, rfl, owf_new hc ident hashO hashL width height⟩
    | cons op hist ih =>
      intro hr
      obtain ⟨g, e, w⟩ := ih (fun o ho => hr o (List.mem_cons_of_mem _ ho))
      have hx : ∃ k, g.exec ident op = some k := by
        cases op with
        | place o l => obtain ⟨k, f, _⟩ := oshows_place ident (oshows_self w.invO w.invL) o l; exact ⟨k, f⟩
        | remove o => exact absurd (hr _ List.mem_cons_self) (by simp [POp.isRemove])
        | removeAt o l => obtain ⟨k, f, _⟩ := removeAt_sim ident w o l; exact ⟨k, f⟩
        | update => exact ⟨_, rfl⟩
        | lazyUpdate => exact ⟨_, rfl⟩
        | apply f opt => obtain ⟨k, f1, _⟩ := apply_sim ident w f opt; exact ⟨k, f1⟩
      obtain ⟨k, f⟩ := hx
      exact ⟨k, by rw [OGrid.run, e]; exact f, (owf_exec ident w op f).1⟩
  obtain ⟨g, e, _⟩ := key hist hr
  obtain ⟨g', e', _⟩ := key (pAbout ident Q hist) (fun op ho => hr op (List.mem_of_mem_filter ho))
  exact ⟨⟨g, e⟩, ⟨g', e'⟩⟩

/-- Two objects in one cell, one of them removed after the other moved: the object 1 with and without the object 2. -/
example : ((OGrid.run id (OGrid.new 1 id (fun _ => 0) 3 3) [.lazyUpdate, .remove 2, .place 1 ⟨1, 1⟩, .place 2 ⟨1, 1⟩, .lazyUpdate,
      .place 2 ⟨1, 1⟩, .place 1 ⟨1, 1⟩] : Option (OGrid Nat Nat)).bind (fun g => g.getObjects ⟨1, 1⟩)) = some (some [1]) ∧
    ((OGrid.run id (OGrid.new 1 id (fun _ => 0) 3 3) (pAbout id (fun i => decide (i = 1)) [.lazyUpdate, .remove 2, .place 1 ⟨1, 1⟩,
      .place 2 ⟨1, 1⟩, .lazyUpdate, .place 2 ⟨1, 1⟩, .place 1 ⟨1, 1⟩]) : Option (OGrid Nat Nat)).bind (fun g => g.getObjects ⟨1, 1⟩)) =
      some (some [1]) := by
  refine ⟨by decide +kernel, by decide +kernel⟩

/-- **C258** is false of the bags if the program publishes with `update`: the object 1 is published in a cell; the object 2 placed in
that cell afterwards makes it disappear from there. And `remove_object` of the object 1 panics unless another object was placed in
its cell before. -/
theorem C258_grid_negation_partial :
    (((OGrid.run id (OGrid.new 1 id (fun _ => 0) 3 3) [.update, .place 2 ⟨1, 1⟩, .lazyUpdate, .place 1 ⟨1, 1⟩] :
        Option (OGrid Nat Nat)).bind (fun g => g.getObjects ⟨1, 1⟩)) = some (some [2]) ∧
      ((OGrid.run id (OGrid.new 1 id (fun _ => 0) 3 3) (pAbout id (fun i => decide (i = 1)) [.update, .place 2 ⟨1, 1⟩, .lazyUpdate,
        .place 1 ⟨1, 1⟩]) : Option (OGrid Nat Nat)).bind (fun g => g.getObjects ⟨1, 1⟩)) = some (some [1])) ∧
    ((OGrid.run id (OGrid.new 1 id (fun _ => 0) 3 3) [.remove 1, .place 2 ⟨1, 1⟩, .lazyUpdate, .place 1 ⟨1, 1⟩] :
        Option (OGrid Nat Nat)).isSome = true ∧
      (OGrid.run id (OGrid.new 1 id (fun _ => 0) 3 3) (pAbout id (fun i => decide (i = 1)) [.remove 1, .place 2 ⟨1, 1⟩, .lazyUpdate,
        .place 1 ⟨1, 1⟩]) : Option (OGrid Nat Nat)).isSome = false) := by
  refine ⟨⟨by decide +kernel, by decide +kernel⟩, by decide +kernel, by decide +kernel⟩

end Verif.ParGrid

namespace Verif.ParField2D

open Grid Torus DBDashMap Field2D ParGrid

variable {O I : Type} [DecidableEq I]

section
variable {ident : O → I} {Q : I → Bool}

/-- What the two fields hold. -/
structure CutField (ident : O → I) (Q : I → Bool) (plain : Bool) (w h d : ℚ) (t : Bool) (f f' : PField O I) (rl wl : I → Option (O × Pos))
    (rb wb rb' wb' : Loc → Option (List O)) : Prop where
  shows_ : FShows f w h d t rl wl rb wb
  shows' : FShows f' w h d t (mcut Q rl) (mcut Q wl) rb' wb'
  readL : plain = true → ∀ l, (rb' l).getD [] = ((rb l).getD []).filter (fun x => Q (ident x))
  writeL : ∀ l, (wb' l).getD [] = ((wb l).getD []).filter (fun x => Q (ident x))

theorem cutField_run {w h d : ℚ} {t : Bool} {f0 : PField O I} (s0 : FShows f0 w h d t (fun _ => none) (fun _ => none) (fun _ => none) (fun _ => none))
    (hist : List (ROp O)) : ∃ f f' rl wl rb wb rb' wb', PField.run ident f0 hist = some f ∧
      PField.run ident f0 (hist.filter (ROp.about ident Q)) = some f' ∧
      CutField ident Q (hist.all (fun op => !op.isUpdate)) w h d t f f' rl wl rb wb rb' wb' := by
  induction hist with
  | nil =>
    refine ⟨f0, f0, _, _, _, _, fun _ => none, fun _ => none, rfl, rfl, s0, ?_, fun _ _ => rfl, fun _ => rfl⟩
    rw [mcut_none]; exact s0
  | cons op hist ih =>
    obtain ⟨f, f', rl, wl, rb, wb, rb', wb', e, e', c⟩ := ih
    cases op with
    | place o l =>
      obtain ⟨k, ek, s⟩ := fshows_place ident c.shows_ o l
      have run1 : PField.run ident f0 (.place o l :: hist) = some k := by rw [PField.run, e]; exact ek
      by_cases ha : Q (ident o) = true
      · obtain ⟨k', ek', s'⟩ := fshows_place ident c.shows' o l
        refine ⟨k, k', _, _, _, _, _, fun c => if c = discretize d l then some ((wb' c).getD [] ++ [o]) else wb' c, run1, ?_, s, ?_, c.readL, fun b => ?_⟩
        · rw [List.filter_cons_of_pos (by exact ha), PField.run, e']; exact ek'
        · rw [mcut_set_in _ (k := ident o) ha]; exact s'
        · by_cases hb : b = discretize d l
          · rw [if_pos hb, if_pos hb, Option.getD_some, Option.getD_some, c.writeL, List.filter_append]
            congr 1
            simp [ha]
          · rw [if_neg hb, if_neg hb]; exact c.writeL b
      · have ha' : Q (ident o) = false := by simpa using ha
        refine ⟨k, f', _, _, _, _, _, wb', run1, ?_, s, ?_, c.readL, fun b => ?_⟩
        · rw [List.filter_cons_of_neg (by exact ha)]; exact e'
        · rw [mcut_set_out _ ha']; exact c.shows'
        · by_cases hb : b = discretize d l
          · rw [if_pos hb, Option.getD_some, List.filter_append, c.writeL]
            simp [ha']
          · rw [if_neg hb]; exact c.writeL b
    | update =>
      refine ⟨f.update, f'.update, _, _, _, _, fun c => (wb' c).or (rb' c), _, by rw [PField.run, e]; rfl, ?_, fshows_update c.shows_, ?_, ?_, c.writeL⟩
      · rw [List.filter_cons_of_pos (by rfl), PField.run, e']; rfl
      · rw [mcut_or]; exact fshows_update c.shows'
      · intro hu; simp [ROp.isUpdate] at hu
    | lazyUpdate =>
      refine ⟨f.lazyUpdate, f'.lazyUpdate, _, _, _, _, _, fun _ => none, by rw [PField.run, e]; rfl, ?_, fshows_lazy c.shows_, ?_, fun _ => c.writeL,
        fun _ => rfl⟩
      · rw [List.filter_cons_of_pos (by rfl), PField.run, e']; rfl
      · rw [mcut_none]; exact fshows_lazy c.shows'

theorem scan_cut {w h d : ℚ} {t : Bool} {f f' : PField O I} {rl wl rl' wl' : I → Option (O × Pos)} {rb wb rb' wb' : Loc → Option (List O)}
    (s : FShows f w h d t rl wl rb wb) (s' : FShows f' w h d t rl' wl' rb' wb') {p : O → Bool}
    (hb : ∀ l, (rb' l).getD [] = ((rb l).getD []).filter p) {keep keep' : Loc → O → Bool} (hk : keep' = keep) (cs : List Loc) :
    f'.scan keep' cs = (f.scan keep cs).map (List.filter p) := by
  subst hk
  induction cs with
  | nil => rfl
  | cons c cs ih =>
    have hid : f'.bagId c = f.bagId c := by
      unfold PField.bagId; rw [s.width, s.height, s.disc, s'.width, s'.height, s'.disc]
    have step : ∀ {f : PField O I} {rl wl : I → Option (O × Pos)} {rb wb : Loc → Option (List O)} (_ : FShows f w h d t rl wl rb wb) (b : Loc),
        f.bagId c = some b → f.scan keep' (c :: cs) = (f.scan keep' cs).map (fun r => ((rb b).getD []).filter (keep' b) ++ r) := by
      intro f rl wl rb wb s b hb
      rw [PField.scan, hb]
      dsimp only
      rw [getRead_abs s.invL, s.readL]
      cases rb b with
      | none => cases f.scan keep' cs <;> rfl
      | some x => rfl
    cases hc : f.bagId c with
    | none => rw [PField.scan, PField.scan, hid, hc]; rfl
    | some b =>
      rw [step s b hc, step s' b (hid.trans hc), ih, hb]
      cases f.scan keep' cs with
      | none => rfl
      | some r =>
        simp only [Option.map_some, List.filter_append, List.filter_filter]
        congr 2
        apply List.filter_congr
        intro x _
        exact Bool.and_comm _ _

theorem number_zero {w h d : ℚ} {t : Bool} {f f' : PField O I} {rl wl : I → Option (O × Pos)} {rb wb rb' wb' : Loc → Option (List O)}
    (s : FShows f w h d t rl wl rb wb) (s' : FShows f' w h d t (mcut Q rl) (mcut Q wl) rb' wb') (hn : f'.numObjects ≠ 0) :
    rLen f.findex ≠ 0 := by
  intro h0
  refine hn ?_
  show rLen f'.findex = 0
  rw [rLen_zero s.invI] at h0
  rw [rLen_zero s'.invI]
  intro i
  have := h0 i
  rw [s.readI] at this
  rw [s'.readI]
  dsimp only at this ⊢
  unfold mcut
  by_cases hq : Q i = true
  · rw [if_pos hq]; exact this
  · rw [if_neg hq]; rfl
end

/-- **C258**, continuous fields: a program and the same program without the calls about the objects outside a set agree about what
the objects of the set are and where they are; if the program never calls `update`, they agree also about the bags and about the
neighbours, as long as there is any object. -/
theorem C258_fields_partial {cpus : Nat} (hc : shardAmount cpus ≤ 2 ^ 64) (ident : O → I) (Q : I → Bool) (hashO : I → Nat)
    (hashL : Loc → Nat) (w h d : ℚ) (t : Bool) (hist : List (ROp O)) :
    ∃ f f', PField.run ident (PField.new cpus hashO hashL w h d t) hist = some f ∧
      PField.run ident (PField.new cpus hashO hashL w h d t) (hist.filter (ROp.about ident Q)) = some f' ∧
      f.SamePlaces ident Q f' ∧ ((∀ op ∈ hist, op.isUpdate = false) → f.SameBags ident Q f') := by
  obtain ⟨f, f', rl, wl, rb, wb, rb', wb', e, e', c⟩ := cutField_run (ident := ident) (Q := Q) (fshows_new hc hashO hashL w h d t) hist
  have s := c.shows_
  have s' := c.shows'
  have hin : ∀ {V : Type} (m : I → Option V) i, Q i = true → mcut Q m i = m i := by
    intro V m i hi; unfold mcut; exact if_pos hi
  refine ⟨f, f', e, e', ⟨fun o ho => ?_, fun o ho => ?_, fun o ho => ?_, fun o ho => ?_⟩, fun hu => ?_⟩
  · unfold PField.get; rw [getRead_abs s.invO, getRead_abs s'.invO, s.readO, s'.readO, hin _ _ ho]
  · unfold PField.getLocation; rw [getRead_abs s.invO, getRead_abs s'.invO, s.readO, s'.readO, hin _ _ ho]
  · unfold PField.getLocationUnbuffered; rw [getWrite_abs s.invO, getWrite_abs s'.invO, s.writeO, s'.writeO, hin _ _ ho]
  · unfold PField.getLocation
    rw [getRead_abs s'.invO, s'.readO]
    unfold mcut
    rw [ho]; rfl
  · have hplain : hist.all (fun op => !op.isUpdate) = true := by
      rw [List.all_eq_true]
      intro op hop
      rw [hu op hop]; rfl
    have hL := c.readL hplain
    have hcell : ∀ p, f'.cellOf p = f.cellOf p := by intro p; rw [cellOf_eq, cellOf_eq, s.disc, s'.disc]
    have hcells : ∀ p dist, f'.searchCells p dist = f.searchCells p dist := by
      intro p dist
      unfold PField.searchCells
      rw [hcell, s'.disc, s'.width, s'.height, s'.tor, s.disc, s.width, s.height, s.tor]
    refine ⟨fun p => ?_, fun locOf p dist hn => ?_, fun p dist hn => ?_⟩
    · unfold PField.getObjects
      rw [hcell, getRead_abs s.invL, getRead_abs s'.invL, s.readL, s'.readL, Option.map_some, Option.map_some, Option.map_some, hL]
    · unfold PField.getNeighborsWithinDistance
      rw [if_neg (number_zero s s' hn), if_neg (show rLen f'.findex ≠ 0 from hn)]
      by_cases h1 : dist ≤ 0
      · rw [if_pos h1, if_pos h1]; rfl
      · rw [if_neg h1, if_neg h1, hcells]
        refine scan_cut s s' hL ?_ _
        funext b o
        unfold PField.keepExact
        rw [s'.disc, s'.width, s'.height, s'.tor, s.disc, s.width, s.height, s.tor]
    · unfold PField.getNeighborsWithinRelaxDistance
      rw [if_neg (number_zero s s' hn), if_neg (show rLen f'.findex ≠ 0 from hn)]
      by_cases h1 : dist ≤ 0
      · rw [if_pos h1, if_pos h1]; rfl
      · rw [if_neg h1, if_neg h1, hcells]
        exact scan_cut s s' hL rfl _

/-- Three objects near each other, and the same without the one in the middle. -/
example : ((PField.run id (PField.new 1 id (fun _ => 0) 4 4 1 false) [.lazyUpdate, .place 9 ⟨2, 2⟩, .place 8 ⟨2, 1⟩, .place 7 ⟨1, 1⟩] :
      Option (PField Nat Nat)).bind (fun f => f.getNeighborsWithinRelaxDistance ⟨1, 1⟩ 1)) = some [7, 8, 9] ∧
    ((PField.run id (PField.new 1 id (fun _ => 0) 4 4 1 false) ([.lazyUpdate, .place 9 ⟨2, 2⟩, .place 8 ⟨2, 1⟩, .place 7 ⟨1, 1⟩].filter
      (ROp.about id (fun i => decide (i ≠ 8)))) : Option (PField Nat Nat)).bind (fun f => f.getNeighborsWithinRelaxDistance ⟨1, 1⟩ 1)) =
      some [7, 9] := by
  refine ⟨by decide +kernel, by decide +kernel⟩

/-- **C258** is false of fields if the program publishes with `update`: an object placed in the square of a published object makes
that one disappear from the neighbours of others. And a search that only finds nothing near with another object in the field panics
without it. -/
theorem C258_field_negation_partial :
    (((PField.run id (PField.new 1 id (fun _ => 0) 4 4 1 false) [.update, .place 8 ⟨1, 1⟩, .lazyUpdate, .place 7 ⟨1, 1⟩] :
        Option (PField Nat Nat)).bind (fun f => f.getNeighborsWithinRelaxDistance ⟨1, 1⟩ 1)) = some [8] ∧
      ((PField.run id (PField.new 1 id (fun _ => 0) 4 4 1 false) ([.update, .place 8 ⟨1, 1⟩, .lazyUpdate, .place 7 ⟨1, 1⟩].filter
        (ROp.about id (fun i => decide (i = 7)))) : Option (PField Nat Nat)).bind (fun f => f.getNeighborsWithinRelaxDistance ⟨1, 1⟩ 1)) =
        some [7]) ∧
    ((PField.run id (PField.new 1 id (fun _ => 0) 9 9 1 false) [.lazyUpdate, .place 8 ⟨8, 8⟩] :
        Option (PField Nat Nat)).bind (fun f => f.getNeighborsWithinRelaxDistance ⟨1, 1⟩ 1)) = some [] ∧
      ((PField.run id (PField.new 1 id (fun _ => 0) 9 9 1 false) ([.lazyUpdate, .place 8 ⟨8, 8⟩].filter
        (ROp.about id (fun i => decide (i = 7)))) : Option (PField Nat Nat)).bind (fun f => f.getNeighborsWithinRelaxDistance ⟨1, 1⟩ 1)) =
        none := by
  refine ⟨⟨by decide +kernel, by decide +kernel⟩, by decide +kernel, by decide +kernel⟩

end Verif.ParField2D
