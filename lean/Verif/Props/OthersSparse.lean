import Verif.Model.SparseObjectGrid
import Verif.Props.OthersDense

/-!
C248 on `SparseGrid2D`.
-/

namespace Verif.SparseObject

open Grid

variable {O : Type} [BEq O]

/-- The bag under a key, empty if there is none. -/
def bagAt (m : HMap Loc (List O)) (l : Loc) : List O := (HMap.get m l).getD []

/-- One map is the other without the objects outside the set; empty bags may be there or not. -/
structure Cut (P : O → Bool) (m m' : HMap Loc (List O)) : Prop where
  wf : HMap.WF m
  wf' : HMap.WF m'
  bag : ∀ l, bagAt m' l = (bagAt m l).filter P

omit [BEq O] in
theorem bagAt_adjust (m : HMap Loc (List O)) (k : Loc) (f : List O → List O) {b : List O} (hb : HMap.get m k = some b) (l : Loc) :
    bagAt (HMap.adjust m k f) l = if l = k then f b else bagAt m l := by
  unfold bagAt
  rw [HMap.get_adjustBy m k l f]
  by_cases hl : l = k
  · subst hl; simp [hb]
  · rw [if_neg hl, if_neg hl]

/-- The written map after `set_object_location`. -/
def pushed (m : HMap Loc (List O)) (o : O) (k : Loc) : HMap Loc (List O) :=
  match HMap.get m k with
  | some _ => HMap.adjust m k (fun bag => bag ++ [o])
  | none => (HMap.insert m k [o]).1

omit [BEq O] in
theorem pushed_spec {m : HMap Loc (List O)} (hw : HMap.WF m) (o : O) (k : Loc) :
    HMap.WF (pushed m o k) ∧ ∀ l, bagAt (pushed m o k) l = if l = k then bagAt m k ++ [o] else bagAt m l := by
  unfold pushed
  cases hk : HMap.get m k with
  | some b =>
    refine ⟨HMap.WF_adjust hw _ _, fun l => ?_⟩
    rw [bagAt_adjust m k _ hk]
    by_cases hl : l = k
    · rw [if_pos hl, if_pos hl]; unfold bagAt; rw [hk]; rfl
    · rw [if_neg hl, if_neg hl]
  | none =>
    refine ⟨HMap.WF_insert hw _ _, fun l => ?_⟩
    unfold bagAt
    rw [HMap.get_insert]
    by_cases hl : l = k
    · subst hl; rw [if_pos rfl, if_pos rfl, hk]; rfl
    · rw [if_neg hl, if_neg hl]

/-- The written map after `remove_object_location`. -/
def pulled (m : HMap Loc (List O)) (o : O) (k : Loc) : HMap Loc (List O) :=
  match HMap.get m k with
  | none => m
  | some bag =>
    if (bag.filter (fun x => x != o)).isEmpty then (HMap.remove m k).1
    else HMap.adjust m k (fun bag => bag.filter (fun x => x != o))

theorem pulled_spec {m : HMap Loc (List O)} (hw : HMap.WF m) (o : O) (k : Loc) :
    HMap.WF (pulled m o k) ∧
      ∀ l, bagAt (pulled m o k) l = if l = k then (bagAt m k).filter (fun x => x != o) else bagAt m l := by
  unfold pulled
  cases hk : HMap.get m k with
  | none =>
    refine ⟨hw, fun l => ?_⟩
    by_cases hl : l = k
    · subst hl; rw [if_pos rfl]; dsimp only; unfold bagAt; rw [hk]; rfl
    · rw [if_neg hl]
  | some b =>
    dsimp only
    by_cases he : (b.filter (fun x => x != o)).isEmpty = true
    · rw [if_pos he]
      refine ⟨HMap.WF_remove hw _, fun l => ?_⟩
      unfold bagAt
      rw [HMap.get_remove]
      by_cases hl : l = k
      · subst hl; rw [if_pos rfl, if_pos rfl, hk]
        show [] = b.filter _
        rw [List.isEmpty_iff.1 he]
      · rw [if_neg hl, if_neg hl]
    · rw [if_neg he]
      refine ⟨HMap.WF_adjust hw _ _, fun l => ?_⟩
      rw [bagAt_adjust m k _ hk]
      by_cases hl : l = k
      · rw [if_pos hl, if_pos hl]; unfold bagAt; rw [hk]; rfl
      · rw [if_neg hl, if_neg hl]

omit [BEq O] in
theorem applyBag_cut {P : O → Bool} {f : O → Option O} (hf : ∀ o x, f o = some x → P x = P o) :
    ∀ (b b2 : List O), applyBag f b = some b2 → applyBag f (b.filter P) = some (b2.filter P) := by
  intro b
  induction b with
  | nil => intro b2 h; simp only [applyBag, Option.some.injEq] at h; subst h; rfl
  | cons o b ih =>
    intro b2 h
    rw [applyBag] at h
    cases ho : f o with
    | none => rw [ho] at h; simp at h
    | some x =>
      rw [ho] at h
      obtain ⟨t, ht, rfl⟩ := Option.map_eq_some_iff.1 h
      have hx := hf o x ho
      by_cases hp : P o = true
      · rw [List.filter_cons_of_pos hp, List.filter_cons_of_pos (by rw [hx]; exact hp), applyBag, ho, ih t ht]; rfl
      · rw [List.filter_cons_of_neg hp, List.filter_cons_of_neg (by rw [hx]; exact hp), ih t ht]

/-- What `applyMap` does to each bag. -/
theorem applyMap_bag {f : Loc → O → Option O} : ∀ {m m2 : HMap Loc (List O)}, applyMap f m = some m2 →
    (HMap.WF m → HMap.WF m2) ∧ ∀ l, applyBag (f l) (bagAt m l) = some (bagAt m2 l) := by
  intro m
  induction m with
  | nil => intro m2 h; simp only [applyMap, Option.some.injEq] at h; subst h; exact ⟨fun h => h, fun _ => rfl⟩
  | cons e m ih =>
    intro m2 h
    have hkeys := (applyMap_some f _ _ h).1
    refine ⟨fun hw => by unfold HMap.WF at hw ⊢; rw [hkeys]; exact hw, ?_⟩
    rw [applyMap] at h
    cases hb : applyBag (f e.1) e.2 with
    | none => rw [hb] at h; simp at h
    | some b =>
      rw [hb] at h
      obtain ⟨t, ht, rfl⟩ := Option.map_eq_some_iff.1 h
      intro l
      unfold bagAt
      rw [HMap.get_cons, HMap.get_cons]
      by_cases hl : e.1 = l
      · subst hl; simp [hb]
      · simp only [hl, if_false]; exact (ih ht).2 l

theorem applyMap_exists {f : Loc → O → Option O} : ∀ {m : HMap Loc (List O)}, HMap.WF m →
    (∀ l, (applyBag (f l) (bagAt m l)).isSome = true) → ∃ m2, applyMap f m = some m2 := by
  intro m hw hs
  cases hm : applyMap f m with
  | some m2 => exact ⟨m2, rfl⟩
  | none =>
    obtain ⟨e, he, o, ho, hf⟩ := (applyMap_none f m).1 hm
    have hg : HMap.get m e.1 = some e.2 := HMap.get_of_mem hw he
    have hx := hs e.1
    unfold bagAt at hx
    rw [hg] at hx
    have : applyBag (f e.1) e.2 = none := (applyBag_none _ _).2 ⟨o, ho, hf⟩
    rw [Option.getD_some, this] at hx
    simp at hx

theorem applyMap_cut {P : O → Bool} {f : Loc → O → Option O} (hf : ∀ l o x, f l o = some x → P x = P o)
    {m m' m2 : HMap Loc (List O)} (hc : Cut P m m') (h : applyMap f m = some m2) :
    ∃ m2', applyMap f m' = some m2' ∧ Cut P m2 m2' := by
  obtain ⟨h1, h2⟩ := applyMap_bag h
  have key : ∀ l, applyBag (f l) (bagAt m' l) = some ((bagAt m2 l).filter P) := by
    intro l
    rw [hc.bag l]
    exact applyBag_cut (hf l) _ _ (h2 l)
  obtain ⟨m2', hm⟩ := applyMap_exists hc.wf' (fun l => by rw [key l]; rfl)
  refine ⟨m2', hm, h1 hc.wf, (applyMap_bag hm).1 hc.wf', fun l => ?_⟩
  have := (applyMap_bag hm).2 l
  rw [key l] at this
  exact (Option.some.inj this).symm

/-- Both maps of a grid are cut. -/
structure CutGrid (P : O → Bool) (g g' : BGrid O) : Prop where
  r : Cut P g.rlocs g'.rlocs
  w : Cut P g.locs g'.locs

omit [BEq O] in
theorem set_locs (g : BGrid O) (o : O) (k : Loc) :
    setObjectLocation g o k = ⟨g.rlocs, pushed g.locs o k, g.width, g.height⟩ := by
  unfold setObjectLocation pushed
  cases HMap.get g.locs k <;> rfl

theorem remove_locs (g : BGrid O) (o : O) (k : Loc) :
    removeObjectLocation g o k = ⟨g.rlocs, pulled g.locs o k, g.width, g.height⟩ := by
  unfold removeObjectLocation pulled
  cases HMap.get g.locs k with
  | none => rfl
  | some b =>
    dsimp only
    by_cases he : (b.filter (fun x => x != o)).isEmpty = true
    · rw [if_pos he, if_pos he]
    · rw [if_neg he, if_neg he]

omit [BEq O] in
theorem cut_nil (P : O → Bool) : Cut P [] [] := ⟨List.nodup_nil, List.nodup_nil, fun _ => rfl⟩

theorem exec_cut {P : O → Bool} (hr : Respects P) {g g' g2 : BGrid O} (hc : CutGrid P g g') {op : ObjOp O}
    (hk : op.Keeps P) (he : exec g op = some g2) :
    (op.about P = true → ∃ g2', exec g' op = some g2' ∧ CutGrid P g2 g2') ∧ (op.about P = false → CutGrid P g2 g') := by
  cases op with
  | place o k =>
    simp only [exec, Option.some.injEq] at he
    subst he
    rw [set_locs]
    obtain ⟨w1, b1⟩ := pushed_spec hc.w.wf o k
    obtain ⟨w2, b2⟩ := pushed_spec hc.w.wf' o k
    constructor
    · intro ha
      have ha : P o = true := ha
      refine ⟨_, rfl, ?_⟩
      rw [set_locs]
      refine ⟨hc.r, w1, w2, fun l => ?_⟩
      show bagAt (pushed g'.locs o k) l = (bagAt (pushed g.locs o k) l).filter P
      rw [b1, b2]
      by_cases hl : l = k
      · rw [if_pos hl, if_pos hl, List.filter_append, List.filter_cons_of_pos ha, hc.w.bag]; rfl
      · rw [if_neg hl, if_neg hl, hc.w.bag]
    · intro ha
      have ha : P o = false := ha
      refine ⟨hc.r, w1, hc.w.wf', fun l => ?_⟩
      show bagAt g'.locs l = (bagAt (pushed g.locs o k) l).filter P
      rw [b1]
      by_cases hl : l = k
      · rw [if_pos hl, List.filter_append, List.filter_cons_of_neg (by rw [ha]; simp), hc.w.bag, hl]; simp
      · rw [if_neg hl, hc.w.bag]
  | remove o k =>
    simp only [exec, Option.some.injEq] at he
    subst he
    rw [remove_locs]
    obtain ⟨w1, b1⟩ := pulled_spec hc.w.wf o k
    obtain ⟨w2, b2⟩ := pulled_spec hc.w.wf' o k
    constructor
    · intro ha
      refine ⟨_, rfl, ?_⟩
      rw [remove_locs]
      refine ⟨hc.r, w1, w2, fun l => ?_⟩
      show bagAt (pulled g'.locs o k) l = (bagAt (pulled g.locs o k) l).filter P
      rw [b1, b2]
      by_cases hl : l = k
      · rw [if_pos hl, if_pos hl, hc.w.bag, DenseObject.filter_ne_comm]
      · rw [if_neg hl, if_neg hl, hc.w.bag]
    · intro ha
      have ha : P o = false := ha
      refine ⟨hc.r, w1, hc.w.wf', fun l => ?_⟩
      show bagAt g'.locs l = (bagAt (pulled g.locs o k) l).filter P
      rw [b1]
      by_cases hl : l = k
      · subst hl
        rw [if_pos rfl, DenseObject.filter_ne_out hr _ ha, hc.w.bag]
      · rw [if_neg hl, hc.w.bag]
  | update =>
    refine ⟨fun _ => ?_, fun ha => by simp [ObjOp.about] at ha⟩
    simp only [exec, Option.some.injEq] at he
    subst he
    refine ⟨_, rfl, ⟨HMap.WF_foldl_insert g.locs (fun b => b) [] List.nodup_nil, HMap.WF_foldl_insert g'.locs (fun b => b) [] List.nodup_nil, fun l => ?_⟩, cut_nil P⟩
    have e1 := HMap.get_foldl_insert g.locs (fun b => b) [] hc.w.wf l
    have e2 := HMap.get_foldl_insert g'.locs (fun b => b) [] hc.w.wf' l
    show (HMap.get (List.foldl (fun m e => (HMap.insert m e.1 e.2).1) [] g'.locs) l).getD [] =
      ((HMap.get (List.foldl (fun m e => (HMap.insert m e.1 e.2).1) [] g.locs) l).getD []).filter P
    rw [e1, e2]
    have := hc.w.bag l
    unfold bagAt at this
    simp only [Option.map_id', HMap.get, List.find?_nil, Option.map_none, Option.or_none] at this ⊢
    exact this
  | lazyUpdate =>
    refine ⟨fun _ => ?_, fun ha => by simp [ObjOp.about] at ha⟩
    simp only [exec, Option.some.injEq] at he
    subst he
    exact ⟨_, rfl, hc.w, cut_nil P⟩
  | apply f opt =>
    refine ⟨fun _ => ?_, fun ha => by simp [ObjOp.about] at ha⟩
    obtain ⟨h1, h2⟩ := hk
    cases opt with
    | READWRITE => exact absurd rfl h1
    | READ =>
      simp only [exec, applyToAllValues] at he ⊢
      obtain ⟨v, hv, rfl⟩ := Option.map_eq_some_iff.1 he
      obtain ⟨v', hv', hcut⟩ := applyMap_cut h2 hc.r hv
      rw [hv']
      exact ⟨_, rfl, hcut, hc.w⟩
    | WRITE =>
      simp only [exec, applyToAllValues] at he ⊢
      obtain ⟨v, hv, rfl⟩ := Option.map_eq_some_iff.1 he
      obtain ⟨v', hv', hcut⟩ := applyMap_cut h2 hc.w hv
      rw [hv']
      exact ⟨_, rfl, hc.r, hcut⟩

theorem run_cut {P : O → Bool} (hr : Respects P) {g0 : BGrid O} (h0 : CutGrid P g0 g0) :
    ∀ (hist : List (ObjOp O)) (g : BGrid O), (∀ op ∈ hist, op.Keeps P) → run g0 hist = some g →
    ∃ g', run g0 (aboutOnly P hist) = some g' ∧ CutGrid P g g' := by
  intro hist
  induction hist with
  | nil =>
    intro g _ hg
    simp only [run, Option.some.injEq] at hg
    subst hg
    exact ⟨g0, rfl, h0⟩
  | cons op hist ih =>
    intro g hk hg
    simp only [run] at hg
    cases hb : run g0 hist with
    | none => rw [hb] at hg; simp at hg
    | some g1 =>
      rw [hb] at hg
      have hg : exec g1 op = some g := hg
      obtain ⟨g1', hi, hcut⟩ := ih g1 (fun o ho => hk o (List.mem_cons_of_mem _ ho)) hb
      obtain ⟨ha, hn⟩ := exec_cut hr hcut (hk op List.mem_cons_self) hg
      unfold aboutOnly at hi ⊢
      cases hab : op.about P with
      | true =>
        rw [List.filter_cons_of_pos hab]
        simp only [run]
        rw [hi]
        exact ha hab
      | false =>
        rw [List.filter_cons_of_neg (by rw [hab]; simp)]
        exact ⟨g1', hi, hn hab⟩

omit [BEq O] in
theorem calls_cut {P : O → Bool} {m m' : HMap Loc (List O)} (hc : Cut P m m') :
    (m'.flatMap (fun e => e.2.map (fun o => (e.1, o)))).Perm
      ((m.flatMap (fun e => e.2.map (fun o => (e.1, o)))).filter (fun e => P e.2)) := by
  have drop : ∀ m : HMap Loc (List O), m.flatMap (fun e => e.2.map (fun o => (e.1, o))) =
      (m.filter (fun e => !e.2.isEmpty)).flatMap (fun e => e.2.map (fun o => (e.1, o))) := by
    intro m
    induction m with
    | nil => rfl
    | cons e m ih =>
      cases hb : e.2 with
      | nil => rw [List.filter_cons_of_neg (by simp [hb]), List.flatMap_cons, hb, ih]; rfl
      | cons x xs => rw [List.filter_cons_of_pos (by simp [hb]), List.flatMap_cons, List.flatMap_cons, ih]
  have cut : (m.flatMap (fun e => e.2.map (fun o => (e.1, o)))).filter (fun e => P e.2) =
      (m.map (fun e => (e.1, e.2.filter P))).flatMap (fun e => e.2.map (fun o => (e.1, o))) := by
    clear hc
    induction m with
    | nil => rfl
    | cons e m ih =>
      rw [List.flatMap_cons, List.filter_append, List.map_cons, List.flatMap_cons, ih, List.filter_map]
      rfl
  rw [cut, drop m', drop (m.map _)]
  have wm : HMap.WF (m.map (fun e => (e.1, e.2.filter P))) := HMap.WF_map hc.wf _ (fun _ => rfl)
  refine List.Perm.flatMap_right _ ((List.perm_ext_iff_of_nodup (HMap.nodup_of_WF (HMap.WF_filter hc.wf' _))
    (HMap.nodup_of_WF (HMap.WF_filter wm _))).2 ?_)
  have key : ∀ l, HMap.get (m.map (fun e => (e.1, e.2.filter P))) l = (HMap.get m l).map (List.filter P) :=
    fun l => HMap.get_mapVal m (List.filter P) l
  rintro ⟨l, b⟩
  rw [List.mem_filter, List.mem_filter, ← HMap.get_eq_some_iff hc.wf', ← HMap.get_eq_some_iff wm, key]
  have := hc.bag l
  unfold bagAt at this
  cases h1 : HMap.get m l with
  | none =>
    rw [h1] at this
    simp only [Option.getD_none, List.filter_nil] at this
    cases h2 : HMap.get m' l with
    | none => simp
    | some b' =>
      rw [h2] at this
      have : b' = [] := this
      subst this
      simp only [Option.some.injEq, Option.map_none, reduceCtorEq, false_and, iff_false, not_and]
      rintro rfl
      simp
  | some c =>
    rw [h1] at this
    cases h2 : HMap.get m' l with
    | none =>
      rw [h2] at this
      have : [] = c.filter P := this
      simp only [Option.map_some, Option.some.injEq, reduceCtorEq, false_and, false_iff, not_and]
      rintro rfl
      rw [← this]
      simp
    | some b' =>
      rw [h2] at this
      have : b' = c.filter P := this
      rw [this]; rfl

theorem holds_cut {P : O → Bool} (hr : Respects P) {m m' : HMap Loc (List O)} (hc : Cut P m m') {o : O} (ho : P o = true) :
    (m'.find? (fun e => e.2.contains o)).isSome = (m.find? (fun e => e.2.contains o)).isSome := by
  have key : ∀ {m : HMap Loc (List O)}, HMap.WF m →
      ((m.find? (fun e => e.2.contains o)).isSome = true ↔ ∃ l, (bagAt m l).contains o = true) := by
    intro m hw
    rw [List.find?_isSome]
    constructor
    · rintro ⟨e, he, hx⟩
      refine ⟨e.1, ?_⟩
      unfold bagAt
      rw [HMap.get_of_mem hw (k := e.1) (v := e.2) he]
      exact hx
    · rintro ⟨l, hl⟩
      unfold bagAt at hl
      cases hg : HMap.get m l with
      | none => rw [hg] at hl; simp at hl
      | some b =>
        rw [hg] at hl
        exact ⟨(l, b), (HMap.get_eq_some_iff hw).1 hg, hl⟩
  rw [Bool.eq_iff_iff, key hc.wf', key hc.wf]
  constructor
  · rintro ⟨l, hl⟩
    rw [hc.bag, DenseObject.contains_proj hr ho] at hl
    exact ⟨l, hl⟩
  · rintro ⟨l, hl⟩
    refine ⟨l, ?_⟩
    rw [hc.bag, DenseObject.contains_proj hr ho]
    exact hl

/-- The objects in an answer. -/
def listed (a : Option (List O)) : List O := a.getD []

/-- What the program without the calls about other objects answers, in terms of the whole program's answers. -/
structure SameFor (P : O → Bool) (g g' : BGrid O) : Prop where
  objects : ∀ l, listed (getObjects g' l) = (listed (getObjects g l)).filter P
  objectsUnbuffered : ∀ l, listed (getObjectsUnbuffered g' l) = (listed (getObjectsUnbuffered g l)).filter P
  calls : (iterObjects g').Perm ((iterObjects g).filter (fun e => P e.2))
  callsUnbuffered : (iterObjectsUnbuffered g').Perm ((iterObjectsUnbuffered g).filter (fun e => P e.2))
  location : ∀ o, P o = true → (getLocation g' o).isSome = (getLocation g o).isSome
  locationUnbuffered : ∀ o, P o = true → (getLocationUnbuffered g' o).isSome = (getLocationUnbuffered g o).isSome

/-- C248, `SparseGrid2D`. -/
theorem C248_sparse_partial {P : O → Bool} (hr : Respects P) {w h : Int} {g : BGrid O} {hist : List (ObjOp O)}
    (hk : ∀ op ∈ hist, op.Keeps P) (hg : run (new w h) hist = some g) :
    ∃ g', run (new w h) (aboutOnly P hist) = some g' ∧ SameFor P g g' := by
  obtain ⟨g', h1, h2⟩ := run_cut hr (g0 := new w h) ⟨cut_nil P, cut_nil P⟩ hist g hk hg
  refine ⟨g', h1, h2.r.bag, h2.w.bag, calls_cut h2.r, calls_cut h2.w, fun o ho => ?_, fun o ho => ?_⟩
  · unfold getLocation
    rw [Option.isSome_map, Option.isSome_map]
    exact holds_cut hr h2.r ho
  · unfold getLocationUnbuffered
    rw [Option.isSome_map, Option.isSome_map]
    exact holds_cut hr h2.w ho

/-- The even numbers are the set. -/
example :
    let hist : List (ObjOp Nat) := [.place 5 ⟨0, 0⟩, .apply (fun _ o => some (o + 10)) .READ, .place 2 ⟨0, 0⟩, .update,
      .place 3 ⟨0, 1⟩, .place 4 ⟨0, 1⟩, .place 2 ⟨0, 1⟩, .remove 3 ⟨0, 0⟩, .place 3 ⟨0, 0⟩]
    let P : Nat → Bool := fun n => n % 2 == 0
    (run (new 1 2) hist).map (fun g => (getObjects g ⟨0, 1⟩, getObjectsUnbuffered g ⟨0, 0⟩)) =
      some (some [12, 14, 13], some [2, 5]) ∧
    (run (new 1 2) (aboutOnly P hist)).map (fun g => (getObjects g ⟨0, 1⟩, getObjectsUnbuffered g ⟨0, 0⟩)) =
      some (some [12, 14], some [2]) := by
  refine ⟨?_, ?_⟩ <;> decide +kernel

/-- The limits: under `READWRITE` a published object that is alone in its bag is written again, and is not if another object
published after it is in the same bag. -/
theorem C248_sparse_negation_partial :
    ∃ (P : Nat → Bool) (hist : List (ObjOp Nat)) (g g' : BGrid Nat), Respects P ∧
      (∀ op ∈ hist, ∀ f opt, op = .apply f opt → ∀ l o, f l o = some o) ∧
      run (new 1 1) hist = some g ∧ run (new 1 1) (aboutOnly P hist) = some g' ∧
      P 1 = true ∧ getObjectsUnbuffered g' ⟨0, 0⟩ = some [1] ∧ getLocationUnbuffered g 1 = none := by
  refine ⟨fun n => n == 1, [.apply (fun _ o => some o) .READWRITE, .lazyUpdate, .place 2 ⟨0, 0⟩, .place 1 ⟨0, 0⟩],
    ⟨[(⟨0, 0⟩, [1, 2])], [(⟨0, 0⟩, [2])], 1, 1⟩, ⟨[(⟨0, 0⟩, [1])], [(⟨0, 0⟩, [1])], 1, 1⟩, ?_, ?_, ?_, ?_, ?_, ?_, ?_⟩
  · intro a b h
    have : a = b := by simpa using h
    rw [this]
  · intro op hop f opt he l o
    subst he
    simp at hop
    rw [hop.1]
  all_goals decide +kernel

end Verif.SparseObject
