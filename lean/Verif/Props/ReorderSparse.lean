import Verif.Props.OthersSparse
import Verif.Props.ReorderDense

/-!
C249 on `SparseGrid2D`.
-/

namespace Verif.SparseObject

open Grid

variable {O : Type} [BEq O]

/-- The two maps have bags under the same keys, with the same objects. -/
structure Same (m m' : HMap Loc (List O)) : Prop where
  wf : HMap.WF m
  wf' : HMap.WF m'
  full : ∀ l b, HMap.get m l = some b → b ≠ []
  full' : ∀ l b, HMap.get m' l = some b → b ≠ []
  bag : ∀ l, (bagAt m l).Perm (bagAt m' l)

/-- A map without empty bags. -/
def Full (m : HMap Loc (List O)) : Prop := HMap.WF m ∧ ∀ l b, HMap.get m l = some b → b ≠ []

omit [BEq O] in
theorem same_refl {m : HMap Loc (List O)} (h : Full m) : Same m m := ⟨h.1, h.1, h.2, h.2, fun _ => .refl _⟩

omit [BEq O] in
theorem same_trans {m m' m'' : HMap Loc (List O)} (h : Same m m') (h' : Same m' m'') : Same m m'' :=
  ⟨h.wf, h'.wf', h.full, h'.full', fun l => (h.bag l).trans (h'.bag l)⟩

omit [BEq O] in
theorem get_same {m m' : HMap Loc (List O)} (h : Same m m') (l : Loc) : SameBag (HMap.get m l) (HMap.get m' l) := by
  have hb := h.bag l
  unfold bagAt at hb
  cases h1 : HMap.get m l with
  | none =>
    cases h2 : HMap.get m' l with
    | none => trivial
    | some b' =>
      rw [h1, h2] at hb
      exact absurd (List.nil_perm.1 hb) (h.full' l b' h2)
  | some b =>
    cases h2 : HMap.get m' l with
    | none =>
      rw [h1, h2] at hb
      exact absurd (List.perm_nil.1 hb) (h.full l b h1)
    | some b' => rw [h1, h2] at hb; exact hb

omit [BEq O] in
theorem pushed_full {m : HMap Loc (List O)} (h : Full m) (o : O) (k : Loc) : Full (pushed m o k) := by
  refine ⟨(pushed_spec h.1 o k).1, ?_⟩
  intro l b hb
  unfold pushed at hb
  cases hk : HMap.get m k with
  | some b0 =>
    rw [hk] at hb
    dsimp only at hb
    rw [HMap.get_adjustBy] at hb
    by_cases hl : l = k
    · rw [if_pos hl, hk] at hb
      simp only [Option.map_some, Option.some.injEq] at hb
      subst hb; simp
    · rw [if_neg hl] at hb
      exact h.2 l b hb
  | none =>
    rw [hk] at hb
    dsimp only at hb
    rw [HMap.get_insert] at hb
    by_cases hl : l = k
    · rw [if_pos hl] at hb
      simp only [Option.some.injEq] at hb
      subst hb; simp
    · rw [if_neg hl] at hb
      exact h.2 l b hb

theorem pulled_full {m : HMap Loc (List O)} (h : Full m) (o : O) (k : Loc) : Full (pulled m o k) := by
  refine ⟨(pulled_spec h.1 o k).1, ?_⟩
  intro l b hb
  unfold pulled at hb
  cases hk : HMap.get m k with
  | none => rw [hk] at hb; exact h.2 l b hb
  | some b0 =>
    rw [hk] at hb
    dsimp only at hb
    by_cases he : (b0.filter (fun x => x != o)).isEmpty = true
    · rw [if_pos he, HMap.get_remove] at hb
      by_cases hl : l = k
      · rw [if_pos hl] at hb; simp at hb
      · rw [if_neg hl] at hb; exact h.2 l b hb
    · rw [if_neg he, HMap.get_adjustBy] at hb
      by_cases hl : l = k
      · rw [if_pos hl, hk] at hb
        simp only [Option.map_some, Option.some.injEq] at hb
        subst hb
        intro h0
        rw [h0] at he
        exact he rfl
      · rw [if_neg hl] at hb; exact h.2 l b hb

/-- The written map after a call that names an object. -/
def moved (m : HMap Loc (List O)) (o : O) (k : Loc) (put : Bool) : HMap Loc (List O) :=
  if put then pushed m o k else pulled m o k

theorem moved_full {m : HMap Loc (List O)} (h : Full m) (o : O) (k : Loc) (p : Bool) : Full (moved m o k p) := by
  cases p
  · exact pulled_full h o k
  · exact pushed_full h o k

theorem moved_bag {m : HMap Loc (List O)} (h : HMap.WF m) (o : O) (k : Loc) (p : Bool) (l : Loc) :
    bagAt (moved m o k p) l = if l = k then bagChange false o p (bagAt m k) else bagAt m l := by
  cases p
  · show bagAt (pulled m o k) l = _
    rw [(pulled_spec h o k).2]
    unfold bagChange
    simp
  · show bagAt (pushed m o k) l = _
    rw [(pushed_spec h o k).2]
    unfold bagChange
    simp

/-- The two grids have the same bags up to order. -/
structure Alike (g g' : BGrid O) : Prop where
  r : Same g.rlocs g'.rlocs
  w : Same g.locs g'.locs
  width : g'.width = g.width
  height : g'.height = g.height

omit [BEq O] in
theorem alike_trans {g g' g'' : BGrid O} (h : Alike g g') (h' : Alike g' g'') : Alike g g'' :=
  ⟨same_trans h.r h'.r, same_trans h.w h'.w, h'.width.trans h.width, h'.height.trans h.height⟩

omit [BEq O] in
theorem alike_left {g g' : BGrid O} (h : Alike g g') : Alike g g :=
  ⟨same_refl ⟨h.r.wf, h.r.full⟩, same_refl ⟨h.w.wf, h.w.full⟩, rfl, rfl⟩

theorem object_moved {op : ObjOp O} {x : O} (h : op.object = some x) : ∃ (k : Loc) (p : Bool), ∀ g : BGrid O,
    exec g op = some ⟨g.rlocs, moved g.locs x k p, g.width, g.height⟩ := by
  cases op with
  | place o l =>
    simp only [ObjOp.object, Option.some.injEq] at h
    subst h
    exact ⟨l, true, fun g => by rw [exec, set_locs]; rfl⟩
  | remove o l =>
    simp only [ObjOp.object, Option.some.injEq] at h
    subst h
    exact ⟨l, false, fun g => by rw [exec, remove_locs]; rfl⟩
  | update => simp [ObjOp.object] at h
  | lazyUpdate => simp [ObjOp.object] at h
  | apply f o => simp [ObjOp.object] at h

omit [BEq O] in
theorem applyBag_perm {f : O → Option O} {b b' : List O} (hp : b.Perm b') :
    ∀ {c : List O}, applyBag f b = some c → ∃ c', applyBag f b' = some c' ∧ c.Perm c' := by
  induction hp with
  | nil => intro c hc; exact ⟨c, hc, .refl _⟩
  | @cons x l l' _ ih =>
    intro c hc
    rw [applyBag] at hc ⊢
    cases hx : f x with
    | none => rw [hx] at hc; simp at hc
    | some y =>
      rw [hx] at hc
      obtain ⟨t, ht, rfl⟩ := Option.map_eq_some_iff.1 hc
      obtain ⟨t', ht', hp'⟩ := ih ht
      exact ⟨y :: t', by simp only [ht', Option.map_some], hp'.cons y⟩
  | swap x y l =>
    intro c hc
    rw [applyBag, applyBag] at hc ⊢
    cases hx : f x with
    | none => rw [hx] at hc; cases hy : f y <;> rw [hy] at hc <;> simp at hc
    | some a =>
      cases hy : f y with
      | none => rw [hy] at hc; simp at hc
      | some b =>
        rw [hx, hy] at hc
        cases hl : applyBag f l with
        | none => rw [hl] at hc; simp at hc
        | some t =>
          rw [hl] at hc
          simp only [Option.map_some, Option.some.injEq] at hc
          subst hc
          exact ⟨a :: b :: t, rfl, .swap _ _ _⟩
  | trans _ _ ih1 ih2 =>
    intro c hc
    obtain ⟨c1, h1, p1⟩ := ih1 hc
    obtain ⟨c2, h2, p2⟩ := ih2 h1
    exact ⟨c2, h2, p1.trans p2⟩

omit [BEq O] in
theorem applyBag_length {f : O → Option O} : ∀ {b c : List O}, applyBag f b = some c → c.length = b.length := by
  intro b
  induction b with
  | nil => intro c h; simp only [applyBag, Option.some.injEq] at h; subst h; rfl
  | cons x b ih =>
    intro c h
    rw [applyBag] at h
    cases hx : f x with
    | none => rw [hx] at h; simp at h
    | some y =>
      rw [hx] at h
      obtain ⟨t, ht, rfl⟩ := Option.map_eq_some_iff.1 h
      simp [ih ht]

theorem applyMap_full {f : Loc → O → Option O} {m m2 : HMap Loc (List O)} (hf : Full m) (h : applyMap f m = some m2) : Full m2 := by
  have hw := (applyMap_bag h).1 hf.1
  refine ⟨hw, fun l b hb => ?_⟩
  have hkeys := (applyMap_some f _ _ h).1
  have h2 := (applyMap_bag h).2 l
  have hk : l ∈ m2.keys := by rw [HMap.mem_keys_iff, hb]; rfl
  unfold HMap.keys at hk
  rw [hkeys] at hk
  have hk : l ∈ m.keys := hk
  rw [HMap.mem_keys_iff] at hk
  cases hm : HMap.get m l with
  | none => rw [hm] at hk; simp at hk
  | some b0 =>
    unfold bagAt at h2
    rw [hm, hb] at h2
    have := applyBag_length h2
    intro h0
    subst h0
    exact hf.2 l b0 hm (List.length_eq_zero_iff.1 this.symm)

theorem applyMap_same {f : Loc → O → Option O} {m m' m2 : HMap Loc (List O)} (hs : Same m m') (h : applyMap f m = some m2) :
    ∃ m2', applyMap f m' = some m2' ∧ Same m2 m2' := by
  obtain ⟨_, h2⟩ := applyMap_bag h
  obtain ⟨m2', hm⟩ := applyMap_exists (f := f) hs.wf' (fun l => by
    obtain ⟨c', hc', _⟩ := applyBag_perm (hs.bag l) (h2 l)
    rw [hc']; rfl)
  have f1 := applyMap_full ⟨hs.wf, hs.full⟩ h
  have f2 := applyMap_full ⟨hs.wf', hs.full'⟩ hm
  refine ⟨m2', hm, f1.1, f2.1, f1.2, f2.2, fun l => ?_⟩
  obtain ⟨c', hc', hp⟩ := applyBag_perm (hs.bag l) (h2 l)
  rw [(applyMap_bag hm).2 l, Option.some.injEq] at hc'
  rw [hc']
  exact hp

omit [BEq O] in
theorem same_nil : Same ([] : HMap Loc (List O)) [] := same_refl ⟨List.nodup_nil, fun l b h => by simp [HMap.get] at h⟩

omit [BEq O] in
theorem get_update {m : HMap Loc (List O)} (hw : HMap.WF m) (l : Loc) :
    HMap.get (m.foldl (fun m e => (HMap.insert m e.1 e.2).1) []) l = HMap.get m l := by
  have e1 := HMap.get_foldl_insert m (fun b => b) [] hw l
  simp only [Option.map_id', HMap.get, List.find?_nil, Option.map_none, Option.or_none] at e1 ⊢
  exact e1

theorem exec_alike {g g' g2 : BGrid O} (ha : Alike g g') {op : ObjOp O} (hk : op.OneSided) (he : exec g op = some g2) :
    ∃ g2', exec g' op = some g2' ∧ Alike g2 g2' := by
  cases ho : op.object with
  | some x =>
    obtain ⟨k, p, hm⟩ := object_moved ho
    rw [hm, Option.some.injEq] at he
    subst he
    rw [hm]
    have f1 := moved_full ⟨ha.w.wf, ha.w.full⟩ x k p
    have f2 := moved_full ⟨ha.w.wf', ha.w.full'⟩ x k p
    refine ⟨_, rfl, ha.r, ⟨f1.1, f2.1, f1.2, f2.2, fun l => ?_⟩, ha.width, ha.height⟩
    show (bagAt (moved g.locs x k p) l).Perm (bagAt (moved g'.locs x k p) l)
    rw [moved_bag ha.w.wf, moved_bag ha.w.wf']
    by_cases hl : l = k
    · rw [if_pos hl, if_pos hl]; exact bagChange_perm _ _ _ _ _ (ha.w.bag k)
    · rw [if_neg hl, if_neg hl]; exact ha.w.bag l
  | none =>
    cases op with
    | place o l => simp [ObjOp.object] at ho
    | remove o l => simp [ObjOp.object] at ho
    | update =>
      simp only [exec, Option.some.injEq] at he
      subst he
      refine ⟨_, rfl, ?_, same_nil, ha.width, ha.height⟩
      refine ⟨HMap.WF_foldl_insert g.locs (fun b => b) [] List.nodup_nil,
        HMap.WF_foldl_insert g'.locs (fun b => b) [] List.nodup_nil, fun l b h => ?_, fun l b h => ?_, fun l => ?_⟩
      · exact ha.w.full l b ((get_update ha.w.wf l).symm.trans h)
      · exact ha.w.full' l b ((get_update ha.w.wf' l).symm.trans h)
      · have := ha.w.bag l
        unfold bagAt at this
        rw [← get_update ha.w.wf l, ← get_update ha.w.wf' l] at this
        exact this
    | lazyUpdate =>
      simp only [exec, Option.some.injEq] at he
      subst he
      exact ⟨_, rfl, ha.w, same_nil, ha.width, ha.height⟩
    | apply f opt =>
      cases opt with
      | READWRITE => exact absurd rfl hk
      | READ =>
        simp only [exec, applyToAllValues] at he ⊢
        obtain ⟨v, hv, rfl⟩ := Option.map_eq_some_iff.1 he
        obtain ⟨v', hv', hp⟩ := applyMap_same ha.r hv
        rw [hv']
        exact ⟨_, rfl, hp, ha.w, ha.width, ha.height⟩
      | WRITE =>
        simp only [exec, applyToAllValues] at he ⊢
        obtain ⟨v, hv, rfl⟩ := Option.map_eq_some_iff.1 he
        obtain ⟨v', hv', hp⟩ := applyMap_same ha.w hv
        rw [hv']
        exact ⟨_, rfl, ha.r, hp, ha.width, ha.height⟩

theorem swap_alike {a b : ObjOp O} (hi : a.Independent b) {g g2 : BGrid O} (ha : Alike g g)
    (he : (exec g b).bind (fun g => exec g a) = some g2) :
    ∃ g2', (exec g a).bind (fun g => exec g b) = some g2' ∧ Alike g2 g2' := by
  obtain ⟨x, y, hx, hy, h1, h2⟩ := hi
  obtain ⟨k, p, ea⟩ := object_moved hx
  obtain ⟨k', p', eb⟩ := object_moved hy
  simp only [ea, eb, Option.bind_some, Option.some.injEq] at he ⊢
  subst he
  have f1 := moved_full ⟨ha.w.wf, ha.w.full⟩ y k' p'
  have f2 := moved_full ⟨ha.w.wf, ha.w.full⟩ x k p
  have f12 := moved_full f1 x k p
  have f21 := moved_full f2 y k' p'
  refine ⟨_, rfl, ha.r, ⟨f12.1, f21.1, f12.2, f21.2, fun l => ?_⟩, rfl, rfl⟩
  show (bagAt (moved (moved g.locs y k' p') x k p) l).Perm (bagAt (moved (moved g.locs x k p) y k' p') l)
  rw [moved_bag f1.1, moved_bag f2.1, moved_bag ha.w.wf, moved_bag ha.w.wf, moved_bag ha.w.wf, moved_bag ha.w.wf]
  by_cases hl : l = k <;> by_cases hl' : l = k'
  · subst hl; subst hl'
    simp only [if_true]
    exact bagChange_comm false h2 h1 p' p _
  · subst hl
    simp [hl']
  · subst hl'
    simp [hl]
  · simp [hl, hl']

theorem run_alike {hist hist' : List (ObjOp O)} (hr : Reorder ObjOp.Independent hist hist') :
    (∀ op ∈ hist, op.OneSided) → ∀ {g0 g : BGrid O}, Alike g0 g0 → run g0 hist = some g →
    (∀ op ∈ hist', op.OneSided) ∧ ∃ g', run g0 hist' = some g' ∧ Alike g g' := by
  have self : ∀ (l : List (ObjOp O)), (∀ op ∈ l, op.OneSided) → ∀ {g0 g : BGrid O}, Alike g0 g0 → run g0 l = some g → Alike g g := by
    intro l
    induction l with
    | nil => intro _ g0 g h0 hg; cases hg; exact h0
    | cons a l ih =>
      intro hk g0 g h0 hg
      simp only [run] at hg
      cases hb : run g0 l with
      | none => rw [hb] at hg; simp at hg
      | some g1 =>
        rw [hb] at hg
        have hg : exec g1 a = some g := hg
        obtain ⟨g2, e, h2⟩ := exec_alike (ih (fun o ho => hk o (List.mem_cons_of_mem _ ho)) h0 hb) (hk a List.mem_cons_self) hg
        exact alike_left h2
  induction hr with
  | refl l => intro hk g0 g h0 hg; exact ⟨hk, g, hg, self l hk h0 hg⟩
  | @cons a l l' _ ih =>
    intro hk g0 g h0 hg
    simp only [run] at hg ⊢
    cases hb : run g0 l with
    | none => rw [hb] at hg; simp at hg
    | some g1 =>
      rw [hb] at hg
      have hg : exec g1 a = some g := hg
      obtain ⟨k', g1', e1, h1⟩ := ih (fun o ho => hk o (List.mem_cons_of_mem _ ho)) h0 hb
      obtain ⟨g', e, h⟩ := exec_alike h1 (hk a List.mem_cons_self) hg
      refine ⟨?_, g', by rw [e1]; exact e, h⟩
      intro o ho
      rcases List.mem_cons.1 ho with rfl | ho
      · exact hk _ List.mem_cons_self
      · exact k' o ho
  | @swap a b l hi =>
    intro hk g0 g h0 hg
    refine ⟨fun o ho => hk o ?_, ?_⟩
    · simp only [List.mem_cons] at ho ⊢; tauto
    simp only [run] at hg ⊢
    cases hb : run g0 l with
    | none => rw [hb] at hg; simp at hg
    | some g1 =>
      rw [hb] at hg
      exact swap_alike hi (self l (fun o ho => hk o (List.mem_cons_of_mem _ (List.mem_cons_of_mem _ ho))) h0 hb) hg
  | trans _ _ ih1 ih2 =>
    intro hk g0 g h0 hg
    obtain ⟨k1, g1, e1, h1⟩ := ih1 hk h0 hg
    obtain ⟨k2, g2, e2, h2⟩ := ih2 k1 h0 e1
    exact ⟨k2, g2, e2, alike_trans h1 h2⟩

/-- The answers of two programs: the same up to the order of objects within a cell and of the cells in the map. -/
structure SameAnswers (g g' : BGrid O) : Prop where
  objects : ∀ l, SameBag (getObjects g l) (getObjects g' l)
  objectsUnbuffered : ∀ l, SameBag (getObjectsUnbuffered g l) (getObjectsUnbuffered g' l)
  located : ∀ o, (getLocation g' o).isSome = (getLocation g o).isSome
  locatedUnbuffered : ∀ o, (getLocationUnbuffered g' o).isSome = (getLocationUnbuffered g o).isSome
  empty : getEmptyBags g' = getEmptyBags g
  randomEmpty : ∀ draws, getRandomEmptyBag g' draws = getRandomEmptyBag g draws
  calls : (iterObjects g).Perm (iterObjects g')
  callsUnbuffered : (iterObjectsUnbuffered g).Perm (iterObjectsUnbuffered g')

omit [BEq O] in
theorem flat_keys {m : HMap Loc (List O)} (hw : HMap.WF m) : m.flatMap (fun e => e.2.map (fun o => (e.1, o))) =
    m.keys.flatMap (fun k => (bagAt m k).map (fun o => (k, o))) := by
  unfold HMap.keys
  rw [List.flatMap_map]
  rw [List.flatMap_def, List.flatMap_def]
  congr 1
  refine List.map_congr_left (fun e he => ?_)
  have : HMap.get m e.1 = some e.2 := HMap.get_of_mem hw he
  unfold bagAt
  rw [this]; rfl

omit [BEq O] in
theorem calls_same {m m' : HMap Loc (List O)} (h : Same m m') :
    (m.flatMap (fun e => e.2.map (fun o => (e.1, o)))).Perm (m'.flatMap (fun e => e.2.map (fun o => (e.1, o)))) := by
  rw [flat_keys h.wf, flat_keys h.wf']
  have hk : m.keys.Perm m'.keys := by
    refine (List.perm_ext_iff_of_nodup h.wf h.wf').2 (fun k => ?_)
    show k ∈ m.keys ↔ k ∈ m'.keys
    rw [HMap.mem_keys_iff, HMap.mem_keys_iff]
    have := get_same h k
    cases h1 : HMap.get m k <;> cases h2 : HMap.get m' k <;> rw [h1, h2] at this <;> simp [SameBag] at this ⊢
  refine (hk.flatMap_right _).trans ?_
  have : ∀ ks : List Loc, (ks.flatMap (fun k => (bagAt m k).map (fun o => (k, o)))).Perm
      (ks.flatMap (fun k => (bagAt m' k).map (fun o => (k, o)))) := by
    intro ks
    induction ks with
    | nil => exact .refl _
    | cons k ks ih => rw [List.flatMap_cons, List.flatMap_cons]; exact ((h.bag k).map _).append ih
  exact this _

theorem located_same {m m' : HMap Loc (List O)} (h : Same m m') (o : O) :
    ((m'.find? (fun e => e.2.contains o)).map Prod.fst).isSome = ((m.find? (fun e => e.2.contains o)).map Prod.fst).isSome := by
  have key : ∀ {m m' : HMap Loc (List O)}, Same m m' → (m.find? (fun e => e.2.contains o)).isSome = true →
      (m'.find? (fun e => e.2.contains o)).isSome = true := by
    intro m m' h hs
    rw [List.find?_isSome] at hs ⊢
    obtain ⟨e, he, hc⟩ := hs
    have hg : HMap.get m e.1 = some e.2 := HMap.get_of_mem h.wf he
    have := get_same h e.1
    rw [hg] at this
    cases h2 : HMap.get m' e.1 with
    | none => rw [h2] at this; exact absurd this (by simp [SameBag])
    | some b' =>
      rw [h2] at this
      exact ⟨(e.1, b'), (HMap.get_eq_some_iff h.wf').1 h2, by rw [DenseObject.perm_contains this]; exact hc⟩
  have hsym : Same m' m := ⟨h.wf', h.wf, h.full', h.full, fun l => (h.bag l).symm⟩
  rw [Option.isSome_map, Option.isSome_map, Bool.eq_iff_iff]
  exact ⟨key hsym, key h⟩

theorem sameAnswers {g g' : BGrid O} (h : Alike g g') : SameAnswers g g' := by
  refine ⟨get_same h.r, get_same h.w, located_same h.r, located_same h.w, ?_, fun draws => ?_, calls_same h.r, calls_same h.w⟩
  · unfold getEmptyBags
    rw [h.width, h.height]
    refine List.filter_congr (fun c _ => ?_)
    have := get_same h.r c
    cases h1 : HMap.get g.rlocs c with
    | none =>
      cases h2 : HMap.get g'.rlocs c with
      | none => rfl
      | some b' => rw [h1, h2] at this; exact absurd this (by simp [SameBag])
    | some b =>
      cases h2 : HMap.get g'.rlocs c with
      | none => rw [h1, h2] at this; exact absurd this (by simp [SameBag])
      | some b' => rw [h1, h2] at this; exact DenseObject.perm_isEmpty this
  · unfold getRandomEmptyBag
    rw [h.width, h.height]
    have hl : ∀ ds, randomLoop g'.rlocs ds = randomLoop g.rlocs ds := by
      intro ds
      induction ds with
      | nil => rfl
      | cons d ds ih =>
        rw [randomLoop, randomLoop, ih]
        have := get_same h.r d
        cases h1 : HMap.get g.rlocs d with
        | none =>
          cases h2 : HMap.get g'.rlocs d with
          | none => rfl
          | some b' => rw [h1, h2] at this; exact absurd this (by simp [SameBag])
        | some b =>
          cases h2 : HMap.get g'.rlocs d with
          | none => rw [h1, h2] at this; exact absurd this (by simp [SameBag])
          | some b' => rfl
    rw [hl]

/-- C249, `SparseGrid2D`. -/
theorem C249_sparse_partial (width height : Int) {hist hist' : List (ObjOp O)} (hr : Reorder ObjOp.Independent hist hist')
    (hk : ∀ op ∈ hist, op.OneSided) {g : BGrid O} (hg : run (new width height) hist = some g) :
    ∃ g', run (new width height) hist' = some g' ∧ SameAnswers g g' := by
  obtain ⟨_, g', e, h⟩ := run_alike hr hk ⟨same_nil, same_nil, rfl, rfl⟩ hg
  exact ⟨g', e, sameAnswers h⟩

/-- Two objects placed in different cells in either order; a third one removed in between. -/
example :
    let hist : List (ObjOp Nat) := [.lazyUpdate, .place 1 ⟨0, 0⟩, .remove 3 ⟨0, 0⟩, .place 2 ⟨1, 0⟩, .place 3 ⟨0, 0⟩]
    let hist' : List (ObjOp Nat) := [.lazyUpdate, .remove 3 ⟨0, 0⟩, .place 2 ⟨1, 0⟩, .place 1 ⟨0, 0⟩, .place 3 ⟨0, 0⟩]
    Reorder ObjOp.Independent hist hist' ∧
    (run (new 2 1) hist).map (fun g => (iterObjects g, getEmptyBags g)) = some ([(⟨1, 0⟩, 2), (⟨0, 0⟩, 1)], []) ∧
    (run (new 2 1) hist').map (fun g => (iterObjects g, getEmptyBags g)) = some ([(⟨0, 0⟩, 1), (⟨1, 0⟩, 2)], []) := by
  refine ⟨.cons _ (.trans (.swap _ ?_) (.cons _ (.swap _ ?_))), ?_, ?_⟩
  · exact ⟨1, 3, rfl, rfl, by decide, by decide⟩
  · exact ⟨1, 2, rfl, rfl, by decide, by decide⟩
  · decide +kernel
  · decide +kernel

/-- The limits: with `READWRITE` on a cell nothing was written to, only the object placed last survives. -/
theorem C249_sparse_negation_partial :
    ∃ (hist hist' : List (ObjOp Nat)) (g g' : BGrid Nat), Reorder ObjOp.Independent hist hist' ∧
      run (new 1 1) hist = some g ∧ run (new 1 1) hist' = some g' ∧
      getObjectsUnbuffered g ⟨0, 0⟩ = some [1] ∧ getObjectsUnbuffered g' ⟨0, 0⟩ = some [2] := by
  refine ⟨[.apply (fun _ o => some o) .READWRITE, .lazyUpdate, .place 1 ⟨0, 0⟩, .place 2 ⟨0, 0⟩],
    [.apply (fun _ o => some o) .READWRITE, .lazyUpdate, .place 2 ⟨0, 0⟩, .place 1 ⟨0, 0⟩],
    ⟨[(⟨0, 0⟩, [2, 1])], [(⟨0, 0⟩, [1])], 1, 1⟩, ⟨[(⟨0, 0⟩, [1, 2])], [(⟨0, 0⟩, [2])], 1, 1⟩, ?_, ?_, ?_, ?_, ?_⟩
  · exact .cons _ (.cons _ (.swap _ ⟨_, _, rfl, rfl, rfl, rfl⟩))
  all_goals decide +kernel

end Verif.SparseObject
