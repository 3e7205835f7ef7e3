import Verif.Model.DenseObjectGrid
import Verif.Spec.Reorder
import Verif.Lemmas.ObjectGrid
import Mathlib.Data.List.Forall2

/-!
C249 on `DenseGrid2D`.
-/

namespace Verif.Grid

variable {α : Type}

/-- Bags with the same objects, cell by cell. -/
abbrev PermBags (v v' : List (List α)) : Prop := List.Forall₂ List.Perm v v'

theorem permBags_refl (v : List (List α)) : PermBags v v := by
  induction v with
  | nil => exact .nil
  | cons b v ih => exact .cons (.refl b) ih

theorem permBags_trans {v v' v'' : List (List α)} (h : PermBags v v') (h' : PermBags v' v'') : PermBags v v'' := by
  induction h generalizing v'' with
  | nil => cases h'; exact .nil
  | cons hb _ ih => cases h' with | cons hb' ht' => exact .cons (hb.trans hb') (ih ht')

theorem permBags_get {v v' : List (List α)} (h : PermBags v v') : ∀ i : Nat, SameBag (v[i]?) (v'[i]?) := by
  induction h with
  | nil => intro i; simp [SameBag]
  | cons hb _ ih =>
    intro i
    cases i with
    | zero => exact hb
    | succ i => simpa using ih i

theorem permBags_set {v v' : List (List α)} (h : PermBags v v') {b b' : List α} (hb : b.Perm b') :
    ∀ i : Nat, PermBags (v.set i b) (v'.set i b') := by
  induction h with
  | nil => intro i; exact .nil
  | cons hx ht ih =>
    intro i
    cases i with
    | zero => exact .cons hb ht
    | succ i => exact .cons hx (ih i)

theorem permBags_vecGet {v v' : List (List α)} (h : PermBags v v') (k : Int) (l : Loc) :
    SameBag (vecGet v k l) (vecGet v' k l) := by
  unfold vecGet
  by_cases hc : 0 ≤ l.x * k + l.y
  · rw [if_pos hc, if_pos hc]; exact permBags_get h _
  · rw [if_neg hc, if_neg hc]; trivial

/-- A change of the bag of one cell. -/
def modifyBag (v : List (List α)) (h : Int) (l : Loc) (φ : List α → List α) : Option (List (List α)) :=
  match vecGet v h l with
  | none => none
  | some b => vecSet v h l (φ b)

/-- The index of a cell that exists. -/
def cellIndex (v : List (List α)) (h : Int) (l : Loc) : Prop :=
  0 ≤ l.x * h + l.y ∧ (l.x * h + l.y).toNat < v.length

theorem modifyBag_eq (v : List (List α)) (h : Int) (l : Loc) (φ : List α → List α) :
    (∃ hc : cellIndex v h l, modifyBag v h l φ =
      some (v.set (l.x * h + l.y).toNat (φ (v[(l.x * h + l.y).toNat]'hc.2)))) ∨
      (¬ cellIndex v h l ∧ modifyBag v h l φ = none) := by
  unfold modifyBag vecGet vecSet
  by_cases hc : cellIndex v h l
  · left
    refine ⟨hc, ?_⟩
    rw [if_pos hc.1, List.getElem?_eq_getElem hc.2]
    exact if_pos hc
  · right
    refine ⟨hc, ?_⟩
    by_cases h0 : 0 ≤ l.x * h + l.y
    · rw [if_pos h0, List.getElem?_eq_none (by unfold cellIndex at hc; omega)]
    · rw [if_neg h0]

/-- Two changes whose order does not matter for the objects of a bag may be made in either order. -/
theorem modifyBag_comm {φ ψ : List α → List α} (hcomm : ∀ b, (ψ (φ b)).Perm (φ (ψ b))) (v : List (List α)) (h : Int) (l l' : Loc) :
    (∃ u u', (modifyBag v h l φ).bind (fun v => modifyBag v h l' ψ) = some u ∧
      (modifyBag v h l' ψ).bind (fun v => modifyBag v h l φ) = some u' ∧ PermBags u u') ∨
    ((modifyBag v h l φ).bind (fun v => modifyBag v h l' ψ) = none ∧
      (modifyBag v h l' ψ).bind (fun v => modifyBag v h l φ) = none) := by
  rcases modifyBag_eq v h l φ with ⟨hc, e1⟩ | ⟨hc, e1⟩ <;> rcases modifyBag_eq v h l' ψ with ⟨hc', e2⟩ | ⟨hc', e2⟩
  · left
    rw [e1, e2]
    simp only [Option.bind_some]
    rcases modifyBag_eq (v.set (l.x * h + l.y).toNat (φ (v[(l.x * h + l.y).toNat]'hc.2))) h l' ψ with ⟨k1, f1⟩ | ⟨k1, _⟩
    · rcases modifyBag_eq (v.set (l'.x * h + l'.y).toNat (ψ (v[(l'.x * h + l'.y).toNat]'hc'.2))) h l φ with ⟨k2, f2⟩ | ⟨k2, _⟩
      · refine ⟨_, _, f1, f2, ?_⟩
        by_cases hi : (l.x * h + l.y).toNat = (l'.x * h + l'.y).toNat
        · simp only [hi, List.set_set, List.getElem_set_self]
          exact permBags_set (permBags_refl _) (hcomm _) _
        · rw [List.getElem_set_ne hi, List.getElem_set_ne (Ne.symm hi), List.set_comm _ _ hi]
          exact permBags_refl _
      · exact absurd (by unfold cellIndex at hc ⊢; simpa using hc) k2
    · exact absurd (by unfold cellIndex at hc' ⊢; simpa using hc') k1
  · right
    rw [e1, e2]
    simp only [Option.bind_some, Option.bind_none, and_true]
    rcases modifyBag_eq (v.set (l.x * h + l.y).toNat (φ (v[(l.x * h + l.y).toNat]'hc.2))) h l' ψ with ⟨k1, _⟩ | ⟨_, f1⟩
    · exact absurd (by unfold cellIndex at k1 ⊢; simpa using k1) hc'
    · exact f1
  · right
    rw [e1, e2]
    simp only [Option.bind_some, Option.bind_none, true_and]
    rcases modifyBag_eq (v.set (l'.x * h + l'.y).toNat (ψ (v[(l'.x * h + l'.y).toNat]'hc'.2))) h l φ with ⟨k2, _⟩ | ⟨_, f2⟩
    · exact absurd (by unfold cellIndex at k2 ⊢; simpa using k2) hc
    · exact f2
  · right
    rw [e1, e2]
    exact ⟨rfl, rfl⟩

theorem modifyBag_perm {φ : List α → List α} (hφ : ∀ b b', b.Perm b' → (φ b).Perm (φ b')) {v v' u : List (List α)}
    (hv : PermBags v v') {h : Int} {l : Loc} (hu : modifyBag v h l φ = some u) :
    ∃ u', modifyBag v' h l φ = some u' ∧ PermBags u u' := by
  have hlen := hv.length_eq
  rcases modifyBag_eq v h l φ with ⟨hc, e1⟩ | ⟨hc, e1⟩
  · rcases modifyBag_eq v' h l φ with ⟨hc', e2⟩ | ⟨hc', e2⟩
    · rw [e1, Option.some.injEq] at hu
      subst hu
      refine ⟨_, e2, permBags_set hv (hφ _ _ ?_) _⟩
      have := permBags_get hv (l.x * h + l.y).toNat
      rw [List.getElem?_eq_getElem hc.2, List.getElem?_eq_getElem hc'.2] at this
      exact this
    · exact absurd (by unfold cellIndex at hc ⊢; rw [← hlen]; exact hc) hc'
  · rw [e1] at hu; simp at hu

variable [BEq α]

/-- What a call does to a bag: with `once`, an object placed again is taken out first. -/
def bagChange (once : Bool) (o : α) (put : Bool) (b : List α) : List α :=
  (if put && !once then b else b.filter (fun x => x != o)) ++ (if put then [o] else [])

theorem bagChange_perm (once : Bool) (o : α) (put : Bool) (b b' : List α) (h : b.Perm b') :
    (bagChange once o put b).Perm (bagChange once o put b') := by
  unfold bagChange
  refine List.Perm.append_right _ ?_
  by_cases hc : (put && !once) = true
  · rw [if_pos hc, if_pos hc]; exact h
  · rw [if_neg hc, if_neg hc]; exact h.filter _

theorem bagChange_comm (once : Bool) {o o' : α} (h : (o == o') = false) (h' : (o' == o) = false) (p p' : Bool) (b : List α) :
    (bagChange once o' p' (bagChange once o p b)).Perm (bagChange once o p (bagChange once o' p' b)) := by
  have f1 : ([o] : List α).filter (fun x => x != o') = [o] := by simp [bne, h]
  have f2 : ([o'] : List α).filter (fun x => x != o) = [o'] := by simp [bne, h']
  have fc : (b.filter (fun x => x != o)).filter (fun x => x != o') = (b.filter (fun x => x != o')).filter (fun x => x != o) := by
    rw [List.filter_filter, List.filter_filter]
    exact List.filter_congr (fun x _ => Bool.and_comm _ _)
  unfold bagChange
  cases p <;> cases p' <;> cases once <;>
    simp only [Bool.not_true, Bool.not_false, Bool.and_true, Bool.and_false, if_true, if_false,
      Bool.false_eq_true, List.append_nil, List.filter_append, f1, f2, fc, List.Perm.refl, List.append_assoc] <;>
    exact List.Perm.append_left _ List.perm_append_comm

end Verif.Grid

namespace Verif.DenseObject

open Grid

variable {O : Type} [BEq O]

/-- The two grids have the same bags up to order. -/
structure Alike (g g' : OGrid O) : Prop where
  r : PermBags g.rlocs g'.rlocs
  w : PermBags g.locs g'.locs
  width : g'.width = g.width
  height : g'.height = g.height

omit [BEq O] in
theorem alike_refl (g : OGrid O) : Alike g g := ⟨permBags_refl _, permBags_refl _, rfl, rfl⟩

omit [BEq O] in
theorem alike_trans {g g' g'' : OGrid O} (h : Alike g g') (h' : Alike g' g'') : Alike g g'' :=
  ⟨permBags_trans h.r h'.r, permBags_trans h.w h'.w, h'.width.trans h.width, h'.height.trans h.height⟩

theorem place_modify (g : OGrid O) (o : O) (l : Loc) : setObjectLocation g o l =
    (modifyBag g.locs g.height l (bagChange true o true)).map (fun v => ⟨g.rlocs, v, g.width, g.height⟩) := by
  unfold setObjectLocation modifyBag bagChange
  cases vecGet g.locs g.height l <;> rfl

theorem remove_modify (g : OGrid O) (o : O) (l : Loc) : removeObjectLocation g o l =
    (modifyBag g.locs g.height l (bagChange true o false)).map (fun v => ⟨g.rlocs, v, g.width, g.height⟩) := by
  unfold removeObjectLocation modifyBag bagChange
  cases vecGet g.locs g.height l with
  | none => rfl
  | some b => simp

/-- The calls that name an object. -/
theorem object_modify {op : ObjOp O} {x : O} (h : op.object = some x) : ∃ (l : Loc) (p : Bool), ∀ g : OGrid O,
    exec g op = (modifyBag g.locs g.height l (bagChange true x p)).map (fun v => ⟨g.rlocs, v, g.width, g.height⟩) := by
  cases op with
  | place o l =>
    simp only [ObjOp.object, Option.some.injEq] at h
    subst h
    exact ⟨l, true, fun g => place_modify g o l⟩
  | remove o l =>
    simp only [ObjOp.object, Option.some.injEq] at h
    subst h
    exact ⟨l, false, fun g => remove_modify g o l⟩
  | update => simp [ObjOp.object] at h
  | lazyUpdate => simp [ObjOp.object] at h
  | apply f o => simp [ObjOp.object] at h

omit [BEq O] in
theorem applyRead_alike (f : Loc → O → Option O) (w h : Int) {v v' : List (List O)} (hv : PermBags v v') :
    ∀ (i : Nat) (u : List (List O)), applyRead f w h i v = some u → ∃ u', applyRead f w h i v' = some u' ∧ PermBags u u' := by
  induction hv with
  | nil => intro i u hu; exact ⟨u, hu, permBags_refl u⟩
  | cons hb _ ih =>
    intro i u hu
    rw [applyRead] at hu ⊢
    cases hc : calculateIndexesBag i w h with
    | none => rw [hc] at hu; simp at hu
    | some id =>
      rw [hc] at hu
      dsimp only at hu ⊢
      obtain ⟨t, ht, rfl⟩ := Option.map_eq_some_iff.1 hu
      obtain ⟨t', ht', hp⟩ := ih (i + 1) t ht
      exact ⟨_, by rw [ht']; rfl, .cons (hb.filterMap _) hp⟩

omit [BEq O] in
theorem applyWrite_alike (f : Loc → O → Option O) (w h : Int) {v v' : List (List O)} (hv : PermBags v v') :
    ∀ (i : Nat) (b b' u : List (List O)), PermBags b b' → applyWrite f w h i v b = some u →
    ∃ u', applyWrite f w h i v' b' = some u' ∧ PermBags u u' := by
  induction hv with
  | nil => intro i b b' u hb hu; rw [applyWrite] at hu; cases hu; exact ⟨b', rfl, hb⟩
  | @cons r r' rs rs' hr _ ih =>
    intro i b b' u hb hu
    rw [applyWrite] at hu ⊢
    cases hc : calculateIndexesBag i w h with
    | none => rw [hc] at hu; simp at hu
    | some id =>
      rw [hc] at hu
      dsimp only at hu ⊢
      cases hb with
      | nil =>
        dsimp only at hu ⊢
        have hp := hr.filterMap (f id)
        by_cases he : (r.filterMap (f id)).isEmpty = true
        · rw [if_pos he] at hu
          have : (r'.filterMap (f id)).isEmpty = true := by
            have h0 := List.isEmpty_iff.1 he
            rw [h0] at hp
            rw [List.nil_perm.1 hp]; rfl
          rw [if_pos this]
          exact ih (i + 1) [] [] u .nil hu
        · rw [if_neg he] at hu; simp at hu
      | cons hx hxs =>
        dsimp only at hu ⊢
        obtain ⟨t, ht, rfl⟩ := Option.map_eq_some_iff.1 hu
        obtain ⟨t', ht', hp⟩ := ih (i + 1) _ _ t hxs ht
        exact ⟨_, by rw [ht']; rfl, .cons (hx.append (hr.filterMap _)) hp⟩

omit [BEq O] in
theorem updateFold_alike {g g' : OGrid O} (ha : Alike g g') : ∀ (cs : List Loc) {r r' u : List (List O)}, PermBags r r' →
    cs.foldlM (updateCell g) r = some u → ∃ u', cs.foldlM (updateCell g') r' = some u' ∧ PermBags u u' := by
  intro cs
  induction cs with
  | nil => intro r r' u hr hu; cases hu; exact ⟨r', rfl, hr⟩
  | cons c cs ih =>
    intro r r' u hr hu
    rw [List.foldlM_cons] at hu ⊢
    have hg := permBags_vecGet ha.w g.height c
    have key : ∀ r1, updateCell g r c = some r1 → ∃ r1', updateCell g' r' c = some r1' ∧ PermBags r1 r1' := by
      intro r1 h1
      unfold updateCell vecInsert at h1 ⊢
      rw [ha.height]
      cases hb : vecGet g.locs g.height c with
      | none => rw [hb] at h1; simp at h1
      | some b =>
        rw [hb] at h1 hg
        cases hb' : vecGet g'.locs g.height c with
        | none => rw [hb'] at hg; exact absurd hg (by simp [SameBag])
        | some b' =>
          rw [hb'] at hg
          dsimp only at h1 ⊢
          rw [← hr.length_eq]
          by_cases hl : (c.x * g.height + c.y).toNat ≤ r.length
          · rw [if_pos hl] at h1 ⊢
            simp only [Option.some.injEq] at h1
            subst h1
            exact ⟨_, rfl, List.rel_append (List.forall₂_take _ hr) (.cons hg (List.forall₂_drop _ hr))⟩
          · rw [if_neg hl] at h1; simp at h1
    cases h1 : updateCell g r c with
    | none => rw [h1] at hu; simp at hu
    | some r1 =>
      rw [h1] at hu
      obtain ⟨r1', e1, hp⟩ := key r1 h1
      rw [e1]
      exact ih hp hu

theorem exec_alike {g g' g2 : OGrid O} (ha : Alike g g') {op : ObjOp O} (hk : op.OneSided) (he : exec g op = some g2) :
    ∃ g2', exec g' op = some g2' ∧ Alike g2 g2' := by
  cases ho : op.object with
  | some x =>
    obtain ⟨l, p, hm⟩ := object_modify ho
    rw [hm] at he ⊢
    obtain ⟨v, hv, rfl⟩ := Option.map_eq_some_iff.1 he
    rw [ha.height]
    obtain ⟨v', hv', hp⟩ := modifyBag_perm (bagChange_perm true x p) ha.w hv
    rw [hv']
    exact ⟨_, rfl, ha.r, hp, ha.width, rfl⟩
  | none =>
    cases op with
    | place o l => simp [ObjOp.object] at ho
    | remove o l => simp [ObjOp.object] at ho
    | update =>
      simp only [exec, update] at he ⊢
      obtain ⟨v, hv, rfl⟩ := Option.map_eq_some_iff.1 he
      rw [ha.width, ha.height]
      obtain ⟨v', hv', hp⟩ := updateFold_alike ha _ ha.r hv
      rw [hv']
      exact ⟨_, rfl, hp, ha.w, rfl, rfl⟩
    | lazyUpdate =>
      simp only [exec, Option.some.injEq] at he ⊢
      subst he
      refine ⟨_, rfl, ha.w, ?_, ha.width, ha.height⟩
      show PermBags (g.rlocs.map _) (g'.rlocs.map _)
      rw [List.map_const', List.map_const', ha.r.length_eq]
      exact permBags_refl _
    | apply f opt =>
      cases opt with
      | READWRITE => exact absurd rfl hk
      | READ =>
        simp only [exec, applyToAllValues] at he ⊢
        obtain ⟨v, hv, rfl⟩ := Option.map_eq_some_iff.1 he
        rw [ha.width, ha.height]
        obtain ⟨v', hv', hp⟩ := applyRead_alike f _ _ ha.r 0 v hv
        rw [hv']
        exact ⟨_, rfl, hp, ha.w, rfl, rfl⟩
      | WRITE =>
        simp only [exec, applyToAllValues] at he ⊢
        obtain ⟨v, hv, rfl⟩ := Option.map_eq_some_iff.1 he
        rw [ha.width, ha.height]
        obtain ⟨v', hv', hp⟩ := applyWrite_alike f _ _ ha.r 0 _ _ v ha.w hv
        rw [hv']
        exact ⟨_, rfl, ha.r, hp, rfl, rfl⟩

/-- Two calls about different objects, one after the other. -/
theorem swap_alike {a b : ObjOp O} (hi : a.Independent b) {g g2 : OGrid O} (he : (exec g b).bind (fun g => exec g a) = some g2) :
    ∃ g2', (exec g a).bind (fun g => exec g b) = some g2' ∧ Alike g2 g2' := by
  obtain ⟨x, y, hx, hy, h1, h2⟩ := hi
  obtain ⟨l, p, ha⟩ := object_modify hx
  obtain ⟨l', p', hb⟩ := object_modify hy
  have two : ∀ (c d : ObjOp O) (m k : Loc) (φ ψ : List O → List O),
      (∀ g : OGrid O, exec g c = (modifyBag g.locs g.height m φ).map (fun v => ⟨g.rlocs, v, g.width, g.height⟩)) →
      (∀ g : OGrid O, exec g d = (modifyBag g.locs g.height k ψ).map (fun v => ⟨g.rlocs, v, g.width, g.height⟩)) →
      (exec g c).bind (fun g => exec g d) = ((modifyBag g.locs g.height m φ).bind (fun v => modifyBag v g.height k ψ)).map
        (fun v => ⟨g.rlocs, v, g.width, g.height⟩) := by
    intro c d m k φ ψ hc hd
    rw [hc]
    cases modifyBag g.locs g.height m φ with
    | none => rfl
    | some v => simp only [Option.map_some, Option.bind_some, hd]
  rw [two b a l' l _ _ hb ha] at he
  rw [two a b l l' _ _ ha hb]
  rcases modifyBag_comm (bagChange_comm true h2 h1 p' p) g.locs g.height l' l with ⟨u, u', e1, e2, hp⟩ | ⟨e1, _⟩
  · rw [e1] at he
    rw [e2]
    simp only [Option.map_some, Option.some.injEq] at he ⊢
    subst he
    exact ⟨_, rfl, permBags_refl _, hp, rfl, rfl⟩
  · rw [e1] at he; simp at he

theorem run_alike {hist hist' : List (ObjOp O)} (hr : Reorder ObjOp.Independent hist hist') :
    (∀ op ∈ hist, op.OneSided) → ∀ {g0 g : OGrid O}, run g0 hist = some g →
    (∀ op ∈ hist', op.OneSided) ∧ ∃ g', run g0 hist' = some g' ∧ Alike g g' := by
  induction hr with
  | refl l => intro hk g0 g hg; exact ⟨hk, g, hg, alike_refl g⟩
  | @cons a l l' _ ih =>
    intro hk g0 g hg
    simp only [run] at hg ⊢
    cases hb : run g0 l with
    | none => rw [hb] at hg; simp at hg
    | some g1 =>
      rw [hb] at hg
      have hg : exec g1 a = some g := hg
      obtain ⟨k', g1', e1, h1⟩ := ih (fun o ho => hk o (List.mem_cons_of_mem _ ho)) hb
      obtain ⟨g', e, h⟩ := exec_alike h1 (hk a List.mem_cons_self) hg
      refine ⟨?_, g', by rw [e1]; exact e, h⟩
      intro o ho
      rcases List.mem_cons.1 ho with rfl | ho
      · exact hk _ List.mem_cons_self
      · exact k' o ho
  | @swap a b l hi =>
    intro hk g0 g hg
    refine ⟨fun o ho => hk o ?_, ?_⟩
    · simp only [List.mem_cons] at ho ⊢; tauto
    simp only [run] at hg ⊢
    cases hb : run g0 l with
    | none => rw [hb] at hg; simp at hg
    | some g1 =>
      rw [hb] at hg
      exact swap_alike hi hg
  | trans _ _ ih1 ih2 =>
    intro hk g0 g hg
    obtain ⟨k1, g1, e1, h1⟩ := ih1 hk hg
    obtain ⟨k2, g2, e2, h2⟩ := ih2 k1 e1
    exact ⟨k2, g2, e2, alike_trans h1 h2⟩

/-- The answers of two programs: the same up to the order of objects within a cell. -/
structure SameAnswers (g g' : OGrid O) : Prop where
  objects : ∀ l, (getObjects g l = none ↔ getObjects g' l = none) ∧
    ∀ a a', getObjects g l = some a → getObjects g' l = some a' → SameBag a a'
  objectsUnbuffered : ∀ l, (getObjectsUnbuffered g l = none ↔ getObjectsUnbuffered g' l = none) ∧
    ∀ a a', getObjectsUnbuffered g l = some a → getObjectsUnbuffered g' l = some a' → SameBag a a'
  location : ∀ o, getLocation g' o = getLocation g o
  locationUnbuffered : ∀ o, getLocationUnbuffered g' o = getLocationUnbuffered g o
  empty : getEmptyBags g' = getEmptyBags g
  randomEmpty : ∀ genRange, getRandomEmptyBag g' genRange = getRandomEmptyBag g genRange
  calls : ∀ c c', iterObjects g = some c → iterObjects g' = some c' → c.Perm c'

theorem perm_contains {b b' : List O} (h : b.Perm b') (o : O) : b'.contains o = b.contains o := by
  induction h with
  | nil => rfl
  | cons x _ ih => rw [List.contains_cons, List.contains_cons, ih]
  | swap x y l => simp only [List.contains_cons]; cases (o == x) <;> cases (o == y) <;> rfl
  | trans _ _ ih1 ih2 => rw [ih2, ih1]

omit [BEq O] in
theorem bagAnswer_same {b b' : List O} (h : b.Perm b') : SameBag (bagAnswer b) (bagAnswer b') := by
  unfold bagAnswer
  have : b'.isEmpty = b.isEmpty := by
    have := h.length_eq
    rw [Bool.eq_iff_iff, List.isEmpty_iff_length_eq_zero, List.isEmpty_iff_length_eq_zero, this]
  rw [this]
  by_cases he : b.isEmpty = true
  · rw [if_pos he, if_pos he]; trivial
  · rw [if_neg he, if_neg he]; exact h

omit [BEq O] in
theorem answers_same {v v' : List (List O)} (hv : PermBags v v') (h : Int) (l : Loc) :
    ((vecGet v h l).map bagAnswer = none ↔ (vecGet v' h l).map bagAnswer = none) ∧
    ∀ a a', (vecGet v h l).map bagAnswer = some a → (vecGet v' h l).map bagAnswer = some a' → SameBag a a' := by
  have := permBags_vecGet hv h l
  cases h1 : vecGet v h l with
  | none =>
    cases h2 : vecGet v' h l with
    | none => simp
    | some b' => rw [h1, h2] at this; exact absurd this (by simp [SameBag])
  | some b =>
    cases h2 : vecGet v' h l with
    | none => rw [h1, h2] at this; exact absurd this (by simp [SameBag])
    | some b' =>
      rw [h1, h2] at this
      simp only [Option.map_some, reduceCtorEq, Option.some.injEq, true_and]
      rintro a a' rfl rfl
      exact bagAnswer_same this

omit [BEq O] in
theorem findCell_same {p : List O → Bool} (hp : ∀ b b' : List O, b.Perm b' → p b' = p b) {v v' : List (List O)}
    (hv : PermBags v v') (h : Int) : ∀ cs, findCell v' h p cs = findCell v h p cs := by
  intro cs
  induction cs with
  | nil => rfl
  | cons c cs ih =>
    rw [findCell, findCell, ih]
    have := permBags_vecGet hv h c
    cases h1 : vecGet v h c with
    | none =>
      cases h2 : vecGet v' h c with
      | none => rfl
      | some b' => rw [h1, h2] at this; exact absurd this (by simp [SameBag])
    | some b =>
      cases h2 : vecGet v' h c with
      | none => rw [h1, h2] at this; exact absurd this (by simp [SameBag])
      | some b' =>
        rw [h1, h2] at this
        dsimp only
        rw [hp b b' this]

omit [BEq O] in
theorem collect_same {β : Type} {f : Loc → List O → List β} (hf : ∀ c (b b' : List O), b.Perm b' → (f c b).Perm (f c b'))
    {v v' : List (List O)} (hv : PermBags v v') (h : Int) : ∀ cs, (collect v h f cs = none ↔ collect v' h f cs = none) ∧
    ∀ r r', collect v h f cs = some r → collect v' h f cs = some r' → r.Perm r' := by
  intro cs
  induction cs with
  | nil => simp [collect]
  | cons c cs ih =>
    rw [collect, collect]
    have := permBags_vecGet hv h c
    cases h1 : vecGet v h c with
    | none =>
      cases h2 : vecGet v' h c with
      | none => simp
      | some b' => rw [h1, h2] at this; exact absurd this (by simp [SameBag])
    | some b =>
      cases h2 : vecGet v' h c with
      | none => rw [h1, h2] at this; exact absurd this (by simp [SameBag])
      | some b' =>
        rw [h1, h2] at this
        dsimp only
        refine ⟨by rw [Option.map_eq_none_iff, Option.map_eq_none_iff]; exact ih.1, ?_⟩
        intro r r' hr hr'
        obtain ⟨t, ht, rfl⟩ := Option.map_eq_some_iff.1 hr
        obtain ⟨t', ht', rfl⟩ := Option.map_eq_some_iff.1 hr'
        exact (hf c b b' this).append (ih.2 t t' ht ht')

omit [BEq O] in
theorem collect_equal {β : Type} {f : Loc → List O → List β} (hf : ∀ c (b b' : List O), b.Perm b' → f c b' = f c b)
    {v v' : List (List O)} (hv : PermBags v v') (h : Int) : ∀ cs, collect v' h f cs = collect v h f cs := by
  intro cs
  induction cs with
  | nil => rfl
  | cons c cs ih =>
    rw [collect, collect, ih]
    have := permBags_vecGet hv h c
    cases h1 : vecGet v h c with
    | none =>
      cases h2 : vecGet v' h c with
      | none => rfl
      | some b' => rw [h1, h2] at this; exact absurd this (by simp [SameBag])
    | some b =>
      cases h2 : vecGet v' h c with
      | none => rw [h1, h2] at this; exact absurd this (by simp [SameBag])
      | some b' =>
        rw [h1, h2] at this
        dsimp only
        rw [hf c b b' this]

omit [BEq O] in
theorem perm_isEmpty {b b' : List O} (h : b.Perm b') : b'.isEmpty = b.isEmpty := by
  have := h.length_eq
  rw [Bool.eq_iff_iff, List.isEmpty_iff_length_eq_zero, List.isEmpty_iff_length_eq_zero, this]

theorem sameAnswers {g g' : OGrid O} (h : Alike g g') : SameAnswers g g' := by
  have he : getEmptyBags g' = getEmptyBags g := by
    unfold getEmptyBags
    rw [h.width, h.height]
    exact collect_equal (fun c b b' hp => by rw [perm_isEmpty hp]) h.r _ _
  refine ⟨fun l => ?_, fun l => ?_, fun o => ?_, fun o => ?_, he, fun genRange => ?_, ?_⟩
  · unfold getObjects; rw [h.height]; exact answers_same h.r _ _
  · unfold getObjectsUnbuffered; rw [h.height]; exact answers_same h.w _ _
  · unfold getLocation
    rw [h.width, h.height]
    exact findCell_same (fun b b' hp => perm_contains hp o) h.r _ _
  · unfold getLocationUnbuffered
    rw [h.width, h.height]
    exact findCell_same (fun b b' hp => perm_contains hp o) h.w _ _
  · unfold getRandomEmptyBag
    rw [he]
  · unfold iterObjects
    rw [h.width, h.height]
    exact (collect_same (f := fun c e => e.map (fun o => (c, o))) (fun c b b' hp => hp.map (fun o => (c, o))) h.r _ _).2

/-- C249, `DenseGrid2D`. -/
theorem C249_dense_partial {hist hist' : List (ObjOp O)} (hr : Reorder ObjOp.Independent hist hist')
    (hk : ∀ op ∈ hist, op.OneSided) {g0 g : OGrid O} (hg : run g0 hist = some g) :
    ∃ g', run g0 hist' = some g' ∧ SameAnswers g g' := by
  obtain ⟨_, g', e, h⟩ := run_alike hr hk hg
  exact ⟨g', e, sameAnswers h⟩

/-- Two objects placed in the same cell, in either order; a third one removed in between. -/
example :
    let hist : List (ObjOp Nat) := [.lazyUpdate, .place 1 ⟨0, 0⟩, .remove 3 ⟨0, 0⟩, .place 2 ⟨0, 0⟩, .place 3 ⟨0, 0⟩]
    let hist' : List (ObjOp Nat) := [.lazyUpdate, .remove 3 ⟨0, 0⟩, .place 2 ⟨0, 0⟩, .place 1 ⟨0, 0⟩, .place 3 ⟨0, 0⟩]
    Reorder ObjOp.Independent hist hist' ∧
    ((new 1 1).bind (fun g => run g hist)).map (fun g => getObjects g ⟨0, 0⟩) = some (some (some [2, 1])) ∧
    ((new 1 1).bind (fun g => run g hist')).map (fun g => getObjects g ⟨0, 0⟩) = some (some (some [1, 2])) := by
  refine ⟨.cons _ (.trans (.swap _ ?_) (.cons _ (.swap _ ?_))), ?_, ?_⟩
  · exact ⟨1, 3, rfl, rfl, by decide, by decide⟩
  · exact ⟨1, 2, rfl, rfl, by decide, by decide⟩
  · decide +kernel
  · decide +kernel

/-- An object with a number, by which it is compared, and a mark. -/
structure Marked where
  number : Nat
  mark : Nat

instance : BEq Marked := ⟨fun a b => a.number == b.number⟩

/-- The limits: with `READWRITE`, of the objects that the closure makes equal the one placed first is kept. -/
theorem C249_dense_negation_partial :
    ∃ (hist hist' : List (ObjOp Marked)) (g0 g g' : OGrid Marked), Reorder ObjOp.Independent hist hist' ∧
      new 1 1 = some g0 ∧ run g0 hist = some g ∧ run g0 hist' = some g' ∧
      ¬ (g.locs.map (fun b => b.map Marked.mark)) = (g'.locs.map (fun b => b.map Marked.mark)) ∧
      g.locs.map List.length = [1] ∧ g'.locs.map List.length = [1] := by
  refine ⟨[.apply (fun _ o => some ⟨9, o.mark⟩) .READWRITE, .lazyUpdate, .place ⟨1, 1⟩ ⟨0, 0⟩, .place ⟨2, 2⟩ ⟨0, 0⟩],
    [.apply (fun _ o => some ⟨9, o.mark⟩) .READWRITE, .lazyUpdate, .place ⟨2, 2⟩ ⟨0, 0⟩, .place ⟨1, 1⟩ ⟨0, 0⟩],
    ⟨[[]], [[]], 1, 1⟩, ⟨[[⟨2, 2⟩, ⟨1, 1⟩]], [[⟨9, 2⟩]], 1, 1⟩, ⟨[[⟨1, 1⟩, ⟨2, 2⟩]], [[⟨9, 1⟩]], 1, 1⟩, ?_, ?_, ?_, ?_, ?_, ?_, ?_⟩
  · exact .cons _ (.cons _ (.swap _ ⟨_, _, rfl, rfl, rfl, rfl⟩))
  · rfl
  · rfl
  · rfl
  · decide
  · rfl
  · rfl

end Verif.DenseObject
