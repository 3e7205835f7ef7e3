import Verif.Model.DenseObjectGrid
import Verif.Spec.Others
import Verif.Lemmas.ObjectGrid

/-!
C248 on `DenseGrid2D`.
-/

namespace Verif.DenseObject

open Grid

variable {O : Type} [BEq O]

omit [BEq O] in
theorem vecSet_map' {α β : Type} (f : α → β) (v : List α) (h : Int) (l : Loc) (a : α) :
    vecSet (v.map f) h l (f a) = (vecSet v h l a).map (List.map f) := by
  unfold vecSet
  by_cases hc : 0 ≤ l.x * h + l.y ∧ (l.x * h + l.y).toNat < v.length
  · rw [if_pos hc, if_pos (by simpa using hc)]; simp [List.map_set]
  · rw [if_neg hc, if_neg (by simpa using hc)]; rfl

omit [BEq O] in
theorem vecSet_same' {α β : Type} (f : α → β) {v v2 : List α} {h : Int} {l : Loc} {a b : α}
    (hg : vecGet v h l = some b) (hs : vecSet v h l a = some v2) (he : f a = f b) : v2.map f = v.map f := by
  have h1 := vecSet_map' f v h l a
  rw [hs, he] at h1
  unfold vecGet at hg
  unfold vecSet at h1
  by_cases hc : 0 ≤ l.x * h + l.y ∧ (l.x * h + l.y).toNat < (v.map f).length
  · rw [if_pos hc] at h1
    rw [if_pos hc.1] at hg
    obtain ⟨hlt, hb⟩ := List.getElem?_eq_some_iff.1 hg
    simp only [Option.map_some, Option.some.injEq] at h1
    rw [← h1]
    apply List.ext_getElem (by simp)
    intro i h2 h3
    rw [List.getElem_set]
    by_cases hi : (l.x * h + l.y).toNat = i
    · subst hi; simp [hb]
    · simp [hi]
  · rw [if_neg hc] at h1; simp at h1

theorem filter_ne_out {P : O → Bool} (hr : Respects P) (b : List O) {o : O} (ho : P o = false) :
    (b.filter (fun x => x != o)).filter P = b.filter P := by
  rw [List.filter_filter]
  apply List.filter_congr
  intro x _
  cases hx : P x with
  | false => simp
  | true =>
    cases he : x == o with
    | false => simp [bne, he]
    | true => rw [hr x o he, ho] at hx; simp at hx

theorem filter_ne_comm (P : O → Bool) (b : List O) (o : O) :
    (b.filter (fun x => x != o)).filter P = (b.filter P).filter (fun x => x != o) := by
  rw [List.filter_filter, List.filter_filter]
  apply List.filter_congr
  intro x _
  exact Bool.and_comm _ _

omit [BEq O] in
theorem filter_filterMap' (P : O → Bool) (f : O → Option O) (hf : ∀ o x, f o = some x → P x = P o) (r : List O) :
    (r.filterMap f).filter P = (r.filter P).filterMap f := by
  induction r with
  | nil => rfl
  | cons o r ih =>
    cases hfo : f o with
    | none =>
      rw [List.filterMap_cons_none hfo, ih]
      by_cases hp : P o = true
      · rw [List.filter_cons_of_pos hp, List.filterMap_cons_none hfo]
      · rw [List.filter_cons_of_neg hp]
    | some x =>
      rw [List.filterMap_cons_some hfo]
      have := hf o x hfo
      by_cases hp : P o = true
      · rw [List.filter_cons_of_pos hp, List.filterMap_cons_some hfo, List.filter_cons_of_pos (by rw [this]; exact hp), ih]
      · rw [List.filter_cons_of_neg hp, List.filter_cons_of_neg (by rw [this]; exact hp), ih]

/-- The grid with the objects of the set only. -/
def proj (P : O → Bool) (g : OGrid O) : OGrid O :=
  ⟨g.rlocs.map (List.filter P), g.locs.map (List.filter P), g.width, g.height⟩

omit [BEq O] in
theorem applyRead_proj (P : O → Bool) (f : Loc → O → Option O) (hf : ∀ l o x, f l o = some x → P x = P o) (w h : Int) :
    ∀ (v : List (List O)) (i : Nat),
    applyRead f w h i (v.map (List.filter P)) = (applyRead f w h i v).map (List.map (List.filter P)) := by
  intro v
  induction v with
  | nil => intro i; rfl
  | cons r rs ih =>
    intro i
    rw [List.map_cons, applyRead, applyRead]
    cases calculateIndexesBag i w h with
    | none => rfl
    | some id =>
      dsimp only
      rw [ih (i + 1), Option.map_map, Option.map_map]
      apply Option.map_congr
      intro t _
      show _ :: _ = _ :: _
      rw [filter_filterMap' P (f id) (hf id)]

omit [BEq O] in
theorem applyWrite_proj (P : O → Bool) (f : Loc → O → Option O) (hf : ∀ l o x, f l o = some x → P x = P o) (w h : Int) :
    ∀ (v : List (List O)) (i : Nat) (u u2 : List (List O)), applyWrite f w h i v u = some u2 →
    applyWrite f w h i (v.map (List.filter P)) (u.map (List.filter P)) = some (u2.map (List.filter P)) := by
  intro v
  induction v with
  | nil => intro i u u2 hu; rw [applyWrite] at hu; cases hu; rfl
  | cons r rs ih =>
    intro i u u2 hu
    rw [applyWrite] at hu
    rw [List.map_cons, applyWrite]
    cases hc : calculateIndexesBag i w h with
    | none => rw [hc] at hu; simp at hu
    | some id =>
      rw [hc] at hu
      dsimp only at hu ⊢
      cases u with
      | nil =>
        dsimp only at hu
        by_cases he : (r.filterMap (f id)).isEmpty = true
        · rw [if_pos he] at hu
          have : ((r.filter P).filterMap (f id)).isEmpty = true := by
            rw [← filter_filterMap' P (f id) (hf id), List.isEmpty_iff.1 he]; rfl
          rw [List.map_nil]
          dsimp only
          rw [if_pos this]
          exact ih (i + 1) [] u2 hu
        · rw [if_neg he] at hu; simp at hu
      | cons b bs =>
        dsimp only at hu
        obtain ⟨t, ht, rfl⟩ := Option.map_eq_some_iff.1 hu
        rw [List.map_cons]
        dsimp only
        rw [ih (i + 1) bs t ht, Option.map_some, List.map_cons, List.filter_append, filter_filterMap' P (f id) (hf id)]

omit [BEq O] in
theorem updateCell_proj (P : O → Bool) (g : OGrid O) (r : List (List O)) (c : Loc) :
    updateCell (proj P g) (r.map (List.filter P)) c = (updateCell g r c).map (List.map (List.filter P)) := by
  unfold updateCell proj
  dsimp only
  rw [vecGet_map]
  cases vecGet g.locs g.height c with
  | none => rfl
  | some b =>
    dsimp only [Option.map_some]
    unfold vecInsert
    rw [List.length_map]
    by_cases hl : (c.x * g.height + c.y).toNat ≤ r.length
    · rw [if_pos hl, if_pos hl]; simp [List.map_take, List.map_drop]
    · rw [if_neg hl, if_neg hl]; rfl

omit [BEq O] in
theorem updateFold_proj (P : O → Bool) (g : OGrid O) : ∀ (cs : List Loc) (r : List (List O)),
    cs.foldlM (updateCell (proj P g)) (r.map (List.filter P)) =
      (cs.foldlM (updateCell g) r).map (List.map (List.filter P)) := by
  intro cs
  induction cs with
  | nil => intro r; rfl
  | cons c cs ih =>
    intro r
    rw [List.foldlM_cons, List.foldlM_cons, updateCell_proj]
    cases updateCell g r c with
    | none => rfl
    | some r2 => exact ih r2

theorem exec_proj {P : O → Bool} (hr : Respects P) {g g2 : OGrid O} {op : ObjOp O} (hk : op.Keeps P)
    (he : exec g op = some g2) :
    (op.about P = true → exec (proj P g) op = some (proj P g2)) ∧ (op.about P = false → proj P g2 = proj P g) := by
  cases op with
  | place o l =>
    simp only [exec, setObjectLocation] at he ⊢
    cases hb : vecGet g.locs g.height l with
    | none => rw [hb] at he; simp at he
    | some b =>
      rw [hb] at he
      obtain ⟨v, hv, rfl⟩ := Option.map_eq_some_iff.1 he
      constructor
      · intro ha
        have ha : P o = true := ha
        show (match vecGet (g.locs.map (List.filter P)) g.height l with | none => _ | some b => _) = _
        rw [vecGet_map, hb]
        dsimp only [Option.map_some]
        have h1 := vecSet_map' (List.filter P) g.locs g.height l (b.filter (fun x => x != o) ++ [o])
        rw [List.filter_append, filter_ne_comm, List.filter_cons_of_pos ha, List.filter_nil, hv] at h1
        show Option.map _ (vecSet (g.locs.map (List.filter P)) g.height l _) = _
        rw [h1]; rfl
      · intro ha
        have ha : P o = false := ha
        have := vecSet_same' (List.filter P) hb hv
          (by rw [List.filter_append, filter_ne_out hr b ha, List.filter_cons_of_neg (by rw [ha]; simp)]; simp)
        unfold proj
        dsimp only
        rw [this]
  | remove o l =>
    simp only [exec, removeObjectLocation] at he ⊢
    cases hb : vecGet g.locs g.height l with
    | none => rw [hb] at he; simp at he
    | some b =>
      rw [hb] at he
      obtain ⟨v, hv, rfl⟩ := Option.map_eq_some_iff.1 he
      constructor
      · intro ha
        show (match vecGet (g.locs.map (List.filter P)) g.height l with | none => _ | some b => _) = _
        rw [vecGet_map, hb]
        dsimp only [Option.map_some]
        have h1 := vecSet_map' (List.filter P) g.locs g.height l (b.filter (fun x => x != o))
        rw [filter_ne_comm, hv] at h1
        show Option.map _ (vecSet (g.locs.map (List.filter P)) g.height l _) = _
        rw [h1]; rfl
      · intro ha
        have ha : P o = false := ha
        have := vecSet_same' (List.filter P) hb hv (filter_ne_out hr b ha)
        unfold proj
        dsimp only
        rw [this]
  | update =>
    refine ⟨fun _ => ?_, fun ha => by simp [ObjOp.about] at ha⟩
    simp only [exec, update] at he ⊢
    obtain ⟨v, hv, rfl⟩ := Option.map_eq_some_iff.1 he
    show Option.map _ (List.foldlM (updateCell (proj P g)) (g.rlocs.map (List.filter P)) (cells g.width g.height)) = _
    rw [updateFold_proj, hv]; rfl
  | lazyUpdate =>
    refine ⟨fun _ => ?_, fun ha => by simp [ObjOp.about] at ha⟩
    simp only [exec, Option.some.injEq] at he ⊢
    subst he
    unfold lazyUpdate proj
    simp [Function.comp_def]
  | apply f opt =>
    refine ⟨fun _ => ?_, fun ha => by simp [ObjOp.about] at ha⟩
    obtain ⟨h1, h2⟩ := hk
    cases opt with
    | READWRITE => exact absurd rfl h1
    | READ =>
      simp only [exec, applyToAllValues] at he ⊢
      obtain ⟨v, hv, rfl⟩ := Option.map_eq_some_iff.1 he
      show Option.map _ (applyRead f g.width g.height 0 (g.rlocs.map (List.filter P))) = _
      rw [applyRead_proj P f h2, hv]; rfl
    | WRITE =>
      simp only [exec, applyToAllValues] at he ⊢
      obtain ⟨v, hv, rfl⟩ := Option.map_eq_some_iff.1 he
      show Option.map _ (applyWrite f g.width g.height 0 (g.rlocs.map (List.filter P)) (g.locs.map (List.filter P))) = _
      rw [applyWrite_proj P f h2 _ _ _ _ _ _ hv]; rfl

theorem run_proj {P : O → Bool} (hr : Respects P) (g0 : OGrid O) (h0 : proj P g0 = g0) :
    ∀ (hist : List (ObjOp O)) (g : OGrid O), (∀ op ∈ hist, op.Keeps P) → run g0 hist = some g →
    run g0 (aboutOnly P hist) = some (proj P g) := by
  intro hist
  induction hist with
  | nil =>
    intro g _ hg
    simp only [run, Option.some.injEq] at hg
    subst hg
    show some g0 = _
    rw [h0]
  | cons op hist ih =>
    intro g hk hg
    simp only [run] at hg
    cases hb : run g0 hist with
    | none => rw [hb] at hg; simp at hg
    | some g1 =>
      rw [hb] at hg
      have hg : exec g1 op = some g := hg
      have hi := ih g1 (fun o ho => hk o (List.mem_cons_of_mem _ ho)) hb
      obtain ⟨ha, hn⟩ := exec_proj hr (hk op List.mem_cons_self) hg
      unfold aboutOnly at hi ⊢
      cases hab : op.about P with
      | true =>
        rw [List.filter_cons_of_pos hab]
        simp only [run]
        rw [hi]
        exact ha hab
      | false =>
        rw [List.filter_cons_of_neg (by rw [hab]; simp), hn hab, hi]

omit [BEq O] in
theorem bagAnswer_proj (P : O → Bool) (b : List O) : bagAnswer (b.filter P) = only P (bagAnswer b) := by
  unfold bagAnswer
  by_cases hb : b.isEmpty = true
  · rw [if_pos hb, List.isEmpty_iff.1 hb]; rfl
  · rw [if_neg hb]; rfl

omit [BEq O] in
theorem collect_proj (P : O → Bool) (v : List (List O)) (h : Int) : ∀ cs : List Loc,
    collect (v.map (List.filter P)) h (fun c e => e.map (fun o => (c, o))) cs =
      (collect v h (fun c e => e.map (fun o => (c, o))) cs).map (List.filter (fun e => P e.2)) := by
  intro cs
  induction cs with
  | nil => rfl
  | cons c cs ih =>
    rw [collect, collect, vecGet_map]
    cases vecGet v h c with
    | none => rfl
    | some b =>
      dsimp only [Option.map_some]
      rw [ih, Option.map_map, Option.map_map]
      apply Option.map_congr
      intro t _
      show _ ++ _ = List.filter _ (_ ++ _)
      rw [List.filter_append, List.filter_map]
      rfl

theorem contains_proj {P : O → Bool} (hr : Respects P) {o : O} (ho : P o = true) (b : List O) :
    (b.filter P).contains o = b.contains o := by
  induction b with
  | nil => rfl
  | cons x b ih =>
    by_cases hx : P x = true
    · rw [List.filter_cons_of_pos hx, List.contains_cons, List.contains_cons, ih]
    · rw [List.filter_cons_of_neg hx, List.contains_cons, ih]
      cases he : o == x with
      | false => simp
      | true => rw [hr o x he] at ho; exact absurd ho hx

theorem findCell_proj {P : O → Bool} (hr : Respects P) {o : O} (ho : P o = true) (v : List (List O)) (h : Int) :
    ∀ cs : List Loc, findCell (v.map (List.filter P)) h (fun e => e.contains o) cs =
      findCell v h (fun e => e.contains o) cs := by
  intro cs
  induction cs with
  | nil => rfl
  | cons c cs ih =>
    rw [findCell, findCell, vecGet_map]
    cases vecGet v h c with
    | none => rfl
    | some b =>
      dsimp only [Option.map_some]
      rw [contains_proj hr ho, ih]

/-- What the program without the calls about other objects answers, in terms of the whole program's answers. -/
structure SameFor (P : O → Bool) (g g' : OGrid O) : Prop where
  objects : ∀ l, getObjects g' l = (getObjects g l).map (only P)
  objectsUnbuffered : ∀ l, getObjectsUnbuffered g' l = (getObjectsUnbuffered g l).map (only P)
  calls : iterObjects g' = (iterObjects g).map (List.filter (fun e => P e.2))
  callsUnbuffered : iterObjectsUnbuffered g' = (iterObjectsUnbuffered g).map (List.filter (fun e => P e.2))
  location : ∀ o, P o = true → getLocation g' o = getLocation g o
  locationUnbuffered : ∀ o, P o = true → getLocationUnbuffered g' o = getLocationUnbuffered g o

theorem sameFor_proj {P : O → Bool} (hr : Respects P) (g : OGrid O) : SameFor P g (proj P g) where
  objects l := by
    show (vecGet (g.rlocs.map (List.filter P)) g.height l).map bagAnswer = _
    rw [vecGet_map]
    unfold getObjects
    cases vecGet g.rlocs g.height l with
    | none => rfl
    | some b => exact congrArg some (bagAnswer_proj P b)
  objectsUnbuffered l := by
    show (vecGet (g.locs.map (List.filter P)) g.height l).map bagAnswer = _
    rw [vecGet_map]
    unfold getObjectsUnbuffered
    cases vecGet g.locs g.height l with
    | none => rfl
    | some b => exact congrArg some (bagAnswer_proj P b)
  calls := collect_proj P _ _ _
  callsUnbuffered := collect_proj P _ _ _
  location o ho := findCell_proj hr ho _ _ _
  locationUnbuffered o ho := findCell_proj hr ho _ _ _

/-- C248, `DenseGrid2D`: leave out all calls about objects outside a set, and the objects of the set are answered as before. -/
theorem C248_dense_partial {P : O → Bool} (hr : Respects P) {w h : Int} {g0 g : OGrid O} {hist : List (ObjOp O)}
    (hn : new w h = some g0) (hk : ∀ op ∈ hist, op.Keeps P) (hg : run g0 hist = some g) :
    ∃ g', run g0 (aboutOnly P hist) = some g' ∧ SameFor P g g' := by
  refine ⟨proj P g, run_proj hr g0 ?_ hist g hk hg, sameFor_proj hr g⟩
  unfold new at hn
  by_cases hc : w * h < 0
  · rw [if_pos hc] at hn; simp at hn
  · rw [if_neg hc] at hn
    simp only [Option.some.injEq] at hn
    subst hn
    unfold proj
    simp

/-- The even numbers are the set; 3 is placed, removed and moved around, and the closure adds 10. -/
example :
    let hist : List (ObjOp Nat) := [.place 5 ⟨0, 0⟩, .apply (fun _ o => some (o + 10)) .WRITE, .place 2 ⟨0, 0⟩, .lazyUpdate,
      .place 3 ⟨0, 1⟩, .place 4 ⟨0, 1⟩, .place 2 ⟨0, 1⟩, .remove 3 ⟨0, 0⟩, .place 3 ⟨0, 0⟩]
    let P : Nat → Bool := fun n => n % 2 == 0
    (aboutOnly P hist).length = 5 ∧
    ((new 1 2).bind (fun g => run g hist)).map (fun g => (getObjects g ⟨0, 1⟩, getObjectsUnbuffered g ⟨0, 1⟩, getObjectsUnbuffered g ⟨0, 0⟩)) =
      some (some (some [2, 4, 3]), some (some [12, 14, 13]), some (some [2, 5])) ∧
    ((new 1 2).bind (fun g => run g (aboutOnly P hist))).map (fun g => (getObjects g ⟨0, 1⟩, getObjectsUnbuffered g ⟨0, 1⟩, getObjectsUnbuffered g ⟨0, 0⟩)) =
      some (some (some [2, 4]), some (some [12, 14]), some (some [2])) := by
  refine ⟨?_, ?_, ?_⟩ <;> decide +kernel

/-- The limits: `READWRITE` makes objects depend on each other. 1 is published at a cell; if 2 has meanwhile been placed there,
1 is not written again, otherwise it is. -/
theorem C248_dense_negation_partial :
    ∃ (P : Nat → Bool) (hist : List (ObjOp Nat)) (g0 g g' : OGrid Nat), Respects P ∧
      (∀ op ∈ hist, ∀ f opt, op = .apply f opt → ∀ l o, f l o = some o) ∧
      new 1 1 = some g0 ∧ run g0 hist = some g ∧ run g0 (aboutOnly P hist) = some g' ∧
      P 1 = true ∧ getObjectsUnbuffered g' ⟨0, 0⟩ = some (some [1]) ∧ getLocationUnbuffered g 1 = some none := by
  refine ⟨fun n => n == 1, [.apply (fun _ o => some o) .READWRITE, .place 2 ⟨0, 0⟩, .lazyUpdate, .place 1 ⟨0, 0⟩],
    ⟨[[]], [[]], 1, 1⟩, ⟨[[1]], [[2]], 1, 1⟩, ⟨[[1]], [[1]], 1, 1⟩, ?_, ?_, ?_, ?_, ?_, ?_, ?_, ?_⟩
  · intro a b h
    have : a = b := by simpa using h
    rw [this]
  · intro op hop f opt he l o
    subst he
    simp at hop
    rw [hop.1]
  all_goals decide +kernel

end Verif.DenseObject
