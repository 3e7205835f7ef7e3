import Verif.Props.OthersField
import Verif.Props.ReorderDense

/-!
C249 on `Field2D`.
-/

namespace Verif.Field2D

open Grid Torus DenseObject

variable {O : Type} [BEq O]

/-- The object a call places or removes. -/
def FieldOp.object : FieldOp O → Option O
  | .place o _ => some o
  | .remove o _ => some o
  | _ => none

/-- Both calls place or remove an object, and the objects are different. -/
def FieldOp.Independent (a b : FieldOp O) : Prop :=
  ∃ x y, a.object = some x ∧ b.object = some y ∧ (x == y) = false ∧ (y == x) = false

/-- The field with other written bags; the objects are counted until the first update. -/
def withBags (f : Field O) (v : List (List O)) : Field O :=
  ⟨f.rbags, v, if f.densityCheck then f.nagents else total v, f.width, f.height, f.discretization, f.toroidal, f.dh, f.dw,
    f.density, f.densityCheck⟩

/-- The count of objects is right. -/
def Counted (f : Field O) : Prop := f.densityCheck = false → f.nagents = total f.bags

omit [BEq O] in
theorem counted_withBags (f : Field O) (v : List (List O)) : Counted (withBags f v) := by
  intro h
  have h : f.densityCheck = false := h
  show (if f.densityCheck then f.nagents else total v) = total v
  rw [h]; rfl

omit [BEq O] in
theorem withBags_self {f : Field O} (hc : Counted f) : withBags f f.bags = f := by
  have : (if f.densityCheck then f.nagents else total f.bags) = f.nagents := by
    cases hd : f.densityCheck with
    | true => rfl
    | false => exact (hc hd).symm
  unfold withBags
  rw [this]

omit [BEq O] in
theorem vecSet_self {v : List (List O)} {h : Int} {l : Loc} {b : List O} (hb : vecGet v h l = some b) :
    vecSet v h l b = some v := by
  unfold vecGet at hb
  unfold vecSet
  by_cases hc : 0 ≤ l.x * h + l.y
  · rw [if_pos hc] at hb
    obtain ⟨hi, he⟩ := List.getElem?_eq_some_iff.1 hb
    rw [if_pos ⟨hc, hi⟩, ← he, List.set_getElem_self]
  · rw [if_neg hc] at hb; simp at hb

theorem place_modify {f : Field O} (hc : Counted f) (o : O) (l : Pos) : setObjectLocation f o l =
    (modifyBag f.bags f.dh (discretize f.discretization l) (bagChange false o true)).map (withBags f) := by
  unfold setObjectLocation modifyBag
  cases hb : vecGet f.bags f.dh (discretize f.discretization l) with
  | none => rfl
  | some b =>
    dsimp only
    show _ = (vecSet f.bags f.dh (discretize f.discretization l) (b ++ [o])).map (withBags f)
    cases hv : vecSet f.bags f.dh (discretize f.discretization l) (b ++ [o]) with
    | none => rfl
    | some v =>
      have ht := total_vecSet hb hv
      simp only [Option.map_some, Option.some.injEq, withBags, Field.mk.injEq, true_and, and_true]
      cases hd : f.densityCheck with
      | true => rfl
      | false =>
        have := hc hd
        simp only [List.length_append, List.length_singleton] at ht
        simp only [Bool.false_eq_true, if_false]
        omega

theorem remove_modify {f : Field O} (hc : Counted f) (o : O) (l : Pos) : removeObjectLocation f o l =
    (modifyBag f.bags f.dh (discretize f.discretization l) (bagChange false o false)).map (withBags f) := by
  unfold removeObjectLocation modifyBag
  cases hb : vecGet f.bags f.dh (discretize f.discretization l) with
  | none => rfl
  | some b =>
    dsimp only
    have hbc : bagChange false o false b = b.filter (fun x => x != o) := by unfold bagChange; simp
    rw [hbc]
    by_cases he : b.isEmpty = true
    · rw [if_pos he]
      have h0 := List.isEmpty_iff.1 he
      subst h0
      rw [List.filter_nil, vecSet_self hb, Option.map_some, withBags_self hc]
    · rw [if_neg he]
      by_cases hd : f.densityCheck = true
      · rw [if_pos hd]
        congr 1
        funext v
        unfold withBags
        rw [if_pos hd]
      · rw [if_neg hd]
        have hd : f.densityCheck = false := by simpa using hd
        have hn := hc hd
        have hle := length_le_total hb
        rw [if_neg (by omega)]
        cases hv : vecSet f.bags f.dh (discretize f.discretization l) (b.filter (fun x => x != o)) with
        | none => rfl
        | some v =>
          have ht := total_vecSet hb hv
          have hfl := List.length_filter_le (fun x => x != o) b
          simp only [Option.map_some, Option.some.injEq, withBags, Field.mk.injEq, true_and, and_true, hd, Bool.false_eq_true, if_false]
          omega

theorem object_modify {op : FieldOp O} {x : O} (h : op.object = some x) : ∃ (l : Pos) (p : Bool), ∀ f : Field O, Counted f →
    exec f op = (modifyBag f.bags f.dh (discretize f.discretization l) (bagChange false x p)).map (withBags f) := by
  cases op with
  | place o l =>
    simp only [FieldOp.object, Option.some.injEq] at h
    subst h
    exact ⟨l, true, fun f hc => place_modify hc o l⟩
  | remove o l =>
    simp only [FieldOp.object, Option.some.injEq] at h
    subst h
    exact ⟨l, false, fun f hc => remove_modify hc o l⟩
  | update => simp [FieldOp.object] at h
  | lazyUpdate => simp [FieldOp.object] at h

/-- The two fields are equal up to the order within the bags, and count rightly. -/
structure Alike (f f' : Field O) : Prop where
  eq : f' = ⟨f'.rbags, f'.bags, f.nagents, f.width, f.height, f.discretization, f.toroidal, f.dh, f.dw, f.density, f.densityCheck⟩
  r : PermBags f.rbags f'.rbags
  w : PermBags f.bags f'.bags
  counted : Counted f

omit [BEq O] in
theorem total_perm {v v' : List (List O)} (h : PermBags v v') : total v' = total v := by
  induction h with
  | nil => rfl
  | cons hb _ ih =>
    unfold total at ih ⊢
    rw [List.map_cons, List.map_cons, List.sum_cons, List.sum_cons, ih, hb.length_eq]

omit [BEq O] in
theorem alike_counted {f f' : Field O} (h : Alike f f') : Counted f' := by
  have e := h.eq
  intro hd
  have h1 : f'.densityCheck = f.densityCheck := by rw [e]
  have h2 : f'.nagents = f.nagents := by rw [e]
  rw [h2, total_perm h.w]
  exact h.counted (h1 ▸ hd)

omit [BEq O] in
theorem alike_refl {f : Field O} (h : Counted f) : Alike f f := ⟨rfl, permBags_refl _, permBags_refl _, h⟩

omit [BEq O] in
theorem alike_trans {f f' f'' : Field O} (h : Alike f f') (h' : Alike f' f'') : Alike f f'' := by
  refine ⟨?_, permBags_trans h.r h'.r, permBags_trans h.w h'.w, h.counted⟩
  have e := h.eq
  have e' := h'.eq
  rw [e] at e'
  exact e'

omit [BEq O] in
/-- The field `withBags` on both sides. -/
theorem alike_withBags {f f' : Field O} (h : Alike f f') {v v' : List (List O)} (hv : PermBags v v') :
    Alike (withBags f v) (withBags f' v') := by
  refine ⟨?_, h.r, hv, counted_withBags _ _⟩
  have e := h.eq
  rw [e]
  unfold withBags
  simp only [total_perm hv]

theorem exec_alike {f f' f2 : Field O} (ha : Alike f f') {op : FieldOp O} (he : exec f op = some f2) :
    ∃ f2', exec f' op = some f2' ∧ Alike f2 f2' := by
  have e := ha.eq
  have hdh : f'.dh = f.dh := by rw [e]
  have hdi : f'.discretization = f.discretization := by rw [e]
  cases ho : op.object with
  | some x =>
    obtain ⟨l, p, hm⟩ := object_modify ho
    rw [hm f ha.counted] at he
    rw [hm f' (alike_counted ha)]
    obtain ⟨v, hv, rfl⟩ := Option.map_eq_some_iff.1 he
    rw [hdh, hdi]
    obtain ⟨v', hv', hp⟩ := modifyBag_perm (bagChange_perm false x p) ha.w hv
    rw [hv']
    exact ⟨_, rfl, alike_withBags ha hp⟩
  | none =>
    cases op with
    | place o l => simp [FieldOp.object] at ho
    | remove o l => simp [FieldOp.object] at ho
    | update =>
      simp only [exec, Option.some.injEq] at he ⊢
      subst he
      exact ⟨f', rfl, ha⟩
    | lazyUpdate =>
      simp only [exec, lazyUpdate] at he ⊢
      have hck : f'.densityCheck = f.densityCheck := by rw [e]
      have hdw : f'.dw = f.dw := by rw [e]
      have hna : f'.nagents = f.nagents := by rw [e]
      rw [hck, hdw, hdh, hna]
      by_cases hd : f.densityCheck = true
      · rw [if_pos hd] at he ⊢
        simp only [Option.some.injEq] at he
        subst he
        refine ⟨_, rfl, ?_, ha.w, ?_, fun h => ?_⟩
        · have := ha.eq
          simp only [Field.mk.injEq, true_and]
          rw [this]
          simp
        · show PermBags (f.rbags.map _) (f'.rbags.map _)
          rw [List.map_const', List.map_const', ha.r.length_eq]
          exact permBags_refl _
        · have h : f.densityCheck = false := h
          rw [hd] at h; simp at h
      · rw [if_neg hd] at he ⊢
        by_cases hz : (f.dw * f.dh).toNat = 0
        · rw [if_pos hz] at he; simp at he
        · rw [if_neg hz] at he ⊢
          simp only [Option.some.injEq] at he
          subst he
          refine ⟨_, rfl, ?_, ha.w, permBags_refl _, fun h => by simp at h⟩
          have := ha.eq
          simp only [Field.mk.injEq, true_and]
          rw [this]
          simp

theorem swap_alike {a b : FieldOp O} (hi : a.Independent b) {f f2 : Field O} (hc : Counted f)
    (he : (exec f b).bind (fun f => exec f a) = some f2) :
    ∃ f2', (exec f a).bind (fun f => exec f b) = some f2' ∧ Alike f2 f2' := by
  obtain ⟨x, y, hx, hy, h1, h2⟩ := hi
  obtain ⟨l, p, ha⟩ := object_modify hx
  obtain ⟨l', p', hb⟩ := object_modify hy
  have two : ∀ (c d : FieldOp O) (m k : Pos) (φ ψ : List O → List O),
      (∀ f : Field O, Counted f → exec f c = (modifyBag f.bags f.dh (discretize f.discretization m) φ).map (withBags f)) →
      (∀ f : Field O, Counted f → exec f d = (modifyBag f.bags f.dh (discretize f.discretization k) ψ).map (withBags f)) →
      (exec f c).bind (fun f => exec f d) = ((modifyBag f.bags f.dh (discretize f.discretization m) φ).bind
        (fun v => modifyBag v f.dh (discretize f.discretization k) ψ)).map (withBags f) := by
    intro c d m k φ ψ hc' hd
    rw [hc' f hc]
    cases modifyBag f.bags f.dh (discretize f.discretization m) φ with
    | none => rfl
    | some v =>
      simp only [Option.map_some, Option.bind_some]
      rw [hd _ (counted_withBags f v)]
      show (modifyBag v f.dh (discretize f.discretization k) ψ).map (withBags (withBags f v)) = _
      congr 1
      funext u
      unfold withBags
      cases f.densityCheck <;> simp
  rw [two b a l' l _ _ hb ha] at he
  rw [two a b l l' _ _ ha hb]
  rcases modifyBag_comm (bagChange_comm false h2 h1 p' p) f.bags f.dh (discretize f.discretization l')
    (discretize f.discretization l) with ⟨u, u', e1, e2, hp⟩ | ⟨e1, _⟩
  · rw [e1] at he
    rw [e2]
    simp only [Option.map_some, Option.some.injEq] at he ⊢
    subst he
    exact ⟨_, rfl, alike_withBags (alike_refl hc) hp⟩
  · rw [e1] at he; simp at he

theorem run_alike {hist hist' : List (FieldOp O)} (hr : Reorder FieldOp.Independent hist hist') :
    ∀ {f0 f : Field O}, Counted f0 → run f0 hist = some f → ∃ f', run f0 hist' = some f' ∧ Alike f f' := by
  have self : ∀ (l : List (FieldOp O)) {f0 f : Field O}, Counted f0 → run f0 l = some f → Counted f := by
    intro l
    induction l with
    | nil => intro f0 f h0 hf; cases hf; exact h0
    | cons a l ih =>
      intro f0 f h0 hf
      simp only [run] at hf
      cases hb : run f0 l with
      | none => rw [hb] at hf; simp at hf
      | some f1 =>
        rw [hb] at hf
        have hf : exec f1 a = some f := hf
        obtain ⟨f2, e, h2⟩ := exec_alike (alike_refl (ih h0 hb)) hf
        exact h2.counted
  induction hr with
  | refl l => intro f0 f h0 hf; exact ⟨f, hf, alike_refl (self l h0 hf)⟩
  | @cons a l l' _ ih =>
    intro f0 f h0 hf
    simp only [run] at hf ⊢
    cases hb : run f0 l with
    | none => rw [hb] at hf; simp at hf
    | some f1 =>
      rw [hb] at hf
      have hf : exec f1 a = some f := hf
      obtain ⟨f1', e1, h1⟩ := ih h0 hb
      obtain ⟨f', e, h⟩ := exec_alike h1 hf
      exact ⟨f', by rw [e1]; exact e, h⟩
  | @swap a b l hi =>
    intro f0 f h0 hf
    simp only [run] at hf ⊢
    cases hb : run f0 l with
    | none => rw [hb] at hf; simp at hf
    | some f1 =>
      rw [hb] at hf
      exact swap_alike hi (self l h0 hb) hf
  | trans _ _ ih1 ih2 =>
    intro f0 f h0 hf
    obtain ⟨f1, e1, h1⟩ := ih1 h0 hf
    obtain ⟨f2, e2, h2⟩ := ih2 h0 e1
    exact ⟨f2, e2, alike_trans h1 h2⟩

/-- The answers of two programs: the same up to the order of objects within a cell. -/
structure EqualAnswers (f f' : Field O) : Prop where
  objects : ∀ l, SameBag (getObjects f l) (getObjects f' l)
  objectsUnbuffered : ∀ l, SameBag (getObjectsUnbuffered f l) (getObjectsUnbuffered f' l)
  near : ∀ locOf l d, SameBag (getNeighborsWithinDistance f locOf l d) (getNeighborsWithinDistance f' locOf l d)
  nearRelaxed : ∀ l d, SameBag (getNeighborsWithinRelaxDistance f l d) (getNeighborsWithinRelaxDistance f' l d)
  number : ∀ l, numObjectsAtLocation f' l = numObjectsAtLocation f l
  empty : getEmptyBags f' = getEmptyBags f
  randomEmpty : ∀ genRange, getRandomEmptyBag f' genRange = getRandomEmptyBag f genRange
  density : f'.density = f.density

omit [BEq O] in
theorem scan_same {f f' : Field O} (ha : Alike f f') (keep : Loc → O → Bool) (cs : List Loc) :
    SameBag (scan f keep cs) (scan f' keep cs) := by
  have e := ha.eq
  have hdh : f'.dh = f.dh := by rw [e]
  have hid : ∀ c, bagId f' c = bagId f c := by intro c; rw [e]; rfl
  induction cs with
  | nil => exact .refl _
  | cons c cs ih =>
    rw [scan, scan, hid, hdh]
    cases bagId f c with
    | none => trivial
    | some b =>
      dsimp only
      have := permBags_vecGet ha.r f.dh b
      cases h1 : vecGet f.rbags f.dh b with
      | none =>
        cases h2 : vecGet f'.rbags f.dh b with
        | none => trivial
        | some b' => rw [h1, h2] at this; exact absurd this (by simp [SameBag])
      | some b1 =>
        cases h2 : vecGet f'.rbags f.dh b with
        | none => rw [h1, h2] at this; exact absurd this (by simp [SameBag])
        | some b2 =>
          rw [h1, h2] at this
          have this : b1.Perm b2 := this
          dsimp only
          cases h3 : scan f keep cs with
          | none =>
            cases h4 : scan f' keep cs with
            | none => trivial
            | some r' => rw [h3, h4] at ih; exact absurd ih (by simp [SameBag])
          | some r =>
            cases h4 : scan f' keep cs with
            | none => rw [h3, h4] at ih; exact absurd ih (by simp [SameBag])
            | some r' =>
              rw [h3, h4] at ih
              exact (this.filter _).append ih

omit [BEq O] in
theorem equalAnswers {f f' : Field O} (h : Alike f f') : EqualAnswers f f' := by
  have e := h.eq
  have hdh : f'.dh = f.dh := by rw [e]
  have hdw : f'.dw = f.dw := by rw [e]
  have hdi : f'.discretization = f.discretization := by rw [e]
  have hsc : ∀ l d, searchCells f' l d = searchCells f l d := by intro l d; rw [e]; rfl
  have hk : ∀ locOf l d, keepExact f' locOf l d = keepExact f locOf l d := by intro locOf l d; rw [e]; rfl
  have he : getEmptyBags f' = getEmptyBags f := by
    unfold getEmptyBags
    rw [hdh, hdw, hdi]
    exact collect_equal (fun c b b' hp => by rw [perm_isEmpty hp]) h.r _ _
  refine ⟨fun l => ?_, fun l => ?_, fun locOf l d => ?_, fun l d => ?_, fun l => ?_, he, fun genRange => ?_, by rw [e]⟩
  · unfold getObjects; rw [hdh, hdi]; exact permBags_vecGet h.r _ _
  · unfold getObjectsUnbuffered; rw [hdh, hdi]; exact permBags_vecGet h.w _ _
  · unfold getNeighborsWithinDistance
    rw [hsc, hk]
    by_cases hd : d ≤ 0
    · rw [if_pos hd, if_pos hd]; exact .refl _
    · rw [if_neg hd, if_neg hd]; exact scan_same h _ _
  · unfold getNeighborsWithinRelaxDistance
    rw [hsc]
    by_cases hd : d ≤ 0
    · rw [if_pos hd, if_pos hd]; exact .refl _
    · rw [if_neg hd, if_neg hd]; exact scan_same h _ _
  · unfold numObjectsAtLocation
    rw [hdh, hdi]
    have := permBags_vecGet h.r f.dh (discretize f.discretization l)
    cases h1 : vecGet f.rbags f.dh (discretize f.discretization l) with
    | none =>
      cases h2 : vecGet f'.rbags f.dh (discretize f.discretization l) with
      | none => rfl
      | some b' => rw [h1, h2] at this; exact absurd this (by simp [SameBag])
    | some b =>
      cases h2 : vecGet f'.rbags f.dh (discretize f.discretization l) with
      | none => rw [h1, h2] at this; exact absurd this (by simp [SameBag])
      | some b' =>
        rw [h1, h2] at this
        have this : b.Perm b' := this
        rw [Option.map_some, Option.map_some, this.length_eq]
  · unfold getRandomEmptyBag
    rw [he]

/-- C249, `Field2D`. -/
theorem C249_field_partial (w h d : Rat) (t : Bool) {hist hist' : List (FieldOp O)} (hr : Reorder FieldOp.Independent hist hist')
    {f : Field O} (hf : run (new w h d t) hist = some f) :
    ∃ f', run (new w h d t) hist' = some f' ∧ EqualAnswers f f' := by
  obtain ⟨f', e, ha⟩ := run_alike hr (f0 := new w h d t)
    (fun _ => by simp [new, total]) hf
  exact ⟨f', e, equalAnswers ha⟩

/-- Two objects placed in one cell in either order, a third one removed in between. -/
example :
    let hist : List (FieldOp Nat) := [.lazyUpdate, .place 1 ⟨0, 0⟩, .remove 3 ⟨0, 0⟩, .place 2 ⟨0, 1 / 2⟩, .place 3 ⟨0, 0⟩]
    let hist' : List (FieldOp Nat) := [.lazyUpdate, .remove 3 ⟨0, 0⟩, .place 2 ⟨0, 1 / 2⟩, .place 1 ⟨0, 0⟩, .place 3 ⟨0, 0⟩]
    Reorder FieldOp.Independent hist hist' ∧
    (run (new 1 1 1 false) hist).map (fun f => (getObjects f ⟨0, 0⟩, f.density)) = some (some [2, 1], 0) ∧
    (run (new 1 1 1 false) hist').map (fun f => (getObjects f ⟨0, 0⟩, f.density)) = some (some [1, 2], 0) := by
  refine ⟨.cons _ (.trans (.swap _ ?_) (.cons _ (.swap _ ?_))), ?_, ?_⟩
  · exact ⟨1, 3, rfl, rfl, by decide, by decide⟩
  · exact ⟨1, 2, rfl, rfl, by decide, by decide⟩
  · decide +kernel
  · decide +kernel

/-- The limits: the order of two calls about the same object matters. -/
theorem C249_field_negation_partial :
    ∃ (a b : FieldOp Nat) (f f' : Field Nat), run (new 1 1 1 false) [.lazyUpdate, a, b] = some f ∧
      run (new 1 1 1 false) [.lazyUpdate, b, a] = some f' ∧ getObjects f ⟨0, 0⟩ = some [7] ∧ getObjects f' ⟨0, 0⟩ = some [] := by
  refine ⟨.place 7 ⟨0, 0⟩, .remove 7 ⟨0, 0⟩,
    ⟨[[7], [], [], []], [[], [], [], []], 1, 1, 1, 1, false, 2, 2, 0, true⟩,
    ⟨[[], [], [], []], [[], [], [], []], 0, 1, 1, 1, false, 2, 2, 0, true⟩, ?_, ?_, ?_, ?_⟩
  all_goals decide +kernel

end Verif.Field2D
