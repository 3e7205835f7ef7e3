import Verif.Spec.ParReorder
import Verif.Props.DBDashMap
import Verif.Props.ParOthers

/-!
Under the feature `parallel` the order of calls about different objects does not matter (C259).
-/

namespace Verif.ParGrid

open Grid DBDashMap

variable {O I : Type} [DecidableEq I]

/-! ### Bags up to order -/

/-- Two bags with the same objects, those with the same identity in the same order; both are there or both are missing. -/
structure BEqv (ident : O → I) (a b : Option (List O)) : Prop where
  there : a.isSome = b.isSome
  perm : (a.getD []).Perm (b.getD [])
  each : ∀ i, (a.getD []).filter (fun x => decide (ident x = i)) = (b.getD []).filter (fun x => decide (ident x = i))

section
variable {ident : O → I}

theorem BEqv.refl (a : Option (List O)) : BEqv ident a a := ⟨rfl, .refl _, fun _ => rfl⟩

theorem BEqv.trans {a b c : Option (List O)} (h : BEqv ident a b) (h' : BEqv ident b c) : BEqv ident a c :=
  ⟨h.there.trans h'.there, h.perm.trans h'.perm, fun i => (h.each i).trans (h'.each i)⟩

theorem BEqv.or {a b c d : Option (List O)} (h : BEqv ident a b) (h' : BEqv ident c d) : BEqv ident (a.or c) (b.or d) := by
  cases a with
  | none =>
    cases b with
    | none => exact h'
    | some b => have := h.there; simp at this
  | some a =>
    cases b with
    | none => have := h.there; simp at this
    | some b => exact h

/-- The bag after a placement. -/
def put (ident : O → I) (o : O) (w : Option (List O)) : Option (List O) := some (pushObject ident o (w.getD []))

/-- The bag after a removal. -/
def pull (ident : O → I) (o : O) (w : Option (List O)) : Option (List O) :=
  w.map (fun b => b.filter (fun x => decide (ident x ≠ ident o)))

theorem pull_getD (o : O) (w : Option (List O)) : (pull ident o w).getD [] = (w.getD []).filter (fun x => decide (ident x ≠ ident o)) := by
  cases w <;> rfl

theorem pull_isSome (o : O) (w : Option (List O)) : (pull ident o w).isSome = w.isSome := by
  cases w <;> rfl

theorem filter_swap (p q : O → Bool) (b : List O) : (b.filter p).filter q = (b.filter q).filter p := by
  rw [List.filter_filter, List.filter_filter]
  apply List.filter_congr
  intro x _
  exact Bool.and_comm _ _

theorem BEqv.put {a b : Option (List O)} (h : BEqv ident a b) (o : O) : BEqv ident (put ident o a) (put ident o b) := by
  refine ⟨rfl, ?_, fun i => ?_⟩
  · exact (h.perm.filter _).append_right _
  · show List.filter _ (_ ++ _) = List.filter _ (_ ++ _)
    rw [List.filter_append, List.filter_append, filter_swap, h.each, filter_swap]

theorem BEqv.pull {a b : Option (List O)} (h : BEqv ident a b) (o : O) : BEqv ident (pull ident o a) (pull ident o b) := by
  refine ⟨by rw [pull_isSome, pull_isSome]; exact h.there, ?_, fun i => ?_⟩
  · rw [pull_getD, pull_getD]; exact h.perm.filter _
  · rw [pull_getD, pull_getD, filter_swap, h.each, filter_swap]

theorem pull_pull (x y : O) (w : Option (List O)) : pull ident x (pull ident y w) = pull ident y (pull ident x w) := by
  cases w with
  | none => rfl
  | some b => exact congrArg some (filter_swap _ _ _)

theorem put_pull {x y : O} (h : ident x ≠ ident y) (w : Option (List O)) :
    put ident x (pull ident y w) = pull ident y (put ident x w) := by
  unfold put
  rw [pull_getD]
  show some (_ ++ _) = some (List.filter _ (_ ++ _))
  rw [List.filter_append, filter_swap]
  congr 2
  simp [h]

theorem put_put {x y : O} (h : ident x ≠ ident y) (w : Option (List O)) :
    BEqv ident (put ident x (put ident y w)) (put ident y (put ident x w)) := by
  have e : ∀ {x y : O}, ident x ≠ ident y → put ident x (put ident y w) = some (((w.getD []).filter (fun z => decide (ident z ≠ ident y))).filter
      (fun z => decide (ident z ≠ ident x)) ++ [y, x]) := by
    intro x y h
    show some (_ ++ _) = _
    show some (List.filter _ (_ ++ _) ++ _) = _
    rw [List.filter_append, List.append_assoc]
    congr 2
    simp [Ne.symm h]
  rw [e h, e (Ne.symm h), filter_swap]
  refine ⟨rfl, (List.Perm.swap _ _ _).append_left _, fun i => ?_⟩
  show List.filter _ (_ ++ _) = List.filter _ (_ ++ _)
  rw [List.filter_append, List.filter_append]
  congr 1
  by_cases hx : ident x = i
  · have hy : ident y ≠ i := fun hc => h (hx.trans hc.symm)
    simp [hx, hy]
  · by_cases hy : ident y = i
    · simp [hx, hy]
    · simp [hx, hy]

/-! ### What the calls do to the plain maps -/

/-- The four plain maps of a grid. -/
structure OState (O I : Type) where
  rl : I → Option (O × Loc)
  wl : I → Option (O × Loc)
  rb : Loc → Option (List O)
  wb : Loc → Option (List O)

/-- What a call does to the written place of an identity. -/
def placeAct (ident : O → I) (op : POp O) (i : I) (w : Option (O × Loc)) : Option (O × Loc) :=
  match op with
  | .place o l => if i = ident o then some (o, l) else w
  | .remove o => if i = ident o then none else w
  | _ => w

/-- What a call does to the written bag of a cell. -/
def bagAct (ident : O → I) (rl : I → Option (O × Loc)) (op : POp O) (c : Loc) (w : Option (List O)) : Option (List O) :=
  match op with
  | .place o l => if c = l then put ident o w else w
  | .remove o => if (rl (ident o)).map Prod.snd = some c then pull ident o w else w
  | .removeAt o l => if c = l then pull ident o w else w
  | _ => w

/-- One call, as if `remove_object` never panicked. -/
def tstep (ident : O → I) (s : OState O I) (op : POp O) : OState O I :=
  match op with
  | .update => ⟨fun i => (s.wl i).or (s.rl i), s.wl, fun c => (s.wb c).or (s.rb c), s.wb⟩
  | .lazyUpdate => ⟨s.wl, fun _ => none, s.wb, fun _ => none⟩
  | .apply f _ => ⟨s.rl, fun i => ((s.rl i).bind (fun e => (f e.2 e.1).map (fun x => (x, e.2)))).or (s.wl i), s.rb, s.wb⟩
  | op => ⟨s.rl, fun i => placeAct ident op i (s.wl i), s.rb, fun c => bagAct ident s.rl op c (s.wb c)⟩

/-- The plain maps of a grid. -/
def plain (g : OGrid O I) : OState O I :=
  ⟨(abs g.obj2loc).read, (abs g.obj2loc).write, (abs g.loc2objs).read, (abs g.loc2objs).write⟩

omit [DecidableEq I] in
theorem ostate_ext {s t : OState O I} (h1 : s.rl = t.rl) (h2 : s.wl = t.wl) (h3 : s.rb = t.rb) (h4 : s.wb = t.wb) : s = t := by
  cases s; cases t; simp_all

theorem exec_plain {g k : OGrid O I} (hw : OWf ident g) {op : POp O} (hk : op.Keeps ident) (e : g.exec ident op = some k) :
    plain k = tstep ident (plain g) op := by
  cases op with
  | place o l =>
    obtain ⟨k1, f1, _, _, s⟩ := oshows_place ident (oshows_self hw.invO hw.invL) o l
    obtain rfl := Option.some.inj (e.symm.trans f1)
    refine ostate_ext s.readO s.writeO s.readL ?_
    show (abs k.loc2objs).write = _
    rw [s.writeL]
    funext c
    show _ = if c = l then put ident o ((abs g.loc2objs).write c) else (abs g.loc2objs).write c
    by_cases hc : c = l
    · rw [if_pos hc, if_pos hc, hc]; rfl
    · rw [if_neg hc, if_neg hc]
  | remove o =>
    obtain ⟨_, _, _, c4, c5, c6, c7⟩ := (remove_object_sim ident hw o).2 k e
    exact ostate_ext c4 c5 c6 c7
  | removeAt o l =>
    obtain ⟨k1, f1, _, _, _, c4, c5, c6⟩ := removeAt_sim ident hw o l
    obtain rfl := Option.some.inj (e.symm.trans f1)
    refine ostate_ext (congrArg (fun m => (abs m).read) c4) (congrArg (fun m => (abs m).write) c4) c5 ?_
    show (abs k.loc2objs).write = _
    rw [c6]
    funext c
    show _ = if c = l then pull ident o ((abs g.loc2objs).write c) else (abs g.loc2objs).write c
    by_cases hc : c = l
    · rw [if_pos hc, if_pos hc, hc]; rfl
    · rw [if_neg hc, if_neg hc]
  | update =>
    have s := oshows_update (oshows_self hw.invO hw.invL)
    obtain rfl := Option.some.inj e
    exact ostate_ext s.readO s.writeO s.readL s.writeL
  | lazyUpdate =>
    have s := oshows_lazy (oshows_self hw.invO hw.invL)
    obtain rfl := Option.some.inj e
    exact ostate_ext s.readO s.writeO s.readL s.writeL
  | apply f opt =>
    obtain ⟨k1, f1, _, c2, _, _, c5, c6⟩ := apply_sim ident hw f opt
    obtain rfl := Option.some.inj (e.symm.trans f1)
    exact ostate_ext c5 (funext (apply_write hw hk c6)) (congrArg (fun m => (abs m).read) c2) (congrArg (fun m => (abs m).write) c2)

/-- A program, as if `remove_object` never panicked; newest call first. -/
def trun (ident : O → I) (s : OState O I) : List (POp O) → OState O I
  | [] => s
  | op :: before => tstep ident (trun ident s before) op

theorem run_plain {g0 : OGrid O I} (h0 : OWf ident g0) : ∀ (hist : List (POp O)) (g : OGrid O I), (∀ op ∈ hist, op.Keeps ident) →
    OGrid.run ident g0 hist = some g → OWf ident g ∧ plain g = trun ident (plain g0) hist ∧ g.width = g0.width ∧ g.height = g0.height := by
  intro hist
  induction hist with
  | nil => intro g _ e; obtain rfl := Option.some.inj e; exact ⟨h0, rfl, rfl, rfl⟩
  | cons op hist ih =>
    intro g hk e
    rw [OGrid.run] at e
    obtain ⟨k, ek, e⟩ := Option.bind_eq_some_iff.1 e
    obtain ⟨w, p, a, b⟩ := ih k (fun o ho => hk o (List.mem_cons_of_mem _ ho)) ek
    obtain ⟨w', a', b'⟩ := owf_exec ident w op e
    exact ⟨w', by rw [exec_plain w (hk op List.mem_cons_self) e, p]; rfl, a'.trans a, b'.trans b⟩

/-- The same places and, up to order, the same bags. -/
structure SEqv (ident : O → I) (s t : OState O I) : Prop where
  rl : t.rl = s.rl
  wl : t.wl = s.wl
  rb : ∀ c, BEqv ident (s.rb c) (t.rb c)
  wb : ∀ c, BEqv ident (s.wb c) (t.wb c)

theorem SEqv.refl (s : OState O I) : SEqv ident s s := ⟨rfl, rfl, fun _ => .refl _, fun _ => .refl _⟩

theorem SEqv.trans {s t u : OState O I} (h : SEqv ident s t) (h' : SEqv ident t u) : SEqv ident s u :=
  ⟨h'.rl.trans h.rl, h'.wl.trans h.wl, fun c => (h.rb c).trans (h'.rb c), fun c => (h.wb c).trans (h'.wb c)⟩

/-- What a call does to a bag is nothing, a placement or a removal. -/
theorem bagAct_kind (rl : I → Option (O × Loc)) (op : POp O) (c : Loc) :
    bagAct ident rl op c = id ∨ ∃ x, op.object = some x ∧ (bagAct ident rl op c = put ident x ∨ bagAct ident rl op c = pull ident x) := by
  cases op with
  | place o l =>
    by_cases hc : c = l
    · exact .inr ⟨o, rfl, .inl (funext fun w => if_pos hc)⟩
    · exact .inl (funext fun w => if_neg hc)
  | remove o =>
    by_cases hc : (rl (ident o)).map Prod.snd = some c
    · exact .inr ⟨o, rfl, .inr (funext fun w => if_pos hc)⟩
    · exact .inl (funext fun w => if_neg hc)
  | removeAt o l =>
    by_cases hc : c = l
    · exact .inr ⟨o, rfl, .inr (funext fun w => if_pos hc)⟩
    · exact .inl (funext fun w => if_neg hc)
  | update => exact .inl rfl
  | lazyUpdate => exact .inl rfl
  | apply f opt => exact .inl rfl

theorem bagAct_eqv (rl : I → Option (O × Loc)) (op : POp O) (c : Loc) {a b : Option (List O)} (h : BEqv ident a b) :
    BEqv ident (bagAct ident rl op c a) (bagAct ident rl op c b) := by
  rcases bagAct_kind (ident := ident) rl op c with k | ⟨x, _, k | k⟩
  · rw [k]; exact h
  · rw [k]; exact h.put x
  · rw [k]; exact h.pull x

theorem bagAct_swap (rl : I → Option (O × Loc)) {a b : POp O} (hi : a.Independent ident b) (c : Loc) (w : Option (List O)) :
    BEqv ident (bagAct ident rl a c (bagAct ident rl b c w)) (bagAct ident rl b c (bagAct ident rl a c w)) := by
  obtain ⟨x, y, hx, hy, hne⟩ := hi
  rcases bagAct_kind (ident := ident) rl a c with k | ⟨x', hx', k⟩
  · rw [k]; exact .refl _
  · obtain rfl := Option.some.inj (hx.symm.trans hx')
    rcases bagAct_kind (ident := ident) rl b c with j | ⟨y', hy', j⟩
    · rw [j]; exact .refl _
    · obtain rfl := Option.some.inj (hy.symm.trans hy')
      rcases k with k | k <;> rcases j with j | j <;> rw [k, j]
      · exact put_put hne w
      · rw [put_pull hne]; exact .refl _
      · rw [put_pull (Ne.symm hne)]; exact .refl _
      · rw [pull_pull]; exact .refl _

theorem placeAct_swap {a b : POp O} (hi : a.Independent ident b) (i : I) (w : Option (O × Loc)) :
    placeAct ident b i (placeAct ident a i w) = placeAct ident a i (placeAct ident b i w) := by
  have kind : ∀ (op : POp O) (x : O), op.object = some x → i ≠ ident x → ∀ w, placeAct ident op i w = w := by
    intro op x hx hn w
    cases op with
    | place o l => obtain rfl := Option.some.inj hx; exact if_neg hn
    | remove o => obtain rfl := Option.some.inj hx; exact if_neg hn
    | removeAt o l => rfl
    | update => rfl
    | lazyUpdate => rfl
    | apply f opt => rfl
  obtain ⟨x, y, hx, hy, hne⟩ := hi
  by_cases h : i = ident x
  · have hy' : i ≠ ident y := fun hc => hne (h.symm.trans hc)
    rw [kind b y hy hy', kind b y hy hy']
  · rw [kind a x hx h, kind a x hx h]

theorem tstep_object (s : OState O I) {op : POp O} {x : O} (h : op.object = some x) :
    tstep ident s op = ⟨s.rl, fun i => placeAct ident op i (s.wl i), s.rb, fun c => bagAct ident s.rl op c (s.wb c)⟩ := by
  cases op with
  | place o l => rfl
  | remove o => rfl
  | removeAt o l => rfl
  | update => simp [POp.object] at h
  | lazyUpdate => simp [POp.object] at h
  | apply f opt => simp [POp.object] at h

theorem tstep_swap (s : OState O I) {a b : POp O} (hi : a.Independent ident b) :
    SEqv ident (tstep ident (tstep ident s b) a) (tstep ident (tstep ident s a) b) := by
  obtain ⟨x, y, hx, hy, hne⟩ := id hi
  rw [tstep_object s hx, tstep_object s hy, tstep_object _ hx, tstep_object _ hy]
  exact ⟨rfl, funext fun i => placeAct_swap hi i _, fun _ => .refl _, fun c => bagAct_swap s.rl hi c _⟩

theorem tstep_eqv {s t : OState O I} (h : SEqv ident s t) (op : POp O) : SEqv ident (tstep ident s op) (tstep ident t op) := by
  have key : ∀ x, op.object = some x → SEqv ident (tstep ident s op) (tstep ident t op) := by
    intro x hx
    rw [tstep_object s hx, tstep_object t hx]
    refine ⟨h.rl, by rw [h.wl], h.rb, fun c => ?_⟩
    dsimp only
    rw [h.rl]
    exact bagAct_eqv s.rl op c (h.wb c)
  cases op with
  | place o l => exact key o rfl
  | remove o => exact key o rfl
  | removeAt o l => exact key o rfl
  | update =>
    refine ⟨?_, h.wl, fun c => (h.wb c).or (h.rb c), h.wb⟩
    show (fun i => (t.wl i).or (t.rl i)) = _
    rw [h.wl, h.rl]; rfl
  | lazyUpdate => exact ⟨h.wl, rfl, h.wb, fun _ => .refl _⟩
  | apply f opt =>
    refine ⟨h.rl, ?_, h.rb, h.wb⟩
    show (fun i => ((t.rl i).bind (fun e => (f e.2 e.1).map (fun x => (x, e.2)))).or (t.wl i)) = _
    rw [h.wl, h.rl]; rfl

theorem trun_reorder {hist hist' : List (POp O)} (hr : Reorder (POp.Independent ident) hist hist') (s : OState O I) :
    SEqv ident (trun ident s hist) (trun ident s hist') := by
  induction hr with
  | refl l => exact .refl _
  | cons a _ ih => exact tstep_eqv ih a
  | swap l h => exact tstep_swap _ h
  | trans _ _ h1 h2 => exact h1.trans h2

theorem reorder_mem {α : Type} {R : α → α → Prop} {l l' : List α} (h : Reorder R l l') : ∀ x, x ∈ l ↔ x ∈ l' := by
  induction h with
  | refl l => intro x; rfl
  | cons a _ ih => intro x; rw [List.mem_cons, List.mem_cons, ih]
  | swap l _ => intro x; simp only [List.mem_cons]; tauto
  | trans _ _ h1 h2 => intro x; exact (h1 x).trans (h2 x)

theorem find_eqv {a b : Option (List O)} (h : BEqv ident a b) (i : I) :
    (a.getD []).find? (fun x => decide (ident x = i)) = (b.getD []).find? (fun x => decide (ident x = i)) := by
  rw [← List.head?_filter, ← List.head?_filter, h.each]

theorem sameBag_nonEmpty {a b : Option (List O)} (h : BEqv ident a b) : SameBag (nonEmpty a) (nonEmpty b) := by
  have e : ∀ a : Option (List O), nonEmpty a = if (a.getD []).isEmpty then none else some (a.getD []) := by
    intro a; rcases a with _ | ⟨_ | ⟨x, l⟩⟩ <;> rfl
  rw [e a, e b]
  have hp := h.perm
  cases ha : (a.getD []).isEmpty with
  | true =>
    have : (b.getD []).isEmpty = true := by
      rw [List.isEmpty_iff] at ha ⊢
      rw [ha] at hp
      exact hp.nil_eq.symm
    rw [this]; trivial
  | false =>
    have : (b.getD []).isEmpty = false := by
      cases hb : (b.getD []).isEmpty with
      | false => rfl
      | true =>
        rw [List.isEmpty_iff] at hb
        rw [hb] at hp
        rw [hp.eq_nil] at ha
        exact ha
    rw [this]; exact hp

theorem sameAnswers_of {g g' : OGrid O I} (w : OWf ident g) (w' : OWf ident g') (hw : g'.width = g.width) (hh : g'.height = g.height)
    (h : SEqv ident (plain g) (plain g')) : g.SameAnswers ident g' := by
  have rl : (abs g'.obj2loc).read = (abs g.obj2loc).read := h.rl
  have wl : (abs g'.obj2loc).write = (abs g.obj2loc).write := h.wl
  have rb : ∀ c, BEqv ident ((abs g.loc2objs).read c) ((abs g'.loc2objs).read c) := h.rb
  have wb : ∀ c, BEqv ident ((abs g.loc2objs).write c) ((abs g'.loc2objs).write c) := h.wb
  have hnone : ∀ l, ((abs g'.loc2objs).read l).isNone = ((abs g.loc2objs).read l).isNone := by
    intro l
    have := (rb l).there
    cases h1 : (abs g.loc2objs).read l <;> cases h2 : (abs g'.loc2objs).read l <;> rw [h1, h2] at this <;> simp_all
  refine ⟨fun o => ?_, fun o => ?_, fun o => ?_, fun o => ?_, fun l => ?_, fun l => ?_, ?_, fun draws => ?_, ?_⟩
  · unfold OGrid.get; rw [getRead_abs w.invO, getRead_abs w'.invO, rl]
  · unfold OGrid.getLocation; rw [getRead_abs w.invO, getRead_abs w'.invO, rl]
  · unfold OGrid.getLocationUnbuffered; rw [getWrite_abs w.invO, getWrite_abs w'.invO, wl]
  · unfold OGrid.getUnbuffered
    rw [getWrite_abs w.invO, getWrite_abs w'.invO, wl, Option.bind_some, Option.bind_some]
    cases (abs g.obj2loc).write (ident o) with
    | none => rfl
    | some e =>
      dsimp only
      rw [getWrite_abs w.invL, getWrite_abs w'.invL, Option.bind_some, Option.bind_some]
      have hb := wb e.2
      have ht := hb.there
      have hf := find_eqv hb (ident o)
      cases h1 : (abs g.loc2objs).write e.2 <;> cases h2 : (abs g'.loc2objs).write e.2 <;> rw [h1, h2] at ht hf
      · simp at ht
      · simp at ht
      · exact congrArg some hf.symm
  · exact ⟨_, _, getObjects_abs w.invL l, getObjects_abs w'.invL l, sameBag_nonEmpty (rb l)⟩
  · exact ⟨_, _, getObjectsUnbuffered_abs w.invL l, getObjectsUnbuffered_abs w'.invL l, sameBag_nonEmpty (wb l)⟩
  · unfold OGrid.getEmptyBags
    rw [emptyBags_filter w.invL, emptyBags_filter w'.invL, hw, hh]
    simp only [hnone]
  · unfold OGrid.getRandomEmptyBag
    rw [hw, hh]
    congr 1
    induction draws with
    | nil => rfl
    | cons d ds ih =>
      unfold randomLoop
      rw [getRead_abs w.invL, getRead_abs w'.invL, ih]
      have := hnone d
      cases h1 : (abs g.loc2objs).read d <;> cases h2 : (abs g'.loc2objs).read d <;> rw [h1, h2] at this <;> simp_all
  · refine ⟨_, _, by unfold OGrid.iterObjects; exact iterCells_eq w.invL _, by unfold OGrid.iterObjects; exact iterCells_eq w'.invL _, ?_⟩
    rw [hw, hh]
    exact List.Perm.flatMap_left _ (fun c _ => (rb c).perm.map _)
end

/-- **C259**, object grids: two programs that differ in the order of calls about different objects, and of which neither panics,
give the same answers. Closures leave the objects their identities. -/
theorem C259_object_grids_partial {cpus : Nat} (hc : shardAmount cpus ≤ 2 ^ 64) (ident : O → I) (hashO : I → Nat) (hashL : Loc → Nat)
    (width height : Int) {hist hist' : List (POp O)} (hr : Reorder (POp.Independent ident) hist hist') (hk : ∀ op ∈ hist, op.Keeps ident)
    (g g' : OGrid O I) (e : OGrid.run ident (OGrid.new cpus hashO hashL width height) hist = some g)
    (e' : OGrid.run ident (OGrid.new cpus hashO hashL width height) hist' = some g') : g.SameAnswers ident g' := by
  have w0 := owf_new hc ident hashO hashL width height
  obtain ⟨w, p, a, b⟩ := run_plain w0 hist g hk e
  obtain ⟨w', p', a', b'⟩ := run_plain w0 hist' g' (fun op ho => hk op ((reorder_mem hr op).2 ho)) e'
  refine sameAnswers_of w w' (a'.trans a.symm) (b'.trans b.symm) ?_
  rw [p, p']
  exact trun_reorder hr _

/-- **C259**, object grids: without `remove_object` neither order panics. -/
theorem C259_no_panic_partial {cpus : Nat} (hc : shardAmount cpus ≤ 2 ^ 64) (ident : O → I) (hashO : I → Nat) (hashL : Loc → Nat)
    (width height : Int) {hist hist' : List (POp O)} (hr : Reorder (POp.Independent ident) hist hist') (hk : ∀ op ∈ hist, op.Keeps ident)
    (hn : ∀ op ∈ hist, op.isRemove = false) :
    ∃ g g', OGrid.run ident (OGrid.new cpus hashO hashL width height) hist = some g ∧
      OGrid.run ident (OGrid.new cpus hashO hashL width height) hist' = some g' ∧ g.SameAnswers ident g' := by
  obtain ⟨⟨g, e⟩, _⟩ := C258_no_panic_partial hc ident (fun _ => true) hashO hashL width height hist hn
  obtain ⟨⟨g', e'⟩, _⟩ := C258_no_panic_partial hc ident (fun _ => true) hashO hashL width height hist'
    (fun op ho => hn op ((reorder_mem hr op).2 ho))
  exact ⟨g, g', e, e', C259_object_grids_partial hc ident hashO hashL width height hr hk g g' e e'⟩

/-- Two objects placed in the same cell in either order. -/
example :
    let hist : List (POp Nat) := [.lazyUpdate, .place 1 ⟨0, 0⟩, .place 2 ⟨0, 0⟩]
    let hist' : List (POp Nat) := [.lazyUpdate, .place 2 ⟨0, 0⟩, .place 1 ⟨0, 0⟩]
    Reorder (POp.Independent id) hist hist' ∧
    ((OGrid.run id (OGrid.new 1 id (fun _ => 0) 3 3) hist : Option (OGrid Nat Nat)).bind (fun g => g.getObjects ⟨0, 0⟩)) = some (some [2, 1]) ∧
    ((OGrid.run id (OGrid.new 1 id (fun _ => 0) 3 3) hist' : Option (OGrid Nat Nat)).bind (fun g => g.getObjects ⟨0, 0⟩)) = some (some [1, 2]) := by
  refine ⟨.cons _ (.swap _ ⟨1, 2, rfl, rfl, by decide⟩), by decide +kernel, by decide +kernel⟩

/-- **C259** is false of panics: an object removed before another one is placed in its cell panics, in the other order not. It is false
as well of two placements of the same object. -/
theorem C259_grid_negation_partial :
    (∃ hist hist' : List (POp Nat), Reorder (POp.Independent id) hist hist' ∧
      (OGrid.run id (OGrid.new 1 id (fun _ => 0) 3 3) hist : Option (OGrid Nat Nat)).isSome = true ∧
      (OGrid.run id (OGrid.new 1 id (fun _ => 0) 3 3) hist' : Option (OGrid Nat Nat)).isSome = false) ∧
    ((OGrid.run id (OGrid.new 1 id (fun _ => 0) 3 3) [.lazyUpdate, .place 1 ⟨0, 0⟩, .place 1 ⟨1, 0⟩] : Option (OGrid Nat Nat)).bind
      (fun g => g.getLocation id 1)) = some (some ⟨0, 0⟩) ∧
    ((OGrid.run id (OGrid.new 1 id (fun _ => 0) 3 3) [.lazyUpdate, .place 1 ⟨1, 0⟩, .place 1 ⟨0, 0⟩] : Option (OGrid Nat Nat)).bind
      (fun g => g.getLocation id 1)) = some (some ⟨1, 0⟩) := by
  refine ⟨⟨[.remove 1, .place 2 ⟨1, 1⟩, .lazyUpdate, .place 1 ⟨1, 1⟩], [.place 2 ⟨1, 1⟩, .remove 1, .lazyUpdate, .place 1 ⟨1, 1⟩],
    .swap _ ⟨1, 2, rfl, rfl, by decide⟩, by decide +kernel, by decide +kernel⟩, by decide +kernel, by decide +kernel⟩

end Verif.ParGrid

namespace Verif.ParField2D

open Grid Torus DBDashMap Field2D ParGrid

variable {O I : Type} [DecidableEq I]

section
variable {ident : O → I}

/-- The four plain maps of a field. -/
structure FState (O I : Type) where
  rl : I → Option (O × Pos)
  wl : I → Option (O × Pos)
  rb : Loc → Option (List O)
  wb : Loc → Option (List O)

/-- The bag after a placement: nothing is taken out. -/
def add (o : O) (w : Option (List O)) : Option (List O) := some (w.getD [] ++ [o])

theorem add_eqv {a b : Option (List O)} (h : BEqv ident a b) (o : O) : BEqv ident (add o a) (add o b) := by
  refine ⟨rfl, h.perm.append_right _, fun i => ?_⟩
  show List.filter _ (_ ++ _) = List.filter _ (_ ++ _)
  rw [List.filter_append, List.filter_append, h.each]

theorem add_add {x y : O} (h : ident x ≠ ident y) (w : Option (List O)) : BEqv ident (add x (add y w)) (add y (add x w)) := by
  have e : ∀ x y : O, add x (add y w) = some (w.getD [] ++ [y, x]) := by
    intro x y
    show some ((_ ++ _) ++ _) = _
    rw [List.append_assoc]; rfl
  rw [e, e]
  refine ⟨rfl, (List.Perm.swap _ _ _).append_left _, fun i => ?_⟩
  show List.filter _ (_ ++ _) = List.filter _ (_ ++ _)
  rw [List.filter_append, List.filter_append]
  congr 1
  by_cases hx : ident x = i
  · have hy : ident y ≠ i := fun hc => h (hx.trans hc.symm)
    simp [hx, hy]
  · by_cases hy : ident y = i
    · simp [hx, hy]
    · simp [hx, hy]

/-- One call. -/
def fstep (ident : O → I) (d : ℚ) (s : FState O I) : ROp O → FState O I
  | .place o l => ⟨s.rl, fun i => if i = ident o then some (o, l) else s.wl i, s.rb,
      fun c => if c = discretize d l then add o (s.wb c) else s.wb c⟩
  | .update => ⟨fun i => (s.wl i).or (s.rl i), s.wl, fun c => (s.wb c).or (s.rb c), s.wb⟩
  | .lazyUpdate => ⟨s.wl, fun _ => none, s.wb, fun _ => none⟩

/-- A program; newest call first. -/
def frun (ident : O → I) (d : ℚ) (s : FState O I) : List (ROp O) → FState O I
  | [] => s
  | op :: before => fstep ident d (frun ident d s before) op

theorem frun_shows {w h d : ℚ} {t : Bool} {f0 : PField O I} {s0 : FState O I} (h0 : FShows f0 w h d t s0.rl s0.wl s0.rb s0.wb)
    (hist : List (ROp O)) : ∃ f, PField.run ident f0 hist = some f ∧
      FShows f w h d t (frun ident d s0 hist).rl (frun ident d s0 hist).wl (frun ident d s0 hist).rb (frun ident d s0 hist).wb := by
  induction hist with
  | nil => exact ⟨f0, rfl, h0⟩
  | cons op hist ih =>
    obtain ⟨f, e, s⟩ := ih
    cases op with
    | place o l =>
      obtain ⟨k, ek, sk⟩ := fshows_place ident s o l
      exact ⟨k, by rw [PField.run, e]; exact ek, sk⟩
    | update => exact ⟨_, by rw [PField.run, e]; rfl, fshows_update s⟩
    | lazyUpdate => exact ⟨_, by rw [PField.run, e]; rfl, fshows_lazy s⟩

/-- The same places and, up to order, the same bags. -/
structure FEqv (ident : O → I) (s t : FState O I) : Prop where
  rl : t.rl = s.rl
  wl : t.wl = s.wl
  rb : ∀ c, BEqv ident (s.rb c) (t.rb c)
  wb : ∀ c, BEqv ident (s.wb c) (t.wb c)

theorem FEqv.refl (s : FState O I) : FEqv ident s s := ⟨rfl, rfl, fun _ => .refl _, fun _ => .refl _⟩

theorem FEqv.trans {s t u : FState O I} (h : FEqv ident s t) (h' : FEqv ident t u) : FEqv ident s u :=
  ⟨h'.rl.trans h.rl, h'.wl.trans h.wl, fun c => (h.rb c).trans (h'.rb c), fun c => (h.wb c).trans (h'.wb c)⟩

theorem fstep_eqv {d : ℚ} {s t : FState O I} (h : FEqv ident s t) (op : ROp O) : FEqv ident (fstep ident d s op) (fstep ident d t op) := by
  cases op with
  | place o l =>
    refine ⟨h.rl, ?_, h.rb, fun c => ?_⟩
    · show (fun i => if i = ident o then some (o, l) else t.wl i) = _
      rw [h.wl]; rfl
    · show BEqv ident (if c = discretize d l then add o (s.wb c) else s.wb c) (if c = discretize d l then add o (t.wb c) else t.wb c)
      by_cases hc : c = discretize d l
      · rw [if_pos hc, if_pos hc]; exact add_eqv (h.wb c) o
      · rw [if_neg hc, if_neg hc]; exact h.wb c
  | update =>
    refine ⟨?_, h.wl, fun c => (h.wb c).or (h.rb c), h.wb⟩
    show (fun i => (t.wl i).or (t.rl i)) = _
    rw [h.wl, h.rl]; rfl
  | lazyUpdate => exact ⟨h.wl, rfl, h.wb, fun _ => .refl _⟩

theorem fstep_swap {d : ℚ} (s : FState O I) {a b : ROp O} (hi : a.Independent ident b) :
    FEqv ident (fstep ident d (fstep ident d s b) a) (fstep ident d (fstep ident d s a) b) := by
  obtain ⟨x, l, y, m, rfl, rfl, hne⟩ := hi
  refine ⟨rfl, funext fun i => ?_, fun _ => .refl _, fun c => ?_⟩
  · show (if i = ident y then some (y, m) else if i = ident x then some (x, l) else s.wl i) =
      if i = ident x then some (x, l) else if i = ident y then some (y, m) else s.wl i
    by_cases hx : i = ident x
    · have hy : i ≠ ident y := fun hc => hne (hx.symm.trans hc)
      rw [if_neg hy, if_pos hx, if_pos hx]
    · rw [if_neg hx, if_neg hx]
  · show BEqv ident (if c = discretize d l then add x (if c = discretize d m then add y (s.wb c) else s.wb c) else
        if c = discretize d m then add y (s.wb c) else s.wb c)
      (if c = discretize d m then add y (if c = discretize d l then add x (s.wb c) else s.wb c) else
        if c = discretize d l then add x (s.wb c) else s.wb c)
    by_cases h1 : c = discretize d l
    · rw [if_pos h1, if_pos h1]
      by_cases h2 : c = discretize d m
      · rw [if_pos h2, if_pos h2]; exact add_add hne _
      · rw [if_neg h2, if_neg h2]; exact .refl _
    · rw [if_neg h1, if_neg h1]; exact .refl _

theorem frun_reorder {d : ℚ} {hist hist' : List (ROp O)} (hr : Reorder (ROp.Independent ident) hist hist') (s : FState O I) :
    FEqv ident (frun ident d s hist) (frun ident d s hist') := by
  induction hr with
  | refl l => exact .refl _
  | cons a _ ih => exact fstep_eqv ih a
  | swap l h => exact fstep_swap _ h
  | trans _ _ h1 h2 => exact h1.trans h2

theorem scan_perm {w h d : ℚ} {t : Bool} {f f' : PField O I} {rl wl rl' wl' : I → Option (O × Pos)} {rb wb rb' wb' : Loc → Option (List O)}
    (s : FShows f w h d t rl wl rb wb) (s' : FShows f' w h d t rl' wl' rb' wb') (hb : ∀ l, ((rb l).getD []).Perm ((rb' l).getD []))
    {keep keep' : Loc → O → Bool} (hk : keep' = keep) (cs : List Loc) : Both List.Perm (f.scan keep cs) (f'.scan keep' cs) := by
  subst hk
  induction cs with
  | nil => exact .refl _
  | cons c cs ih =>
    have hid : f'.bagId c = f.bagId c := by
      unfold PField.bagId; rw [s.width, s.height, s.disc, s'.width, s'.height, s'.disc]
    have step : ∀ {f : PField O I} {rl wl : I → Option (O × Pos)} {rb wb : Loc → Option (List O)} (_ : FShows f w h d t rl wl rb wb) (b : Loc),
        f.bagId c = some b → f.scan keep' (c :: cs) = (f.scan keep' cs).map (fun r => ((rb b).getD []).filter (keep' b) ++ r) := by
      intro f rl wl rb wb s b hb
      rw [PField.scan, hb]
      dsimp only
      rw [getRead_abs s.invL, s.readL]
      cases rb b with
      | none => cases f.scan keep' cs <;> rfl
      | some x => rfl
    cases hc : f.bagId c with
    | none => rw [PField.scan, PField.scan, hid, hc]; trivial
    | some b =>
      rw [step s b hc, step s' b (hid.trans hc)]
      cases e1 : f.scan keep' cs with
      | none =>
        cases e2 : f'.scan keep' cs with
        | none => trivial
        | some r' => rw [e1, e2] at ih; exact ih.elim
      | some r =>
        cases e2 : f'.scan keep' cs with
        | none => rw [e1, e2] at ih; exact ih.elim
        | some r' => rw [e1, e2] at ih; exact ((hb b).filter _).append ih
end

/-- **C259**, continuous fields: two programs that differ in the order of placements of different objects give the same answers. -/
theorem C259_fields_partial {cpus : Nat} (hc : shardAmount cpus ≤ 2 ^ 64) (ident : O → I) (hashO : I → Nat) (hashL : Loc → Nat)
    (w h d : ℚ) (t : Bool) {hist hist' : List (ROp O)} (hr : Reorder (ROp.Independent ident) hist hist') :
    ∃ f f', PField.run ident (PField.new cpus hashO hashL w h d t) hist = some f ∧
      PField.run ident (PField.new cpus hashO hashL w h d t) hist' = some f' ∧ f.SameAnswers ident f' := by
  have s0 := fshows_new (O := O) hc hashO hashL w h d t
  obtain ⟨f, e, s⟩ := frun_shows (ident := ident) (s0 := ⟨_, _, _, _⟩) s0 hist
  obtain ⟨f', e', s'⟩ := frun_shows (ident := ident) (s0 := ⟨_, _, _, _⟩) s0 hist'
  have q := frun_reorder (ident := ident) (d := d) hr ⟨fun _ => none, fun _ => none, fun _ => none, fun _ => none⟩
  generalize frun ident d ⟨fun _ => none, fun _ => none, fun _ => none, fun _ => none⟩ hist = S at s q
  generalize frun ident d ⟨fun _ => none, fun _ => none, fun _ => none, fun _ => none⟩ hist' = S' at s' q
  have hcell : ∀ p, f'.cellOf p = f.cellOf p := by intro p; rw [cellOf_eq, cellOf_eq, s.disc, s'.disc]
  have hcells : ∀ p dist, f'.searchCells p dist = f.searchCells p dist := by
    intro p dist
    unfold PField.searchCells
    rw [hcell, s'.disc, s'.width, s'.height, s'.tor, s.disc, s.width, s.height, s.tor]
  have hlen : rLen f'.findex = rLen f.findex := by
    have a := rLen_hasSize s.invI
    have b := rLen_hasSize s'.invI
    rw [s.readI] at a
    rw [s'.readI, q.rl] at b
    exact hasSize_unique b a
  refine ⟨f, f', e, e', fun o => ?_, fun o => ?_, fun o => ?_, fun o => ?_, fun p => ?_, hlen, fun p => ?_, fun locOf p dist => ?_,
    fun p dist => ?_⟩
  · unfold PField.get; rw [getRead_abs s.invO, getRead_abs s'.invO, s.readO, s'.readO, q.rl]
  · unfold PField.getLocation; rw [getRead_abs s.invO, getRead_abs s'.invO, s.readO, s'.readO, q.rl]
  · unfold PField.getLocationUnbuffered; rw [getWrite_abs s.invO, getWrite_abs s'.invO, s.writeO, s'.writeO, q.wl]
  · unfold PField.getUnbuffered
    rw [getWrite_abs s.invO, getWrite_abs s'.invO, s.writeO, s'.writeO, q.wl, Option.bind_some, Option.bind_some]
    cases S.wl (ident o) with
    | none => rfl
    | some x =>
      dsimp only
      rw [hcell, getWrite_abs s.invL, getWrite_abs s'.invL, s.writeL, s'.writeL, Option.bind_some, Option.bind_some]
      have hb := q.wb (f.cellOf x.2)
      have ht := hb.there
      have hf := find_eqv hb (ident o)
      cases h1 : S.wb (f.cellOf x.2) <;> cases h2 : S'.wb (f.cellOf x.2) <;> rw [h1, h2] at ht hf
      · simp at ht
      · simp at ht
      · exact congrArg some hf.symm
  · refine ⟨_, _, ?_, ?_, (q.rb (f.cellOf p)).perm⟩
    · unfold PField.getObjects; rw [getRead_abs s.invL, s.readL]; rfl
    · unfold PField.getObjects; rw [getRead_abs s'.invL, s'.readL, hcell]; rfl
  · unfold PField.numObjectsAtLocation
    rw [getRead_abs s.invL, getRead_abs s'.invL, s.readL, s'.readL, hcell, Option.map_some, Option.map_some,
      (q.rb (f.cellOf p)).perm.length_eq]
  · unfold PField.getNeighborsWithinDistance
    rw [hlen, hcells]
    by_cases h0 : rLen f.findex = 0
    · rw [if_pos h0, if_pos h0]; trivial
    · rw [if_neg h0, if_neg h0]
      by_cases h1 : dist ≤ 0
      · rw [if_pos h1, if_pos h1]; exact .refl _
      · rw [if_neg h1, if_neg h1]
        refine scan_perm s s' (fun l => (q.rb l).perm) ?_ _
        funext b o
        unfold PField.keepExact
        rw [s'.disc, s'.width, s'.height, s'.tor, s.disc, s.width, s.height, s.tor]
  · unfold PField.getNeighborsWithinRelaxDistance
    rw [hlen, hcells]
    by_cases h0 : rLen f.findex = 0
    · rw [if_pos h0, if_pos h0]; trivial
    · rw [if_neg h0, if_neg h0]
      by_cases h1 : dist ≤ 0
      · rw [if_pos h1, if_pos h1]; exact .refl _
      · rw [if_neg h1, if_neg h1]
        exact scan_perm s s' (fun l => (q.rb l).perm) rfl _

/-- Two objects placed in the same square in either order, with the same neighbours. -/
example :
    let hist : List (ROp Nat) := [.lazyUpdate, .place 8 ⟨1, 1⟩, .place 7 ⟨1, 1⟩]
    let hist' : List (ROp Nat) := [.lazyUpdate, .place 7 ⟨1, 1⟩, .place 8 ⟨1, 1⟩]
    Reorder (ROp.Independent id) hist hist' ∧
    ((PField.run id (PField.new 1 id (fun _ => 0) 4 4 1 false) hist : Option (PField Nat Nat)).bind
      (fun f => f.getNeighborsWithinRelaxDistance ⟨1, 1⟩ 1)) = some [7, 8] ∧
    ((PField.run id (PField.new 1 id (fun _ => 0) 4 4 1 false) hist' : Option (PField Nat Nat)).bind
      (fun f => f.getNeighborsWithinRelaxDistance ⟨1, 1⟩ 1)) = some [8, 7] := by
  refine ⟨.cons _ (.swap _ ⟨8, _, 7, _, rfl, rfl, by decide⟩), by decide +kernel, by decide +kernel⟩

end Verif.ParField2D
