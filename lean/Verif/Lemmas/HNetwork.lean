import Verif.Spec.HNetwork
import Verif.Lemmas.HashMap

/-! Lemmas about the hypernetwork model. -/

set_option linter.unusedSectionVars false

namespace Verif.HNetwork

open Verif.Network (EdgeOptions)

variable {K O L W : Type} [DecidableEq K]

/-! ### Node sets -/

theorem mem_setInsert (s : List Nat) (i x : Nat) : x ∈ setInsert s i ↔ x ∈ s ∨ x = i := by
  unfold setInsert
  by_cases h : i ∈ s
  · have hc : s.contains i = true := by simpa using h
    rw [hc, if_pos rfl]
    constructor
    · exact Or.inl
    · rintro (h1 | rfl)
      · exact h1
      · exact h
  · have hc : ¬ s.contains i = true := by simpa using h
    rw [if_neg hc, List.mem_append, List.mem_singleton]

theorem mem_foldl_setInsert (ids : List Nat) : ∀ (s : List Nat) (x : Nat), x ∈ ids.foldl setInsert s ↔ x ∈ s ∨ x ∈ ids := by
  induction ids with
  | nil => intro s x; simp
  | cons i ids ih =>
    intro s x
    rw [List.foldl_cons, ih, mem_setInsert, List.mem_cons, or_assoc]

theorem new_nodes (ids : List Nat) (o : EdgeOptions L W) : (HEdge.new ids o).nodes = ids.foldl setInsert [] := by
  cases o <;> rfl

theorem mem_new {ids : List Nat} {o : EdgeOptions L W} {x : Nat} : x ∈ (HEdge.new ids o).nodes ↔ x ∈ ids := by
  rw [new_nodes, mem_foldl_setInsert]
  simp

theorem eq_iff {a b : HEdge L W} : a.eq b = true ↔ SameNodes a b := by
  unfold HEdge.eq SameNodes
  rw [Bool.and_eq_true, List.all_eq_true, List.all_eq_true]
  constructor
  · rintro ⟨h1, h2⟩ i
    exact ⟨fun h => by simpa using h1 i h, fun h => by simpa using h2 i h⟩
  · intro h
    exact ⟨fun i hi => by simpa using (h i).1 hi, fun i hi => by simpa using (h i).2 hi⟩

theorem SameNodes.symm {a b : HEdge L W} (h : SameNodes a b) : SameNodes b a := fun i => (h i).symm
theorem SameNodes.trans {a b c : HEdge L W} (h : SameNodes a b) (h' : SameNodes b c) : SameNodes a c :=
  fun i => (h i).trans (h' i)
theorem SameNodes.refl (a : HEdge L W) : SameNodes a a := fun _ => Iff.rfl

theorem eq_congr {a b c : HEdge L W} (h : SameNodes b c) : a.eq b = a.eq c := by
  rw [Bool.eq_iff_iff, eq_iff, eq_iff]
  exact ⟨fun x => x.trans h, fun x => x.trans h.symm⟩

/-! ### The lists -/

theorem listOf_of_get {m : HEdgeMap L W} {i : Nat} {es : List (HEdge L W)} (h : HMap.get m i = some es) :
    listOf m i = es := by simp [listOf, h]

theorem listOf_ensureList (m : HEdgeMap L W) (k i : Nat) : listOf (ensureList m k) i = listOf m i := by
  unfold ensureList
  cases h : HMap.get m k with
  | some es => rfl
  | none =>
    simp only [listOf, HMap.get_insert]
    by_cases hi : i = k
    · rw [if_pos hi, hi, h]; rfl
    · rw [if_neg hi]

theorem members_congr {m m' : HEdgeMap L W} (h : ∀ i, listOf m' i = listOf m i) :
    (Members m → Members m') ∧ (Complete m → Complete m') ∧ (NoRepeats m → NoRepeats m') := by
  refine ⟨?_, ?_, ?_⟩
  · intro hm i e he; rw [h] at he; exact hm i e he
  · intro hm i e he j hj
    rw [h] at he
    rw [h]
    exact hm i e he j hj
  · intro hm i; rw [h]; exact hm i

/-! ### add_edge -/

/-- The loop keeps membership and non-repetition, whatever the slice. -/
theorem addLoop_inv (e : HEdge L W) (ids : List Nat) : ∀ (m : HEdgeMap L W), (∀ i ∈ ids, i ∈ e.nodes) → Members m →
    NoRepeats m → Members (addLoop e ids m).1 ∧ NoRepeats (addLoop e ids m).1 := by
  induction ids with
  | nil => intro m _ h1 h2; exact ⟨h1, h2⟩
  | cons id ids ih =>
    intro m hids h1 h2
    have hpush : ∀ m' : HEdgeMap L W, (∀ i, listOf m' i = if i = id then listOf m id ++ [e] else listOf m i) →
        (∀ x ∈ listOf m id, ¬ SameNodes x e) → Members m' ∧ NoRepeats m' := by
      intro m' hm' hno
      refine ⟨?_, ?_⟩
      · intro i x hx
        rw [hm'] at hx
        by_cases hi : i = id
        · rw [if_pos hi, List.mem_append, List.mem_singleton] at hx
          rcases hx with hx | rfl
          · exact h1 i x (by rw [hi]; exact hx)
          · rw [hi]; exact hids id List.mem_cons_self
        · rw [if_neg hi] at hx; exact h1 i x hx
      · intro i
        rw [hm']
        by_cases hi : i = id
        · rw [if_pos hi, List.pairwise_append]
          refine ⟨h2 id, List.pairwise_singleton _ _, ?_⟩
          intro a ha b hb
          rw [List.mem_singleton] at hb
          subst hb
          exact hno a ha
        · rw [if_neg hi]; exact h2 i
    rw [addLoop]
    cases hg : HMap.get m id with
    | some es =>
      dsimp only
      by_cases hany : es.any (fun x => x.eq e) = true
      · rw [if_pos hany]; exact ⟨h1, h2⟩
      · rw [if_neg hany]
        have hno : ∀ x ∈ listOf m id, ¬ SameNodes x e := by
          rw [listOf_of_get hg]
          intro x hx hs
          exact hany (List.any_eq_true.2 ⟨x, hx, eq_iff.2 hs⟩)
        obtain ⟨a, b⟩ := hpush (HMap.adjust m id (fun es => es ++ [e])) (by
          intro i
          simp only [listOf, HMap.get_adjustBy]
          by_cases hi : i = id
          · rw [if_pos hi, if_pos hi, hg]; rfl
          · rw [if_neg hi, if_neg hi]) hno
        exact ih _ (fun i hi => hids i (List.mem_cons_of_mem _ hi)) a b
    | none =>
      dsimp only
      have hno : ∀ x ∈ listOf m id, ¬ SameNodes x e := by
        simp [listOf, hg]
      obtain ⟨a, b⟩ := hpush (HMap.insert m id [e]).1 (by
        intro i
        simp only [listOf, HMap.get_insert]
        by_cases hi : i = id
        · rw [if_pos hi, if_pos hi, hg]; rfl
        · rw [if_neg hi, if_neg hi]) hno
      exact ih _ (fun i hi => hids i (List.mem_cons_of_mem _ hi)) a b

/-- With distinct ids, none of which lists the edge, it is added to each. -/
theorem addLoop_true (e : HEdge L W) (ids : List Nat) : ∀ (m : HEdgeMap L W), ids.Nodup →
    (∀ i ∈ ids, ∀ x ∈ listOf m i, ¬ SameNodes x e) →
    (addLoop e ids m).2 = true ∧
    ∀ i, listOf (addLoop e ids m).1 i = listOf m i ++ (if i ∈ ids then [e] else []) := by
  induction ids with
  | nil => intro m _ _; exact ⟨rfl, fun i => by simp [addLoop]⟩
  | cons id ids ih =>
    intro m hnd hno
    rw [List.nodup_cons] at hnd
    have hgo : ∀ m' : HEdgeMap L W, (∀ i, listOf m' i = if i = id then listOf m id ++ [e] else listOf m i) →
        (addLoop e ids m').2 = true ∧
        ∀ i, listOf (addLoop e ids m').1 i = listOf m i ++ (if i ∈ id :: ids then [e] else []) := by
      intro m' hm'
      obtain ⟨a, b⟩ := ih m' hnd.2 (by
        intro i hi x hx
        have hne : i ≠ id := fun h => hnd.1 (h ▸ hi)
        rw [hm', if_neg hne] at hx
        exact hno i (List.mem_cons_of_mem _ hi) x hx)
      refine ⟨a, ?_⟩
      intro i
      rw [b, hm']
      by_cases hi : i = id
      · subst hi
        rw [if_pos rfl, if_neg hnd.1, if_pos List.mem_cons_self, List.append_nil]
      · rw [if_neg hi]
        have : (i ∈ id :: ids) ↔ i ∈ ids := by rw [List.mem_cons]; exact ⟨fun h => h.resolve_left hi, Or.inr⟩
        simp only [this]
    rw [addLoop]
    cases hg : HMap.get m id with
    | some es =>
      dsimp only
      have hany : ¬ es.any (fun x => x.eq e) = true := by
        intro h
        obtain ⟨x, hx, hs⟩ := List.any_eq_true.1 h
        exact hno id List.mem_cons_self x (by rw [listOf_of_get hg]; exact hx) (eq_iff.1 hs)
      rw [if_neg hany]
      refine hgo _ ?_
      intro i
      simp only [listOf, HMap.get_adjustBy]
      by_cases hi : i = id
      · rw [if_pos hi, if_pos hi, hg]; rfl
      · rw [if_neg hi, if_neg hi]
    | none =>
      dsimp only
      refine hgo _ ?_
      intro i
      simp only [listOf, HMap.get_insert]
      by_cases hi : i = id
      · rw [if_pos hi, if_pos hi, hg]; rfl
      · rw [if_neg hi, if_neg hi]

/-- If the first id lists the edge already, nothing happens. -/
theorem addLoop_false (e : HEdge L W) (id : Nat) (ids : List Nat) (m : HEdgeMap L W)
    (h : ∃ x ∈ listOf m id, SameNodes x e) : addLoop e (id :: ids) m = (m, false) := by
  obtain ⟨x, hx, hs⟩ := h
  rw [addLoop]
  cases hg : HMap.get m id with
  | none => simp [listOf, hg] at hx
  | some es =>
    rw [listOf_of_get hg] at hx
    dsimp only
    have hany : es.any (fun x => x.eq e) = true := List.any_eq_true.2 ⟨x, hx, eq_iff.2 hs⟩
    rw [if_pos hany]

theorem addLoop_complete (e : HEdge L W) (ids : List Nat) (m : HEdgeMap L W) (hnd : ids.Nodup)
    (hids : ∀ i, i ∈ ids ↔ i ∈ e.nodes) (hc : Complete m) :
    Complete (addLoop e ids m).1 ∧
    ((addLoop e ids m).2 = false → (addLoop e ids m).1 = m) := by
  cases ids with
  | nil => exact ⟨hc, fun _ => rfl⟩
  | cons id ids =>
    by_cases h : ∃ x ∈ listOf m id, SameNodes x e
    · rw [addLoop_false e id ids m h]; exact ⟨hc, fun _ => rfl⟩
    · have hno : ∀ i ∈ id :: ids, ∀ x ∈ listOf m i, ¬ SameNodes x e := by
        intro i hi x hx hs
        have hid : id ∈ x.nodes := (hs id).2 ((hids id).1 List.mem_cons_self)
        obtain ⟨e', he', hs'⟩ := hc i x hx id hid
        exact h ⟨e', he', hs'.trans hs⟩
      obtain ⟨a, b⟩ := addLoop_true e (id :: ids) m hnd hno
      refine ⟨?_, fun h => by rw [a] at h; simp at h⟩
      intro i x hx j hj
      rw [b, List.mem_append] at hx
      rcases hx with hx | hx
      · obtain ⟨e', he', hs'⟩ := hc i x hx j hj
        exact ⟨e', by rw [b, List.mem_append]; exact Or.inl he', hs'⟩
      · by_cases hi : i ∈ id :: ids
        · rw [if_pos hi, List.mem_singleton] at hx
          subst hx
          refine ⟨x, ?_, SameNodes.refl x⟩
          rw [b, if_pos ((hids j).2 hj)]
          simp
        · rw [if_neg hi] at hx; simp at hx

/-! ### Removal -/

theorem eraseP_filter_of_pairwise {α : Type} {p : α → Bool} {l : List α}
    (h : l.Pairwise (fun a b => ¬ (p a = true ∧ p b = true))) : l.eraseP p = l.filter (fun x => !p x) := by
  induction l with
  | nil => rfl
  | cons x l ih =>
    rw [List.pairwise_cons] at h
    rw [List.eraseP_cons, List.filter_cons]
    cases hp : p x with
    | true =>
      simp only [cond_true, Bool.not_true, Bool.false_eq_true, if_false]
      symm
      rw [List.filter_eq_self]
      intro y hy
      have := h.1 y hy
      simp [hp] at this
      simp [this]
    | false =>
      simp only [cond_false, Bool.not_false, if_true]
      rw [ih h.2]

/-- The loop never repeats or loses anything but the hyperedge `t`. -/
theorem removeLoop_spec (t : HEdge L W) (ids : List Nat) : ∀ (m : HEdgeMap L W) (r : Option (HEdge L W)) (x),
    NoRepeats m → removeLoop t ids m r = some x →
    (∀ i, HMap.get x.1 i = if i ∈ ids then (HMap.get m i).map (fun es => es.filter (fun e => !(e.eq t))) else HMap.get m i) ∧
    (∀ i ∈ ids, (HMap.get m i).isSome = true) ∧
    (x.2 = r ∨ ∃ e, x.2 = some e ∧ SameNodes e t ∧ ∃ i ∈ ids, e ∈ listOf m i) ∧
    ((∃ i ∈ ids, ∃ e ∈ listOf m i, SameNodes e t) → ∃ e, x.2 = some e ∧ SameNodes e t ∧ ∃ i ∈ ids, e ∈ listOf m i) := by
  induction ids with
  | nil =>
    intro m r x _ h
    simp [removeLoop] at h
    rw [← h]
    exact ⟨fun i => by simp, by simp, Or.inl rfl, by simp⟩
  | cons id ids ih =>
    intro m r x hnr h
    rw [removeLoop] at h
    cases hg : HMap.get m id with
    | none => rw [hg] at h; simp at h
    | some es =>
      rw [hg] at h
      dsimp only at h
      have hpw : es.Pairwise (fun a b => ¬ ((a.eq t) = true ∧ (b.eq t) = true)) := by
        have := hnr id
        rw [listOf_of_get hg] at this
        refine this.imp ?_
        intro a b hab hh
        exact hab ((eq_iff.1 hh.1).trans (eq_iff.1 hh.2).symm)
      cases hf : es.find? (fun x => x.eq t) with
      | none =>
        rw [hf] at h
        dsimp only at h
        obtain ⟨a, b, c, d⟩ := ih m r x hnr h
        have hnone : ∀ e ∈ es, e.eq t = false := by
          intro e he
          rw [List.find?_eq_none] at hf
          simpa using hf e he
        refine ⟨?_, ?_, ?_, ?_⟩
        · intro i
          rw [a]
          by_cases hi : i = id
          · subst hi
            rw [if_pos List.mem_cons_self, hg]
            have hfil : es.filter (fun e => !(e.eq t)) = es := by
              rw [List.filter_eq_self]
              intro e he
              simp [hnone e he]
            split
            · rfl
            · rw [Option.map_some, hfil]
          · have : (i ∈ id :: ids) ↔ i ∈ ids := by rw [List.mem_cons]; exact ⟨fun h => h.resolve_left hi, Or.inr⟩
            simp only [this]
        · intro i hi
          rcases List.mem_cons.1 hi with rfl | hi
          · rw [hg]; rfl
          · exact b i hi
        · rcases c with c | ⟨e, h1, h2, i, hi, h3⟩
          · exact Or.inl c
          · exact Or.inr ⟨e, h1, h2, i, List.mem_cons_of_mem _ hi, h3⟩
        · rintro ⟨i, hi, e, he, hs⟩
          rcases List.mem_cons.1 hi with rfl | hi
          · rw [listOf_of_get hg] at he
            have := hnone e he
            rw [eq_iff.2 hs] at this
            simp at this
          · obtain ⟨e', h1, h2, j, hj, h3⟩ := d ⟨i, hi, e, he, hs⟩
            exact ⟨e', h1, h2, j, List.mem_cons_of_mem _ hj, h3⟩
      | some e0 =>
        rw [hf] at h
        dsimp only at h
        have hm' : ∀ i, HMap.get (HMap.adjust m id (fun es => es.eraseP (fun x => x.eq t))) i =
            if i = id then some (es.filter (fun e => !(e.eq t))) else HMap.get m i := by
          intro i
          rw [HMap.get_adjustBy]
          by_cases hi : i = id
          · rw [if_pos hi, if_pos hi, hg, Option.map_some, eraseP_filter_of_pairwise hpw]
          · rw [if_neg hi, if_neg hi]
        have hl' : ∀ i, listOf (HMap.adjust m id (fun es => es.eraseP (fun x => x.eq t))) i =
            if i = id then es.filter (fun e => !(e.eq t)) else listOf m i := by
          intro i
          simp only [listOf, hm']
          by_cases hi : i = id
          · rw [if_pos hi, if_pos hi]; rfl
          · rw [if_neg hi, if_neg hi]
        have hsub : ∀ i e, e ∈ listOf (HMap.adjust m id (fun es => es.eraseP (fun x => x.eq t))) i → e ∈ listOf m i := by
          intro i e he
          rw [hl'] at he
          by_cases hi : i = id
          · rw [if_pos hi] at he
            rw [hi, listOf_of_get hg]
            exact List.mem_of_mem_filter he
          · rw [if_neg hi] at he; exact he
        obtain ⟨a, b, c, d⟩ := ih _ (some e0) x (by
          intro i
          rw [hl']
          by_cases hi : i = id
          · rw [if_pos hi]
            have := hnr id
            rw [listOf_of_get hg] at this
            exact this.sublist List.filter_sublist
          · rw [if_neg hi]; exact hnr i) h
        have he0 : SameNodes e0 t ∧ ∃ i ∈ id :: ids, e0 ∈ listOf m i :=
          ⟨eq_iff.1 (List.find?_some (p := fun x => HEdge.eq x t) hf), id, List.mem_cons_self, by rw [listOf_of_get hg]; exact List.mem_of_find?_eq_some hf⟩
        have hres : ∃ e, x.2 = some e ∧ SameNodes e t ∧ ∃ i ∈ id :: ids, e ∈ listOf m i := by
          rcases c with c | ⟨e, h1, h2, i, hi, h3⟩
          · exact ⟨e0, c, he0⟩
          · exact ⟨e, h1, h2, i, List.mem_cons_of_mem _ hi, hsub i e h3⟩
        refine ⟨?_, ?_, Or.inr hres, fun _ => hres⟩
        · intro i
          rw [a, hm']
          by_cases hi : i = id
          · subst hi
            rw [if_pos rfl, if_pos List.mem_cons_self, hg, Option.map_some, Option.map_some]
            split
            · rw [List.filter_filter]; simp
            · rfl
          · have : (i ∈ id :: ids) ↔ i ∈ ids := by rw [List.mem_cons]; exact ⟨fun h => h.resolve_left hi, Or.inr⟩
            simp only [this, if_neg hi]
        · intro i hi
          by_cases hii : i = id
          · rw [hii, hg]; rfl
          · rcases List.mem_cons.1 hi with rfl | hi
            · exact absurd rfl hii
            · have := b i hi
              rw [hm', if_neg hii] at this
              exact this

/-- It does not panic if all ids have lists. -/
theorem removeLoop_some (t : HEdge L W) (ids : List Nat) : ∀ (m : HEdgeMap L W) (r : Option (HEdge L W)),
    (∀ i ∈ ids, (HMap.get m i).isSome = true) → ∃ x, removeLoop t ids m r = some x := by
  induction ids with
  | nil => intro m r _; exact ⟨_, rfl⟩
  | cons id ids ih =>
    intro m r h
    obtain ⟨es, hes⟩ := Option.isSome_iff_exists.1 (h id List.mem_cons_self)
    rw [removeLoop, hes]
    dsimp only
    cases hf : es.find? (fun x => x.eq t) with
    | none => exact ih m r (fun i hi => h i (List.mem_cons_of_mem _ hi))
    | some e =>
      refine ih _ _ ?_
      intro i hi
      rw [HMap.get_adjustBy]
      have := h i (List.mem_cons_of_mem _ hi)
      split
      · rename_i hid; rw [Option.isSome_map, ← hid, this]
      · exact this

theorem listOf_removed {m m' : HEdgeMap L W} {t : HEdge L W} {ids : List Nat}
    (h : ∀ i, HMap.get m' i = if i ∈ ids then (HMap.get m i).map (fun es => es.filter (fun e => !(e.eq t))) else HMap.get m i)
    (i : Nat) : listOf m' i = if i ∈ ids then (listOf m i).filter (fun e => !(e.eq t)) else listOf m i := by
  simp only [listOf, h]
  split
  · cases HMap.get m i <;> rfl
  · rfl

/-- Removing a hyperedge from the lists of exactly its members keeps the invariants. -/
theorem removed_inv {m m' : HEdgeMap L W} {t : HEdge L W} {ids : List Nat} (hids : ∀ i, i ∈ ids ↔ i ∈ t.nodes)
    (h : ∀ i, HMap.get m' i = if i ∈ ids then (HMap.get m i).map (fun es => es.filter (fun e => !(e.eq t))) else HMap.get m i)
    (hm : Members m) (hn : NoRepeats m) :
    Members m' ∧ NoRepeats m' ∧ (∀ i, listOf m' i = (listOf m i).filter (fun e => !(e.eq t))) ∧
    (Complete m → Complete m') := by
  have hl := listOf_removed h
  have hall : ∀ i, listOf m' i = (listOf m i).filter (fun e => !(e.eq t)) := by
    intro i
    rw [hl]
    by_cases hi : i ∈ ids
    · rw [if_pos hi]
    · rw [if_neg hi]
      symm
      rw [List.filter_eq_self]
      intro e he
      have h1 := hm i e he
      cases hq : e.eq t with
      | false => rfl
      | true =>
        have := (eq_iff.1 hq i).1 h1
        exact absurd ((hids i).2 this) hi
  refine ⟨?_, ?_, hall, ?_⟩
  · intro i e he
    rw [hall] at he
    exact hm i e (List.mem_of_mem_filter he)
  · intro i
    rw [hall]
    exact (hn i).sublist List.filter_sublist
  · intro hc i e he j hj
    rw [hall, List.mem_filter] at he
    obtain ⟨e', h1, h2⟩ := hc i e he.1 j hj
    refine ⟨e', ?_, h2⟩
    rw [hall, List.mem_filter]
    refine ⟨h1, ?_⟩
    have h3 := he.2
    cases hq : e'.eq t with
    | false => rfl
    | true =>
      have : e.eq t = true := eq_iff.2 (h2.symm.trans (eq_iff.1 hq))
      rw [this] at h3
      simp at h3

theorem removeAll_inv (ts : List (HEdge L W)) : ∀ (m m' : HEdgeMap L W), Members m → NoRepeats m →
    removeAll ts m = some m' →
    Members m' ∧ NoRepeats m' ∧ (Complete m → Complete m') ∧
    (∀ i, listOf m' i = (listOf m i).filter (fun e => !(ts.any (fun t => e.eq t)))) ∧
    (∀ i, (HMap.get m' i).isSome = (HMap.get m i).isSome) := by
  induction ts with
  | nil =>
    intro m m' h1 h2 h
    simp [removeAll] at h
    rw [← h]
    refine ⟨h1, h2, id, ?_, fun _ => rfl⟩
    intro i
    symm
    rw [List.filter_eq_self]
    intro e _
    rfl
  | cons t ts ih =>
    intro m m' h1 h2 h
    rw [removeAll] at h
    cases hl : removeLoop t t.nodes m none with
    | none => rw [hl] at h; simp at h
    | some x =>
      rw [hl] at h
      dsimp only at h
      have hs := (removeLoop_spec t t.nodes m none x h2 hl).1
      obtain ⟨a, b, c, d⟩ := removed_inv (fun i => Iff.rfl) hs h1 h2
      obtain ⟨a', b', c', d', e'⟩ := ih x.1 m' a b h
      refine ⟨a', b', fun hc => c' (d hc), ?_, ?_⟩
      · intro i
        rw [d', c, List.filter_filter]
        refine List.filter_congr ?_
        intro e _
        rw [List.any_cons, Bool.not_or, Bool.and_comm]
      · intro i
        rw [e', hs]
        split
        · rw [Option.isSome_map]
        · rfl

/-- It does not panic if all members of the hyperedges have lists. -/
theorem removeAll_some (ts : List (HEdge L W)) : ∀ (m : HEdgeMap L W), NoRepeats m →
    (∀ t ∈ ts, ∀ i ∈ t.nodes, (HMap.get m i).isSome = true) → ∃ m', removeAll ts m = some m' := by
  induction ts with
  | nil => intro m _ _; exact ⟨_, rfl⟩
  | cons t ts ih =>
    intro m hn h
    obtain ⟨x, hx⟩ := removeLoop_some t t.nodes m none (h t List.mem_cons_self)
    rw [removeAll, hx]
    dsimp only
    have hs := (removeLoop_spec t t.nodes m none x hn hx).1
    refine ih x.1 ?_ ?_
    · intro i
      rw [listOf_removed hs]
      split
      · exact (hn i).sublist List.filter_sublist
      · exact hn i
    · intro t' ht' i hi
      have := h t' (List.mem_cons_of_mem _ ht') i hi
      rw [hs]
      split
      · rw [Option.isSome_map, this]
      · exact this

/-! ### Histories -/

theorem careful_run {ident : O → K} {P : HNet K O L W → Op O L W → Prop} {I : HNet K O L W → Prop}
    (hstep : ∀ n n' op, I n → P n op → exec ident n op = some n' → I n') (ops : List (Op O L W)) :
    ∀ {n n' : HNet K O L W}, I n → Careful ident P n ops → run ident n ops = some n' → I n' := by
  induction ops with
  | nil => intro n n' h _ hr; simp [run] at hr; rw [← hr]; exact h
  | cons op ops ih =>
    intro n n' h hc hr
    rw [run] at hr
    cases he : exec ident n op with
    | none => rw [he] at hr; simp at hr
    | some n1 => rw [he] at hr; exact ih (hstep n n1 op h hc.1 he) (hc.2 n1 he) hr

theorem run_inv {ident : O → K} {I : HNet K O L W → Prop}
    (hstep : ∀ n n' op, I n → exec ident n op = some n' → I n') (ops : List (Op O L W)) :
    ∀ {n n' : HNet K O L W}, I n → run ident n ops = some n' → I n' := by
  induction ops with
  | nil => intro n n' h hr; simp [run] at hr; rw [← hr]; exact h
  | cons op ops ih =>
    intro n n' h hr
    rw [run] at hr
    cases he : exec ident n op with
    | none => rw [he] at hr; simp at hr
    | some n1 => rw [he] at hr; exact ih (hstep n n1 op h he) hr

/-- Both sides list members only, without repetition. -/
structure Base (n : HNet K O L W) : Prop where
  members : Members n.edges
  noRepeats : NoRepeats n.edges
  rmembers : Members n.redges
  rnoRepeats : NoRepeats n.redges

theorem base_new : Base (HNet.new : HNet K O L W) := by
  have h1 : Members ([] : HEdgeMap L W) := by intro i e he; simp [listOf] at he
  have h2 : NoRepeats ([] : HEdgeMap L W) := by intro i; simp [listOf]
  exact ⟨h1, h2, h1, h2⟩

theorem addEdge_eq {ident : O → K} (n : HNet K O L W) (us : List O) (o : EdgeOptions L W) :
    addEdge ident n us o = (n, false) ∨ ∃ u us' i ids, us = u :: us' ∧ idsOf ident n us = some (i :: ids) ∧
      addEdge ident n us o = ({ n with edges := (addLoop (HEdge.new (i :: ids) o) (i :: ids) n.edges).1 },
        (addLoop (HEdge.new (i :: ids) o) (i :: ids) n.edges).2) := by
  unfold addEdge
  cases us with
  | nil => exact Or.inl rfl
  | cons u us' =>
    dsimp only
    cases hids : idsOf ident n (u :: us') with
    | none => exact Or.inl rfl
    | some ids =>
      cases ids with
      | nil =>
        exfalso
        rw [idsOf] at hids
        cases hg : HMap.get n.nodes2id (ident u) with
        | none => rw [hg] at hids; simp at hids
        | some i =>
          rw [hg] at hids
          simp at hids
      | cons i ids => exact Or.inr ⟨u, us', i, ids, rfl, rfl, rfl⟩

theorem removeEdge_eq {ident : O → K} {n n' : HNet K O L W} {us : List O} {r : Option (HEdge L W)}
    (h : removeEdge ident n us = some (n', r)) :
    (n' = n ∧ r = none) ∨ ∃ ids x, idsOf ident n us = some ids ∧
      removeLoop (HEdge.new ids .simple) ids n.edges none = some x ∧ n' = { n with edges := x.1 } ∧ r = x.2 := by
  unfold removeEdge at h
  cases us with
  | nil => simp at h; exact Or.inl ⟨h.1.symm, h.2.symm⟩
  | cons u us' =>
    dsimp only at h
    cases hids : idsOf ident n (u :: us') with
    | none => rw [hids] at h; simp at h; exact Or.inl ⟨h.1.symm, h.2.symm⟩
    | some ids =>
      rw [hids] at h
      dsimp only at h
      cases hx : removeLoop (HEdge.new ids .simple) ids n.edges none with
      | none => rw [hx] at h; simp at h
      | some x =>
        rw [hx] at h
        simp at h
        exact Or.inr ⟨ids, x, rfl, hx, h.1.symm, h.2.symm⟩

theorem removeObject_eq {ident : O → K} {n n' : HNet K O L W} {u : O} {b : Bool}
    (h : removeObject ident n u = some (n', b)) :
    (n' = n ∧ b = false) ∨ ∃ uid m, HMap.get n.nodes2id (ident u) = some uid ∧
      removeAll ((getEdges ident n u).getD []) n.edges = some m ∧
      n' = { n with edges := m, id2nodes := (HMap.remove n.id2nodes uid).1,
                    nodes2id := (HMap.remove n.nodes2id (ident u)).1 } ∧ b = true := by
  unfold removeObject at h
  cases hu : HMap.get n.nodes2id (ident u) with
  | none => rw [hu] at h; simp at h; exact Or.inl ⟨h.1.symm, h.2⟩
  | some uid =>
    rw [hu] at h
    dsimp only at h
    cases hx : removeAll ((getEdges ident n u).getD []) n.edges with
    | none => rw [hx] at h; simp at h
    | some m =>
      rw [hx] at h
      simp at h
      exact Or.inr ⟨uid, m, rfl, rfl, h.1.symm, h.2⟩

theorem exec_base {ident : O → K} (n n' : HNet K O L W) (op : Op O L W) (h : Base n)
    (he : exec ident n op = some n') : Base n' := by
  cases op with
  | addNode u =>
    simp [exec] at he
    rw [← he]
    obtain ⟨a, _, c⟩ := members_congr (listOf_ensureList n.edges n.nodes2id.length)
    exact ⟨a h.members, c h.noRepeats, h.rmembers, h.rnoRepeats⟩
  | addEdge us o =>
    simp [exec] at he
    rw [← he]
    rcases addEdge_eq (ident := ident) n us o with h1 | ⟨u, us', i, ids, _, _, h1⟩
    · rw [h1]; exact h
    · rw [h1]
      obtain ⟨a, b⟩ := addLoop_inv (HEdge.new (i :: ids) o) (i :: ids) n.edges (fun j hj => mem_new.2 hj) h.members h.noRepeats
      exact ⟨a, b, h.rmembers, h.rnoRepeats⟩
  | removeEdge us =>
    obtain ⟨⟨n1, b⟩, hr, rfl⟩ := Option.map_eq_some_iff.1 he
    rcases removeEdge_eq hr with ⟨rfl, _⟩ | ⟨ids, x, _, hx, rfl, _⟩
    · exact h
    · obtain ⟨a, b, _, _⟩ := removed_inv (fun i => mem_new.symm) (removeLoop_spec _ _ _ _ _ h.noRepeats hx).1 h.members h.noRepeats
      exact ⟨a, b, h.rmembers, h.rnoRepeats⟩
  | removeObject u =>
    obtain ⟨⟨n1, b⟩, hr, rfl⟩ := Option.map_eq_some_iff.1 he
    rcases removeObject_eq hr with ⟨rfl, _⟩ | ⟨uid, m, _, hx, rfl, _⟩
    · exact h
    · obtain ⟨a, b, _⟩ := removeAll_inv _ _ _ h.members h.noRepeats hx
      exact ⟨a, b, h.rmembers, h.rnoRepeats⟩
  | removeAllEdges =>
    simp [exec] at he
    rw [← he]
    have := (base_new : Base (HNet.new : HNet K O L W))
    exact ⟨this.members, this.noRepeats, h.rmembers, h.rnoRepeats⟩
  | updateNode u =>
    simp [exec] at he
    rw [← he]
    unfold updateNode
    cases HMap.get n.nodes2id (ident u) with
    | none => exact h
    | some uid => exact ⟨h.members, h.noRepeats, h.rmembers, h.rnoRepeats⟩
  | update => simp [exec] at he; rw [← he]; exact ⟨h.members, h.noRepeats, h.members, h.noRepeats⟩

/-- Both sides are complete too. -/
structure Full (n : HNet K O L W) : Prop where
  base : Base n
  complete : Complete n.edges
  rcomplete : Complete n.redges

theorem full_new : Full (HNet.new : HNet K O L W) := by
  have h1 : Complete ([] : HEdgeMap L W) := by intro i e he; simp [listOf] at he
  exact ⟨base_new, h1, h1⟩

theorem exec_full {ident : O → K} (n n' : HNet K O L W) (op : Op O L W) (h : Full n) (hp : DistinctIds ident n op)
    (he : exec ident n op = some n') : Full n' := by
  suffices hh : Complete n'.edges ∧ Complete n'.redges from ⟨exec_base n n' op h.base he, hh.1, hh.2⟩
  cases op with
  | addNode u =>
    simp [exec] at he
    rw [← he]
    obtain ⟨_, b, _⟩ := members_congr (listOf_ensureList n.edges n.nodes2id.length)
    exact ⟨b h.complete, h.rcomplete⟩
  | addEdge us o =>
    simp [exec] at he
    rw [← he]
    rcases addEdge_eq (ident := ident) n us o with h1 | ⟨u, us', i, ids, _, h2, h1⟩
    · rw [h1]; exact ⟨h.complete, h.rcomplete⟩
    · rw [h1]
      exact ⟨(addLoop_complete _ _ _ (hp _ h2) (fun j => mem_new.symm) h.complete).1, h.rcomplete⟩
  | removeEdge us =>
    obtain ⟨⟨n1, b⟩, hr, rfl⟩ := Option.map_eq_some_iff.1 he
    rcases removeEdge_eq hr with ⟨rfl, _⟩ | ⟨ids, x, _, hx, rfl, _⟩
    · exact ⟨h.complete, h.rcomplete⟩
    · obtain ⟨_, _, _, d⟩ := removed_inv (fun i => mem_new.symm) (removeLoop_spec _ _ _ _ _ h.base.noRepeats hx).1
        h.base.members h.base.noRepeats
      exact ⟨d h.complete, h.rcomplete⟩
  | removeObject u =>
    obtain ⟨⟨n1, b⟩, hr, rfl⟩ := Option.map_eq_some_iff.1 he
    rcases removeObject_eq hr with ⟨rfl, _⟩ | ⟨uid, m, _, hx, rfl, _⟩
    · exact ⟨h.complete, h.rcomplete⟩
    · obtain ⟨_, _, c, _⟩ := removeAll_inv _ _ _ h.base.members h.base.noRepeats hx
      exact ⟨c h.complete, h.rcomplete⟩
  | removeAllEdges =>
    simp [exec] at he
    rw [← he]
    exact ⟨(full_new : Full (HNet.new : HNet K O L W)).complete, h.rcomplete⟩
  | updateNode u =>
    simp [exec] at he
    rw [← he]
    unfold updateNode
    cases HMap.get n.nodes2id (ident u) with
    | none => exact ⟨h.complete, h.rcomplete⟩
    | some uid => exact ⟨h.complete, h.rcomplete⟩
  | update => simp [exec] at he; rw [← he]; exact ⟨h.complete, h.complete⟩

end Verif.HNetwork
