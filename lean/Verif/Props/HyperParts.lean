import Verif.Lemmas.HNetwork
import Verif.Props.NetworkParts
import Verif.Spec.HyperParts

/-!
C268: parts of a hypernetwork without hyperedges between them do not influence each other (src/engine/fields/hnetwork.rs:127-620).
-/

set_option linter.unusedSectionVars false

namespace Verif.HNetwork

open Network (EdgeOptions inPart partId partId_mono partId_succ partId_skip partId_lt partId_inj Named take_get filter_get_iff)

variable {K O L W : Type} [DecidableEq K] {N : List K} {P : K → Bool} {ident : O → K}

/-- The hyperedge with the ids of the part. -/
def HEdge.via (f : Nat → Nat) (e : HEdge L W) : HEdge L W := ⟨e.nodes.map f, e.label, e.weight⟩

theorem contains_via {f : Nat → Nat} {S : Nat → Prop} (hf : ∀ i j, S i → S j → f i = f j → i = j) {l : List Nat} (hl : ∀ i ∈ l, S i) {j : Nat} (hj : S j) :
    (l.map f).contains (f j) = l.contains j := by
  rw [Bool.eq_iff_iff, List.contains_iff_mem, List.contains_iff_mem, List.mem_map]
  constructor
  · rintro ⟨i, hi, h⟩
    rw [← hf i j (hl i hi) hj h]
    exact hi
  · intro h
    exact ⟨j, h, rfl⟩

theorem eq_via {f : Nat → Nat} {S : Nat → Prop} (hf : ∀ i j, S i → S j → f i = f j → i = j) {a b : HEdge L W} (ha : ∀ i ∈ a.nodes, S i) (hb : ∀ i ∈ b.nodes, S i) :
    (a.via f).eq (b.via f) = a.eq b := by
  unfold HEdge.eq HEdge.via
  dsimp only
  rw [List.all_map, List.all_map]
  congr 1
  · rw [Bool.eq_iff_iff, List.all_eq_true, List.all_eq_true]
    refine forall_congr' (fun i => forall_congr' (fun hi => ?_))
    simp only [Function.comp]
    rw [contains_via hf hb (ha i hi)]
  · rw [Bool.eq_iff_iff, List.all_eq_true, List.all_eq_true]
    refine forall_congr' (fun i => forall_congr' (fun hi => ?_))
    simp only [Function.comp]
    rw [contains_via hf ha (hb i hi)]

theorem set_via {f : Nat → Nat} {S : Nat → Prop} (hf : ∀ i j, S i → S j → f i = f j → i = j) : ∀ (ids acc : List Nat), (∀ i ∈ ids, S i) → (∀ i ∈ acc, S i) →
    (ids.foldl setInsert acc).map f = (ids.map f).foldl setInsert (acc.map f)
  | [], _, _, _ => rfl
  | i :: ids, acc, hi, ha => by
    have h0 := hi i List.mem_cons_self
    have e : (setInsert acc i).map f = setInsert (acc.map f) (f i) := by
      unfold setInsert
      rw [contains_via hf ha h0]
      by_cases hc : acc.contains i = true
      · rw [if_pos hc, if_pos hc]
      · rw [if_neg hc, if_neg hc, List.map_append]
        rfl
    rw [List.foldl_cons, List.map_cons, List.foldl_cons, ← e]
    refine set_via hf ids _ (fun j hj => hi j (List.mem_cons_of_mem _ hj)) (fun j hj => ?_)
    rcases (mem_setInsert acc i j).1 hj with h | h
    · exact ha j h
    · rw [h]; exact h0

theorem new_via {f : Nat → Nat} {S : Nat → Prop} (hf : ∀ i j, S i → S j → f i = f j → i = j) {ids : List Nat} (hi : ∀ i ∈ ids, S i) (o : EdgeOptions L W) :
    (HEdge.new ids o).via f = HEdge.new (ids.map f) o := by
  have := set_via hf ids [] hi (fun _ h => by cases h)
  cases o <;> (unfold HEdge.new HEdge.via; dsimp only; rw [this]; rfl)

theorem any_via {α : Type} {p q : α → Bool} {f : α → α} {es : List α} (h : ∀ e ∈ es, p (f e) = q e) : (es.map f).any p = es.any q := by
  rw [List.any_map, Bool.eq_iff_iff, List.any_eq_true, List.any_eq_true]
  exact exists_congr (fun e => and_congr_right (fun he => by simp only [Function.comp]; rw [h e he]))

theorem erase_via {α : Type} {p q : α → Bool} {f : α → α} : ∀ {es : List α}, (∀ e ∈ es, p (f e) = q e) → (es.map f).eraseP p = (es.eraseP q).map f
  | [], _ => rfl
  | e :: es, h => by
    rw [List.map_cons, List.eraseP_cons, List.eraseP_cons, h e List.mem_cons_self]
    by_cases hq : q e = true
    · simp [hq]
    · simp [hq, erase_via (fun x hx => h x (List.mem_cons_of_mem _ hx))]

theorem find_via {α : Type} {p q : α → Bool} {f : α → α} : ∀ {es : List α}, (∀ e ∈ es, p (f e) = q e) → (es.map f).find? p = (es.find? q).map f
  | [], _ => rfl
  | e :: es, h => by
    rw [List.map_cons, List.find?_cons, List.find?_cons, h e List.mem_cons_self]
    cases q e with
    | true => rfl
    | false => exact find_via (fun x hx => h x (List.mem_cons_of_mem _ hx))

/-- The lists of the part are the same in both hypernetworks, and no hyperedge leaves its part. -/
structure PartHyper (N : List K) (P : K → Bool) (len : Nat) (m m' : HEdgeMap L W) : Prop where
  own : ∀ i es, HMap.get m i = some es → i < len ∧ ∀ e ∈ es, ∀ j ∈ e.nodes, j < len ∧ inPart N P j = inPart N P i
  keys : ∀ j es, HMap.get m' j = some es → j < partId N P len
  same : ∀ i, i < len → inPart N P i = true → HMap.get m' (partId N P i) = (HMap.get m i).map (List.map (HEdge.via (partId N P)))

/-- The objects of the part are the same in both hypernetworks. -/
structure PartObjs (N : List K) (P : K → Bool) (len : Nat) (m m' : HMap Nat O) : Prop where
  own : ∀ i o, HMap.get m i = some o → i < len
  keys : ∀ j o, HMap.get m' j = some o → j < partId N P len
  same : ∀ i, i < len → inPart N P i = true → HMap.get m' (partId N P i) = HMap.get m i

/-- Both hypernetworks. -/
structure PartHNet (N : List K) (P : K → Bool) (len : Nat) (n n' : HNet K O L W) : Prop where
  le : len ≤ N.length
  names : Named (N.take len) n.nodes2id
  names' : Named ((N.take len).filter P) n'.nodes2id
  w : PartHyper N P len n.edges n'.edges
  r : PartHyper N P len n.redges n'.redges
  ow : PartObjs N P len n.id2nodes n'.id2nodes
  or : PartObjs N P len n.rid2nodes n'.rid2nodes

theorem none_of {V : Type} {m : HMap Nat V} {i : Nat} {p : Prop} (h : ∀ v, HMap.get m i = some v → p) (hp : ¬ p) : HMap.get m i = none := by
  cases hg : HMap.get m i with
  | none => rfl
  | some v => exact absurd (h v hg) hp

theorem PartHyper.grow {len : Nat} {m m' : HEdgeMap L W} (h : PartHyper N P len m m') : PartHyper N P (len + 1) m m' := by
  have hm := partId_mono (N := N) (P := P) (Nat.le_succ len)
  refine ⟨fun i es hi => ?_, fun j es hj => Nat.lt_of_lt_of_le (h.keys j es hj) hm, fun i hi hp => ?_⟩
  · obtain ⟨h1, h2⟩ := h.own i es hi
    exact ⟨by omega, fun e he j hj => ⟨Nat.lt_succ_of_lt (h2 e he j hj).1, (h2 e he j hj).2⟩⟩
  · by_cases hl : i < len
    · exact h.same i hl hp
    · have : i = len := by omega
      subst this
      rw [none_of (fun v hv => (h.own i v hv).1) (Nat.lt_irrefl _), none_of (fun v hv => h.keys _ v hv) (Nat.lt_irrefl _)]
      rfl

theorem PartObjs.grow {len : Nat} {m m' : HMap Nat O} (h : PartObjs N P len m m') : PartObjs N P (len + 1) m m' := by
  have hm := partId_mono (N := N) (P := P) (Nat.le_succ len)
  refine ⟨fun i es hi => Nat.lt_succ_of_lt (h.own i es hi), fun j es hj => Nat.lt_of_lt_of_le (h.keys j es hj) hm, fun i hi hp => ?_⟩
  by_cases hl : i < len
  · exact h.same i hl hp
  · have : i = len := by omega
    subst this
    rw [none_of (fun v hv => h.own i v hv) (Nat.lt_irrefl _), none_of (fun v hv => h.keys _ v hv) (Nat.lt_irrefl _)]

/-- The list of one node of the part is replaced in both. -/
theorem PartHyper.put_in {len : Nat} {m m' m1 m1' : HEdgeMap L W} (h : PartHyper N P len m m') {i : Nat} (hi : i < len) (hp : inPart N P i = true)
    {es : Option (List (HEdge L W))} (h1 : ∀ k, HMap.get m1 k = if k = i then es else HMap.get m k)
    (h2 : ∀ k, HMap.get m1' k = if k = partId N P i then es.map (List.map (HEdge.via (partId N P))) else HMap.get m' k)
    (hes : ∀ l, es = some l → ∀ e ∈ l, ∀ j ∈ e.nodes, j < len ∧ inPart N P j = true) : PartHyper N P len m1 m1' := by
  refine ⟨fun k l hk => ?_, fun k l hk => ?_, fun k hk hpk => ?_⟩
  · rw [h1] at hk
    by_cases hki : k = i
    · rw [if_pos hki] at hk
      rw [hki]
      exact ⟨hi, fun e he j hj => ⟨(hes l hk e he j hj).1, (hes l hk e he j hj).2.trans hp.symm⟩⟩
    · rw [if_neg hki] at hk
      exact h.own k l hk
  · rw [h2] at hk
    by_cases hki : k = partId N P i
    · rw [hki]; exact partId_lt hp hi
    · rw [if_neg hki] at hk
      exact h.keys k l hk
  · rw [h1, h2]
    by_cases hki : k = i
    · rw [if_pos hki, if_pos (by rw [hki])]
    · rw [if_neg hki, if_neg (fun hc => hki (partId_inj hpk hp hc))]
      exact h.same k hk hpk

/-- The list of one node of the other part is replaced. -/
theorem PartHyper.put_out {len : Nat} {m m' m1 : HEdgeMap L W} (h : PartHyper N P len m m') {i : Nat} (hi : i < len) (hp : inPart N P i = false)
    {es : Option (List (HEdge L W))} (h1 : ∀ k, HMap.get m1 k = if k = i then es else HMap.get m k)
    (hes : ∀ l, es = some l → ∀ e ∈ l, ∀ j ∈ e.nodes, j < len ∧ inPart N P j = false) : PartHyper N P len m1 m' := by
  refine ⟨fun k l hk => ?_, h.keys, fun k hk hpk => ?_⟩
  · rw [h1] at hk
    by_cases hki : k = i
    · rw [if_pos hki] at hk
      rw [hki]
      exact ⟨hi, fun e he j hj => ⟨(hes l hk e he j hj).1, (hes l hk e he j hj).2.trans hp.symm⟩⟩
    · rw [if_neg hki] at hk
      exact h.own k l hk
  · rw [h1, if_neg (fun hc => by rw [hc, hp] at hpk; cases hpk)]
    exact h.same k hk hpk

theorem inj_part : ∀ i j, inPart N P i = true → inPart N P j = true → partId N P i = partId N P j → i = j := fun _ _ hi hj h => partId_inj hi hj h

theorem addLoop_in {len : Nat} {e : HEdge L W} (he : ∀ j ∈ e.nodes, j < len ∧ inPart N P j = true) : ∀ (ids : List Nat) {m m' : HEdgeMap L W},
    (∀ i ∈ ids, i < len ∧ inPart N P i = true) → PartHyper N P len m m' →
    PartHyper N P len (addLoop e ids m).1 (addLoop (e.via (partId N P)) (ids.map (partId N P)) m').1
  | [], _, _, _, h => h
  | i :: ids, m, m', hi, h => by
    obtain ⟨hl, hp⟩ := hi i List.mem_cons_self
    have hi' := fun j hj => hi j (List.mem_cons_of_mem _ hj)
    rw [List.map_cons, addLoop, addLoop, h.same i hl hp]
    cases hg : HMap.get m i with
    | none =>
      dsimp only [Option.map_none]
      refine addLoop_in he ids hi' (h.put_in hl hp (es := some [e]) (fun k => HMap.get_insert m i k [e]) (fun k => HMap.get_insert m' _ k _) ?_)
      intro l hle x hx
      cases hle
      rw [List.mem_singleton] at hx
      rw [hx]
      exact he
    | some es =>
      dsimp only [Option.map_some]
      have hown := fun x hx j hj => (h.own i es hg).2 x hx j hj
      rw [any_via (q := fun x => x.eq e) (fun x hx => eq_via inj_part (fun j hj => ((hown x hx j hj).2).trans hp) (fun j hj => (he j hj).2))]
      by_cases ha : es.any (fun x => x.eq e) = true
      · rw [if_pos ha, if_pos ha]
        exact h
      · rw [if_neg ha, if_neg ha]
        refine addLoop_in he ids hi' (h.put_in hl hp (es := some (es ++ [e])) (fun k => ?_) (fun k => ?_) ?_)
        · rw [HMap.get_adjustBy, hg]
          rfl
        · rw [HMap.get_adjustBy, h.same i hl hp, hg]
          simp
        · intro l hle x hx j hj
          cases hle
          rcases List.mem_append.1 hx with hx | hx
          · exact ⟨(hown x hx j hj).1, (hown x hx j hj).2.trans hp⟩
          · rw [List.mem_singleton] at hx
            rw [hx] at hj
            exact he j hj

theorem addLoop_out {len : Nat} {e : HEdge L W} (he : ∀ j ∈ e.nodes, j < len ∧ inPart N P j = false) : ∀ (ids : List Nat) {m m' : HEdgeMap L W},
    (∀ i ∈ ids, i < len ∧ inPart N P i = false) → PartHyper N P len m m' → PartHyper N P len (addLoop e ids m).1 m'
  | [], _, _, _, h => h
  | i :: ids, m, m', hi, h => by
    obtain ⟨hl, hp⟩ := hi i List.mem_cons_self
    have hi' := fun j hj => hi j (List.mem_cons_of_mem _ hj)
    rw [addLoop]
    cases hg : HMap.get m i with
    | none =>
      refine addLoop_out he ids hi' (h.put_out hl hp (es := some [e]) (fun k => HMap.get_insert m i k [e]) ?_)
      intro l hle x hx
      cases hle
      rw [List.mem_singleton] at hx
      rw [hx]
      exact he
    | some es =>
      dsimp only
      have hown := fun x hx j hj => (h.own i es hg).2 x hx j hj
      by_cases ha : es.any (fun x => x.eq e) = true
      · rw [if_pos ha]
        exact h
      · rw [if_neg ha]
        refine addLoop_out he ids hi' (h.put_out hl hp (es := some (es ++ [e])) (fun k => ?_) ?_)
        · rw [HMap.get_adjustBy, hg]
          rfl
        · intro l hle x hx j hj
          cases hle
          rcases List.mem_append.1 hx with hx | hx
          · exact ⟨(hown x hx j hj).1, (hown x hx j hj).2.trans hp⟩
          · rw [List.mem_singleton] at hx
            rw [hx] at hj
            exact he j hj

/-- Removing a hyperedge of the part: panics in both or in neither. -/
theorem removeLoop_in {len : Nat} {t : HEdge L W} (ht : ∀ j ∈ t.nodes, j < len ∧ inPart N P j = true) : ∀ (ids : List Nat) {m m' : HEdgeMap L W} (r r' : Option (HEdge L W)),
    (∀ i ∈ ids, i < len ∧ inPart N P i = true) → PartHyper N P len m m' →
    (removeLoop t ids m r = none ∧ removeLoop (t.via (partId N P)) (ids.map (partId N P)) m' r' = none) ∨
    ∃ x x', removeLoop t ids m r = some x ∧ removeLoop (t.via (partId N P)) (ids.map (partId N P)) m' r' = some x' ∧ PartHyper N P len x.1 x'.1
  | [], _, _, r, r', _, h => Or.inr ⟨_, _, rfl, rfl, h⟩
  | i :: ids, m, m', r, r', hi, h => by
    obtain ⟨hl, hp⟩ := hi i List.mem_cons_self
    have hi' := fun j hj => hi j (List.mem_cons_of_mem _ hj)
    rw [List.map_cons, removeLoop, removeLoop, h.same i hl hp]
    cases hg : HMap.get m i with
    | none => exact Or.inl ⟨rfl, rfl⟩
    | some es =>
      dsimp only [Option.map_some]
      have hown := fun x hx j hj => (h.own i es hg).2 x hx j hj
      have hq : ∀ x ∈ es, (x.via (partId N P)).eq (t.via (partId N P)) = x.eq t := fun x hx =>
        eq_via inj_part (fun j hj => ((hown x hx j hj).2).trans hp) (fun j hj => (ht j hj).2)
      rw [find_via (q := fun x => x.eq t) hq]
      cases hf : es.find? (fun x => x.eq t) with
      | none => exact removeLoop_in ht ids r r' hi' h
      | some e =>
        refine removeLoop_in ht ids _ _ hi' (h.put_in hl hp (es := some (es.eraseP (fun x => x.eq t))) (fun k => ?_) (fun k => ?_) ?_)
        · rw [HMap.get_adjustBy, hg]
          rfl
        · rw [HMap.get_adjustBy, h.same i hl hp, hg]
          simp only [Option.map_some]
          rw [erase_via (q := fun x => x.eq t) hq]
        · intro l hle x hx j hj
          cases hle
          have hx := List.mem_of_mem_eraseP hx
          exact ⟨(hown x hx j hj).1, (hown x hx j hj).2.trans hp⟩

theorem removeLoop_out {len : Nat} {t : HEdge L W} : ∀ (ids : List Nat) {m m' : HEdgeMap L W} (r : Option (HEdge L W)) {x : HEdgeMap L W × Option (HEdge L W)},
    (∀ i ∈ ids, i < len ∧ inPart N P i = false) → PartHyper N P len m m' → removeLoop t ids m r = some x → PartHyper N P len x.1 m'
  | [], _, _, r, x, _, h, hx => by
    cases hx
    exact h
  | i :: ids, m, m', r, x, hi, h, hx => by
    obtain ⟨hl, hp⟩ := hi i List.mem_cons_self
    have hi' := fun j hj => hi j (List.mem_cons_of_mem _ hj)
    rw [removeLoop] at hx
    cases hg : HMap.get m i with
    | none => rw [hg] at hx; cases hx
    | some es =>
      rw [hg] at hx
      dsimp only at hx
      have hown := fun x hx j hj => (h.own i es hg).2 x hx j hj
      cases hf : es.find? (fun x => x.eq t) with
      | none => rw [hf] at hx; exact removeLoop_out ids r hi' h hx
      | some e =>
        rw [hf] at hx
        refine removeLoop_out ids _ hi' (h.put_out hl hp (es := some (es.eraseP (fun x => x.eq t))) (fun k => ?_) ?_) hx
        · rw [HMap.get_adjustBy, hg]
          rfl
        · intro l hle x hx j hj
          cases hle
          have hx := List.mem_of_mem_eraseP hx
          exact ⟨(hown x hx j hj).1, (hown x hx j hj).2.trans hp⟩

/-! ### The calls -/

theorem PartHNet.id_lt {len : Nat} {n n' : HNet K O L W} (h : PartHNet N P len n n') {k : K} {i : Nat} (hi : HMap.get n.nodes2id k = some i) :
    i < len ∧ N[i]? = some k ∧ inPart N P i = P k := by
  obtain ⟨h1, h2⟩ := take_get.1 ((h.names.get k i).1 hi)
  exact ⟨h1, h2, by unfold inPart; rw [h2]; rfl⟩

theorem PartHNet.id_via (hN : N.Nodup) {len : Nat} {n n' : HNet K O L W} (h : PartHNet N P len n n') {k : K} (hk : P k = true) :
    HMap.get n'.nodes2id k = (HMap.get n.nodes2id k).map (partId N P) := by
  cases hg : HMap.get n.nodes2id k with
  | some i =>
    obtain ⟨h1, h2, _⟩ := h.id_lt hg
    rw [Option.map_some, h.names'.get, filter_get_iff hN]
    exact ⟨i, h1, h2, hk, rfl⟩
  | none =>
    cases hg' : HMap.get n'.nodes2id k with
    | none => rfl
    | some j =>
      obtain ⟨i, h1, h2, _, _⟩ := (filter_get_iff hN).1 ((h.names'.get k j).1 hg')
      rw [(h.names.get k i).2 (take_get.2 ⟨h1, h2⟩)] at hg
      cases hg

theorem PartHNet.ids_via (hN : N.Nodup) {len : Nat} {n n' : HNet K O L W} (h : PartHNet N P len n n') : ∀ (us : List O), (∀ u ∈ us, P (ident u) = true) →
    idsOf ident n' us = (idsOf ident n us).map (List.map (partId N P))
  | [], _ => rfl
  | u :: us, hu => by
    rw [idsOf, idsOf, h.id_via hN (hu u List.mem_cons_self), h.ids_via hN us (fun v hv => hu v (List.mem_cons_of_mem _ hv))]
    cases HMap.get n.nodes2id (ident u) with
    | none => rfl
    | some i =>
      cases idsOf ident n us with
      | none => rfl
      | some is => rfl

theorem PartHNet.ids_lt {len : Nat} {n n' : HNet K O L W} (h : PartHNet N P len n n') {b : Bool} : ∀ (us : List O) (is : List Nat), (∀ u ∈ us, P (ident u) = b) →
    idsOf ident n us = some is → ∀ i ∈ is, i < len ∧ inPart N P i = b
  | [], is, _, hi => by
    cases hi
    intro i hi
    cases hi
  | u :: us, is, hu, hi => by
    rw [idsOf] at hi
    cases hg : HMap.get n.nodes2id (ident u) with
    | none => rw [hg] at hi; cases hi
    | some j =>
      rw [hg] at hi
      obtain ⟨is', h1, rfl⟩ := Option.map_eq_some_iff.1 hi
      intro i hi
      rcases List.mem_cons.1 hi with rfl | hi
      · obtain ⟨h1, _, h3⟩ := h.id_lt hg
        exact ⟨h1, h3.trans (hu u List.mem_cons_self)⟩
      · exact h.ids_lt us is' (fun v hv => hu v (List.mem_cons_of_mem _ hv)) h1 i hi

theorem PartHNet.withEdges {len : Nat} {n n' : HNet K O L W} (h : PartHNet N P len n n') {m m' : HEdgeMap L W} (hm : PartHyper N P len m m') :
    PartHNet N P len ⟨m, n.redges, n.nodes2id, n.id2nodes, n.rid2nodes⟩ ⟨m', n'.redges, n'.nodes2id, n'.id2nodes, n'.rid2nodes⟩ :=
  ⟨h.le, h.names, h.names', hm, h.r, h.ow, h.or⟩

theorem PartHNet.addEdge_in (hN : N.Nodup) {len : Nat} {n n' : HNet K O L W} (h : PartHNet N P len n n') (us : List O) (hu : ∀ u ∈ us, P (ident u) = true)
    (o : EdgeOptions L W) : PartHNet N P len (addEdge ident n us o).1 (addEdge ident n' us o).1 := by
  cases us with
  | nil => exact h
  | cons u us =>
    unfold addEdge
    dsimp only
    rw [h.ids_via hN _ hu]
    cases hi : idsOf ident n (u :: us) with
    | none => exact h
    | some ids =>
      have hl := h.ids_lt _ ids hu hi
      dsimp only [Option.map_some]
      rw [← new_via inj_part (fun i hi => (hl i hi).2) o]
      exact h.withEdges (addLoop_in (fun j hj => hl j (mem_new.1 hj)) ids hl h.w)

theorem PartHNet.addEdge_out {len : Nat} {n n' : HNet K O L W} (h : PartHNet N P len n n') (us : List O) (hu : ∀ u ∈ us, P (ident u) = false)
    (o : EdgeOptions L W) : PartHNet N P len (addEdge ident n us o).1 n' := by
  cases us with
  | nil => exact h
  | cons u us =>
    unfold addEdge
    dsimp only
    cases hi : idsOf ident n (u :: us) with
    | none => exact h
    | some ids =>
      have hl := h.ids_lt _ ids hu hi
      exact h.withEdges (addLoop_out (fun j hj => hl j (mem_new.1 hj)) ids hl h.w)

theorem PartHNet.removeEdge_in (hN : N.Nodup) {len : Nat} {n n' : HNet K O L W} (h : PartHNet N P len n n') (us : List O) (hu : ∀ u ∈ us, P (ident u) = true) :
    (removeEdge ident n us = none ∧ removeEdge ident n' us = none) ∨
    ∃ x x', removeEdge ident n us = some x ∧ removeEdge ident n' us = some x' ∧ PartHNet N P len x.1 x'.1 := by
  cases us with
  | nil => exact Or.inr ⟨_, _, rfl, rfl, h⟩
  | cons u us =>
    unfold removeEdge
    dsimp only
    rw [h.ids_via hN _ hu]
    cases hi : idsOf ident n (u :: us) with
    | none => exact Or.inr ⟨_, _, rfl, rfl, h⟩
    | some ids =>
      have hl := h.ids_lt _ ids hu hi
      dsimp only [Option.map_some]
      rw [← new_via inj_part (fun i hi => (hl i hi).2) (.simple : EdgeOptions L W)]
      rcases removeLoop_in (fun j hj => hl j (mem_new.1 hj)) ids none none hl h.w with ⟨h1, h2⟩ | ⟨x, x', h1, h2, h3⟩
      · rw [h1, h2]
        exact Or.inl ⟨rfl, rfl⟩
      · rw [h1, h2]
        exact Or.inr ⟨_, _, rfl, rfl, h.withEdges h3⟩

theorem PartHNet.removeEdge_out {len : Nat} {n n' : HNet K O L W} (h : PartHNet N P len n n') (us : List O) (hu : ∀ u ∈ us, P (ident u) = false)
    {x : HNet K O L W × Option (HEdge L W)} (hx : removeEdge ident n us = some x) : PartHNet N P len x.1 n' := by
  cases us with
  | nil =>
    cases hx
    exact h
  | cons u us =>
    unfold removeEdge at hx
    dsimp only at hx
    cases hi : idsOf ident n (u :: us) with
    | none =>
      rw [hi] at hx
      cases hx
      exact h
    | some ids =>
      rw [hi] at hx
      dsimp only at hx
      cases hr : removeLoop (HEdge.new ids .simple) ids n.edges none with
      | none => rw [hr] at hx; cases hx
      | some y =>
        rw [hr] at hx
        cases hx
        exact h.withEdges (removeLoop_out ids none (h.ids_lt _ ids hu hi) h.w hr)

theorem hpart_updateNode (hN : N.Nodup) {len : Nat} {n n' : HNet K O L W} (h : PartHNet N P len n n') (u : O) :
    (P (ident u) = true → PartHNet N P len (updateNode ident n u) (updateNode ident n' u)) ∧
    (P (ident u) = false → PartHNet N P len (updateNode ident n u) n') := by
  unfold updateNode
  cases hg : HMap.get n.nodes2id (ident u) with
  | none =>
    refine ⟨fun hu => ?_, fun _ => h⟩
    rw [h.id_via hN hu, hg]
    exact h
  | some i =>
    obtain ⟨hi, hik, hp⟩ := h.id_lt hg
    have hown : ∀ j o, HMap.get (HMap.adjust n.id2nodes i (fun _ => u)) j = some o → j < len := fun j o hj => by
      rw [HMap.get_adjustBy] at hj
      by_cases hji : j = i
      · rw [hji]; exact hi
      · rw [if_neg hji] at hj
        exact h.ow.own j o hj
    refine ⟨fun hu => ?_, fun hu => ?_⟩
    · rw [h.id_via hN hu, hg]
      refine ⟨h.le, h.names, h.names', h.w, h.r, ⟨hown, fun j o hj => ?_, fun j hj hpj => ?_⟩, h.or⟩
      · change HMap.get (HMap.adjust n'.id2nodes (partId N P i) (fun _ => u)) j = some o at hj
        rw [HMap.get_adjustBy] at hj
        by_cases hji : j = partId N P i
        · rw [hji]; exact partId_lt (hp.trans hu) hi
        · rw [if_neg hji] at hj
          exact h.ow.keys j o hj
      · show HMap.get (HMap.adjust n'.id2nodes (partId N P i) (fun _ => u)) (partId N P j) = HMap.get (HMap.adjust n.id2nodes i (fun _ => u)) j
        rw [HMap.get_adjustBy, HMap.get_adjustBy]
        by_cases hji : j = i
        · rw [if_pos hji, if_pos (by rw [hji]), h.ow.same i hi (hp.trans hu)]
        · rw [if_neg hji, if_neg (fun hc => hji (partId_inj hpj (hp.trans hu) hc))]
          exact h.ow.same j hj hpj
    · refine ⟨h.le, h.names, h.names', h.w, h.r, ⟨hown, h.ow.keys, fun j hj hpj => ?_⟩, h.or⟩
      show HMap.get n'.id2nodes (partId N P j) = HMap.get (HMap.adjust n.id2nodes i (fun _ => u)) j
      rw [HMap.get_adjustBy, if_neg (fun hc => by rw [hc, hp, hu] at hpj; cases hpj)]
      exact h.ow.same j hj hpj

theorem get_ensure (m : HEdgeMap L W) (k i : Nat) : HMap.get (ensureList m k) i = if i = k then some ((HMap.get m k).getD []) else HMap.get m i := by
  unfold ensureList
  cases h : HMap.get m k with
  | none => dsimp only; rw [HMap.get_insert]; rfl
  | some es =>
    dsimp only
    by_cases hi : i = k
    · rw [if_pos hi, hi, h]; rfl
    · rw [if_neg hi]

theorem hpart_addNode (hN : N.Nodup) {len : Nat} {n n' : HNet K O L W} (h : PartHNet N P len n n') {u : O} (hk : N[len]? = some (ident u)) :
    (P (ident u) = true → PartHNet N P (len + 1) (addNode ident n u) (addNode ident n' u)) ∧
    (P (ident u) = false → PartHNet N P (len + 1) (addNode ident n u) n') := by
  have hlt : len < N.length := (List.getElem?_eq_some_iff.1 hk).1
  have htake : N.take (len + 1) = N.take len ++ [ident u] := by rw [List.take_add_one, hk]; rfl
  have hfresh : ident u ∉ N.take len := by
    have := hN.sublist (List.take_sublist (len + 1) N)
    rw [htake] at this
    exact fun hc => (List.nodup_append.1 this).2.2 _ hc _ (List.mem_singleton.2 rfl) rfl
  have hl : n.nodes2id.length = len := by rw [h.names.len, List.length_take, Nat.min_eq_left h.le]
  have hl' : n'.nodes2id.length = partId N P len := h.names'.len
  have hpart : inPart N P len = P (ident u) := by unfold inPart; rw [hk]; rfl
  have hnames : Named (N.take (len + 1)) (HMap.insert n.nodes2id (ident u) n.nodes2id.length).1 := by
    rw [htake]; exact h.names.add hfresh
  have hnone : HMap.get n.edges len = none := none_of (fun v hv => (h.w.own _ v hv).1) (Nat.lt_irrefl _)
  have hown : ∀ i o, HMap.get (HMap.insert n.id2nodes n.nodes2id.length u).1 i = some o → i < len + 1 := fun i o hi => by
    rw [HMap.get_insert, hl] at hi
    by_cases hil : i = len
    · omega
    · rw [if_neg hil] at hi
      exact Nat.lt_succ_of_lt (h.ow.own i o hi)
  refine ⟨fun hu => ?_, fun hu => ?_⟩
  · have hps := partId_succ (hpart.trans hu)
    have hnames' : Named ((N.take (len + 1)).filter P) (HMap.insert n'.nodes2id (ident u) n'.nodes2id.length).1 := by
      rw [htake, List.filter_append]
      have : [ident u].filter P = [ident u] := by simp [hu]
      rw [this]
      exact h.names'.add (fun hc => hfresh (List.mem_of_mem_filter hc))
    refine ⟨hlt, hnames, hnames', ?_, h.r.grow, ⟨hown, fun j o hj => ?_, fun i hi hpi => ?_⟩, h.or.grow⟩
    · refine h.w.grow.put_in (Nat.lt_succ_self len) (hpart.trans hu) (es := some []) (fun k => ?_) (fun k => ?_) (fun l hle e he => ?_)
      · show HMap.get (ensureList n.edges n.nodes2id.length) k = _
        rw [get_ensure, hl, hnone]
        rfl
      · show HMap.get (ensureList n'.edges n'.nodes2id.length) k = _
        rw [get_ensure, hl', none_of (fun v hv => h.w.keys _ v hv) (Nat.lt_irrefl _)]
        rfl
      · cases hle
        cases he
    · change HMap.get (HMap.insert n'.id2nodes n'.nodes2id.length u).1 j = some o at hj
      rw [HMap.get_insert, hl'] at hj
      by_cases hjl : j = partId N P len
      · omega
      · rw [if_neg hjl] at hj
        have := h.ow.keys j o hj
        omega
    · show HMap.get (HMap.insert n'.id2nodes n'.nodes2id.length u).1 (partId N P i) = HMap.get (HMap.insert n.id2nodes n.nodes2id.length u).1 i
      rw [HMap.get_insert, HMap.get_insert, hl, hl']
      by_cases hil : i = len
      · rw [if_pos hil, if_pos (by rw [hil])]
      · rw [if_neg hil, if_neg (fun hc => hil (partId_inj hpi (hpart.trans hu) hc))]
        exact h.ow.same i (by omega) hpi
  · have hps := partId_skip (hpart.trans hu)
    have hfil : (N.take (len + 1)).filter P = (N.take len).filter P := by
      rw [htake, List.filter_append]
      simp [hu]
    refine ⟨hlt, hnames, by rw [hfil]; exact h.names', ?_, h.r.grow, ⟨hown, by rw [hps]; exact h.ow.keys, fun i hi hpi => ?_⟩, h.or.grow⟩
    · refine h.w.grow.put_out (Nat.lt_succ_self len) (hpart.trans hu) (es := some []) (fun k => ?_) (fun l hle e he => ?_)
      · show HMap.get (ensureList n.edges n.nodes2id.length) k = _
        rw [get_ensure, hl, hnone]
        rfl
      · cases hle
        cases he
    · have hil : i ≠ len := fun hc => by rw [hc, hpart, hu] at hpi; cases hpi
      show HMap.get n'.id2nodes (partId N P i) = HMap.get (HMap.insert n.id2nodes n.nodes2id.length u).1 i
      rw [HMap.get_insert, hl, if_neg hil]
      exact h.ow.same i (by omega) hpi

/-! ### Histories -/

/-- One call: about the part, it panics in both or in neither; about the other part, it changes nothing here. -/
theorem PartHNet.step (hN : N.Nodup) {len : Nat} {n n' : HNet K O L W} (h : PartHNet N P len n n') {op : Op O L W}
    (hw : op.Within ident P) (hr : ∀ u, op ≠ .removeObject u) (hadd : ∀ u, op = .addNode u → N[len]? = some (ident u)) :
    (op.about ident P = true → (exec ident n op = none ∧ exec ident n' op = none) ∨
      ∃ n1 n1', exec ident n op = some n1 ∧ exec ident n' op = some n1' ∧ PartHNet N P (len + (nodesAdded [op]).length) n1 n1') ∧
    (op.about ident P = false → ∀ n1, exec ident n op = some n1 → PartHNet N P (len + (nodesAdded [op]).length) n1 n') := by
  have others : ∀ us : List O, (∀ u ∈ us, ∀ v ∈ us, P (ident u) = P (ident v)) → us.all (fun u => P (ident u)) = false → ∀ u ∈ us, P (ident u) = false := by
    intro us hus ha u hu
    cases hp : P (ident u) with
    | false => rfl
    | true =>
      have : us.all (fun u => P (ident u)) = true := List.all_eq_true.2 (fun v hv => (hus v hv u hu).trans hp)
      rw [this] at ha
      cases ha
  cases op with
  | addNode u =>
    have := hpart_addNode hN h (hadd u rfl)
    refine ⟨fun hu => Or.inr ⟨_, _, rfl, rfl, this.1 hu⟩, fun hu n1 hx => ?_⟩
    cases hx
    exact this.2 hu
  | addEdge us o =>
    refine ⟨fun hu => Or.inr ⟨_, _, rfl, rfl, h.addEdge_in hN us (fun u hm => List.all_eq_true.1 hu u hm) o⟩, fun hu n1 hx => ?_⟩
    cases hx
    exact h.addEdge_out us (others us hw hu) o
  | removeEdge us =>
    refine ⟨fun hu => ?_, fun hu n1 hx => ?_⟩
    · show ((removeEdge ident n us).map Prod.fst = none ∧ (removeEdge ident n' us).map Prod.fst = none) ∨
        ∃ n1 n1', (removeEdge ident n us).map Prod.fst = some n1 ∧ (removeEdge ident n' us).map Prod.fst = some n1' ∧ _
      rcases h.removeEdge_in hN us (fun u hm => List.all_eq_true.1 hu u hm) with ⟨h1, h2⟩ | ⟨x, x', h1, h2, h3⟩
      · rw [h1, h2]
        exact Or.inl ⟨rfl, rfl⟩
      · rw [h1, h2]
        exact Or.inr ⟨_, _, rfl, rfl, h3⟩
    · obtain ⟨x, hx2, rfl⟩ := Option.map_eq_some_iff.1 hx
      exact h.removeEdge_out us (others us hw hu) hx2
  | removeObject u => exact absurd rfl (hr u)
  | removeAllEdges =>
    refine ⟨fun _ => Or.inr ⟨_, _, rfl, rfl, h.withEdges ⟨fun i es hi => ?_, fun j es hj => ?_, fun i _ _ => rfl⟩⟩, fun hc => by cases hc⟩
    · cases hi
    · cases hj
  | updateNode u =>
    have := hpart_updateNode (ident := ident) hN h u
    refine ⟨fun hu => Or.inr ⟨_, _, rfl, rfl, this.1 hu⟩, fun hu n1 hx => ?_⟩
    cases hx
    exact this.2 hu
  | update => exact ⟨fun _ => Or.inr ⟨_, _, rfl, rfl, ⟨h.le, h.names, h.names', h.w, h.w, h.ow, h.ow⟩⟩, fun hc => by cases hc⟩

theorem added_get {len : Nat} {op : Op O L W} {ops : List (Op O L W)} (hd : N.drop len = (nodesAdded (op :: ops)).map ident) :
    (∀ u, op = .addNode u → N[len]? = some (ident u)) ∧ N.drop (len + (nodesAdded [op]).length) = (nodesAdded ops).map ident := by
  constructor
  · rintro u rfl
    have := congrArg (fun l : List K => l[0]?) hd
    rw [List.getElem?_drop] at this
    exact this
  · rw [← List.drop_drop, hd]
    cases op <;> rfl

theorem PartHNet.run (hN : N.Nodup) : ∀ (ops : List (Op O L W)) {len : Nat} {n n' n1 : HNet K O L W}, PartHNet N P len n n' →
    (∀ op ∈ ops, op.Within ident P) → (∀ u, Op.removeObject u ∉ ops) → N.drop len = (nodesAdded ops).map ident →
    HNetwork.run ident n ops = some n1 →
    ∃ n1' len', HNetwork.run ident n' (ops.filter (Op.about ident P)) = some n1' ∧ PartHNet N P len' n1 n1'
  | [], len, n, n', n1, h, _, _, _, hx => by
    cases hx
    exact ⟨n', len, rfl, h⟩
  | op :: ops, len, n, n', n1, h, hw, hr, hd, hx => by
    rw [HNetwork.run] at hx
    obtain ⟨n2, he, hx⟩ := Option.bind_eq_some_iff.1 hx
    obtain ⟨hadd, hd'⟩ := added_get hd
    obtain ⟨h1, h2⟩ := h.step hN (hw op List.mem_cons_self) (fun u hc => hr u (hc ▸ List.mem_cons_self)) hadd
    have hw' := fun o ho => hw o (List.mem_cons_of_mem _ ho)
    have hr' := fun u hu => hr u (List.mem_cons_of_mem _ hu)
    by_cases ha : op.about ident P = true
    · rcases h1 ha with ⟨h3, _⟩ | ⟨m, m', h3, h4, h5⟩
      · rw [h3] at he
        cases he
      · rw [h3] at he
        cases he
        rw [List.filter_cons_of_pos ha, HNetwork.run, h4]
        exact PartHNet.run hN ops h5 hw' hr' hd' hx
    · have ha' : op.about ident P = false := by simpa using ha
      rw [List.filter_cons_of_neg ha]
      exact PartHNet.run hN ops (h2 ha' n2 he) hw' hr' hd' hx

theorem within_not {op : Op O L W} (h : op.Within ident P) : op.Within ident (fun k => !P k) := by
  cases op <;> first
    | trivial
    | exact fun u hu v hv => congrArg not (h u hu v hv)

theorem about_some (op : Op O L W) (h : op.Within ident P) (ha : op.about ident P = false) : op.about ident (fun k => !P k) = true := by
  have key : ∀ us : List O, (∀ u ∈ us, ∀ v ∈ us, P (ident u) = P (ident v)) → us.all (fun u => P (ident u)) = false → us.all (fun u => !P (ident u)) = true := by
    intro us hus h0
    obtain ⟨u, hu, hp⟩ := List.all_eq_false.1 h0
    refine List.all_eq_true.2 (fun v hv => ?_)
    rw [hus v hv u hu]
    simpa using hp
  cases op with
  | addNode u => show (!P (ident u)) = true; rw [show P (ident u) = false from ha]; rfl
  | addEdge us o => exact key us h ha
  | removeEdge us => exact key us h ha
  | removeObject u => show (!P (ident u)) = true; rw [show P (ident u) = false from ha]; rfl
  | updateNode u => show (!P (ident u)) = true; rw [show P (ident u) = false from ha]; rfl
  | removeAllEdges => rfl
  | update => rfl

/-- The whole history does not panic if the calls about each part alone do not. -/
theorem PartHNet.join (hN : N.Nodup) : ∀ (ops : List (Op O L W)) {len : Nat} {n n' n'' : HNet K O L W}, PartHNet N P len n n' → PartHNet N (fun k => !P k) len n n'' →
    (∀ op ∈ ops, op.Within ident P) → (∀ u, Op.removeObject u ∉ ops) → N.drop len = (nodesAdded ops).map ident →
    (HNetwork.run ident n' (ops.filter (Op.about ident P))).isSome = true →
    (HNetwork.run ident n'' (ops.filter (Op.about ident (fun k => !P k)))).isSome = true → (HNetwork.run ident n ops).isSome = true
  | [], _, _, _, _, _, _, _, _, _, _, _ => rfl
  | op :: ops, len, n, n', n'', h, g, hw, hr, hd, hx, hy => by
    obtain ⟨hadd, hd'⟩ := added_get hd
    have hwo := hw op List.mem_cons_self
    obtain ⟨h1, h2⟩ := h.step hN hwo (fun u hc => hr u (hc ▸ List.mem_cons_self)) hadd
    obtain ⟨g1, g2⟩ := g.step hN (within_not hwo) (fun u hc => hr u (hc ▸ List.mem_cons_self)) hadd
    have hw' := fun o ho => hw o (List.mem_cons_of_mem _ ho)
    have hr' := fun u hu => hr u (List.mem_cons_of_mem _ hu)
    rw [HNetwork.run]
    by_cases ha : op.about ident P = true
    · rw [List.filter_cons_of_pos ha, HNetwork.run] at hx
      rcases h1 ha with ⟨_, h3⟩ | ⟨m, m', h3, h4, h5⟩
      · rw [h3] at hx
        cases hx
      · rw [h4] at hx
        rw [h3]
        by_cases hb : op.about ident (fun k => !P k) = true
        · rw [List.filter_cons_of_pos hb, HNetwork.run] at hy
          rcases g1 hb with ⟨_, g3⟩ | ⟨k, k', g3, g4, g5⟩
          · rw [g3] at hy
            cases hy
          · rw [g3] at h3
            cases h3
            rw [g4] at hy
            exact PartHNet.join hN ops h5 g5 hw' hr' hd' hx hy
        · have hb' : op.about ident (fun k => !P k) = false := by simpa using hb
          rw [List.filter_cons_of_neg hb] at hy
          exact PartHNet.join hN ops h5 (g2 hb' m h3) hw' hr' hd' hx hy
    · have ha' : op.about ident P = false := by simpa using ha
      rw [List.filter_cons_of_neg ha] at hx
      have hb := about_some op hwo ha'
      rw [List.filter_cons_of_pos hb, HNetwork.run] at hy
      rcases g1 hb with ⟨_, g3⟩ | ⟨k, k', g3, g4, g5⟩
      · rw [g3] at hy
        cases hy
      · rw [g4] at hy
        rw [g3]
        exact PartHNet.join hN ops (h2 ha' k g3) g5 hw' hr' hd' hx hy

theorem hpart_new (N : List K) (P : K → Bool) : PartHNet N P 0 (HNet.new : HNet K O L W) HNet.new := by
  have hl : PartHyper N P 0 ([] : HEdgeMap L W) [] := ⟨fun i es hi => (by cases hi), fun j es hj => (by cases hj), fun i hi => (by omega)⟩
  have ho : PartObjs N P 0 ([] : HMap Nat O) [] := ⟨fun i es hi => (by cases hi), fun j es hj => (by cases hj), fun i hi => (by omega)⟩
  refine ⟨Nat.zero_le _, ⟨fun k i => ?_, rfl⟩, ⟨fun k i => ?_, rfl⟩, hl, hl, ho, ho⟩
  · simp [HNet.new]
  · simp [HNet.new]

/-- **C268.** (Partial: nodes are added once each and not removed.) If a history makes no hyperedge between the nodes of a part and the others and panics
nowhere, then the calls about this part alone panic nowhere either, and every node of the part is there exactly if it is there after the whole history and
has the same object and the same hyperedges in the same order. -/
theorem C268_parts_partial (ident : O → K) (P : K → Bool) (ops : List (Op O L W)) (hw : ∀ op ∈ ops, op.Within ident P) (hr : ∀ u, Op.removeObject u ∉ ops)
    (ha : ((nodesAdded ops).map ident).Nodup) (n : HNet K O L W) (hx : run ident HNet.new ops = some n) :
    ∃ n', run ident HNet.new (ops.filter (Op.about ident P)) = some n' ∧ ∀ u, P (ident u) = true →
      edgesShown ident n' u = edgesShown ident n u ∧ (getId ident n' u).bind (getObject n') = (getId ident n u).bind (getObject n) := by
  obtain ⟨n', len, h1, h2⟩ := PartHNet.run ha ops (hpart_new _ P) hw hr rfl hx
  refine ⟨n', h1, fun u hu => ?_⟩
  unfold edgesShown getEdges getId getObject
  rw [h2.id_via ha hu]
  cases hg : HMap.get n.nodes2id (ident u) with
  | none => exact ⟨rfl, rfl⟩
  | some i =>
    obtain ⟨hi, _, hp⟩ := h2.id_lt hg
    have hpi := hp.trans hu
    dsimp only [Option.map_some, Option.bind_some]
    refine ⟨?_, h2.or.same i hi hpi⟩
    rw [h2.r.same i hi hpi]
    cases hl : HMap.get n.redges i with
    | none => rfl
    | some es =>
      simp only [Option.map_some, List.map_map]
      congr 1
      apply List.map_congr_left
      intro e he
      unfold Function.comp HEdge.via
      dsimp only
      rw [List.map_map]
      congr 1
      apply List.map_congr_left
      intro j hj
      obtain ⟨e1, e2⟩ := (h2.r.own i es hl).2 e he j hj
      exact h2.or.same j e1 (e2.trans hpi)

/-- **C268 (panics).** (Partial as above.) If the calls about the part alone panic nowhere and the calls about the others alone panic nowhere, then the whole
history panics nowhere. -/
theorem C268_no_panic_partial (ident : O → K) (P : K → Bool) (ops : List (Op O L W)) (hw : ∀ op ∈ ops, op.Within ident P) (hr : ∀ u, Op.removeObject u ∉ ops)
    (ha : ((nodesAdded ops).map ident).Nodup) (h1 : (run ident (HNet.new : HNet K O L W) (ops.filter (Op.about ident P))).isSome = true)
    (h2 : (run ident (HNet.new : HNet K O L W) (ops.filter (Op.about ident (fun k => !P k)))).isSome = true) :
    (run ident (HNet.new : HNet K O L W) ops).isSome = true :=
  PartHNet.join ha ops (hpart_new _ P) (hpart_new _ _) hw hr rfl h1 h2

/-! ### Where it fails, and a case -/

namespace DemoHyperParts

/-- Nodes below ten are the part. -/
def low : Nat → Bool := fun k => decide (k < 10)

/-- Two parts with hyperedges each, made alternately; one hyperedge of the other part is removed again. -/
def both : List (Op Nat Nat Nat) :=
  [.addNode 11, .addNode 1, .addNode 12, .addNode 2, .addNode 3, .addEdge [11, 12] (.weighted 7), .addEdge [1, 3, 2] (.weighted 5), .addEdge [2, 3] .simple,
    .removeEdge [12, 11], .addEdge [1, 3] (.weightedLabeled 4 6), .updateNode 3, .update]

/-- A node of the other part is removed, and the next node gets an id that is taken. -/
def removed : List (Op Nat Nat Nat) := [.addNode 11, .addNode 1, .removeObject 11, .addNode 12, .update]

/-- A node of the part is added twice, and the next node gets the same id. -/
def twice : List (Op Nat Nat Nat) := [.addNode 1, .addNode 1, .addNode 11, .update]

end DemoHyperParts

open DemoHyperParts in
/-- **C268 (removals).** With a removed node it fails: after a node of the other part is removed, the id of a node of this part is given away, and the node has
another object. -/
theorem C268_removal_negation_partial : (∀ op ∈ removed, op.Within id low) ∧ ((nodesAdded removed).map id).Nodup ∧
    (run id HNet.new removed).bind (fun n => (getId id n 1).bind (getObject n)) = some 12 ∧
    (run id HNet.new (removed.filter (Op.about id low))).bind (fun n => (getId id n 1).bind (getObject n)) = some 1 := by
  refine ⟨fun op h => ?_, by decide, by rfl, by rfl⟩
  simp only [removed, List.mem_cons, List.not_mem_nil, or_false] at h
  rcases h with rfl | rfl | rfl | rfl | rfl <;> trivial

open DemoHyperParts in
/-- **C268 (added twice).** With a node added twice it fails likewise. -/
theorem C268_twice_negation_partial : (∀ op ∈ twice, op.Within id low) ∧ (∀ u, Op.removeObject u ∉ twice) ∧
    (run id HNet.new twice).bind (fun n => (getId id n 1).bind (getObject n)) = some 11 ∧
    (run id HNet.new (twice.filter (Op.about id low))).bind (fun n => (getId id n 1).bind (getObject n)) = some 1 := by
  refine ⟨fun op h => ?_, fun u h => ?_, by rfl, by rfl⟩
  · simp only [twice, List.mem_cons, List.not_mem_nil, or_false] at h
    rcases h with rfl | rfl | rfl | rfl <;> trivial
  · simp [twice] at h

open DemoHyperParts in
example : (∀ op ∈ both, op.Within id low) ∧ (∀ u, Op.removeObject u ∉ both) ∧ ((nodesAdded both).map id).Nodup ∧
    ((run id HNet.new both).bind (fun n => edgesShown id n 3)) =
      some [([some 1, some 3, some 2], none, some 5), ([some 2, some 3], none, none), ([some 1, some 3], some 4, some 6)] ∧
    ((run id HNet.new (both.filter (Op.about id low))).bind (fun n => edgesShown id n 3)) =
      some [([some 1, some 3, some 2], none, some 5), ([some 2, some 3], none, none), ([some 1, some 3], some 4, some 6)] ∧
    (run id HNet.new both).bind (fun n => getId id n 3) = some 4 ∧
    (run id HNet.new (both.filter (Op.about id low))).bind (fun n => getId id n 3) = some 2 ∧
    (run id HNet.new (both.filter (Op.about id (fun k => !low k)))).isSome = true := by
  refine ⟨fun op h => ?_, fun u h => ?_, by decide, by rfl, by rfl, by rfl, by rfl, by rfl⟩
  · simp only [both, List.mem_cons, List.not_mem_nil, or_false] at h
    rcases h with rfl | rfl | rfl | rfl | rfl | rfl | rfl | rfl | rfl | rfl | rfl | rfl <;> (unfold Op.Within; trivial)
  · simp [both] at h

end Verif.HNetwork
