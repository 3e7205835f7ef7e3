import Verif.Props.HNetwork
import Verif.Spec.HyperDegrees

/-!
C255 "The degrees of a hypernetwork add up to the sizes of its hyperedges".
-/

namespace Verif.HNetwork

open Verif.Network (EdgeOptions)

variable {K O L W : Type} [DecidableEq K]

/-! ### Counting -/

/-- Elements that are different from each other need as many partners. -/
theorem length_le_of_partners {α : Type} {R : α → α → Prop} (hsym : ∀ a b, R a b → R b a) (htr : ∀ a b c, R a b → R b c → R a c) :
    ∀ (l1 l2 : List α), l1.Pairwise (fun a b => ¬ R a b) → (∀ a ∈ l1, ∃ b ∈ l2, R a b) → l1.length ≤ l2.length
  | [], _, _, _ => Nat.zero_le _
  | a :: l1, l2, hp, h => by
    obtain ⟨b, hb, hab⟩ := h a List.mem_cons_self
    obtain ⟨s, t, rfl⟩ := List.append_of_mem hb
    rw [List.pairwise_cons] at hp
    have := length_le_of_partners hsym htr l1 (s ++ t) hp.2 (by
      intro x hx
      obtain ⟨y, hy, hxy⟩ := h x (List.mem_cons_of_mem _ hx)
      rw [List.mem_append, List.mem_cons] at hy
      rcases hy with hy | rfl | hy
      · exact ⟨y, List.mem_append.2 (Or.inl hy), hxy⟩
      · exact absurd (htr _ _ _ hab (hsym _ _ hxy)) (hp.1 x hx)
      · exact ⟨y, List.mem_append.2 (Or.inr hy), hxy⟩)
    simp only [List.length_append, List.length_cons] at this ⊢
    omega

theorem filter_range_length {N : Nat} {l : List Nat} (hn : l.Nodup) (hl : ∀ j ∈ l, j < N) :
    ((List.range N).filter (fun i => l.contains i)).length = l.length := by
  apply Nat.le_antisymm
  · refine length_le_of_partners (R := Eq) (fun _ _ => Eq.symm) (fun _ _ _ => Eq.trans) _ _ ?_ ?_
    · exact (List.nodup_range.filter _)
    · intro a ha
      rw [List.mem_filter] at ha
      exact ⟨a, by simpa using ha.2, rfl⟩
  · refine length_le_of_partners (R := Eq) (fun _ _ => Eq.symm) (fun _ _ _ => Eq.trans) _ _ hn ?_
    intro a ha
    exact ⟨a, List.mem_filter.2 ⟨List.mem_range.2 (hl a ha), by simpa using ha⟩, rfl⟩

theorem sum_add {α : Type} (f g : α → Nat) : ∀ l : List α, (l.map (fun a => f a + g a)).sum = (l.map f).sum + (l.map g).sum
  | [] => rfl
  | a :: l => by
    simp only [List.map_cons, List.sum_cons]
    rw [sum_add f g l]
    omega

theorem sum_flag {α : Type} (p : α → Bool) : ∀ l : List α, (l.map (fun a => if p a = true then 1 else 0)).sum = (l.filter p).length
  | [] => rfl
  | a :: l => by
    simp only [List.map_cons, List.sum_cons, List.filter_cons]
    rw [sum_flag p l]
    cases p a
    · simp
    · simp; omega

/-- Counting the pairs of an id and a hyperedge with this id in two ways. -/
theorem double_count {N : Nat} : ∀ hs : List (HEdge L W), (∀ h ∈ hs, h.nodes.Nodup ∧ ∀ j ∈ h.nodes, j < N) →
    ((List.range N).map (fun i => (hs.filter (fun h => h.nodes.contains i)).length)).sum = (hs.map (fun h => h.nodes.length)).sum
  | [], _ => by
    have : ∀ l : List Nat, (l.map (fun i => (([] : List (HEdge L W)).filter (fun h => h.nodes.contains i)).length)).sum = 0 := by
      intro l
      induction l with
      | nil => rfl
      | cons a l ih => simp
    exact this _
  | h :: hs, hh => by
    have e : (fun i => ((h :: hs).filter (fun h => h.nodes.contains i)).length) =
        fun i => (if h.nodes.contains i = true then 1 else 0) + (hs.filter (fun h => h.nodes.contains i)).length := by
      funext i
      rw [List.filter_cons]
      cases h.nodes.contains i
      · simp
      · simp; omega
    rw [e, sum_add, sum_flag, filter_range_length (hh h List.mem_cons_self).1 (hh h List.mem_cons_self).2,
      double_count hs (fun x hx => hh x (List.mem_cons_of_mem _ hx))]
    rfl

/-! ### Histories -/

theorem nodup_setInsert {s : List Nat} (h : s.Nodup) (i : Nat) : (setInsert s i).Nodup := by
  unfold setInsert
  by_cases hc : s.contains i = true
  · rw [if_pos hc]; exact h
  · rw [if_neg hc, List.nodup_append]
    refine ⟨h, by simp, ?_⟩
    intro a ha b hb
    rw [List.mem_singleton] at hb
    subst hb
    rintro rfl
    exact hc (by simpa using ha)

theorem nodup_new (ids : List Nat) (o : EdgeOptions L W) : (HEdge.new ids o).nodes.Nodup := by
  rw [new_nodes]
  have : ∀ (l s : List Nat), s.Nodup → (l.foldl setInsert s).Nodup := by
    intro l
    induction l with
    | nil => intro s h; exact h
    | cons a l ih => intro s h; exact ih _ (nodup_setInsert h a)
  exact this ids [] List.nodup_nil

/-- What the loop of `add_edge` lists is what was listed, or the new hyperedge. -/
theorem mem_addLoop (e : HEdge L W) : ∀ (ids : List Nat) (m : HEdgeMap L W) (i : Nat) (x : HEdge L W),
    x ∈ listOf (addLoop e ids m).1 i → x ∈ listOf m i ∨ x = e
  | [], _, _, _, h => Or.inl h
  | id :: ids, m, i, x, h => by
    rw [addLoop] at h
    cases hg : HMap.get m id with
    | none =>
      rw [hg] at h
      rcases mem_addLoop e ids _ i x h with h | h
      · simp only [listOf, HMap.get_insert] at h
        by_cases hi : i = id
        · rw [if_pos hi] at h
          right
          simpa using h
        · rw [if_neg hi] at h
          exact Or.inl h
      · exact Or.inr h
    | some es =>
      rw [hg] at h
      dsimp only at h
      by_cases hany : es.any (fun x => x.eq e) = true
      · rw [if_pos hany] at h; exact Or.inl h
      · rw [if_neg hany] at h
        rcases mem_addLoop e ids _ i x h with h | h
        · simp only [listOf, HMap.get_adjustBy] at h
          by_cases hi : i = id
          · rw [if_pos hi, hg] at h
            simp only [Option.map_some, Option.getD_some, List.mem_append, List.mem_singleton] at h
            rcases h with h | h
            · left
              rw [hi, listOf_of_get hg]
              exact h
            · exact Or.inr h
          · rw [if_neg hi] at h; exact Or.inl h
        · exact Or.inr h

/-- The ids of the nodes are their places in the list of the nodes added, and hyperedges are sets of such ids. -/
structure PlaceInv (ident : O → K) (n : HNet K O L W) (us : List O) : Prop where
  full : Full n
  len : n.nodes2id.length = us.length
  place : ∀ i u, us[i]? = some u → HMap.get n.nodes2id (ident u) = some i
  below : ∀ k i, HMap.get n.nodes2id k = some i → i < us.length
  sets : ∀ i, ∀ e ∈ listOf n.edges i, e.nodes.Nodup ∧ ∀ j ∈ e.nodes, j < us.length

theorem idsOf_below {ident : O → K} {n : HNet K O L W} {N : Nat} (h : ∀ k i, HMap.get n.nodes2id k = some i → i < N) :
    ∀ (us : List O) (ids : List Nat), idsOf ident n us = some ids → ∀ j ∈ ids, j < N
  | [], ids, he, j, hj => by
    simp [idsOf] at he
    subst he
    simp at hj
  | u :: us, ids, he, j, hj => by
    rw [idsOf] at he
    cases hg : HMap.get n.nodes2id (ident u) with
    | none => rw [hg] at he; simp at he
    | some i =>
      rw [hg] at he
      obtain ⟨is, his, rfl⟩ := Option.map_eq_some_iff.1 he
      rcases List.mem_cons.1 hj with rfl | hj
      · exact h _ _ hg
      · exact idsOf_below h us is his j hj

theorem PlaceInv.step {ident : O → K} {n n' : HNet K O L W} {us : List O} {op : Op O L W} (h : PlaceInv ident n us)
    (hp : OnceEach ident n op) (he : exec ident n op = some n') : PlaceInv ident n' (us ++ nodesAdded [op]) := by
  have hf := exec_full n n' op h.full hp.2 he
  have same : n'.nodes2id = n.nodes2id → nodesAdded [op] = [] →
      (∀ i, ∀ e ∈ listOf n'.edges i, e.nodes.Nodup ∧ ∀ j ∈ e.nodes, j < us.length) → PlaceInv ident n' (us ++ nodesAdded [op]) := by
    intro h1 h2 h3
    rw [h2, List.append_nil]
    exact ⟨hf, by rw [h1]; exact h.len, by rw [h1]; exact h.place, by rw [h1]; exact h.below, h3⟩
  cases op with
  | addNode u =>
    have hu : HMap.get n.nodes2id (ident u) = none := hp.1
    simp [exec] at he
    subst he
    have hl : (us ++ nodesAdded [(.addNode u : Op O L W)]).length = us.length + 1 := by simp [nodesAdded]
    refine ⟨hf, ?_, ?_, ?_, ?_⟩
    · rw [hl]
      show (HMap.insert n.nodes2id (ident u) _).1.length = _
      rw [HMap.insert_absent hu, List.length_append, h.len]
      rfl
    · intro i v hv
      simp only [addNode, HMap.get_insert]
      by_cases hlt : i < us.length
      · rw [List.getElem?_append_left hlt] at hv
        have := h.place i v hv
        by_cases hk : ident v = ident u
        · rw [hk, hu] at this; simp at this
        · rw [if_neg hk]; exact this
      · rw [List.getElem?_append_right (by omega)] at hv
        simp only [nodesAdded] at hv
        have h0 : i - us.length = 0 := by
          rcases List.getElem?_eq_some_iff.1 hv with ⟨hb, _⟩
          simp at hb; omega
        rw [h0] at hv
        simp at hv
        subst hv
        rw [if_pos rfl, h.len]
        congr 1
        omega
    · intro k i hk
      rw [hl]
      simp only [addNode, HMap.get_insert] at hk
      by_cases hku : k = ident u
      · rw [if_pos hku] at hk
        have : n.nodes2id.length = i := Option.some.inj hk
        rw [h.len] at this
        omega
      · rw [if_neg hku] at hk
        have := h.below k i hk
        omega
    · intro i e hm
      have : listOf (addNode ident n u).edges i = listOf n.edges i := listOf_ensureList n.edges _ i
      rw [this] at hm
      rw [hl]
      exact ⟨(h.sets i e hm).1, fun j hj => Nat.lt_succ_of_lt ((h.sets i e hm).2 j hj)⟩
  | addEdge vs o =>
    simp [exec] at he
    rcases addEdge_eq (ident := ident) n vs o with h1 | ⟨u, us', i, ids, _, h2, h1⟩
    · rw [h1] at he; subst he
      exact same rfl rfl h.sets
    · rw [h1] at he; subst he
      refine same rfl rfl ?_
      intro k e hm
      rcases mem_addLoop _ _ _ _ _ hm with hm | rfl
      · exact h.sets k e hm
      · exact ⟨nodup_new _ _, fun j hj => idsOf_below h.below vs _ h2 j (mem_new.1 hj)⟩
  | removeEdge vs =>
    obtain ⟨⟨n1, b⟩, hr, rfl⟩ := Option.map_eq_some_iff.1 he
    rcases removeEdge_eq hr with ⟨rfl, _⟩ | ⟨ids, x, _, hx, rfl, _⟩
    · exact same rfl rfl h.sets
    · refine same rfl rfl ?_
      intro k e hm
      have hl := listOf_removed (removeLoop_spec _ _ _ _ _ h.full.base.noRepeats hx).1 k
      have hm' : e ∈ listOf x.1 k := hm
      rw [hl] at hm'
      by_cases hk : k ∈ ids
      · rw [if_pos hk] at hm'
        exact h.sets k e (List.mem_filter.1 hm').1
      · rw [if_neg hk] at hm'
        exact h.sets k e hm'
  | removeObject u => exact absurd hp.1 id
  | removeAllEdges =>
    simp [exec] at he
    subst he
    refine same rfl rfl ?_
    intro k e hm
    simp [removeAllEdges, listOf] at hm
  | updateNode u =>
    simp [exec] at he
    subst he
    have : (updateNode ident n u).nodes2id = n.nodes2id ∧ (updateNode ident n u).edges = n.edges := by
      unfold updateNode
      cases HMap.get n.nodes2id (ident u) <;> exact ⟨rfl, rfl⟩
    exact same this.1 rfl (by rw [this.2]; exact h.sets)
  | update =>
    simp [exec] at he
    subst he
    exact same rfl rfl h.sets

theorem nodesAdded_cons (op : Op O L W) (ops : List (Op O L W)) : nodesAdded (op :: ops) = nodesAdded [op] ++ nodesAdded ops := by
  cases op <;> rfl

theorem PlaceInv.run {ident : O → K} : ∀ (ops : List (Op O L W)) {n n' : HNet K O L W} {us : List O}, PlaceInv ident n us →
    Careful ident (OnceEach ident) n ops → run ident n ops = some n' → PlaceInv ident n' (us ++ nodesAdded ops)
  | [], n, n', us, h, _, hr => by
    simp [HNetwork.run] at hr
    subst hr
    simpa [nodesAdded] using h
  | op :: ops, n, n', us, h, hc, hr => by
    rw [HNetwork.run] at hr
    cases he : exec ident n op with
    | none => rw [he] at hr; simp at hr
    | some n1 =>
      rw [he] at hr
      rw [nodesAdded_cons, ← List.append_assoc]
      exact PlaceInv.run ops (h.step hc.1 he) (hc.2 n1 he) hr

theorem placeInv_new (ident : O → K) : PlaceInv ident (HNet.new : HNet K O L W) [] :=
  ⟨full_new, rfl, by intro i u h; simp at h, by intro k i h; simp [HNet.new] at h, by intro i e h; simp [HNet.new, listOf] at h⟩

/-- **C255**: the degrees of the published hypernetwork (the lengths of the lists of `get_edges`) add up to the sizes of the
hyperedges, each hyperedge counted once. -/
theorem C255_sum (ident : O → K) (ops : List (Op O L W)) (n : HNet K O L W)
    (hc : Careful ident (OnceEach ident) HNet.new ops) (hr : run ident HNet.new ops = some n)
    (hs : List (HEdge L W)) (he : Enumerates ident (update n) (nodesAdded ops) hs) :
    ((nodesAdded ops).map (fun u => ((getEdges ident (update n) u).getD []).length)).sum =
      (hs.map (fun h => h.nodes.length)).sum := by
  have inv : PlaceInv ident n (nodesAdded ops) := by
    have := (placeInv_new ident).run ops hc hr
    simpa using this
  have hget : ∀ i u, (nodesAdded ops)[i]? = some u → getEdges ident (update n) u = HMap.get n.edges i := by
    intro i u hu
    show (match HMap.get n.nodes2id (ident u) with | none => none | some uid => HMap.get n.edges uid) = _
    rw [inv.place i u hu]
  have hleft : (nodesAdded ops).map (fun u => ((getEdges ident (update n) u).getD []).length) =
      (List.range (nodesAdded ops).length).map (fun i => (listOf n.edges i).length) := by
    apply List.ext_getElem?
    intro i
    rw [List.getElem?_map, List.getElem?_map]
    by_cases hi : i < (nodesAdded ops).length
    · rw [List.getElem?_range hi, List.getElem?_eq_getElem hi]
      simp only [Option.map_some]
      rw [hget i _ (List.getElem?_eq_getElem hi)]
      rfl
    · rw [List.getElem?_eq_none (by omega), List.getElem?_eq_none (by simp; omega)]
      rfl
  have hmem : ∀ h ∈ hs, ∃ i, h ∈ listOf n.edges i := by
    intro h hh
    obtain ⟨u, hu, es, hes, hin⟩ := he.listed h hh
    obtain ⟨i, hi⟩ := List.getElem?_of_mem hu
    rw [hget i u hi] at hes
    exact ⟨i, by rw [listOf_of_get hes]; exact hin⟩
  have hlen : ∀ i ∈ List.range (nodesAdded ops).length,
      (listOf n.edges i).length = (hs.filter (fun h => h.nodes.contains i)).length := by
    intro i hi
    rw [List.mem_range] at hi
    apply Nat.le_antisymm
    · refine length_le_of_partners (R := SameNodes) (fun _ _ h => h.symm) (fun _ _ _ h h' => h.trans h') _ _
        (inv.full.base.noRepeats i) ?_
      intro e hein
      have hsome : ∃ es, HMap.get n.edges i = some es ∧ e ∈ es := by
        unfold listOf at hein
        cases hg : HMap.get n.edges i with
        | none => rw [hg] at hein; simp at hein
        | some es => rw [hg] at hein; exact ⟨es, rfl, hein⟩
      obtain ⟨es, hg, hes⟩ := hsome
      obtain ⟨h, hh, hsame⟩ := he.all _ (List.getElem_mem hi) es
        (by rw [hget i _ (List.getElem?_eq_getElem hi)]; exact hg) e hes
      refine ⟨h, List.mem_filter.2 ⟨hh, ?_⟩, hsame⟩
      have := (hsame i).1 (inv.full.base.members i e hein)
      simpa using this
    · refine length_le_of_partners (R := SameNodes) (fun _ _ h => h.symm) (fun _ _ _ h h' => h.trans h') _ _
        (he.once.filter _) ?_
      intro h hh
      rw [List.mem_filter] at hh
      obtain ⟨k, hk⟩ := hmem h hh.1
      obtain ⟨e', he', hsame⟩ := inv.full.complete k h hk i (by simpa using hh.2)
      exact ⟨e', he', hsame.symm⟩
  rw [hleft, List.map_congr_left hlen]
  apply double_count
  intro h hh
  obtain ⟨k, hk⟩ := hmem h hh
  exact inv.sets k h hk

/-- There is always such a list of the hyperedges, so the claim is about every hypernetwork. -/
theorem C255_enumeration (ident : O → K) (n : HNet K O L W) (us : List O) : ∃ hs, Enumerates ident n us hs := by
  have pick : ∀ l : List (HEdge L W), ∃ hs : List (HEdge L W), hs.Pairwise (fun a b => ¬ SameNodes a b) ∧ (∀ h ∈ hs, h ∈ l) ∧
      ∀ e ∈ l, ∃ h ∈ hs, SameNodes e h := by
    intro l
    induction l with
    | nil => exact ⟨[], List.Pairwise.nil, by simp, by simp⟩
    | cons a l ih =>
      obtain ⟨hs, h1, h2, h3⟩ := ih
      by_cases ha : ∃ h ∈ hs, SameNodes a h
      · refine ⟨hs, h1, fun h hh => List.mem_cons_of_mem _ (h2 h hh), ?_⟩
        intro e hx
        rcases List.mem_cons.1 hx with rfl | hx
        · exact ha
        · exact h3 e hx
      · refine ⟨a :: hs, List.pairwise_cons.2 ⟨fun b hb hab => ha ⟨b, hb, hab⟩, h1⟩, ?_, ?_⟩
        · intro h hh
          rcases List.mem_cons.1 hh with rfl | hh
          · exact List.mem_cons_self
          · exact List.mem_cons_of_mem _ (h2 h hh)
        · intro e hx
          rcases List.mem_cons.1 hx with rfl | hx
          · exact ⟨e, List.mem_cons_self, SameNodes.refl e⟩
          · obtain ⟨h, hh, hs'⟩ := h3 e hx
            exact ⟨h, List.mem_cons_of_mem _ hh, hs'⟩
  obtain ⟨hs, h1, h2, h3⟩ := pick (us.flatMap (fun u => (getEdges ident n u).getD []))
  refine ⟨hs, h1, ?_, ?_⟩
  · intro h hh
    obtain ⟨u, hu, hin⟩ := List.mem_flatMap.1 (h2 h hh)
    cases hg : getEdges ident n u with
    | none => rw [hg] at hin; simp at hin
    | some es => rw [hg] at hin; exact ⟨u, hu, es, hg, hin⟩
  · intro u hu es hes e hx
    exact h3 e (List.mem_flatMap.2 ⟨u, hu, by rw [hes]; exact hx⟩)

/-- Five memberships: a pair and a group of three. -/
example :
    let ops : List (Op Nat Unit Unit) := [.addNode 5, .addNode 6, .addNode 7, .addEdge [5, 6] .simple, .addEdge [6, 5] .simple,
      .addEdge [7, 5, 6] .simple, .addEdge [6, 7] .simple, .removeEdge [7, 6]]
    Careful id (OnceEach id) HNet.new ops ∧
      ((run id HNet.new ops).map (fun n => (nodesAdded ops).map (fun u => ((getEdges id (update n) u).getD []).length))) =
        some [2, 2, 1] ∧
      ((run id HNet.new ops).bind (fun n => getEdges id (update n) 5)) = some [⟨[0, 1], none, none⟩, ⟨[2, 0, 1], none, none⟩] := by
  refine ⟨?_, by decide, by decide⟩
  repeat' first
    | exact trivial
    | (refine ⟨⟨?_, ?_⟩, ?_⟩)
    | (intro ids hids; cases hids; decide)
    | (intro n' hn'; cases hn')
    | rfl

/-- The care is needed: after `add_edge` with a node named twice only this node lists the hyperedge, so the degrees add up to 1 and
the only hyperedge has size 2. -/
theorem C255_repeated : ∃ (ops : List (Op Nat Unit Unit)) (n : HNet Nat Nat Unit Unit), run id HNet.new ops = some n ∧
    Enumerates id (update n) (nodesAdded ops) [⟨[0, 1], none, none⟩] ∧
    ((nodesAdded ops).map (fun u => ((getEdges id (update n) u).getD []).length)).sum = 1 := by
  refine ⟨[.addNode 5, .addNode 6, .addEdge [5, 5, 6] .simple], _, rfl, ⟨List.pairwise_singleton _ _, ?_, ?_⟩, by decide⟩
  · intro h hh
    rw [List.mem_singleton] at hh
    subst hh
    exact ⟨5, by decide, _, rfl, by decide⟩
  · intro u hu es hes e hx
    have : u = 5 ∨ u = 6 := by simpa [nodesAdded] using hu
    rcases this with rfl | rfl
    · have h5 : es = [⟨[0, 1], none, none⟩] := Option.some.inj (hes.symm.trans (by decide))
      subst h5
      rw [List.mem_singleton] at hx
      subst hx
      exact ⟨_, List.mem_singleton.2 rfl, SameNodes.refl _⟩
    · have h6 : es = [] := Option.some.inj (hes.symm.trans (by decide))
      subst h6
      simp at hx

end Verif.HNetwork
