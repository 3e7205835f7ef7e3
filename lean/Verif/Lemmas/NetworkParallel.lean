import Verif.Lemmas.Network5
import Verif.Lemmas.NetworkDisplay

/-! Lemmas about the network model: the loops of `remove_incoming_edges` and `remove_outgoing_edges` with any number of
edges between two nodes. -/

set_option linter.unusedSectionVars false

namespace Verif.Network

variable {K O L W : Type} [DecidableEq K]

/-- Taking out the first edge to `k`, seen from the edges to `j`. -/
theorem filter_eraseP_target (es : List (Edge L W)) (k j : Nat) :
    (es.eraseP (fun e => e.v == k)).filter (fun e => e.v == j) =
      if j = k then (es.filter (fun e => e.v == j)).tail else es.filter (fun e => e.v == j) := by
  induction es with
  | nil => simp
  | cons e es ih =>
    by_cases hk : e.v = k
    · rw [List.eraseP_cons_of_pos (by simpa using hk)]
      by_cases hj : j = k
      · rw [if_pos hj, List.filter_cons_of_pos (by simp [hk, hj])]
        rfl
      · rw [if_neg hj, List.filter_cons_of_neg (by rw [hk]; simp [Ne.symm hj])]
    · rw [List.eraseP_cons_of_neg (by simpa using hk)]
      by_cases hv : e.v = j
      · have hj : j ≠ k := fun h => hk (hv.trans h)
        rw [List.filter_cons_of_pos (by simpa using hv), List.filter_cons_of_pos (by simpa using hv), ih, if_neg hj, if_neg hj]
      · rw [List.filter_cons_of_neg (by simpa using hv), List.filter_cons_of_neg (by simpa using hv), ih]

theorem find?_target_erased {es : List (Edge L W)} {k j : Nat} (h : j ≠ k) :
    (es.eraseP (fun e => e.v == k)).find? (fun e => e.v == j) = es.find? (fun e => e.v == j) := by
  rw [← List.head?_filter, ← List.head?_filter, filter_eraseP_target, if_neg h]

/-- The incoming loop in a directed network: every other list loses its first edge to `uid`. -/
theorem loop_in_directed {uid : Nat} (ks : List Nat) : ∀ {m : EdgeMap L W}, Own m → ks.Nodup →
    (∀ k ∈ ks, k ≠ uid → ∃ es, HMap.get m k = some es) →
    ∃ m' l, removeLoop true true uid ks m = some (m', l) ∧
      (∀ i, HMap.get m' i = if i ∈ ks ∧ i ≠ uid then (HMap.get m i).map (fun es => es.eraseP (fun e => e.v == uid))
        else HMap.get m i) ∧
      l = ks.flatMap (fun k => if k = uid then [] else
        (((HMap.get m k).getD []).find? (fun e => e.v == uid)).toList) := by
  induction ks with
  | nil => intro m _ _ _; exact ⟨m, [], rfl, fun _ => by simp, rfl⟩
  | cons k ks ih =>
    intro m hown hnd hks
    rw [List.nodup_cons] at hnd
    rw [removeLoop]
    by_cases hk : k = uid
    · rw [if_pos hk]
      obtain ⟨m', l, h3, h5, h6⟩ := ih hown hnd.2 (fun j hj => hks j (List.mem_cons_of_mem _ hj))
      refine ⟨m', l, h3, ?_, ?_⟩
      · intro i
        rw [h5 i]
        by_cases hi : i = uid
        · simp [hi]
        · have : i ≠ k := by rw [hk]; exact hi
          simp [this, hi]
      · rw [List.flatMap_cons, if_pos hk, List.nil_append]
        exact h6
    · rw [if_neg hk]
      obtain ⟨kes, hkes⟩ := hks k (by simp) hk
      simp only [if_true]
      obtain ⟨m1, h1, h2⟩ := removeEdgeIds_directed (b := uid) hkes (hown k kes hkes)
      rw [h1]
      dsimp only
      obtain ⟨m', l, h3, h5, h6⟩ := ih (m := m1) (hown.shrinks (removeEdgeIds_shrinks h1)) hnd.2 (by
        intro j hj hju
        have hjk : j ≠ k := fun h => hnd.1 (h ▸ hj)
        obtain ⟨jes, hjes⟩ := hks j (List.mem_cons_of_mem _ hj) hju
        exact ⟨jes, by rw [h2, if_neg hjk]; exact hjes⟩)
      rw [h3]
      refine ⟨m', _, rfl, ?_, ?_⟩
      · intro i
        rw [h5 i, h2]
        by_cases hik : i = k
        · subst hik
          rw [if_neg (fun h => hnd.1 h.1), if_pos rfl, if_pos ⟨List.mem_cons_self, hk⟩, hkes]
          rfl
        · simp [hik]
      · rw [List.flatMap_cons, if_neg hk, hkes, h6]
        dsimp only
        congr 1
        rw [List.flatMap_def, List.flatMap_def]
        congr 1
        apply List.map_congr_left
        intro j hj
        have hjk : j ≠ k := fun h => hnd.1 (h ▸ hj)
        rw [h2, if_neg hjk]

/-- The outgoing loop in a directed network: the list of `uid` loses its first edge to each other node. -/
theorem loop_out_directed {uid : Nat} (ks : List Nat) : ∀ {m : EdgeMap L W} {ues : List (Edge L W)}, Own m → ks.Nodup →
    HMap.get m uid = some ues →
    ∃ m' l ues', removeLoop true false uid ks m = some (m', l) ∧ HMap.get m' uid = some ues' ∧ ues'.Sublist ues ∧
      (∀ k, ues'.filter (fun e => e.v == k) = if k ∈ ks ∧ k ≠ uid then (ues.filter (fun e => e.v == k)).tail
        else ues.filter (fun e => e.v == k)) ∧
      (∀ i, i ≠ uid → HMap.get m' i = HMap.get m i) ∧
      l = ks.flatMap (fun k => if k = uid then [] else (ues.find? (fun e => e.v == k)).toList) := by
  induction ks with
  | nil => intro m ues _ _ hu; exact ⟨m, [], ues, rfl, hu, List.Sublist.refl _, fun _ => by simp, fun _ _ => rfl, rfl⟩
  | cons k ks ih =>
    intro m ues hown hnd hu
    rw [List.nodup_cons] at hnd
    rw [removeLoop]
    by_cases hk : k = uid
    · rw [if_pos hk]
      obtain ⟨m', l, ues', h1, h2, h3, h4, h5, h6⟩ := ih hown hnd.2 hu
      refine ⟨m', l, ues', h1, h2, h3, ?_, h5, ?_⟩
      · intro j
        rw [h4 j]
        by_cases hj : j = uid
        · simp [hj]
        · have : j ≠ k := by rw [hk]; exact hj
          simp [this, hj]
      · rw [List.flatMap_cons, if_pos hk, List.nil_append]
        exact h6
    · rw [if_neg hk]
      obtain ⟨m1, h1, h2⟩ := removeEdgeIds_directed (b := k) hu (hown uid ues hu)
      simp only [Bool.false_eq_true, if_false]
      rw [h1]
      dsimp only
      obtain ⟨m', l, ues', g1, g2, g3, g4, g5, g6⟩ := ih (m := m1) (ues := ues.eraseP (fun e => e.v == k))
        (hown.shrinks (removeEdgeIds_shrinks h1)) hnd.2 (by rw [h2, if_pos rfl])
      rw [g1]
      refine ⟨m', _, ues', rfl, g2, g3.trans List.eraseP_sublist, ?_, ?_, ?_⟩
      · intro j
        rw [g4 j, filter_eraseP_target]
        by_cases hjk : j = k
        · subst hjk
          rw [if_neg (fun h => hnd.1 h.1), if_pos rfl, if_pos ⟨List.mem_cons_self, hk⟩]
        · simp [hjk]
      · intro i hi
        rw [g5 i hi, h2, if_neg hi]
      · rw [List.flatMap_cons, if_neg hk, g6]
        dsimp only
        congr 1
        rw [List.flatMap_def, List.flatMap_def]
        congr 1
        apply List.map_congr_left
        intro j hj
        have hjk : j ≠ k := fun h => hnd.1 (h ▸ hj)
        rw [find?_target_erased hjk]

/-- The incoming loop in an undirected network where a node lists `uid` iff `uid` lists it: every other list loses its first
edge to `uid`, the list of `uid` all the edges to the others. -/
theorem loop_in_undirected {uid : Nat} (ks : List Nat) : ∀ {m : EdgeMap L W} {ues : List (Edge L W)}, Own m → ks.Nodup →
    HMap.get m uid = some ues →
    (∀ k ∈ ks, k ≠ uid → ∃ es, HMap.get m k = some es ∧ ((∃ e ∈ es, e.v = uid) ↔ ∃ e ∈ ues, e.v = k)) →
    ∃ m' l, removeLoop false true uid ks m = some (m', l) ∧
      HMap.get m' uid = some (ues.filter (fun e => e.v == uid || !(ks.contains e.v))) ∧
      (∀ i, i ≠ uid → HMap.get m' i = if i ∈ ks then (HMap.get m i).map (fun es => es.eraseP (fun e => e.v == uid))
        else HMap.get m i) ∧
      l = ks.flatMap (fun k => if k = uid then [] else
        (((HMap.get m k).getD []).find? (fun e => e.v == uid)).toList) := by
  induction ks with
  | nil => intro m ues _ _ hu _; exact ⟨m, [], rfl, by simp [hu], fun _ _ => by simp, rfl⟩
  | cons k ks ih =>
    intro m ues hown hnd hu hks
    rw [List.nodup_cons] at hnd
    rw [removeLoop]
    by_cases hk : k = uid
    · rw [if_pos hk]
      obtain ⟨m', l, h3, h4, h5, h6⟩ := ih hown hnd.2 hu (fun j hj => hks j (List.mem_cons_of_mem _ hj))
      refine ⟨m', l, h3, ?_, ?_, ?_⟩
      · rw [h4]
        congr 1
        refine List.filter_congr ?_
        intro e _
        by_cases he : e.v = uid
        · simp [he]
        · have : e.v ≠ k := by rw [hk]; exact he
          simp [this]
      · intro i hi
        rw [h5 i hi]
        have : i ≠ k := by rw [hk]; exact hi
        simp [this]
      · rw [List.flatMap_cons, if_pos hk, List.nil_append]
        exact h6
    · rw [if_neg hk]
      obtain ⟨kes, hkes, hiff⟩ := hks k (by simp) hk
      simp only [if_true]
      have hjk : ∀ j ∈ ks, j ≠ k := fun j hj h => hnd.1 (h ▸ hj)
      cases hf : kes.find? (fun e => e.v == uid) with
      | none =>
        have h0 : ∀ e ∈ kes, e.v ≠ uid := by
          rw [List.find?_eq_none] at hf
          intro e he
          simpa using hf e he
        have h0' : ∀ e ∈ ues, e.v ≠ k := by
          intro e he hv
          obtain ⟨e', he', hv'⟩ := hiff.2 ⟨e, he, hv⟩
          exact h0 e' he' hv'
        rw [removeEdgeIds_undirected_none hkes (hown k kes hkes) h0]
        dsimp only
        obtain ⟨m', l, h3, h4, h5, h6⟩ := ih hown hnd.2 hu (fun j hj => hks j (List.mem_cons_of_mem _ hj))
        rw [h3]
        refine ⟨m', _, rfl, ?_, ?_, ?_⟩
        · rw [h4]
          congr 1
          refine List.filter_congr ?_
          intro e he
          simp [h0' e he]
        · intro i hi
          rw [h5 i hi]
          by_cases hik : i = k
          · subst hik
            rw [if_neg hnd.1, if_pos List.mem_cons_self, hkes, Option.map_some, List.eraseP_of_forall_not]
            intro e he
            simpa using h0 e he
          · simp [hik]
        · rw [List.flatMap_cons, if_neg hk, hkes, h6]
          dsimp only [Option.getD_some]
          rw [hf]
      | some e0 =>
        obtain ⟨m1, h1, h2⟩ := removeEdgeIds_undirected hk hkes hu (hown k kes hkes) (hown uid ues hu) hf
        rw [h1]
        dsimp only
        obtain ⟨m', l, h3, h4, h5, h6⟩ := ih (m := m1) (ues := ues.filter (fun e => !(e.v == k)))
          (hown.shrinks (removeEdgeIds_shrinks h1)) hnd.2 (by rw [h2, if_neg (Ne.symm hk), if_pos rfl]) (by
            intro j hj hju
            obtain ⟨jes, hjes, hjiff⟩ := hks j (List.mem_cons_of_mem _ hj) hju
            refine ⟨jes, by rw [h2, if_neg (hjk j hj), if_neg hju]; exact hjes, hjiff.trans ?_⟩
            constructor
            · rintro ⟨e, he, hv⟩
              exact ⟨e, List.mem_filter.2 ⟨he, by simp [hv, hjk j hj]⟩, hv⟩
            · rintro ⟨e, he, hv⟩
              exact ⟨e, (List.mem_filter.1 he).1, hv⟩)
        rw [h3]
        refine ⟨m', _, rfl, ?_, ?_, ?_⟩
        · rw [h4, List.filter_filter]
          congr 1
          refine List.filter_congr ?_
          intro e _
          by_cases he : e.v = uid
          · have : uid ≠ k := fun h => hk h.symm
            simp [he, this]
          · by_cases he2 : e.v = k
            · simp [he2, hk]
            · simp [he, he2]
        · intro i hi
          rw [h5 i hi, h2, if_neg hi]
          by_cases hik : i = k
          · subst hik
            rw [if_neg hnd.1, if_pos rfl, if_pos List.mem_cons_self, hkes]
            rfl
          · simp [hik]
        · rw [List.flatMap_cons, if_neg hk, hkes, h6]
          dsimp only [Option.getD_some]
          rw [hf]
          congr 1
          rw [List.flatMap_def, List.flatMap_def]
          congr 1
          apply List.map_congr_left
          intro j hj
          by_cases hju : j = uid
          · rw [if_pos hju, if_pos hju]
          · rw [if_neg hju, if_neg hju, h2, if_neg (hjk j hj), if_neg hju]

/-- The outgoing loop in such a network: the list of `uid` loses its first edge to each other node, the other lists all the
edges to `uid`. -/
theorem loop_out_undirected {uid : Nat} (ks : List Nat) : ∀ {m : EdgeMap L W} {ues : List (Edge L W)}, Own m → ks.Nodup →
    HMap.get m uid = some ues →
    (∀ k ∈ ks, k ≠ uid → ∃ es, HMap.get m k = some es ∧ ((∃ e ∈ es, e.v = uid) ↔ ∃ e ∈ ues, e.v = k)) →
    ∃ m' l ues', removeLoop false false uid ks m = some (m', l) ∧ HMap.get m' uid = some ues' ∧ ues'.Sublist ues ∧
      (∀ k, ues'.filter (fun e => e.v == k) = if k ∈ ks ∧ k ≠ uid then (ues.filter (fun e => e.v == k)).tail
        else ues.filter (fun e => e.v == k)) ∧
      (∀ i, i ≠ uid → HMap.get m' i = if i ∈ ks then (HMap.get m i).map (fun es => es.filter (fun e => !(e.v == uid)))
        else HMap.get m i) ∧
      l = ks.flatMap (fun k => if k = uid then [] else (ues.find? (fun e => e.v == k)).toList) := by
  induction ks with
  | nil =>
    intro m ues _ _ hu _
    exact ⟨m, [], ues, rfl, hu, List.Sublist.refl _, fun _ => by simp, fun _ _ => by simp, rfl⟩
  | cons k ks ih =>
    intro m ues hown hnd hu hks
    rw [List.nodup_cons] at hnd
    rw [removeLoop]
    by_cases hk : k = uid
    · rw [if_pos hk]
      obtain ⟨m', l, ues', h1, h2, h3, h4, h5, h6⟩ := ih hown hnd.2 hu (fun j hj => hks j (List.mem_cons_of_mem _ hj))
      refine ⟨m', l, ues', h1, h2, h3, ?_, ?_, ?_⟩
      · intro j
        rw [h4 j]
        by_cases hj : j = uid
        · simp [hj]
        · have : j ≠ k := by rw [hk]; exact hj
          simp [this, hj]
      · intro i hi
        rw [h5 i hi]
        have : i ≠ k := by rw [hk]; exact hi
        simp [this]
      · rw [List.flatMap_cons, if_pos hk, List.nil_append]
        exact h6
    · rw [if_neg hk]
      obtain ⟨kes, hkes, hiff⟩ := hks k (by simp) hk
      simp only [Bool.false_eq_true, if_false]
      have hjk : ∀ j ∈ ks, j ≠ k := fun j hj h => hnd.1 (h ▸ hj)
      cases hf : ues.find? (fun e => e.v == k) with
      | none =>
        have h0 : ∀ e ∈ ues, e.v ≠ k := by
          rw [List.find?_eq_none] at hf
          intro e he
          simpa using hf e he
        have h0' : ∀ e ∈ kes, e.v ≠ uid := by
          intro e he hv
          obtain ⟨e', he', hv'⟩ := hiff.1 ⟨e, he, hv⟩
          exact h0 e' he' hv'
        rw [removeEdgeIds_undirected_none hu (hown uid ues hu) h0]
        dsimp only
        obtain ⟨m', l, ues', h1, h2, h3, h4, h5, h6⟩ := ih hown hnd.2 hu (fun j hj => hks j (List.mem_cons_of_mem _ hj))
        rw [h1]
        refine ⟨m', _, ues', rfl, h2, h3, ?_, ?_, ?_⟩
        · intro j
          rw [h4 j]
          by_cases hjk' : j = k
          · subst hjk'
            have : ues.filter (fun e => e.v == j) = [] := by
              rw [List.filter_eq_nil_iff]
              intro e he
              simpa using h0 e he
            rw [this]
            simp
          · simp [hjk']
        · intro i hi
          rw [h5 i hi]
          by_cases hik : i = k
          · subst hik
            have hself : kes.filter (fun e => !(e.v == uid)) = kes := by
              rw [List.filter_eq_self]
              intro e he
              simpa using h0' e he
            rw [if_neg hnd.1, if_pos List.mem_cons_self, hkes, Option.map_some, hself]
          · simp [hik]
        · rw [List.flatMap_cons, if_neg hk, h6, hf]
      | some e0 =>
        obtain ⟨m1, h1, h2⟩ := removeEdgeIds_undirected (Ne.symm hk) hu hkes (hown uid ues hu) (hown k kes hkes) hf
        rw [h1]
        dsimp only
        obtain ⟨m', l, ues', g1, g2, g3, g4, g5, g6⟩ := ih (m := m1) (ues := ues.eraseP (fun e => e.v == k))
          (hown.shrinks (removeEdgeIds_shrinks h1)) hnd.2 (by rw [h2, if_pos rfl]) (by
            intro j hj hju
            obtain ⟨jes, hjes, hjiff⟩ := hks j (List.mem_cons_of_mem _ hj) hju
            refine ⟨jes, by rw [h2, if_neg hju, if_neg (hjk j hj)]; exact hjes, hjiff.trans ?_⟩
            constructor
            · rintro ⟨e, he, hv⟩
              have hne : ¬ (fun e : Edge L W => e.v == k) e = true := by simp [hv, hjk j hj]
              exact ⟨e, (List.mem_eraseP_of_neg (p := fun e : Edge L W => e.v == k) hne).2 he, hv⟩
            · rintro ⟨e, he, hv⟩
              exact ⟨e, List.mem_of_mem_eraseP he, hv⟩)
        rw [g1]
        refine ⟨m', _, ues', rfl, g2, g3.trans List.eraseP_sublist, ?_, ?_, ?_⟩
        · intro j
          rw [g4 j, filter_eraseP_target]
          by_cases hjk' : j = k
          · subst hjk'
            rw [if_neg (fun h => hnd.1 h.1), if_pos rfl, if_pos ⟨List.mem_cons_self, hk⟩]
          · simp [hjk']
        · intro i hi
          rw [g5 i hi, h2, if_neg hi]
          by_cases hik : i = k
          · subst hik
            rw [if_neg hnd.1, if_pos rfl, if_pos List.mem_cons_self, hkes]
            rfl
          · simp [hik]
        · rw [List.flatMap_cons, if_neg hk, g6, hf]
          dsimp only
          congr 1
          rw [List.flatMap_def, List.flatMap_def]
          congr 1
          apply List.map_congr_left
          intro j hj
          rw [find?_target_erased (hjk j hj)]

/-- The outgoing loop of an undirected network leaves alone the list of a node that `uid` does not list. -/
theorem loop_out_keeps {uid : Nat} (ks : List Nat) : ∀ {m m' : EdgeMap L W} {l ues : List (Edge L W)}, Own m →
    HMap.get m uid = some ues → ∀ {i : Nat}, i ≠ uid → (∀ e ∈ ues, e.v ≠ i) → ∀ {es : List (Edge L W)},
    HMap.get m i = some es → removeLoop false false uid ks m = some (m', l) → HMap.get m' i = some es := by
  induction ks with
  | nil =>
    intro m m' l ues _ _ i _ _ es hes h
    rw [removeLoop] at h
    obtain ⟨rfl, -⟩ := Prod.mk.inj (Option.some.inj h)
    exact hes
  | cons k ks ih =>
    intro m m' l ues hown hu i hi hno es hes h
    rw [removeLoop] at h
    by_cases hk : k = uid
    · rw [if_pos hk] at h
      exact ih hown hu hi hno hes h
    · rw [if_neg hk] at h
      simp only [Bool.false_eq_true, if_false] at h
      cases hf : ues.find? (fun e => e.v == k) with
      | none =>
        have h0 : ∀ e ∈ ues, e.v ≠ k := by
          rw [List.find?_eq_none] at hf
          intro e he
          simpa using hf e he
        rw [removeEdgeIds_undirected_none hu (hown uid ues hu) h0] at h
        obtain ⟨⟨m2, l2⟩, h3, h4⟩ := Option.map_eq_some_iff.1 h
        obtain ⟨rfl, -⟩ := Prod.mk.inj h4
        exact ih hown hu hi hno hes h3
      | some e0 =>
        have hki : i ≠ k := by
          intro hik
          have := List.find?_some hf
          exact hno e0 (List.mem_of_find?_eq_some hf) (by rw [hik]; simpa using this)
        cases hkes : HMap.get m k with
        | none =>
          exfalso
          have hb : ∀ e ∈ ues, between uid k e = (e.v == k) := fun e he => between_own (hown uid ues hu e he)
          have : removeEdgeIds false m uid k = none := by
            unfold removeEdgeIds
            rw [hu]
            dsimp only
            rw [find?_congr' hb, hf, hkes]
            rfl
          rw [this] at h
          cases h
        | some kes =>
          obtain ⟨m1, h1, h2⟩ := removeEdgeIds_undirected (Ne.symm hk) hu hkes (hown uid ues hu) (hown k kes hkes) hf
          rw [h1] at h
          obtain ⟨⟨m2, l2⟩, h3, h4⟩ := Option.map_eq_some_iff.1 h
          obtain ⟨rfl, -⟩ := Prod.mk.inj h4
          exact ih (hown.shrinks (removeEdgeIds_shrinks h1)) (by rw [h2, if_pos rfl]) hi
            (fun e he => hno e (List.mem_of_mem_eraseP he)) (by rw [h2, if_neg hi, if_neg hki]; exact hes) h3

/-- The incoming loop of an undirected network panics when the list of `uid` is gone and some other list shows it. -/
theorem loop_in_panics {uid : Nat} (ks : List Nat) {m : EdgeMap L W} (hown : Own m) (hu : HMap.get m uid = none)
    {i : Nat} (hi : i ∈ ks) (hiu : i ≠ uid) {es : List (Edge L W)} (hes : HMap.get m i = some es)
    {e : Edge L W} (he : e ∈ es) (hv : e.v = uid) : removeLoop false true uid ks m = none := by
  induction ks with
  | nil => cases hi
  | cons k ks ih =>
    rw [removeLoop]
    by_cases hk : k = uid
    · rw [if_pos hk]
      refine ih ?_
      rcases List.mem_cons.1 hi with h | h
      · exact absurd (h.trans hk) hiu
      · exact h
    · rw [if_neg hk]
      simp only [if_true]
      cases hkes : HMap.get m k with
      | none =>
        unfold removeEdgeIds
        rw [hkes]
      | some kes =>
        have hb : ∀ e ∈ kes, between k uid e = (e.v == uid) := fun e he => between_own (hown k kes hkes e he)
        cases hf : kes.find? (fun e => e.v == uid) with
        | some e0 =>
          unfold removeEdgeIds
          rw [hkes]
          dsimp only
          rw [find?_congr' hb, hf, hu]
          rfl
        | none =>
          have h0 : ∀ e ∈ kes, e.v ≠ uid := by
            rw [List.find?_eq_none] at hf
            intro e he
            simpa using hf e he
          rw [removeEdgeIds_undirected_none hkes (hown k kes hkes) h0]
          dsimp only
          rw [ih ?_]
          · rfl
          · rcases List.mem_cons.1 hi with h | h
            · subst h
              rw [hes] at hkes
              obtain rfl := Option.some.inj hkes
              exact absurd hv (h0 e he)
            · exact h

end Verif.Network
