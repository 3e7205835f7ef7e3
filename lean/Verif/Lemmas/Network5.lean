import Verif.Lemmas.Network4

/-! Lemmas about the network model: `remove_incoming_edges` and `remove_outgoing_edges` on directed networks. -/

set_option linter.unusedSectionVars false

namespace Verif.Network

variable {K O L W : Type} [DecidableEq K]

theorem mem_find?_toList {α : Type} {p : α → Bool} {l : List α} (h : l.countP p ≤ 1) (e : α) :
    e ∈ (l.find? p).toList ↔ e ∈ l ∧ p e = true := by
  rw [← List.head?_filter, ← List.mem_filter]
  rw [List.countP_eq_length_filter] at h
  match hl : l.filter p with
  | [] => simp
  | [x] => simp
  | x :: y :: t => rw [hl] at h; simp at h

theorem removeLoop_in_directed_list {uid : Nat} (ks : List Nat) : ∀ {m : EdgeMap L W}, Own m →
    (∀ k ∈ ks, k ≠ uid → ∃ es, HMap.get m k = some es ∧ es.countP (fun e => e.v == uid) ≤ 1) →
    ∀ {m' l}, removeLoop true true uid ks m = some (m', l) →
      ∀ e, e ∈ l ↔ ∃ k ∈ ks, k ≠ uid ∧ ∃ es, HMap.get m k = some es ∧ e ∈ es ∧ e.v = uid := by
  induction ks with
  | nil => intro m _ _ m' l h e; simp [removeLoop] at h; simp [h.2]
  | cons k ks ih =>
    intro m hown hks m' l h e
    rw [removeLoop] at h
    by_cases hk : k = uid
    · rw [if_pos hk] at h
      rw [ih hown (fun j hj => hks j (List.mem_cons_of_mem _ hj)) h e]
      constructor
      · rintro ⟨j, hj, x⟩; exact ⟨j, List.mem_cons_of_mem _ hj, x⟩
      · rintro ⟨j, hj, hju, x⟩
        rcases List.mem_cons.1 hj with rfl | hj
        · exact absurd hk hju
        · exact ⟨j, hj, hju, x⟩
    · rw [if_neg hk] at h
      obtain ⟨es, hes, hc⟩ := hks k List.mem_cons_self hk
      obtain ⟨m1, h1, h2⟩ := removeEdgeIds_directed (b := uid) hes (hown k es hes)
      simp only [if_true] at h
      rw [h1] at h
      dsimp only at h
      obtain ⟨⟨m2, l2⟩, h3, h4⟩ := Option.map_eq_some_iff.1 h
      simp at h4
      obtain ⟨rfl, rfl⟩ := h4
      have hget : ∀ j, ∀ es', HMap.get m j = some es' → ∃ es'', HMap.get m1 j = some es'' ∧
          ∀ e, (e ∈ es'' ∧ e.v = uid) ↔ (j ≠ k ∧ e ∈ es' ∧ e.v = uid) := by
        intro j es' hj
        by_cases hjk : j = k
        · subst hjk
          rw [hes] at hj
          simp at hj
          subst hj
          refine ⟨_, by rw [h2, if_pos rfl], ?_⟩
          intro e
          rw [eraseP_eq_filter hc, List.mem_filter]
          simp
        · exact ⟨es', by rw [h2, if_neg hjk]; exact hj, fun e => by simp [hjk]⟩
      have ih' := ih (hown.shrinks (removeEdgeIds_shrinks h1)) (by
        intro j hj hju
        obtain ⟨es', h5, h6⟩ := hks j (List.mem_cons_of_mem _ hj) hju
        by_cases hjk : j = k
        · subst hjk
          rw [hes] at h5
          simp at h5
          subst h5
          refine ⟨_, by rw [h2, if_pos rfl], ?_⟩
          rw [countP_eraseP_self]
          omega
        · exact ⟨es', by rw [h2, if_neg hjk]; exact h5, h6⟩) h3 e
      rw [List.mem_append, ih', mem_find?_toList hc]
      constructor
      · rintro (⟨h5, h6⟩ | ⟨j, hj, hju, es', h5, h6⟩)
        · exact ⟨k, List.mem_cons_self, hk, es, hes, h5, by simpa using h6⟩
        · obtain ⟨es0, h8⟩ : ∃ es0, HMap.get m j = some es0 := by
            obtain ⟨es0, h8, _⟩ := hks j (List.mem_cons_of_mem _ hj) hju; exact ⟨es0, h8⟩
          obtain ⟨es1, h9, h10⟩ := hget j es0 h8
          rw [h5] at h9
          simp at h9
          subst h9
          exact ⟨j, List.mem_cons_of_mem _ hj, hju, es0, h8, ((h10 e).1 h6).2⟩
      · rintro ⟨j, hj, hju, es', h5, h6⟩
        by_cases hjk : j = k
        · subst hjk
          rw [hes] at h5
          simp at h5
          subst h5
          exact Or.inl ⟨h6.1, by simpa using h6.2⟩
        · right
          obtain ⟨es1, h9, h10⟩ := hget j es' h5
          refine ⟨j, ?_, hju, es1, h9, (h10 e).2 ⟨hjk, h6⟩⟩
          rcases List.mem_cons.1 hj with rfl | hj
          · exact absurd rfl hjk
          · exact hj

/-- The outgoing loop in a directed network, when there are no parallel edges: everything it does. -/
theorem removeLoop_out_directed_exact {uid : Nat} (ks : List Nat) : ∀ {m : EdgeMap L W} {ues : List (Edge L W)}, Own m →
    HMap.get m uid = some ues → (∀ k ∈ ks, k ≠ uid → ues.countP (fun e => e.v == k) ≤ 1) →
    ∃ m' l, removeLoop true false uid ks m = some (m', l) ∧
      HMap.get m' uid = some (ues.filter (fun e => e.v == uid || !(ks.contains e.v))) ∧
      (∀ i, i ≠ uid → HMap.get m' i = HMap.get m i) ∧
      ∀ e, e ∈ l ↔ e ∈ ues ∧ e.v ≠ uid ∧ e.v ∈ ks := by
  induction ks with
  | nil => intro m ues _ hu _; refine ⟨m, [], rfl, ?_, fun _ _ => rfl, fun e => by simp⟩; simp [hu]
  | cons k ks ih =>
    intro m ues hown hu hks
    rw [removeLoop]
    by_cases hk : k = uid
    · rw [if_pos hk]
      obtain ⟨m', l, h1, h2, h3, h4⟩ := ih hown hu (fun j hj => hks j (List.mem_cons_of_mem _ hj))
      refine ⟨m', l, h1, ?_, h3, ?_⟩
      · rw [h2]
        congr 1
        refine List.filter_congr ?_
        intro e _
        by_cases he : e.v = uid
        · simp [he]
        · have : e.v ≠ k := by rw [hk]; exact he
          simp [this]
      · intro e
        rw [h4 e]
        constructor
        · rintro ⟨a, b, c⟩; exact ⟨a, b, List.mem_cons_of_mem _ c⟩
        · rintro ⟨a, b, c⟩
          rcases List.mem_cons.1 c with c | c
          · exact absurd (c.trans hk) b
          · exact ⟨a, b, c⟩
    · rw [if_neg hk]
      obtain ⟨m1, h1, h2⟩ := removeEdgeIds_directed (b := k) hu (hown uid ues hu)
      simp only [Bool.false_eq_true, if_false]
      rw [h1]
      dsimp only
      have hc := hks k List.mem_cons_self hk
      rw [eraseP_eq_filter hc] at h2
      obtain ⟨m', l, h3, h4, h5, h6⟩ := ih (hown.shrinks (removeEdgeIds_shrinks h1)) (by rw [h2, if_pos rfl]) (by
        intro j hj hju
        refine Nat.le_trans ?_ (hks j (List.mem_cons_of_mem _ hj) hju)
        exact List.Sublist.countP_le List.filter_sublist)
      rw [h3]
      refine ⟨m', _, rfl, ?_, ?_, ?_⟩
      · rw [h4, List.filter_filter]
        congr 1
        refine List.filter_congr ?_
        intro e _
        by_cases he : e.v = uid
        · have : uid ≠ k := fun h => hk h.symm
          simp [he, this]
        · by_cases he2 : e.v = k
          · simp [he2, hk]
          · simp [he, he2]
      · intro i hi
        rw [h5 i hi, h2, if_neg hi]
      · intro e
        rw [List.mem_append, mem_find?_toList hc, h6, List.mem_filter, List.mem_cons]
        constructor
        · rintro (⟨a, b⟩ | ⟨⟨a, b⟩, c, d⟩)
          · simp at b; exact ⟨a, by rw [b]; exact hk, Or.inl b⟩
          · exact ⟨a, c, Or.inr d⟩
        · rintro ⟨a, b, c⟩
          by_cases hek : e.v = k
          · exact Or.inl ⟨a, by simpa using hek⟩
          · exact Or.inr ⟨⟨a, by simpa using hek⟩, b, by rcases c with c | c; exacts [absurd c hek, c]⟩

theorem published_keys {ident : O → K} {n : Net K O L W} (hids : n.w.IdsUnique ident) (hp : Published n) (uid : Nat) :
    ∀ k ∈ HMap.keys n.w.id2nodes, k ≠ uid →
      ∃ o, HMap.get n.w.id2nodes k = some o ∧ HMap.get n.r.nodes2id (ident o) = some k := by
  intro k hk _
  rw [HMap.mem_keys_iff, Option.isSome_iff_exists] at hk
  obtain ⟨o, ho⟩ := hk
  exact ⟨o, ho, hp _ _ (hids.2 k o ho)⟩

theorem removeEdgesOf_eq {ident : O → K} {n : Net K O L W} {u : O} {uid : Nat} {inc : Bool}
    (hu : HMap.get n.w.nodes2id (ident u) = some uid) (hids : n.w.IdsUnique ident) (hp : Published n)
    {m : EdgeMap L W} {l : List (Edge L W)}
    (h : removeLoop n.direct inc uid (HMap.keys n.w.id2nodes) n.w.edges = some (m, l)) :
    removeEdgesOf ident inc n u = some ({ n with w := { n.w with edges := m } }, some l) := by
  unfold removeEdgesOf
  rw [hp _ _ hu]
  dsimp only
  rw [foldl_removeStep_eq (HMap.keys n.w.id2nodes) n [] (hp _ _ hu) (published_keys hids hp uid), h]
  rfl

end Verif.Network
