import Verif.Lemmas.Network

/-! Lemmas about the network model: `remove_node`. -/

set_option linter.unusedSectionVars false

namespace Verif.Network

variable {K O L W : Type} [DecidableEq K]

/-- Every list holds edges that start at its id. -/
def Own (m : EdgeMap L W) : Prop := ∀ i es, HMap.get m i = some es → ∀ e ∈ es, e.u = i

theorem Own.shrinks {m m' : EdgeMap L W} (h : Own m) (hs : Shrinks m m') : Own m' := by
  intro i es' he e hm
  cases hg : HMap.get m i with
  | none => rw [(hs i).1 hg] at he; simp at he
  | some es =>
    obtain ⟨es'', h1, h2⟩ := (hs i).2 es hg
    rw [h1] at he
    simp at he
    subst he
    exact h i es hg e (h2.subset hm)

/-- The outgoing loop in a directed network only touches the list of `uid`. -/
theorem removeLoop_out_directed {uid : Nat} (ks : List Nat) : ∀ {m : EdgeMap L W}, Own m →
    (∃ es, HMap.get m uid = some es) →
    ∃ m' l, removeLoop true false uid ks m = some (m', l) ∧ (∃ es, HMap.get m' uid = some es) ∧
      ∀ i, i ≠ uid → HMap.get m' i = HMap.get m i := by
  induction ks with
  | nil => intro m _ hu; exact ⟨m, [], rfl, hu, fun _ _ => rfl⟩
  | cons k ks ih =>
    intro m hown hu
    rw [removeLoop]
    by_cases hk : k = uid
    · rw [if_pos hk]; exact ih hown hu
    · rw [if_neg hk]
      obtain ⟨es, hes⟩ := hu
      obtain ⟨m1, h1, h2⟩ := removeEdgeIds_directed (b := k) hes (hown uid es hes)
      simp only [Bool.false_eq_true, if_false]
      rw [h1]
      dsimp only
      obtain ⟨m', l, h3, h4, h5⟩ := ih (hown.shrinks (removeEdgeIds_shrinks h1)) ⟨_, by rw [h2, if_pos rfl]⟩
      rw [h3]
      refine ⟨m', _, rfl, h4, ?_⟩
      intro i hi
      rw [h5 i hi, h2, if_neg hi]

/-- The outgoing loop in an undirected network clears the edges to `uid` from the lists of `ks`. -/
theorem removeLoop_out_undirected {uid : Nat} (ks : List Nat) : ∀ {m : EdgeMap L W} {ues : List (Edge L W)}, Own m →
    HMap.get m uid = some ues →
    (∀ k ∈ ks, k ≠ uid → ∃ es, HMap.get m k = some es ∧ ((∃ e ∈ es, e.v = uid) → ∃ e ∈ ues, e.v = k)) →
    ∃ m' l, removeLoop false false uid ks m = some (m', l) ∧ (∃ es, HMap.get m' uid = some es) ∧
      ∀ i, i ≠ uid → HMap.get m' i =
        if i ∈ ks then (HMap.get m i).map (fun es => es.filter (fun e => !(e.v == uid))) else HMap.get m i := by
  induction ks with
  | nil => intro m ues _ hu _; exact ⟨m, [], rfl, ⟨_, hu⟩, fun _ _ => by simp⟩
  | cons k ks ih =>
    intro m ues hown hu hks
    have hks' : ∀ k ∈ ks, k ≠ uid → ∃ es, HMap.get m k = some es ∧ ((∃ e ∈ es, e.v = uid) → ∃ e ∈ ues, e.v = k) :=
      fun j hj => hks j (List.mem_cons_of_mem _ hj)
    rw [removeLoop]
    by_cases hk : k = uid
    · rw [if_pos hk]
      obtain ⟨m', l, h3, h4, h5⟩ := ih hown hu hks'
      refine ⟨m', l, h3, h4, ?_⟩
      intro i hi
      rw [h5 i hi]
      have : i ≠ k := by rw [hk]; exact hi
      simp [this]
    · rw [if_neg hk]
      obtain ⟨kes, hkes, himp⟩ := hks k (by simp) hk
      simp only [Bool.false_eq_true, if_false]
      cases hf : ues.find? (fun e => e.v == k) with
      | none =>
        have h0 : ∀ e ∈ ues, e.v ≠ k := by
          rw [List.find?_eq_none] at hf
          intro e he
          simpa using hf e he
        rw [removeEdgeIds_undirected_none hu (hown uid ues hu) h0]
        dsimp only
        obtain ⟨m', l, h3, h4, h5⟩ := ih hown hu hks'
        rw [h3]
        refine ⟨m', _, rfl, h4, ?_⟩
        intro i hi
        rw [h5 i hi]
        by_cases hik : i = k
        · subst hik
          have hself : kes.filter (fun e => !(e.v == uid)) = kes := by
            rw [List.filter_eq_self]
            intro e he
            by_cases hev : e.v = uid
            · obtain ⟨e', he', hv'⟩ := himp ⟨e, he, hev⟩
              exact absurd hv' (h0 e' he')
            · simpa using hev
          rw [hkes]
          simp [hself]
        · simp [hik]
      | some e =>
        obtain ⟨m1, h1, h2⟩ := removeEdgeIds_undirected (Ne.symm hk) hu hkes (hown uid ues hu) (hown k kes hkes) hf
        rw [h1]
        dsimp only
        obtain ⟨m', l, h3, h4, h5⟩ := ih (m := m1) (ues := ues.eraseP (fun e => e.v == k))
          (hown.shrinks (removeEdgeIds_shrinks h1)) (by rw [h2, if_pos rfl]) (by
            intro j hj hju
            obtain ⟨jes, hjes, hjimp⟩ := hks' j hj hju
            by_cases hjk : j = k
            · subst hjk
              refine ⟨kes.filter (fun e => !(e.v == uid)), by rw [h2, if_neg hju, if_pos rfl], ?_⟩
              rintro ⟨e', he', hv'⟩
              rw [List.mem_filter] at he'
              simp [hv'] at he'
            · refine ⟨jes, by rw [h2, if_neg hju, if_neg hjk]; exact hjes, ?_⟩
              intro hex
              obtain ⟨e', he', hv'⟩ := hjimp hex
              refine ⟨e', ?_, hv'⟩
              have hne : ¬ (fun e : Edge L W => e.v == k) e' = true := by simp [hv', hjk]
              exact (List.mem_eraseP_of_neg (p := fun e : Edge L W => e.v == k) hne).2 he')
        rw [h3]
        refine ⟨m', _, rfl, h4, ?_⟩
        intro i hi
        rw [h5 i hi, h2, if_neg hi]
        by_cases hik : i = k
        · subst hik
          rw [if_pos rfl, hkes]
          simp [List.filter_filter]
        · simp [hik]

/-- The incoming loop in a directed network clears the edges to `uid` if there is at most one per list. -/
theorem removeLoop_in_directed {uid : Nat} (ks : List Nat) : ∀ {m : EdgeMap L W}, Own m →
    (∀ k ∈ ks, k ≠ uid → ∃ es, HMap.get m k = some es ∧ es.countP (fun e => e.v == uid) ≤ 1) →
    ∃ m' l, removeLoop true true uid ks m = some (m', l) ∧
      ∀ i, HMap.get m' i =
        if i ∈ ks ∧ i ≠ uid then (HMap.get m i).map (fun es => es.filter (fun e => !(e.v == uid))) else HMap.get m i := by
  induction ks with
  | nil => intro m _ _; exact ⟨m, [], rfl, fun _ => by simp⟩
  | cons k ks ih =>
    intro m hown hks
    rw [removeLoop]
    by_cases hk : k = uid
    · rw [if_pos hk]
      obtain ⟨m', l, h3, h5⟩ := ih hown (fun j hj => hks j (List.mem_cons_of_mem _ hj))
      refine ⟨m', l, h3, ?_⟩
      intro i
      rw [h5 i]
      by_cases hi : i = uid
      · simp [hi]
      · have : i ≠ k := by rw [hk]; exact hi
        simp [this, hi]
    · rw [if_neg hk]
      obtain ⟨kes, hkes, hc⟩ := hks k (by simp) hk
      simp only [if_true]
      obtain ⟨m1, h1, h2⟩ := removeEdgeIds_directed (b := uid) hkes (hown k kes hkes)
      rw [h1]
      dsimp only
      obtain ⟨m', l, h3, h5⟩ := ih (m := m1) (hown.shrinks (removeEdgeIds_shrinks h1)) (by
        intro j hj hju
        by_cases hjk : j = k
        · subst hjk
          refine ⟨_, by rw [h2, if_pos rfl], ?_⟩
          rw [countP_eraseP_self]
          omega
        · obtain ⟨jes, hjes, hjc⟩ := hks j (List.mem_cons_of_mem _ hj) hju
          exact ⟨jes, by rw [h2, if_neg hjk]; exact hjes, hjc⟩)
      rw [h3]
      refine ⟨m', _, rfl, ?_⟩
      intro i
      rw [h5 i, h2]
      by_cases hik : i = k
      · subst hik
        rw [if_pos rfl, hkes, eraseP_eq_filter hc]
        simp [hk, List.filter_filter]
      · simp [hik]

/-- The incoming loop does nothing when no list mentions `uid`. -/
theorem removeLoop_in_nothing {d : Bool} {uid : Nat} (ks : List Nat) {m : EdgeMap L W} (hown : Own m)
    (hks : ∀ k ∈ ks, k ≠ uid → ∃ es, HMap.get m k = some es ∧ ∀ e ∈ es, e.v ≠ uid) :
    removeLoop d true uid ks m = some (m, []) := by
  induction ks with
  | nil => rfl
  | cons k ks ih =>
    rw [removeLoop]
    have ih' := ih (fun j hj => hks j (List.mem_cons_of_mem _ hj))
    by_cases hk : k = uid
    · rw [if_pos hk]; exact ih'
    · rw [if_neg hk]
      obtain ⟨es, hes, h0⟩ := hks k (by simp) hk
      simp only [if_true]
      rw [removeEdgeIds_undirected_none hes (hown k es hes) h0]
      dsimp only
      rw [ih']
      rfl

theorem adj_of_get {s : Side K O L W} {i : Nat} {es : List (Edge L W)} (h : HMap.get s.edges i = some es) :
    s.adj i = es := by simp [Side.adj, h]

theorem mult_of_get {s : Side K O L W} {i j : Nat} {es : List (Edge L W)} (h : HMap.get s.edges i = some es) :
    s.mult i j = es.countP (fun e => e.v == j) := by rw [Side.mult, adj_of_get h]

theorem mult_ne_zero {s : Side K O L W} {i j : Nat} {es : List (Edge L W)} (h : HMap.get s.edges i = some es) :
    s.mult i j ≠ 0 ↔ ∃ e ∈ es, e.v = j := by
  rw [mult_of_get h, ← Nat.pos_iff_ne_zero, List.countP_pos_iff]
  simp

theorem own_of_known {s : Side K O L W} (h : s.EdgesKnown) : Own s.edges := by
  intro i es hes e he
  exact (h.1 i e (by rw [adj_of_get hes]; exact he)).1

/-- `remove_node`, when nodes are published, have lists, and `Removable` holds: everything it does. -/
theorem removeNode_ok {ident : O → K} {n : Net K O L W} {u : O} {uid : Nat}
    (hu : HMap.get n.w.nodes2id (ident u) = some uid)
    (hids : n.w.IdsUnique ident) (hk : n.w.EdgesKnown) (hp : Published n) (hl : n.w.Listed)
    (hr : Removable n uid) :
    ∃ n', removeNode ident n u = some (n', true) ∧ n'.r = n.r ∧ n'.direct = n.direct ∧
      n'.w.nodes2id = (HMap.remove n.w.nodes2id (ident u)).1 ∧
      n'.w.id2nodes = (HMap.remove n.w.id2nodes uid).1 ∧
      ∀ i, HMap.get n'.w.edges i =
        if i = uid then none else (HMap.get n.w.edges i).map (fun es => es.filter (fun e => !(e.v == uid))) := by
  have hown := own_of_known hk
  have hru := hp _ _ hu
  obtain ⟨uo, huo, _⟩ := hids.1 _ _ hu
  obtain ⟨ues, hues⟩ := hl uid uo huo
  have hkeys : ∀ k ∈ HMap.keys n.w.id2nodes, k ≠ uid →
      ∃ o, HMap.get n.w.id2nodes k = some o ∧ HMap.get n.r.nodes2id (ident o) = some k := by
    intro k hk _
    rw [HMap.mem_keys_iff, Option.isSome_iff_exists] at hk
    obtain ⟨o, ho⟩ := hk
    exact ⟨o, ho, hp _ _ (hids.2 k o ho)⟩
  have hlist : ∀ k ∈ HMap.keys n.w.id2nodes, ∃ es, HMap.get n.w.edges k = some es := by
    intro k hk
    rw [HMap.mem_keys_iff, Option.isSome_iff_exists] at hk
    obtain ⟨o, ho⟩ := hk
    exact hl k o ho
  -- a list outside the keys does not exist
  have hout : ∀ i, i ∉ HMap.keys n.w.id2nodes → HMap.get n.w.edges i = none := by
    intro i hi
    cases hg : HMap.get n.w.edges i with
    | none => rfl
    | some es => exact absurd (HMap.mem_keys_iff.2 (hk.2 i es hg)) hi
  -- the outgoing loop
  have hout1 : ∃ m1 l1, removeLoop n.direct false uid (HMap.keys n.w.id2nodes) n.w.edges = some (m1, l1) ∧
      Own m1 ∧ ∀ i, i ≠ uid → HMap.get m1 i = if n.direct = true then HMap.get n.w.edges i
        else (HMap.get n.w.edges i).map (fun es => es.filter (fun e => !(e.v == uid))) := by
    cases hd : n.direct with
    | true =>
      obtain ⟨m1, l1, h1, _, h3⟩ := removeLoop_out_directed (HMap.keys n.w.id2nodes) hown ⟨ues, hues⟩
      refine ⟨m1, l1, h1, ?_, fun i hi => by rw [h3 i hi]; simp⟩
      intro i es he
      by_cases hi : i = uid
      · subst hi
        have := foldl_removeStep_eq (inc := false) (HMap.keys n.w.id2nodes) n [] hru hkeys
        rw [hd, h1] at this
        have hf := (foldl_removeStep_frame _ this).edges
        exact hown.shrinks hf i es he
      · rw [h3 i hi] at he; exact hown i es he
    | false =>
      obtain ⟨m1, l1, h1, _, h3⟩ := removeLoop_out_undirected (HMap.keys n.w.id2nodes) hown hues (by
        intro k hk hku
        obtain ⟨es, hes⟩ := hlist k hk
        refine ⟨es, hes, ?_⟩
        intro hex
        exact (mult_ne_zero hues).1 ((hr k hku).2 hd ((mult_ne_zero hes).2 hex)))
      have hh : ∀ i, i ≠ uid → HMap.get m1 i =
          (HMap.get n.w.edges i).map (fun es => es.filter (fun e => !(e.v == uid))) := by
        intro i hi
        rw [h3 i hi]
        by_cases him : i ∈ HMap.keys n.w.id2nodes
        · rw [if_pos him]
        · rw [if_neg him, hout i him]; rfl
      refine ⟨m1, l1, h1, ?_, fun i hi => by rw [hh i hi]; simp⟩
      have := foldl_removeStep_eq (inc := false) (HMap.keys n.w.id2nodes) n [] hru hkeys
      rw [hd, h1] at this
      exact hown.shrinks (foldl_removeStep_frame _ this).edges
  obtain ⟨m1, l1, h1, hown1, hm1⟩ := hout1
  have e1 : removeEdgesOf ident false n u = some ({ n with w := { n.w with edges := m1 } }, some l1) := by
    unfold removeEdgesOf
    rw [hru]
    dsimp only
    rw [foldl_removeStep_eq (inc := false) (HMap.keys n.w.id2nodes) n [] hru hkeys, h1]
    rfl
  -- the incoming loop, after the list of `uid` is gone
  generalize hn1 : (dropList { n with w := { n.w with edges := m1 } } uid) = n1
  have hn1e : ∀ i, HMap.get n1.w.edges i = if i = uid then none else if n.direct = true then HMap.get n.w.edges i
        else (HMap.get n.w.edges i).map (fun es => es.filter (fun e => !(e.v == uid))) := by
    intro i
    rw [← hn1]
    simp only [dropList, HMap.get_remove]
    by_cases hi : i = uid
    · rw [if_pos hi, if_pos hi]
    · rw [if_neg hi, if_neg hi, hm1 i hi]
  have hown' : Own n1.w.edges := by
    intro i es he
    rw [← hn1] at he
    simp only [dropList, HMap.get_remove] at he
    by_cases hi : i = uid
    · rw [if_pos hi] at he; simp at he
    · rw [if_neg hi] at he; exact hown1 i es he
  have hn1r : n1.r = n.r := by rw [← hn1]; rfl
  have hn1d : n1.direct = n.direct := by rw [← hn1]; rfl
  have hn1n : n1.w.nodes2id = n.w.nodes2id := by rw [← hn1]; rfl
  have hn1i : n1.w.id2nodes = n.w.id2nodes := by rw [← hn1]; rfl
  have hin : ∃ m2 l2, removeLoop n.direct true uid (HMap.keys n.w.id2nodes) n1.w.edges = some (m2, l2) ∧
      ∀ i, HMap.get m2 i = if i = uid then none
        else (HMap.get n.w.edges i).map (fun es => es.filter (fun e => !(e.v == uid))) := by
    cases hd : n.direct with
    | true =>
      have hn1e' : ∀ i, i ≠ uid → HMap.get n1.w.edges i = HMap.get n.w.edges i := by
        intro i hi; rw [hn1e, if_neg hi, if_pos hd]
      obtain ⟨m2, l2, h2, h3⟩ := removeLoop_in_directed (uid := uid) (HMap.keys n.w.id2nodes) hown' (by
        intro k hkk hku
        obtain ⟨es, hes⟩ := hlist k hkk
        refine ⟨es, by rw [hn1e' k hku]; exact hes, ?_⟩
        rw [← mult_of_get hes]
        exact (hr k hku).1 hd)
      refine ⟨m2, l2, h2, ?_⟩
      intro i
      rw [h3]
      by_cases hi : i = uid
      · rw [if_neg (by simp [hi]), if_pos hi, hn1e, if_pos hi]
      · rw [if_neg hi]
        by_cases him : i ∈ HMap.keys n.w.id2nodes
        · rw [if_pos ⟨him, hi⟩, hn1e' i hi]
        · rw [if_neg (by simp [him]), hn1e' i hi, hout i him]; rfl
    | false =>
      have hn1e' : ∀ i, i ≠ uid → HMap.get n1.w.edges i =
          (HMap.get n.w.edges i).map (fun es => es.filter (fun e => !(e.v == uid))) := by
        intro i hi; rw [hn1e, if_neg hi, if_neg (by simp [hd])]
      refine ⟨n1.w.edges, [], removeLoop_in_nothing _ hown' ?_, ?_⟩
      · intro k hkk hku
        obtain ⟨es, hes⟩ := hlist k hkk
        refine ⟨_, by rw [hn1e' k hku, hes]; rfl, ?_⟩
        intro e he
        rw [List.mem_filter] at he
        simpa using he.2
      · intro i
        by_cases hi : i = uid
        · rw [if_pos hi, hn1e, if_pos hi]
        · rw [if_neg hi, hn1e' i hi]
  obtain ⟨m2, l2, h2, hm2⟩ := hin
  have e2 : removeEdgesOf ident true n1 u = some ({ n1 with w := { n1.w with edges := m2 } }, some l2) := by
    have hx := foldl_removeStep_eq (inc := true) (HMap.keys n1.w.id2nodes) n1 [] (by rw [hn1r]; exact hru)
      (ns := n1.w.id2nodes) (by rw [hn1r, hn1i]; exact hkeys)
    have h2' : removeLoop n1.direct true uid (HMap.keys n1.w.id2nodes) n1.w.edges = some (m2, l2) := by
      rw [hn1d, hn1i]; exact h2
    rw [h2'] at hx
    unfold removeEdgesOf
    rw [show HMap.get n1.r.nodes2id (ident u) = some uid by rw [hn1r]; exact hru]
    dsimp only
    rw [hx]
    rfl
  refine ⟨{ n with w := { edges := (HMap.remove m2 uid).1, nodes2id := (HMap.remove n.w.nodes2id (ident u)).1,
                          id2nodes := (HMap.remove n.w.id2nodes uid).1 } }, ?_, rfl, rfl, rfl, rfl, ?_⟩
  · unfold removeNode
    rw [hu]
    dsimp only
    rw [e1]
    dsimp only
    rw [hn1, e2]
    simp [hn1r, hn1d, hn1n, hn1i]
  · intro i
    simp only [HMap.get_remove, hm2]
    by_cases hi : i = uid
    · rw [if_pos hi, if_pos hi]
    · rw [if_neg hi, if_neg hi]

end Verif.Network
