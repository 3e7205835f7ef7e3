import Verif.Lemmas.Network2

/-! Lemmas about the network model: invariants of histories. -/

set_option linter.unusedSectionVars false

namespace Verif.Network

variable {K O L W : Type} [DecidableEq K]

/-! ### Sides -/

theorem known_shrinks {s s' : Side K O L W} (h : s.EdgesKnown) (hi : s'.id2nodes = s.id2nodes)
    (he : Shrinks s.edges s'.edges) : s'.EdgesKnown := by
  refine ⟨?_, ?_⟩
  · intro i e hmem
    cases hg : HMap.get s.edges i with
    | none => simp [Side.adj, (he i).1 hg] at hmem
    | some es =>
      obtain ⟨es', h1, h2⟩ := (he i).2 es hg
      rw [adj_of_get h1] at hmem
      rw [hi]
      exact h.1 i e (by rw [adj_of_get hg]; exact h2.subset hmem)
  · intro i es' hes
    rw [hi]
    cases hg : HMap.get s.edges i with
    | none => rw [(he i).1 hg] at hes; simp at hes
    | some es => exact h.2 i es hg

theorem idsUnique_congr {ident : O → K} {s s' : Side K O L W} (h : s.IdsUnique ident) (h1 : s'.nodes2id = s.nodes2id)
    (h2 : s'.id2nodes = s.id2nodes) : s'.IdsUnique ident := by
  unfold Side.IdsUnique
  rw [h1, h2]
  exact h

theorem addNode_idsUnique {ident : O → K} {n : Net K O L W} {u : O} (h : n.w.IdsUnique ident)
    (hu : HMap.get n.w.nodes2id (ident u) = none) (hf : HMap.get n.w.id2nodes n.w.nodes2id.length = none) :
    (addNode ident n u).w.IdsUnique ident := by
  refine ⟨?_, ?_⟩
  · intro k i hk
    simp only [addNode, HMap.get_insert] at hk ⊢
    by_cases hku : k = ident u
    · subst hku
      simp at hk
      subst hk
      exact ⟨u, by simp, rfl⟩
    · simp [hku] at hk
      obtain ⟨o, ho, hid⟩ := h.1 k i hk
      refine ⟨o, ?_, hid⟩
      by_cases hi : i = n.w.nodes2id.length
      · subst hi; rw [hf] at ho; simp at ho
      · simp [hi, ho]
  · intro i o hi
    simp only [addNode, HMap.get_insert] at hi ⊢
    by_cases hin : i = n.w.nodes2id.length
    · subst hin
      simp at hi
      subst hi
      simp
    · simp [hin] at hi
      have := h.2 i o hi
      by_cases ho : ident o = ident u
      · rw [ho, hu] at this; simp at this
      · simp [ho, this]

theorem adj_addNode (ident : O → K) (n : Net K O L W) (u : O) (i : Nat) : (addNode ident n u).w.adj i = n.w.adj i := by
  simp only [Side.adj, addNode, get_ensureList]
  by_cases hi : i = n.w.nodes2id.length
  · rw [if_pos hi, hi]; rfl
  · rw [if_neg hi]

theorem addNode_known (ident : O → K) {n : Net K O L W} (u : O) (h : n.w.EdgesKnown) :
    (addNode ident n u).w.EdgesKnown := by
  have hmono : ∀ i, (HMap.get n.w.id2nodes i).isSome = true →
      (HMap.get (addNode ident n u).w.id2nodes i).isSome = true := by
    intro i hi
    simp only [addNode, HMap.get_insert]
    split
    · rfl
    · exact hi
  refine ⟨?_, ?_⟩
  · intro i e he
    rw [adj_addNode] at he
    exact ⟨(h.1 i e he).1, hmono _ (h.1 i e he).2⟩
  · intro i es hes
    simp only [addNode, get_ensureList] at hes
    by_cases hi : i = n.w.nodes2id.length
    · simp [addNode, hi]
    · rw [if_neg hi] at hes
      exact hmono i (h.2 i es hes)

/-- What `add_edge` does to the adjacency lists. -/
theorem addEdge_ok {ident : O → K} {n : Net K O L W} {u v : O} {o : EdgeOptions L W} {uid vid : Nat}
    (hu : HMap.get n.w.nodes2id (ident u) = some uid) (hv : HMap.get n.w.nodes2id (ident v) = some vid) :
    (addEdge ident n u v o).2 = (true, !n.direct) ∧
    (addEdge ident n u v o).1.w.nodes2id = n.w.nodes2id ∧ (addEdge ident n u v o).1.w.id2nodes = n.w.id2nodes ∧
    (∀ i, (addEdge ident n u v o).1.w.adj i = n.w.adj i ++ (if i = uid then [Edge.new uid vid o] else []) ++
      (if n.direct = false ∧ i = vid then [Edge.new vid uid o] else [])) ∧
    (∀ i, HMap.get (addEdge ident n u v o).1.w.edges i = none ↔
      HMap.get n.w.edges i = none ∧ i ≠ uid ∧ (n.direct = false → i ≠ vid)) := by
  unfold addEdge
  rw [hu]
  dsimp only
  rw [hv]
  dsimp only
  cases hd : n.direct with
  | true =>
    simp only [if_true]
    refine ⟨rfl, trivial, trivial, ?_, ?_⟩
    · intro i
      simp only [Side.adj, get_pushEdge]
      by_cases hi : i = uid
      · subst hi; simp
      · simp [hi]
    · intro i
      simp only [get_pushEdge]
      by_cases hi : i = uid
      · subst hi; simp
      · simp [hi]
  | false =>
    simp only [Bool.false_eq_true, if_false]
    refine ⟨rfl, trivial, trivial, ?_, ?_⟩
    · intro i
      simp only [Side.adj, get_pushEdge]
      by_cases hi : i = uid
      · by_cases hiv : i = vid
        · subst hi; subst hiv; simp
        · subst hi; simp [hiv]
      · by_cases hiv : i = vid
        · subst hiv; simp [hi]
        · simp [hi, hiv]
    · intro i
      simp only [get_pushEdge]
      by_cases hi : i = uid
      · by_cases hiv : i = vid
        · subst hi; subst hiv; simp
        · subst hi; simp [hiv]
      · by_cases hiv : i = vid
        · simp [hiv]
        · simp [hi, hiv]

theorem addEdge_absent {ident : O → K} {n : Net K O L W} {u v : O} {o : EdgeOptions L W}
    (h : HMap.get n.w.nodes2id (ident u) = none ∨ HMap.get n.w.nodes2id (ident v) = none) :
    addEdge ident n u v o = (n, false, false) := by
  unfold addEdge
  cases hu : HMap.get n.w.nodes2id (ident u) with
  | none => rfl
  | some uid =>
    dsimp only
    rcases h with h | h
    · rw [hu] at h; simp at h
    · rw [h]

theorem Edge.new_u (a b : Nat) (o : EdgeOptions L W) : (Edge.new a b o).u = a := by cases o <;> rfl
theorem Edge.new_v (a b : Nat) (o : EdgeOptions L W) : (Edge.new a b o).v = b := by cases o <;> rfl

theorem addEdge_known {ident : O → K} {n : Net K O L W} {u v : O} {o : EdgeOptions L W}
    (hids : n.w.IdsUnique ident) (h : n.w.EdgesKnown) : (addEdge ident n u v o).1.w.EdgesKnown := by
  cases hu : HMap.get n.w.nodes2id (ident u) with
  | none => rw [addEdge_absent (Or.inl hu)]; exact h
  | some uid =>
    cases hv : HMap.get n.w.nodes2id (ident v) with
    | none => rw [addEdge_absent (Or.inr hv)]; exact h
    | some vid =>
      obtain ⟨_, _, h2, h3, h4⟩ := addEdge_ok (o := o) hu hv
      obtain ⟨uo, huo, _⟩ := hids.1 _ _ hu
      obtain ⟨vo, hvo, _⟩ := hids.1 _ _ hv
      refine ⟨?_, ?_⟩
      · intro i e he
        rw [h3, List.mem_append, List.mem_append] at he
        rw [h2]
        rcases he with (he | he) | he
        · exact h.1 i e he
        · by_cases hi : i = uid
          · rw [if_pos hi] at he
            simp at he
            subst he
            rw [Edge.new_u, Edge.new_v, hvo]
            exact ⟨hi.symm, rfl⟩
          · rw [if_neg hi] at he; simp at he
        · by_cases hi : n.direct = false ∧ i = vid
          · rw [if_pos hi] at he
            simp at he
            subst he
            rw [Edge.new_u, Edge.new_v, huo]
            exact ⟨hi.2.symm, rfl⟩
          · rw [if_neg hi] at he; simp at he
      · intro i es hes
        rw [h2]
        have hne : HMap.get (addEdge ident n u v o).1.w.edges i ≠ none := by rw [hes]; simp
        rw [Ne, h4, not_and_or, not_and_or] at hne
        rcases hne with hne | hne | hne
        · cases hg : HMap.get n.w.edges i with
          | none => exact absurd hg hne
          | some es => exact h.2 i es hg
        · rw [not_not.1 hne, huo]; rfl
        · rw [show i = vid by simpa using (Classical.not_imp.1 hne).2, hvo]; rfl

theorem addEdge_nodes (ident : O → K) (n : Net K O L W) (u v : O) (o : EdgeOptions L W) :
    (addEdge ident n u v o).1.w.nodes2id = n.w.nodes2id ∧ (addEdge ident n u v o).1.w.id2nodes = n.w.id2nodes := by
  cases hu : HMap.get n.w.nodes2id (ident u) with
  | none => rw [addEdge_absent (Or.inl hu)]; exact ⟨rfl, rfl⟩
  | some uid =>
    cases hv : HMap.get n.w.nodes2id (ident v) with
    | none => rw [addEdge_absent (Or.inr hv)]; exact ⟨rfl, rfl⟩
    | some vid =>
      obtain ⟨_, h1, h2, _⟩ := addEdge_ok (o := o) hu hv
      exact ⟨h1, h2⟩

theorem updateNode_spec (ident : O → K) (n : Net K O L W) (u : O) :
    (updateNode ident n u).w.edges = n.w.edges ∧ (updateNode ident n u).w.nodes2id = n.w.nodes2id ∧
    ∀ i, HMap.get (updateNode ident n u).w.id2nodes i =
      if HMap.get n.w.nodes2id (ident u) = some i then (HMap.get n.w.id2nodes i).map (fun _ => u)
      else HMap.get n.w.id2nodes i := by
  unfold updateNode
  cases hu : HMap.get n.w.nodes2id (ident u) with
  | none => simp
  | some uid =>
    refine ⟨rfl, rfl, ?_⟩
    intro i
    simp only [HMap.get_adjustBy, Option.some.injEq]
    by_cases hi : i = uid
    · subst hi; simp
    · simp [hi, Ne.symm hi]

theorem updateNode_idsUnique {ident : O → K} {n : Net K O L W} (u : O) (h : n.w.IdsUnique ident) :
    (updateNode ident n u).w.IdsUnique ident := by
  obtain ⟨_, h2, h3⟩ := updateNode_spec ident n u
  refine ⟨?_, ?_⟩
  · intro k i hk
    rw [h2] at hk
    obtain ⟨o, ho, hid⟩ := h.1 k i hk
    rw [h3]
    by_cases hu : HMap.get n.w.nodes2id (ident u) = some i
    · rw [if_pos hu, ho]
      refine ⟨u, rfl, ?_⟩
      obtain ⟨o', ho', hid'⟩ := h.1 _ i hu
      rw [ho] at ho'
      simp at ho'
      rw [← hid', ← ho', hid]
    · rw [if_neg hu]
      exact ⟨o, ho, hid⟩
  · intro i o hi
    rw [h2]
    rw [h3] at hi
    by_cases hu : HMap.get n.w.nodes2id (ident u) = some i
    · rw [if_pos hu] at hi
      rw [Option.map_eq_some_iff] at hi
      obtain ⟨_, _, rfl⟩ := hi
      exact hu
    · rw [if_neg hu] at hi
      exact h.2 i o hi

theorem updateNode_known {ident : O → K} {n : Net K O L W} (u : O) (h : n.w.EdgesKnown) :
    (updateNode ident n u).w.EdgesKnown := by
  obtain ⟨h1, _, h3⟩ := updateNode_spec ident n u
  have hs : ∀ i, (HMap.get n.w.id2nodes i).isSome = true →
      (HMap.get (updateNode ident n u).w.id2nodes i).isSome = true := by
    intro i hi
    rw [h3]
    split
    · simpa using hi
    · exact hi
  refine ⟨?_, ?_⟩
  · intro i e he
    have : n.w.adj i = (updateNode ident n u).w.adj i := by simp [Side.adj, h1]
    rw [← this] at he
    exact ⟨(h.1 i e he).1, hs _ (h.1 i e he).2⟩
  · intro i es hes
    rw [h1] at hes
    exact hs i (h.2 i es hes)

/-- Both sides are tidy. -/
def Tidy (ident : O → K) (n : Net K O L W) : Prop :=
  n.w.IdsUnique ident ∧ n.w.EdgesKnown ∧ n.r.IdsUnique ident ∧ n.r.EdgesKnown

theorem tidy_new (ident : O → K) (d : Bool) : Tidy ident (Net.new d : Net K O L W) := by
  simp [Tidy, Net.new, Side.IdsUnique, Side.EdgesKnown, Side.adj]

theorem frame_tidy {ident : O → K} {n n' : Net K O L W} (h : Tidy ident n) (f : Frame n n') : Tidy ident n' :=
  ⟨idsUnique_congr h.1 f.nodes2id f.id2nodes, known_shrinks h.2.1 f.id2nodes f.edges,
    by rw [f.r]; exact h.2.2.1, by rw [f.r]; exact h.2.2.2⟩

theorem removeNode_tidy {ident : O → K} {n n' : Net K O L W} {u : O} {b : Bool} (h : Tidy ident n)
    (hc : NodesCareful ident n (.removeNode u)) (hr : removeNode ident n u = some (n', b)) : Tidy ident n' := by
  cases hu : HMap.get n.w.nodes2id (ident u) with
  | none =>
    unfold removeNode at hr
    rw [hu] at hr
    simp at hr
    rw [← hr.1]
    exact h
  | some uid =>
    obtain ⟨h1, h2, h3⟩ := hc uid hu
    obtain ⟨n1, e1, er, ed, en, ei, ee⟩ := removeNode_ok hu h.1 h.2.1 h1 h2 h3
    rw [e1] at hr
    simp at hr
    rw [← hr.1]
    refine ⟨⟨?_, ?_⟩, ⟨?_, ?_⟩, by rw [er]; exact h.2.2.1, by rw [er]; exact h.2.2.2⟩
    · intro k i hk
      rw [en, HMap.get_remove] at hk
      by_cases hku : k = ident u
      · rw [if_pos hku] at hk; simp at hk
      · rw [if_neg hku] at hk
        obtain ⟨o, ho, hid⟩ := h.1.1 k i hk
        refine ⟨o, ?_, hid⟩
        rw [ei, HMap.get_remove, if_neg]
        · exact ho
        · intro hi
          subst hi
          obtain ⟨o', ho', hid'⟩ := h.1.1 _ _ hu
          rw [ho] at ho'
          simp at ho'
          subst ho'
          exact hku (hid.symm.trans hid')
    · intro i o hi
      rw [ei, HMap.get_remove] at hi
      by_cases hiu : i = uid
      · rw [if_pos hiu] at hi; simp at hi
      · rw [if_neg hiu] at hi
        have := h.1.2 i o hi
        rw [en, HMap.get_remove, if_neg]
        · exact this
        · intro ho
          rw [ho, hu] at this
          simp at this
          exact hiu this.symm
    · intro i e he
      unfold Side.adj at he
      rw [ee] at he
      by_cases hiu : i = uid
      · rw [if_pos hiu] at he; simp at he
      · rw [if_neg hiu] at he
        cases hg : HMap.get n.w.edges i with
        | none => rw [hg] at he; simp at he
        | some es =>
          rw [hg] at he
          simp at he
          have := h.2.1.1 i e (by rw [adj_of_get hg]; exact he.1)
          refine ⟨this.1, ?_⟩
          rw [ei, HMap.get_remove, if_neg he.2]
          exact this.2
    · intro i es hes
      rw [ee] at hes
      by_cases hiu : i = uid
      · rw [if_pos hiu] at hes; simp at hes
      · rw [if_neg hiu] at hes
        cases hg : HMap.get n.w.edges i with
        | none => rw [hg] at hes; simp at hes
        | some es' =>
          rw [ei, HMap.get_remove, if_neg hiu]
          exact h.2.1.2 i es' hg

theorem exec_tidy {ident : O → K} {n n' : Net K O L W} {op : Op O L W} (h : Tidy ident n)
    (hc : NodesCareful ident n op) (he : exec ident n op = some n') : Tidy ident n' := by
  cases op with
  | addNode u =>
    simp [exec] at he
    rw [← he]
    exact ⟨addNode_idsUnique h.1 hc.1 hc.2, addNode_known ident u h.2.1, h.2.2⟩
  | addEdge u v o =>
    simp [exec] at he
    rw [← he]
    have hn := addEdge_nodes ident n u v o
    have hr := (addEdge_r ident n u v o).1
    refine ⟨idsUnique_congr h.1 hn.1 hn.2, addEdge_known h.1 h.2.1, ?_, ?_⟩
    · rw [hr]; exact h.2.2.1
    · rw [hr]; exact h.2.2.2
  | removeEdge u v =>
    obtain ⟨⟨n1, b⟩, hr, rfl⟩ := Option.map_eq_some_iff.1 he
    exact frame_tidy h (removeEdge_frame hr)
  | removeIncoming u =>
    obtain ⟨⟨n1, b⟩, hr, rfl⟩ := Option.map_eq_some_iff.1 he
    exact frame_tidy h (removeEdgesOf_frame hr)
  | removeOutgoing u =>
    obtain ⟨⟨n1, b⟩, hr, rfl⟩ := Option.map_eq_some_iff.1 he
    exact frame_tidy h (removeEdgesOf_frame hr)
  | removeNode u =>
    obtain ⟨⟨n1, b⟩, hr, rfl⟩ := Option.map_eq_some_iff.1 he
    exact removeNode_tidy h hc hr
  | removeAllEdges =>
    simp [exec] at he
    rw [← he]
    refine ⟨h.1, ?_, h.2.2⟩
    simp [removeAllEdges, Side.EdgesKnown, Side.adj]
  | updateNode u =>
    simp [exec] at he
    rw [← he]
    have hr := (updateNode_r ident n u).1
    refine ⟨updateNode_idsUnique u h.1, updateNode_known u h.2.1, ?_, ?_⟩
    · rw [hr]; exact h.2.2.1
    · rw [hr]; exact h.2.2.2
  | update => simp [exec] at he; rw [← he]; exact ⟨h.1, h.2.1, h.1, h.2.1⟩
  | lazyUpdate => simp [exec] at he; rw [← he]; exact ⟨h.1, h.2.1, h.1, h.2.1⟩

/-- An invariant that each call of a kind preserves holds after every history of such calls. -/
theorem careful_run {ident : O → K} {P : Net K O L W → Op O L W → Prop} {I : Net K O L W → Prop}
    (hstep : ∀ n n' op, I n → P n op → exec ident n op = some n' → I n') (ops : List (Op O L W)) :
    ∀ {n n' : Net K O L W}, I n → Careful ident P n ops → run ident n ops = some n' → I n' := by
  induction ops with
  | nil => intro n n' h _ hr; simp [run] at hr; rw [← hr]; exact h
  | cons op ops ih =>
    intro n n' h hc hr
    rw [run] at hr
    cases he : exec ident n op with
    | none => rw [he] at hr; simp at hr
    | some n1 =>
      rw [he] at hr
      exact ih (hstep n n1 op h hc.1 he) (hc.2 n1 he) hr

/-! ### get_edge -/

theorem scanEdge_eq {ident : O → K} {s : Side K O L W} (hids : s.IdsUnique ident) {d : Bool} {uid vid : Nat}
    (es : List (Edge L W)) (h : ∀ e ∈ es, e.u = uid ∧ (HMap.get s.id2nodes e.v).isSome = true) :
    scanEdge ident s d uid vid es = some (es.find? (fun e => e.v == vid)) := by
  induction es with
  | nil => rfl
  | cons e es ih =>
    obtain ⟨hu, hv⟩ := h e (by simp)
    rw [Option.isSome_iff_exists] at hv
    obtain ⟨o, ho⟩ := hv
    rw [scanEdge, ho]
    dsimp only
    rw [hids.2 _ _ ho]
    dsimp only
    rw [List.find?_cons, ih (fun e he => h e (List.mem_cons_of_mem _ he))]
    by_cases hev : e.v = vid
    · simp [hev, hu]
    · have : ¬((e.u = uid ∧ e.v = vid) ∨ (d = false ∧ e.v = uid ∧ e.u = vid)) := by
        rintro (⟨_, h⟩ | ⟨_, h1, h2⟩)
        · exact hev h
        · exact hev (by rw [h1, ← hu, h2])
      rw [if_neg this]
      have hb : (e.v == vid) = false := by simpa using hev
      rw [hb]

theorem getEdge_eq {ident : O → K} {n : Net K O L W} (hids : n.r.IdsUnique ident) (hk : n.r.EdgesKnown) (u v : O) :
    getEdge ident n u v = some (match getId ident n u, getId ident n v with
      | some uid, some vid => (n.r.adj uid).find? (fun e => e.v == vid)
      | _, _ => none) := by
  unfold getEdge getId
  cases hu : HMap.get n.r.nodes2id (ident u) with
  | none => rfl
  | some uid =>
    dsimp only
    cases he : HMap.get n.r.edges uid with
    | none =>
      cases hv : HMap.get n.r.nodes2id (ident v) with
      | none => rfl
      | some vid => simp [Side.adj, he]
    | some es =>
      dsimp only
      cases hv : HMap.get n.r.nodes2id (ident v) with
      | none => rfl
      | some vid =>
        dsimp only
        rw [adj_of_get he]
        exact scanEdge_eq hids es (fun e hm => hk.1 uid e (by rw [adj_of_get he]; exact hm))

/-! ### Symmetry -/

theorem own_addEdge {ident : O → K} {n : Net K O L W} {u v : O} {o : EdgeOptions L W} (h : Own n.w.edges) :
    Own (addEdge ident n u v o).1.w.edges := by
  cases hu : HMap.get n.w.nodes2id (ident u) with
  | none => rw [addEdge_absent (Or.inl hu)]; exact h
  | some uid =>
    cases hv : HMap.get n.w.nodes2id (ident v) with
    | none => rw [addEdge_absent (Or.inr hv)]; exact h
    | some vid =>
      intro i es hes e he
      have h3 := (addEdge_ok (o := o) hu hv).2.2.2.1 i
      rw [adj_of_get hes] at h3
      rw [h3, List.mem_append, List.mem_append] at he
      rcases he with (he | he) | he
      · cases hg : HMap.get n.w.edges i with
        | none => simp [Side.adj, hg] at he
        | some es' => rw [adj_of_get hg] at he; exact h i es' hg e he
      · by_cases hi : i = uid
        · rw [if_pos hi] at he; simp at he; rw [he, Edge.new_u, hi]
        · rw [if_neg hi] at he; simp at he
      · by_cases hi : n.direct = false ∧ i = vid
        · rw [if_pos hi] at he; simp at he; rw [he, Edge.new_u, hi.2]
        · rw [if_neg hi] at he; simp at he

theorem mult_addEdge {ident : O → K} {n : Net K O L W} {u v : O} {o : EdgeOptions L W} {uid vid : Nat}
    (hd : n.direct = false)
    (hu : HMap.get n.w.nodes2id (ident u) = some uid) (hv : HMap.get n.w.nodes2id (ident v) = some vid) (a b : Nat) :
    (addEdge ident n u v o).1.w.mult a b = n.w.mult a b + (if a = uid ∧ b = vid then 1 else 0)
      + (if a = vid ∧ b = uid then 1 else 0) := by
  unfold Side.mult
  rw [(addEdge_ok (o := o) hu hv).2.2.2.1 a, List.countP_append, List.countP_append]
  congr 1
  · congr 1
    by_cases ha : a = uid
    · by_cases hb : b = vid
      · simp [ha, hb, Edge.new_v]
      · simp [ha, hb, Ne.symm hb, Edge.new_v]
    · simp [ha]
  · by_cases ha : a = vid
    · by_cases hb : b = uid
      · simp [hd, ha, hb, Edge.new_v]
      · simp [hd, ha, hb, Ne.symm hb, Edge.new_v]
    · simp [ha]

/-- Number of edges, on an adjacency map. -/
def multM (m : EdgeMap L W) (a b : Nat) : Nat := ((HMap.get m a).getD []).countP (fun e => e.v == b)

theorem multM_shrinks {m m' : EdgeMap L W} (h : Shrinks m m') (a b : Nat) : multM m' a b ≤ multM m a b := by
  unfold multM
  cases hg : HMap.get m a with
  | none => rw [(h a).1 hg]; simp
  | some es =>
    obtain ⟨es', h1, h2⟩ := (h a).2 es hg
    rw [h1]
    exact h2.countP_le

theorem countP_filter_not {α : Type} (l : List α) (p q : α → Bool) (h : ∀ x ∈ l, q x = true → p x = false) :
    (l.filter (fun x => !p x)).countP q = l.countP q := by
  rw [List.countP_filter]
  refine List.countP_congr ?_
  intro x hx
  cases hq : q x with
  | true => simp [h x hx hq]
  | false => simp

theorem multM_removeEdgeIds {m m' : EdgeMap L W} {a b : Nat} {r : Option (Edge L W)} (hown : Own m)
    (hs : ∀ i j, multM m i j = multM m j i) (hc : a = b ∨ multM m a b ≤ 1)
    (h : removeEdgeIds false m a b = some (m', r)) : ∀ i j, multM m' i j = multM m' j i := by
  cases hu : HMap.get m a with
  | none => unfold removeEdgeIds at h; rw [hu] at h; simp at h
  | some ues =>
    have hou := hown a ues hu
    cases hf : ues.find? (fun e => e.v == b) with
    | none =>
      rw [List.find?_eq_none] at hf
      rw [removeEdgeIds_undirected_none hu hou (by intro e he; simpa using hf e he)] at h
      simp at h
      rw [← h.1]
      exact hs
    | some e =>
      by_cases hab : a = b
      · subst hab
        obtain ⟨m1, e1, h1⟩ := removeEdgeIds_loop hu hou hf
        rw [e1] at h
        simp at h
        rw [← h.1]
        have key : ∀ i j, multM m1 i j = if i = a ∧ j = a then 0 else multM m i j := by
          intro i j
          unfold multM
          rw [h1]
          by_cases hi : i = a
          · subst hi
            rw [if_pos rfl, hu, Option.getD_some, Option.getD_some]
            by_cases hj : j = i
            · subst hj
              rw [if_pos ⟨rfl, rfl⟩, List.countP_eq_zero]
              intro x hx
              rw [List.mem_filter] at hx
              simpa using hx.2
            · rw [if_neg (by simp [hj])]
              refine countP_filter_not _ _ _ ?_
              intro x _ hx
              simp at hx
              simp [hx, hj]
          · rw [if_neg hi, if_neg (by simp [hi])]
        intro i j
        rw [key, key, hs i j]
        by_cases h : i = a ∧ j = a
        · rw [if_pos h, if_pos h.symm]
        · rw [if_neg h, if_neg (fun h' => h h'.symm)]
      · have hc' : multM m a b ≤ 1 := hc.resolve_left hab
        cases hv : HMap.get m b with
        | none =>
          -- the list of b is missing: symmetric multiplicity 0, contradiction
          exfalso
          have h0 : multM m b a = 0 := by unfold multM; rw [hv]; rfl
          rw [hs b a] at h0
          unfold multM at h0
          rw [hu, Option.getD_some, List.countP_eq_zero] at h0
          have := List.find?_some hf
          exact h0 e (List.mem_of_find?_eq_some hf) this
        | some ves =>
          obtain ⟨m1, e1, h1⟩ := removeEdgeIds_undirected hab hu hv hou (hown b ves hv) hf
          rw [e1] at h
          simp at h
          rw [← h.1]
          have key : ∀ i j, multM m1 i j = if i = a ∧ j = b ∨ i = b ∧ j = a then 0 else multM m i j := by
            intro i j
            unfold multM
            rw [h1]
            by_cases hi : i = a
            · subst hi
              rw [if_pos rfl, hu, Option.getD_some, Option.getD_some]
              by_cases hj : j = b
              · subst hj
                rw [if_pos (Or.inl ⟨rfl, rfl⟩), countP_eraseP_self]
                unfold multM at hc'
                rw [hu, Option.getD_some] at hc'
                omega
              · rw [if_neg (by simp [hj, hab])]
                refine countP_eraseP_other _ ?_
                intro x _ hx
                simp at hx
                simp [hx, Ne.symm hj]
            · rw [if_neg hi]
              by_cases hib : i = b
              · subst hib
                rw [if_pos rfl, hv, Option.getD_some, Option.getD_some]
                by_cases hj : j = a
                · subst hj
                  rw [if_pos (Or.inr ⟨rfl, rfl⟩), List.countP_eq_zero]
                  intro x hx
                  rw [List.mem_filter] at hx
                  simpa using hx.2
                · rw [if_neg (by simp [hj, hi])]
                  refine countP_filter_not _ _ _ ?_
                  intro x _ hx
                  simp at hx
                  simp [hx, hj]
              · rw [if_neg hib, if_neg (by simp [hi, hib])]
          intro i j
          rw [key, key, hs i j]
          by_cases h : i = a ∧ j = b ∨ i = b ∧ j = a
          · rw [if_pos h, if_pos (by rcases h with h | h <;> [exact Or.inr h.symm; exact Or.inl h.symm])]
          · rw [if_neg h, if_neg (fun h' => h (by rcases h' with h' | h' <;> [exact Or.inr h'.symm; exact Or.inl h'.symm]))]

end Verif.Network
