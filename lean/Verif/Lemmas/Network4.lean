import Verif.Lemmas.Network3

/-! Lemmas about the network model: symmetry and contiguous ids over histories. -/

set_option linter.unusedSectionVars false

namespace Verif.Network

variable {K O L W : Type} [DecidableEq K]

theorem mult_eq_multM (s : Side K O L W) (a b : Nat) : s.mult a b = multM s.edges a b := rfl

/-- The write side of an undirected network is symmetric with edges listed at their start; the read side is
symmetric. -/
structure SymInv (n : Net K O L W) : Prop where
  direct : n.direct = false
  own : Own n.w.edges
  w : n.w.Symmetric
  r : n.r.Symmetric

theorem symInv_new : SymInv (Net.new false : Net K O L W) :=
  ⟨rfl, by intro i es h; simp [Net.new] at h, by intro a b; rfl, by intro a b; rfl⟩

theorem removeEdge_sym {ident : O → K} {n n' : Net K O L W} {u v : O} {r : Option (Edge L W)} (h : SymInv n)
    (hc : PairsSimple ident n (.removeEdge u v)) (hr : removeEdge ident n u v = some (n', r)) : SymInv n' := by
  have hf := removeEdge_frame hr
  refine ⟨hf.direct.trans h.direct, h.own.shrinks hf.edges, ?_, by rw [hf.r]; exact h.r⟩
  unfold removeEdge at hr
  cases hu : HMap.get n.r.nodes2id (ident u) with
  | none => rw [hu] at hr; simp at hr; rw [← hr.1]; exact h.w
  | some uid =>
    rw [hu] at hr
    dsimp only at hr
    cases hv : HMap.get n.r.nodes2id (ident v) with
    | none => rw [hv] at hr; simp at hr; rw [← hr.1]; exact h.w
    | some vid =>
      rw [hv, h.direct] at hr
      dsimp only at hr
      cases hx : removeEdgeIds false n.w.edges uid vid with
      | none => rw [hx] at hr; simp at hr
      | some x =>
        obtain ⟨m', r'⟩ := x
        rw [hx] at hr
        simp at hr
        rw [← hr.1]
        exact multM_removeEdgeIds h.own h.w (hc uid vid hu hv) hx

theorem removeStep_sym {ident : O → K} {inc : Bool} {ns : HMap Nat O} {uid : Nat} {u : O} {n n' : Net K O L W}
    {l l' : List (Edge L W)} {v : Nat} (h : SymInv n) (hu : HMap.get n.r.nodes2id (ident u) = some uid)
    (hm : ∀ i, i ≠ uid → n.w.mult i uid ≤ 1)
    (hr : removeStep ident inc ns uid u (some (n, l)) v = some (n', l')) : SymInv n' := by
  unfold removeStep at hr
  dsimp only at hr
  by_cases hv : v = uid
  · rw [if_pos hv] at hr; simp at hr; rw [← hr.1]; exact h
  · rw [if_neg hv] at hr
    cases hg : HMap.get ns v with
    | none => rw [hg] at hr; simp at hr
    | some o =>
      rw [hg] at hr
      dsimp only at hr
      cases hq : (if inc = true then removeEdge ident n o u else removeEdge ident n u o) with
      | none => rw [hq] at hr; simp at hr
      | some x =>
        obtain ⟨n1, r⟩ := x
        have hf : SymInv n1 := by
          cases inc with
          | true =>
            refine removeEdge_sym h ?_ (by simpa using hq)
            intro a b ha hb
            rw [hu] at hb
            simp at hb
            subst hb
            by_cases hab : a = uid
            · exact Or.inl hab
            · exact Or.inr (hm a hab)
          | false =>
            refine removeEdge_sym h ?_ (by simpa using hq)
            intro a b ha hb
            rw [hu] at ha
            simp at ha
            subst ha
            by_cases hab : b = uid
            · exact Or.inl hab.symm
            · exact Or.inr (by rw [h.w]; exact hm b hab)
        rw [hq] at hr
        cases r with
        | none => simp at hr; rw [← hr.1]; exact hf
        | some e => simp at hr; rw [← hr.1]; exact hf

theorem foldl_removeStep_sym {ident : O → K} {inc : Bool} {ns : HMap Nat O} {uid : Nat} {u : O} (ks : List Nat) :
    ∀ {n n' : Net K O L W} {l l' : List (Edge L W)}, SymInv n → HMap.get n.r.nodes2id (ident u) = some uid →
      (∀ i, i ≠ uid → n.w.mult i uid ≤ 1) →
      ks.foldl (removeStep ident inc ns uid u) (some (n, l)) = some (n', l') → SymInv n' := by
  induction ks with
  | nil => intro n n' l l' h _ _ hr; simp at hr; rw [← hr.1]; exact h
  | cons k ks ih =>
    intro n n' l l' h hu hm hr
    rw [List.foldl_cons] at hr
    cases hs : removeStep ident inc ns uid u (some (n, l)) k with
    | none => rw [hs, foldl_removeStep_none] at hr; simp at hr
    | some x =>
      obtain ⟨n1, l1⟩ := x
      rw [hs] at hr
      have hf := removeStep_frame hs
      refine ih (removeStep_sym h hu hm hs) (by rw [hf.r]; exact hu) ?_ hr
      intro i hi
      exact Nat.le_trans (multM_shrinks hf.edges i uid) (hm i hi)

theorem removeEdgesOf_sym {ident : O → K} {inc : Bool} {n n' : Net K O L W} {u : O}
    {r : Option (List (Edge L W))} (h : SymInv n)
    (hm : ∀ uid i, HMap.get n.r.nodes2id (ident u) = some uid → i ≠ uid → n.w.mult i uid ≤ 1)
    (hr : removeEdgesOf ident inc n u = some (n', r)) : SymInv n' := by
  unfold removeEdgesOf at hr
  cases hu : HMap.get n.r.nodes2id (ident u) with
  | none => rw [hu] at hr; simp at hr; rw [← hr.1]; exact h
  | some uid =>
    rw [hu] at hr
    dsimp only at hr
    cases hf : (HMap.keys n.w.id2nodes).foldl (removeStep ident inc n.w.id2nodes uid u) (some (n, [])) with
    | none => rw [hf] at hr; simp at hr
    | some x =>
      obtain ⟨n1, l⟩ := x
      rw [hf] at hr
      simp at hr
      rw [← hr.1]
      exact foldl_removeStep_sym _ h hu (fun i hi => hm uid i hu hi) hf

theorem removeNode_sym {ident : O → K} {n n' : Net K O L W} {u : O} {b : Bool} (h : SymInv n) (ht : Tidy ident n)
    (hc : NodesCareful ident n (.removeNode u)) (hr : removeNode ident n u = some (n', b)) : SymInv n' := by
  cases hu : HMap.get n.w.nodes2id (ident u) with
  | none =>
    unfold removeNode at hr
    rw [hu] at hr
    simp at hr
    rw [← hr.1]
    exact h
  | some uid =>
    obtain ⟨h1, h2, h3⟩ := hc uid hu
    obtain ⟨n1, e1, er, ed, en, ei, ee⟩ := removeNode_ok hu ht.1 ht.2.1 h1 h2 h3
    rw [e1] at hr
    simp at hr
    rw [← hr.1]
    refine ⟨ed.trans h.direct, ?_, ?_, by rw [er]; exact h.r⟩
    · intro i es hes e he
      rw [ee] at hes
      by_cases hi : i = uid
      · rw [if_pos hi] at hes; simp at hes
      · rw [if_neg hi, Option.map_eq_some_iff] at hes
        obtain ⟨es', h1, rfl⟩ := hes
        exact h.own i es' h1 e (List.mem_of_mem_filter he)
    · have key : ∀ i j, n1.w.mult i j = if i = uid ∨ j = uid then 0 else n.w.mult i j := by
        intro i j
        rw [mult_eq_multM, mult_eq_multM]
        unfold multM
        rw [ee]
        by_cases hi : i = uid
        · rw [if_pos hi, if_pos (Or.inl hi)]; rfl
        · rw [if_neg hi]
          cases hg : HMap.get n.w.edges i with
          | none => simp
          | some es =>
            rw [Option.map_some, Option.getD_some, Option.getD_some]
            by_cases hj : j = uid
            · rw [if_pos (Or.inr hj), List.countP_eq_zero]
              intro x hx
              rw [List.mem_filter] at hx
              rw [hj]
              simpa using hx.2
            · rw [if_neg (by simp [hi, hj])]
              refine countP_filter_not _ _ _ ?_
              intro x _ hx
              simp at hx
              simp [hx, hj]
      intro i j
      rw [key, key, h.w i j]
      by_cases hij : i = uid ∨ j = uid
      · rw [if_pos hij, if_pos hij.symm]
      · rw [if_neg hij, if_neg (fun h => hij h.symm)]

/-- Calls other than `remove_node` keep an undirected network symmetric if `remove_edge` is used on simple pairs. -/
theorem exec_sym {ident : O → K} {n n' : Net K O L W} {op : Op O L W} (h : SymInv n) (hc : PairsSimple ident n op)
    (hnr : ∀ u, op ≠ .removeNode u) (he : exec ident n op = some n') : SymInv n' := by
  cases op with
  | addNode u =>
    simp [exec] at he
    rw [← he]
    refine ⟨h.direct, ?_, ?_, h.r⟩
    · intro i es hes e hm
      have ha := adj_addNode ident n u i
      rw [adj_of_get hes] at ha
      rw [ha] at hm
      cases hg : HMap.get n.w.edges i with
      | none => simp [Side.adj, hg] at hm
      | some es' => rw [adj_of_get hg] at hm; exact h.own i es' hg e hm
    · intro a b
      unfold Side.mult
      rw [adj_addNode, adj_addNode]
      exact h.w a b
  | addEdge u v o =>
    simp [exec] at he
    rw [← he]
    have hr := addEdge_r ident n u v o
    refine ⟨hr.2.trans h.direct, own_addEdge h.own, ?_, by rw [hr.1]; exact h.r⟩
    cases hu : HMap.get n.w.nodes2id (ident u) with
    | none => rw [addEdge_absent (Or.inl hu)]; exact h.w
    | some uid =>
      cases hv : HMap.get n.w.nodes2id (ident v) with
      | none => rw [addEdge_absent (Or.inr hv)]; exact h.w
      | some vid =>
        intro a b
        rw [mult_addEdge h.direct hu hv, mult_addEdge h.direct hu hv, h.w a b]
        have e1 : (a = uid ∧ b = vid) ↔ (b = vid ∧ a = uid) := And.comm
        have e2 : (a = vid ∧ b = uid) ↔ (b = uid ∧ a = vid) := And.comm
        simp only [e1, e2]
        omega
  | removeEdge u v =>
    obtain ⟨⟨n1, b⟩, hr, rfl⟩ := Option.map_eq_some_iff.1 he
    exact removeEdge_sym h hc hr
  | removeIncoming u =>
    obtain ⟨⟨n1, b⟩, hr, rfl⟩ := Option.map_eq_some_iff.1 he
    exact removeEdgesOf_sym h hc hr
  | removeOutgoing u =>
    obtain ⟨⟨n1, b⟩, hr, rfl⟩ := Option.map_eq_some_iff.1 he
    exact removeEdgesOf_sym h hc hr
  | removeNode u => exact absurd rfl (hnr u)
  | removeAllEdges =>
    simp [exec] at he
    rw [← he]
    exact ⟨h.direct, by intro i es hes; simp [removeAllEdges] at hes, by intro a b; rfl, h.r⟩
  | updateNode u =>
    simp [exec] at he
    rw [← he]
    have hr := updateNode_r ident n u
    have hs := updateNode_spec ident n u
    refine ⟨hr.2.trans h.direct, by rw [hs.1]; exact h.own, ?_, by rw [hr.1]; exact h.r⟩
    intro a b
    rw [mult_eq_multM, mult_eq_multM, hs.1]
    exact h.w a b
  | update => simp [exec] at he; rw [← he]; exact ⟨h.direct, h.own, h.w, h.w⟩
  | lazyUpdate => simp [exec] at he; rw [← he]; exact ⟨h.direct, h.own, h.w, h.w⟩

theorem careful_mono {ident : O → K} {P Q : Net K O L W → Op O L W → Prop} (h : ∀ n op, P n op → Q n op)
    (ops : List (Op O L W)) : ∀ {n : Net K O L W}, Careful ident P n ops → Careful ident Q n ops := by
  induction ops with
  | nil => intro n _; trivial
  | cons op ops ih => intro n hc; exact ⟨h n op hc.1, fun n' he => ih (hc.2 n' he)⟩

/-! ### Contiguous ids -/

/-- The ids are 0, 1, …, number of nodes - 1. -/
def Side.Contiguous (s : Side K O L W) : Prop :=
  ∀ i, (HMap.get s.id2nodes i).isSome = true ↔ i < s.nodes2id.length

theorem length_insert_absent {V : Type} {m : HMap K V} {k : K} {v : V} (h : HMap.get m k = none) :
    (HMap.insert m k v).1.length = m.length + 1 := by
  rw [HMap.insert_absent h]; simp

/-- Ids unique and contiguous on both sides. -/
def IdsInv (ident : O → K) (n : Net K O L W) : Prop := Tidy ident n ∧ n.w.Contiguous ∧ n.r.Contiguous

theorem idsInv_new (ident : O → K) (d : Bool) : IdsInv ident (Net.new d : Net K O L W) :=
  ⟨tidy_new ident d, by intro i; simp [Net.new], by intro i; simp [Net.new]⟩

theorem contiguous_congr {s s' : Side K O L W} (h : s.Contiguous) (h1 : s'.nodes2id.length = s.nodes2id.length)
    (h2 : ∀ i, (HMap.get s'.id2nodes i).isSome = (HMap.get s.id2nodes i).isSome) : s'.Contiguous := by
  intro i; rw [h2, h1]; exact h i

theorem exec_ids {ident : O → K} {n n' : Net K O L W} {op : Op O L W} (h : IdsInv ident n)
    (hc : NodesOnlyAdded ident n op) (he : exec ident n op = some n') : IdsInv ident n' := by
  have hcar : NodesCareful ident n op := by
    cases op with
    | addNode u =>
      refine ⟨hc, ?_⟩
      cases hg : HMap.get n.w.id2nodes n.w.nodes2id.length with
      | none => rfl
      | some o =>
        have := (h.2.1 n.w.nodes2id.length).1 (by rw [hg]; rfl)
        omega
    | removeNode u => exact absurd hc id
    | _ => trivial
  refine ⟨exec_tidy h.1 hcar he, ?_⟩
  cases op with
  | addNode u =>
    simp [exec] at he
    rw [← he]
    refine ⟨?_, h.2.2⟩
    intro i
    simp only [addNode, HMap.get_insert]
    rw [length_insert_absent hc]
    by_cases hi : i = n.w.nodes2id.length
    · simp [hi]
    · rw [if_neg hi, h.2.1 i]; omega
  | addEdge u v o =>
    simp [exec] at he
    rw [← he]
    have hn := addEdge_nodes ident n u v o
    have hr := addEdge_r ident n u v o
    exact ⟨contiguous_congr h.2.1 (by rw [hn.1]) (by rw [hn.2]; intro i; rfl), by rw [hr.1]; exact h.2.2⟩
  | removeEdge u v =>
    obtain ⟨⟨n1, b⟩, hr, rfl⟩ := Option.map_eq_some_iff.1 he
    have f := removeEdge_frame hr
    exact ⟨contiguous_congr h.2.1 (by rw [f.nodes2id]) (by rw [f.id2nodes]; intro i; rfl), by rw [f.r]; exact h.2.2⟩
  | removeIncoming u =>
    obtain ⟨⟨n1, b⟩, hr, rfl⟩ := Option.map_eq_some_iff.1 he
    have f := removeEdgesOf_frame hr
    exact ⟨contiguous_congr h.2.1 (by rw [f.nodes2id]) (by rw [f.id2nodes]; intro i; rfl), by rw [f.r]; exact h.2.2⟩
  | removeOutgoing u =>
    obtain ⟨⟨n1, b⟩, hr, rfl⟩ := Option.map_eq_some_iff.1 he
    have f := removeEdgesOf_frame hr
    exact ⟨contiguous_congr h.2.1 (by rw [f.nodes2id]) (by rw [f.id2nodes]; intro i; rfl), by rw [f.r]; exact h.2.2⟩
  | removeNode u => exact absurd hc id
  | removeAllEdges => simp [exec] at he; rw [← he]; exact ⟨h.2.1, h.2.2⟩
  | updateNode u =>
    simp [exec] at he
    rw [← he]
    have hr := updateNode_r ident n u
    have hs := updateNode_spec ident n u
    refine ⟨contiguous_congr h.2.1 (by rw [hs.2.1]) ?_, by rw [hr.1]; exact h.2.2⟩
    intro i
    rw [hs.2.2]
    split <;> simp
  | update => simp [exec] at he; rw [← he]; exact ⟨h.2.1, h.2.1⟩
  | lazyUpdate => simp [exec] at he; rw [← he]; exact ⟨h.2.1, h.2.1⟩

end Verif.Network
