import Verif.Lemmas.Degrees

/-!
C243: the degrees of a network add up to its edges (src/engine/fields/network.rs:741-1582).
-/

namespace Verif.Network

variable {K O L W : Type} [DecidableEq K]

/-- What is kept by a history: `us` are the nodes added, `e` is the number of edges by the answers. -/
structure DegInv (ident : O → K) (n : Net K O L W) (us : List O) (e : Int) : Prop where
  ids : IdsInv ident n
  sym : n.direct = false → SymInv n
  len : n.w.nodes2id.length = us.length
  place : ∀ i u, us[i]? = some u → HMap.get n.w.nodes2id (ident u) = some i
  known : ∀ k i, HMap.get n.r.nodes2id k = some i → HMap.get n.w.nodes2id k = some i
  sum : (entriesTo n.w.edges us.length : Int) = perEdge n.direct * e

theorem DegInv.counted {ident : O → K} {n : Net K O L W} {us : List O} {e : Int} (h : DegInv ident n us e) :
    Counted n us.length :=
  ⟨own_of_known h.ids.1.2.1, by
    intro i es hi
    rw [← h.len]
    exact (h.ids.2.1 i).1 (h.ids.1.2.1.2 i es hi), h.sym⟩

theorem nodesAdded_cons (op : Op O L W) (ops : List (Op O L W)) :
    nodesAdded (op :: ops) = nodesAdded [op] ++ nodesAdded ops := by
  cases op <;> rfl

/-- A call that only takes edges out of the lists. -/
theorem DegInv.frame {ident : O → K} {n n' : Net K O L W} {us : List O} {e e' : Int} (h : DegInv ident n us e)
    (hi : IdsInv ident n') (hf : Frame n n') (hc : Counted n' us.length)
    (hs : (entriesTo n'.w.edges us.length : Int) = perEdge n.direct * e') : DegInv ident n' us e' := by
  refine ⟨hi, hc.sym, by rw [hf.nodes2id]; exact h.len, by rw [hf.nodes2id]; exact h.place, ?_, by rw [hf.direct]; exact hs⟩
  rw [hf.nodes2id, hf.r]
  exact h.known

theorem DegInv.removeOf {ident : O → K} {inc : Bool} {n n' : Net K O L W} {us : List O} {e : Int} {u : O}
    {r : Option (List (Edge L W))} (h : DegInv ident n us e) (hi : IdsInv ident n')
    (ho : n.direct = false → ∀ uid i, HMap.get n.r.nodes2id (ident u) = some uid → i ≠ uid → n.w.mult i uid ≤ 1)
    (hr : removeEdgesOf ident inc n u = some (n', r)) :
    DegInv ident n' us (match r with | some l => e - l.length | none => e) := by
  have hf := removeEdgesOf_frame hr
  unfold removeEdgesOf at hr
  cases hu : HMap.get n.r.nodes2id (ident u) with
  | none => rw [hu] at hr; simp at hr; obtain ⟨rfl, rfl⟩ := hr; exact h
  | some uid =>
    rw [hu] at hr
    dsimp only at hr
    cases hx : (HMap.keys n.w.id2nodes).foldl (removeStep ident inc n.w.id2nodes uid u) (some (n, [])) with
    | none => rw [hx] at hr; simp at hr
    | some x =>
      obtain ⟨n1, l⟩ := x
      rw [hx] at hr
      simp at hr
      obtain ⟨rfl, rfl⟩ := hr
      obtain ⟨c1, c2⟩ := entriesTo_foldl _ h.counted hu (fun hd i hne => ho hd uid i hu hne)
        (by
          intro i o hne hg hq
          have h1 := h.ids.1.1.2 i o hg
          rw [h.known _ _ hq] at h1
          exact hne (by simpa using h1.symm)) hx
      refine h.frame hi hf c1 ?_
      have hs := h.sum
      dsimp only
      rw [Int.mul_sub, ← hs]
      simp only [List.length_nil, Nat.mul_zero] at c2
      omega

theorem DegInv.step {ident : O → K} {n n' : Net K O L W} {us : List O} {e : Int} {op : Op O L W}
    (h : DegInv ident n us e) (hp : OneByOne ident n op) (he : exec ident n op = some n') :
    DegInv ident n' (us ++ nodesAdded [op]) (countEdges ident n e op) := by
  have hi := exec_ids h.ids hp.1 he
  cases op with
  | addNode u =>
    have hu : HMap.get n.w.nodes2id (ident u) = none := hp.1
    have hsym : (addNode ident n u).direct = false → SymInv (addNode ident n u) := fun hd =>
      exec_sym (op := .addNode u) (h.sym hd) trivial (by intro v hv; cases hv) rfl
    simp [exec] at he
    subst he
    have hl : (us ++ nodesAdded [(.addNode u : Op O L W)]).length = us.length + 1 := by simp [nodesAdded]
    refine ⟨hi, hsym, ?_, ?_, ?_, ?_⟩
    · rw [hl, ← h.len]; exact length_insert_absent hu
    · intro i v hv
      simp only [addNode, HMap.get_insert]
      by_cases hlt : i < us.length
      · rw [List.getElem?_append_left hlt] at hv
        have := h.place i v hv
        by_cases hk : ident v = ident u
        · rw [hk, hu] at this; simp at this
        · rw [if_neg hk]; exact this
      · rw [List.getElem?_append_right (by omega)] at hv
        simp only [nodesAdded] at hv
        have h0 : i - us.length = 0 := by
          rcases List.getElem?_eq_some_iff.1 hv with ⟨hb, _⟩
          simp at hb; omega
        rw [h0] at hv
        simp at hv
        subst hv
        rw [if_pos rfl, h.len]
        congr 1
        omega
    · intro k i hk
      have := h.known k i hk
      simp only [addNode, HMap.get_insert]
      by_cases hku : k = ident u
      · rw [hku, hu] at this; simp at this
      · rw [if_neg hku]; exact this
    · rw [hl]
      have hs := h.sum
      have hadj : ∀ i, ((HMap.get (addNode ident n u).w.edges i).getD []).length =
          ((HMap.get n.w.edges i).getD []).length := by
        intro i
        have := adj_addNode ident n u i
        unfold Side.adj at this
        rw [this]
      have hlast : ((HMap.get n.w.edges us.length).getD []).length = 0 := by
        cases hg : HMap.get n.w.edges us.length with
        | none => rfl
        | some es => exact absurd (h.counted.below _ _ hg) (by omega)
      have : entriesTo (addNode ident n u).w.edges (us.length + 1) = entriesTo n.w.edges us.length := by
        unfold entriesTo
        rw [sumTo, sumTo_congr (fun i _ => hadj i), hadj, hlast, Nat.add_zero]
      rw [this]
      exact hs
  | addEdge u v o =>
    have hsym : (addEdge ident n u v o).1.direct = false → SymInv (addEdge ident n u v o).1 := by
      intro hd
      rw [(addEdge_r ident n u v o).2] at hd
      exact exec_sym (op := .addEdge u v o) (h.sym hd) trivial (by intro v hv; cases hv) rfl
    simp [exec] at he
    subst he
    have hn := addEdge_nodes ident n u v o
    have hr := addEdge_r ident n u v o
    simp only [nodesAdded, List.append_nil]
    refine ⟨hi, hsym, by rw [hn.1]; exact h.len, by rw [hn.1]; exact h.place, by rw [hn.1, hr.1]; exact h.known, ?_⟩
    rw [hr.2]
    have hs := h.sum
    cases hu : HMap.get n.w.nodes2id (ident u) with
    | none => rw [countEdges, addEdge_absent (Or.inl hu)]; exact hs
    | some uid =>
      cases hv : HMap.get n.w.nodes2id (ident v) with
      | none => rw [countEdges, addEdge_absent (Or.inr hv)]; exact hs
      | some vid =>
        obtain ⟨ha, _, _, hadj, _⟩ := addEdge_ok (o := o) hu hv
        rw [countEdges, ha]
        simp only [if_true]
        have lt : ∀ {w : O} {i : Nat}, HMap.get n.w.nodes2id (ident w) = some i → i < us.length := by
          intro w i hw
          obtain ⟨ob, hob, _⟩ := h.ids.1.1.1 _ _ hw
          rw [← h.len]
          exact (h.ids.2.1 i).1 (by rw [hob]; rfl)
        have hadj' : ∀ i, ((HMap.get (addEdge ident n u v o).1.w.edges i).getD []).length =
            ((HMap.get n.w.edges i).getD []).length + (if i = uid then 1 else 0) +
              (if n.direct = false ∧ i = vid then 1 else 0) := by
          intro i
          have := congrArg List.length (hadj i)
          unfold Side.adj at this
          rw [this, List.length_append, List.length_append]
          congr 1
          · congr 1
            by_cases q : i = uid
            · rw [if_pos q, if_pos q]; rfl
            · rw [if_neg q, if_neg q]; rfl
          · by_cases q : n.direct = false ∧ i = vid
            · rw [if_pos q, if_pos q]; rfl
            · rw [if_neg q, if_neg q]; rfl
        have s1 := sumTo_one
          (f := fun i => ((HMap.get n.w.edges i).getD []).length + (if i = uid then 1 else 0))
          (g := fun i => ((HMap.get n.w.edges i).getD []).length) (lt hu)
          (by intro i hne; rw [if_neg hne]; rfl)
        have s2 := sumTo_one (f := fun i => ((HMap.get (addEdge ident n u v o).1.w.edges i).getD []).length)
          (g := fun i => ((HMap.get n.w.edges i).getD []).length + (if i = uid then 1 else 0)) (lt hv)
          (by
            intro i hne
            rw [hadj' i, if_neg (c := n.direct = false ∧ i = vid) (fun q => hne q.2)]
            rfl)
        rw [hadj' vid] at s2
        simp only [if_true, and_true] at s1 s2
        unfold entriesTo at hs ⊢
        cases hd : n.direct with
        | true =>
          rw [hd] at hs s2
          simp only [perEdge, if_true, Bool.true_eq_false, if_false] at hs s2 ⊢
          omega
        | false =>
          rw [hd] at hs s2
          simp only [perEdge, if_true, Bool.false_eq_true, if_false] at hs s2 ⊢
          omega
  | removeEdge u v =>
    obtain ⟨⟨n1, b⟩, hr, rfl⟩ := Option.map_eq_some_iff.1 he
    simp only [nodesAdded, List.append_nil]
    obtain ⟨c1, c2⟩ := entriesTo_removeEdge h.counted hp.2 hr
    refine h.frame hi (removeEdge_frame hr) c1 ?_
    have hs := h.sum
    rw [countEdges, hr]
    cases b with
    | none =>
      simp only [Option.toList_none, List.length_nil, Nat.mul_zero] at c2
      dsimp only
      rw [← hs]
      omega
    | some x =>
      simp only [Option.toList_some, List.length_cons, List.length_nil, Nat.zero_add, Nat.mul_one] at c2
      dsimp only
      rw [Int.mul_sub, ← hs]
      omega
  | removeIncoming u =>
    obtain ⟨⟨n1, b⟩, hr, rfl⟩ := Option.map_eq_some_iff.1 he
    simp only [nodesAdded, List.append_nil]
    have := h.removeOf hi hp.2 hr
    rw [countEdges, hr]
    cases b <;> exact this
  | removeOutgoing u =>
    obtain ⟨⟨n1, b⟩, hr, rfl⟩ := Option.map_eq_some_iff.1 he
    simp only [nodesAdded, List.append_nil]
    have := h.removeOf hi hp.2 hr
    rw [countEdges, hr]
    cases b <;> exact this
  | removeNode u => exact absurd hp.1 id
  | removeAllEdges =>
    have hsym : n.direct = false → SymInv (removeAllEdges n) := fun hd =>
      exec_sym (ident := ident) (op := .removeAllEdges) (h.sym hd) trivial (by intro v hv; cases hv) rfl
    simp [exec] at he
    subst he
    simp only [nodesAdded, List.append_nil]
    refine ⟨hi, hsym, h.len, h.place, h.known, ?_⟩
    have : ∀ N, entriesTo (removeAllEdges n).w.edges N = 0 := by
      intro N
      unfold entriesTo
      induction N with
      | zero => rfl
      | succ N ih => rw [sumTo, ih]; rfl
    rw [this, countEdges]
    simp
  | updateNode u =>
    have hsym : (updateNode ident n u).direct = false → SymInv (updateNode ident n u) := fun hd =>
      exec_sym (op := .updateNode u) (h.sym ((updateNode_r ident n u).2 ▸ hd)) trivial (by intro v hv; cases hv) rfl
    simp [exec] at he
    subst he
    have hr := updateNode_r ident n u
    have hs := updateNode_spec ident n u
    simp only [nodesAdded, List.append_nil]
    exact ⟨hi, hsym, by rw [hs.2.1]; exact h.len, by rw [hs.2.1]; exact h.place,
      by rw [hs.2.1, hr.1]; exact h.known, by rw [hs.1, hr.2]; exact h.sum⟩
  | update =>
    have hsym : n.direct = false → SymInv (update n) := fun hd =>
      exec_sym (ident := ident) (op := .update) (h.sym hd) trivial (by intro v hv; cases hv) rfl
    simp [exec] at he
    subst he
    simp only [nodesAdded, List.append_nil]
    exact ⟨hi, hsym, h.len, h.place, fun _ _ hk => hk, h.sum⟩
  | lazyUpdate =>
    have hsym : n.direct = false → SymInv (lazyUpdate n) := fun hd =>
      exec_sym (ident := ident) (op := .lazyUpdate) (h.sym hd) trivial (by intro v hv; cases hv) rfl
    simp [exec] at he
    subst he
    simp only [nodesAdded, List.append_nil]
    exact ⟨hi, hsym, h.len, h.place, fun _ _ hk => hk, h.sum⟩

theorem DegInv.run {ident : O → K} (ops : List (Op O L W)) : ∀ {n n' : Net K O L W} {us : List O} {e : Int},
    DegInv ident n us e → Careful ident (OneByOne ident) n ops → Network.run ident n ops = some n' →
    DegInv ident n' (us ++ nodesAdded ops) (edgesAfter ident n e ops) := by
  induction ops with
  | nil => intro n n' us e h _ hr; simp [Network.run] at hr; subst hr; simpa [nodesAdded, edgesAfter] using h
  | cons op ops ih =>
    intro n n' us e h hc hr
    rw [Network.run] at hr
    cases he : exec ident n op with
    | none => rw [he] at hr; simp at hr
    | some n1 =>
      rw [he] at hr
      rw [nodesAdded_cons, ← List.append_assoc, edgesAfter, he]
      exact ih (h.step hc.1 he) (hc.2 n1 he) hr

theorem degInv_new (ident : O → K) (d : Bool) : DegInv ident (Net.new d : Net K O L W) [] 0 :=
  ⟨idsInv_new ident d, by intro hd; cases d with
    | false => exact symInv_new
    | true => simp [Net.new] at hd, rfl, by simp, by simp [Net.new], by simp [entriesTo, sumTo]⟩

theorem exec_direct {ident : O → K} {n n' : Net K O L W} {op : Op O L W} (hp : NodesOnlyAdded ident n op)
    (he : exec ident n op = some n') : n'.direct = n.direct := by
  cases op with
  | addNode u => simp [exec] at he; subst he; rfl
  | addEdge u v o => simp [exec] at he; subst he; exact (addEdge_r ident n u v o).2
  | removeEdge u v =>
    obtain ⟨⟨n1, b⟩, hr, rfl⟩ := Option.map_eq_some_iff.1 he
    exact (removeEdge_frame hr).direct
  | removeIncoming u =>
    obtain ⟨⟨n1, b⟩, hr, rfl⟩ := Option.map_eq_some_iff.1 he
    exact (removeEdgesOf_frame hr).direct
  | removeOutgoing u =>
    obtain ⟨⟨n1, b⟩, hr, rfl⟩ := Option.map_eq_some_iff.1 he
    exact (removeEdgesOf_frame hr).direct
  | removeNode u => exact absurd hp id
  | removeAllEdges => simp [exec] at he; subst he; rfl
  | updateNode u => simp [exec] at he; subst he; exact (updateNode_r ident n u).2
  | update => simp [exec] at he; subst he; rfl
  | lazyUpdate => simp [exec] at he; subst he; rfl

/-- C243, the true part: after nodes have been added once each and edges have been added and removed (one by one in
an undirected network), and the network has been published, the degrees of the nodes add up to the number of edges
counted by the answers of the calls: once in a directed network, twice in an undirected one. -/
theorem C243_degrees_partial (ident : O → K) (d : Bool) (ops : List (Op O L W)) (n : Net K O L W)
    (hc : Careful ident (OneByOne ident) (Net.new d) ops) (hr : run ident (Net.new d) ops = some n) :
    (degrees ident (update n) (nodesAdded ops) : Int) = (if d then 1 else 2) * edgesAfter ident (Net.new d) 0 ops := by
  have h := (degInv_new (O := O) (L := L) (W := W) ident d).run ops hc hr
  have hd : n.direct = d := by
    refine careful_run (P := OneByOne ident) (I := fun m => m.direct = d) ?_ ops rfl hc hr
    intro m m' op hm hp he
    exact (exec_direct hp.1 he).trans hm
  have hs := h.sum
  rw [List.nil_append] at hs
  have hp := h.place
  rw [List.nil_append] at hp
  unfold degrees
  rw [sum_eq_sumTo (f := fun i => ((HMap.get n.w.edges i).getD []).length)]
  · unfold entriesTo at hs
    rw [hs, hd, perEdge]
    cases d <;> rfl
  · intro i u hu
    unfold degree getEdges update
    dsimp only
    rw [hp i u hu]

/-- Of a directed network nothing has to be assumed about the removals of edges. -/
theorem C243_directed_partial (ident : O → K) (ops : List (Op O L W)) (n : Net K O L W)
    (hc : Careful ident (NodesOnlyAdded ident) (Net.new true) ops) (hr : run ident (Net.new true) ops = some n) :
    (degrees ident (update n) (nodesAdded ops) : Int) = edgesAfter ident (Net.new true) 0 ops := by
  have key : ∀ (ops : List (Op O L W)) (m : Net K O L W), m.direct = true →
      Careful ident (NodesOnlyAdded ident) m ops → Careful ident (OneByOne ident) m ops := by
    intro ops
    induction ops with
    | nil => intro m _ _; trivial
    | cons op ops ih =>
      intro m hm h
      refine ⟨⟨h.1, fun hd => ?_⟩, fun m' he => ih m' ((exec_direct h.1 he).trans hm) (h.2 m' he)⟩
      rw [hm] at hd
      exact absurd hd (by decide)
  have := C243_degrees_partial ident true ops n (key ops _ rfl hc) hr
  simpa using this

/-- C243 is false of undirected networks with parallel edges: one call of `remove_edge` that answers one edge takes
three of the four entriesTo. -/
theorem C243_parallel_negation_partial :
    ∃ (ops : List (Op Nat Nat Nat)) (n : Net Nat Nat Nat Nat),
      run id (Net.new false) ops = some n ∧ nodesAdded ops = [5, 6] ∧
      Careful id (NodesOnlyAdded id) (Net.new false : Net Nat Nat Nat Nat) ops ∧
      edgesAfter id (Net.new false : Net Nat Nat Nat Nat) 0 ops = 1 ∧ degrees id (update n) [5, 6] = 1 := by
  refine ⟨[.addNode 5, .addNode 6, .addEdge 5 6 .simple, .addEdge 5 6 .simple, .update, .removeEdge 5 6], _,
    rfl, rfl, ?_, by decide, by decide⟩
  refine ⟨(by decide : HMap.get _ _ = none), fun n h => ?_⟩
  obtain rfl := Option.some.inj h
  refine ⟨(by decide : HMap.get _ _ = none), fun n h => ?_⟩
  obtain rfl := Option.some.inj h
  exact ⟨trivial, fun n h => ⟨trivial, fun n h => ⟨trivial, fun n h => ⟨trivial, fun n h => trivial⟩⟩⟩⟩

/-- C243 is false of undirected networks with two loops at a node: one call of `remove_edge` takes both. -/
theorem C243_loops_negation_partial :
    ∃ (ops : List (Op Nat Nat Nat)) (n : Net Nat Nat Nat Nat),
      run id (Net.new false) ops = some n ∧ nodesAdded ops = [5] ∧
      edgesAfter id (Net.new false : Net Nat Nat Nat Nat) 0 ops = 1 ∧ degrees id (update n) [5] = 0 :=
  ⟨[.addNode 5, .addEdge 5 5 .simple, .addEdge 5 5 .simple, .update, .removeEdge 5 5], _, rfl, rfl, by decide, by decide⟩

/-- C243 is false of any network in which a node is added again: its edges are no longer shown. -/
theorem C243_again_negation_partial (d : Bool) :
    ∃ (ops : List (Op Nat Nat Nat)) (n : Net Nat Nat Nat Nat),
      run id (Net.new d) ops = some n ∧ (∀ u, u ∈ nodesAdded ops ↔ u ∈ [5, 6]) ∧
      edgesAfter id (Net.new d : Net Nat Nat Nat Nat) 0 ops = 1 ∧
      (degrees id (update n) [5, 6] : Int) < (if d then 1 else 2) := by
  cases d with
  | true =>
    exact ⟨[.addNode 5, .addNode 6, .addEdge 5 6 .simple, .addNode 5], _, rfl, by simp only [nodesAdded, List.mem_cons, List.not_mem_nil, or_false]; omega, by decide, by decide⟩
  | false =>
    exact ⟨[.addNode 5, .addNode 6, .addEdge 5 6 .simple, .addNode 5], _, rfl, by simp only [nodesAdded, List.mem_cons, List.not_mem_nil, or_false]; omega, by decide, by decide⟩

/-- The hypotheses hold of an undirected network with a loop whose edges are removed in every way. -/
example : ∃ n : Net Nat Nat Nat Nat,
    Careful id (OneByOne id) (Net.new false : Net Nat Nat Nat Nat)
      [.addNode 5, .addNode 6, .addNode 7, .addEdge 5 6 .simple, .addEdge 5 7 .simple, .addEdge 6 7 .simple,
        .addEdge 6 6 .simple, .update, .removeEdge 6 5, .removeOutgoing 7] ∧
    run id (Net.new false)
      [.addNode 5, .addNode 6, .addNode 7, .addEdge 5 6 .simple, .addEdge 5 7 .simple, .addEdge 6 7 .simple,
        .addEdge 6 6 .simple, .update, .removeEdge 6 5, .removeOutgoing 7] = some n ∧
    degrees id (update n) [5, 6, 7] = 2 ∧
    edgesAfter id (Net.new false : Net Nat Nat Nat Nat) 0
      [.addNode 5, .addNode 6, .addNode 7, .addEdge 5 6 .simple, .addEdge 5 7 .simple, .addEdge 6 7 .simple,
        .addEdge 6 6 .simple, .update, .removeEdge 6 5, .removeOutgoing 7] = 1 := by
  refine ⟨_, ?_, rfl, by decide, by decide⟩
  refine ⟨⟨(by decide : HMap.get _ _ = none), fun _ => trivial⟩, fun n h => ?_⟩
  obtain rfl := Option.some.inj h
  refine ⟨⟨(by decide : HMap.get _ _ = none), fun _ => trivial⟩, fun n h => ?_⟩
  obtain rfl := Option.some.inj h
  refine ⟨⟨(by decide : HMap.get _ _ = none), fun _ => trivial⟩, fun n h => ?_⟩
  obtain rfl := Option.some.inj h
  refine ⟨⟨trivial, fun _ => trivial⟩, fun n h => ?_⟩
  obtain rfl := Option.some.inj h
  refine ⟨⟨trivial, fun _ => trivial⟩, fun n h => ?_⟩
  obtain rfl := Option.some.inj h
  refine ⟨⟨trivial, fun _ => trivial⟩, fun n h => ?_⟩
  obtain rfl := Option.some.inj h
  refine ⟨⟨trivial, fun _ => trivial⟩, fun n h => ?_⟩
  obtain rfl := Option.some.inj h
  refine ⟨⟨trivial, fun _ => trivial⟩, fun n h => ?_⟩
  obtain rfl := Option.some.inj h
  refine ⟨⟨trivial, fun _ a b ha hb => ?_⟩, fun n h => ?_⟩
  · obtain rfl := Option.some.inj ha
    obtain rfl := Option.some.inj hb
    exact ⟨fun _ => by decide, fun h => absurd h (by decide)⟩
  obtain rfl := Option.some.inj h
  refine ⟨⟨trivial, fun _ a i ha hi => ?_⟩, fun n h => trivial⟩
  obtain rfl := Option.some.inj ha
  match i with
  | 0 => decide
  | 1 => decide
  | 2 => exact absurd rfl hi
  | i + 3 => exact Nat.zero_le _

end Verif.Network
