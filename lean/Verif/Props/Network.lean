import Verif.Lemmas.Network5

/-!
Properties of `Network` (C44-C50, C52, C78, C79). Histories are lists of calls, oldest first; `run` is `none` if some
call panics.
-/

namespace Verif.Network

variable {K O L W : Type} [DecidableEq K]

instance decSimple [DecidableEq L] [DecidableEq W] : DecidableEq (Net Nat Nat L W) := inferInstance

/-- A small network type for the concrete cases. -/
abbrev Demo := Net Nat Nat Nat Nat

/-- Its calls. -/
abbrev DemoOp := Op Nat Nat Nat

/-! ### C44 -/

/-- **C44.** Whatever is written after a point of the history (say, a publication), every query answers as it did at
that point until the next publication. -/
theorem C44_reads_isolated (ident : O → K) (n n1 n2 : Net K O L W) (pre post : List (Op O L W))
    (hpost : ∀ op ∈ post, op.isWrite = true)
    (h1 : run ident n pre = some n1) (h2 : run ident n (pre ++ post) = some n2) :
    SameReads ident n1 n2 := by
  rw [run_append, h1] at h2
  obtain ⟨hr, hd⟩ := run_r post hpost h2
  exact ⟨fun u => by simp only [getEdges, hr], fun u v => by simp only [getEdge, hr, hd],
    fun i => by simp only [getObject, hr], fun u => by simp only [getId, hr]⟩

/-- **C44.** Before the first publication every query finds nothing. -/
theorem C44_nothing_before_publication (ident : O → K) (d : Bool) (n : Net K O L W) (ops : List (Op O L W))
    (hops : ∀ op ∈ ops, op.isWrite = true) (h : run ident (Net.new d) ops = some n) :
    (∀ u, getEdges ident n u = none) ∧ (∀ u v, getEdge ident n u v = some none) ∧ (∀ i, getObject n i = none) ∧
    (∀ u, getId ident n u = none) := by
  obtain ⟨hr, _⟩ := run_r ops hops h
  exact ⟨fun u => by simp [getEdges, hr, Net.new], fun u v => by simp [getEdge, hr, Net.new],
    fun i => by simp [getObject, hr, Net.new], fun u => by simp [getId, hr, Net.new]⟩

/-- **C44.** A publication shows exactly the written node ids, objects and adjacency lists, leaves the written
state as it is, and the two publishing calls are the same; publishing twice is publishing once. -/
theorem C44_publication (ident : O → K) (n : Net K O L W) :
    (∀ u, getId ident (update n) u = HMap.get n.w.nodes2id (ident u)) ∧
    (∀ i, getObject (update n) i = HMap.get n.w.id2nodes i) ∧
    (∀ u, getEdges ident (update n) u = (HMap.get n.w.nodes2id (ident u)).bind (fun i => HMap.get n.w.edges i)) ∧
    (update n).w = n.w ∧ (update n).direct = n.direct ∧ lazyUpdate n = update n ∧ update (update n) = update n := by
  refine ⟨fun _ => rfl, fun _ => rfl, ?_, rfl, rfl, rfl, rfl⟩
  intro u
  simp only [getEdges, update]
  cases HMap.get n.w.nodes2id (ident u) <;> rfl

example : ∃ n1 n2 : Demo,
    run id (Net.new false) ([.addNode 5, .addNode 6, .addEdge 5 6 (.labeled 3)] ++ [.update]) = some n1 ∧
    run id (Net.new false) ([.addNode 5, .addNode 6, .addEdge 5 6 (.labeled 3)] ++ [.update] ++
      [.addEdge 5 6 .simple, .removeEdge 6 5, .removeAllEdges, .addNode 9]) = some n2 ∧
    getEdges id n1 5 = some [⟨0, 1, some 3, none⟩] ∧ getEdges id n2 5 = some [⟨0, 1, some 3, none⟩] ∧
    getEdges id (update n2) 5 = none := by
  refine ⟨_, _, rfl, rfl, ?_, ?_, ?_⟩ <;> decide

/-! ### C45 -/

/-- **C45, false as stated**: two parallel edges between nodes 5 and 6, then one `remove_edge`: 5 still lists 6, 6 does
not list 5. -/
theorem C45_asymmetry_partial : ∃ (ops : List DemoOp) (n : Demo),
    run id (Net.new false) ops = some n ∧ n.direct = false ∧
    getEdges id n 5 = some [⟨0, 1, none, none⟩] ∧ getEdges id n 6 = some [] ∧ ¬ n.r.Symmetric := by
  refine ⟨[.addNode 5, .addNode 6, .addEdge 5 6 .simple, .addEdge 5 6 .simple, .update, .removeEdge 5 6, .update], _,
    rfl, rfl, by decide, by decide, ?_⟩
  intro h
  exact absurd (h 0 1) (by decide)

/-- **C45, false as stated**: `remove_node` of a node whose neighbour was added since the last publication leaves the
edge at the neighbour. -/
theorem C45_asymmetry_remove_node_partial : ∃ (ops : List DemoOp) (n : Demo),
    run id (Net.new false) ops = some n ∧ getId id n 5 = none ∧
    getEdges id n 6 = some [⟨1, 0, none, none⟩] ∧ ¬ n.r.Symmetric := by
  refine ⟨[.addNode 5, .update, .addNode 6, .addEdge 5 6 .simple, .removeNode 5, .update], _,
    rfl, by decide, by decide, ?_⟩
  intro h
  exact absurd (h 0 1) (by decide)

/-- **C45, without `remove_node`**: any history of an undirected network that removes edges only between nodes with
at most one edge (loops excepted) leaves the written and the published network symmetric. Nodes may be added twice,
unpublished, and so on. Full statement: no restriction on removals, false by `C45_asymmetry_partial`. -/
theorem C45_symmetric_without_remove_node_partial (ident : O → K) (ops : List (Op O L W)) (n : Net K O L W)
    (hc : Careful ident (SimpleNoRemoval ident) (Net.new false) ops) (h : run ident (Net.new false) ops = some n) :
    n.w.Symmetric ∧ n.r.Symmetric := by
  have := careful_run (I := SymInv) (fun n n' op hi hp he => exec_sym hi hp.1 hp.2 he) ops symInv_new hc h
  exact ⟨this.w, this.r⟩

/-- **C45, with `remove_node`** used when it can see all edges of the node (nodes published, lists present), and nodes
added under a free id. -/
theorem C45_symmetric_partial (ident : O → K) (ops : List (Op O L W)) (n : Net K O L W)
    (hc : Careful ident (CarefulAndSimple ident) (Net.new false) ops) (h : run ident (Net.new false) ops = some n) :
    n.w.Symmetric ∧ n.r.Symmetric := by
  have := careful_run (I := fun n => SymInv n ∧ Tidy ident n) (fun n n' op hi hp he => by
    refine ⟨?_, exec_tidy hi.2 hp.1 he⟩
    by_cases hop : ∃ u, op = .removeNode u
    · obtain ⟨u, rfl⟩ := hop
      obtain ⟨⟨n1, b⟩, hr, rfl⟩ := Option.map_eq_some_iff.1 he
      exact removeNode_sym hi.1 hi.2 hp.1 hr
    · exact exec_sym hi.1 hp.2 (fun u hu => hop ⟨u, hu⟩) he) ops ⟨symInv_new, tidy_new ident false⟩ hc h
  exact ⟨this.1.w, this.1.r⟩

/-- The hypothesis holds for a history with parallel edges, a loop, a removal of an edge and of a node. -/
example : ∃ n : Demo,
    Careful id (CarefulAndSimple id) (Net.new false : Demo)
      [.addNode 5, .addNode 6, .addNode 7, .addEdge 5 6 .simple, .addEdge 5 7 .simple, .addEdge 5 7 .simple,
        .addEdge 6 6 .simple, .update, .removeEdge 6 5, .removeNode 7, .update] ∧
    run id (Net.new false)
      [.addNode 5, .addNode 6, .addNode 7, .addEdge 5 6 .simple, .addEdge 5 7 .simple, .addEdge 5 7 .simple,
        .addEdge 6 6 .simple, .update, .removeEdge 6 5, .removeNode 7, .update] = some n ∧
    n.r.edges = [(0, []), (1, [⟨1, 1, none, none⟩, ⟨1, 1, none, none⟩])] := by
  refine ⟨_, ?_, rfl, by decide⟩
  refine ⟨⟨⟨by decide, by decide⟩, trivial⟩, fun n h => ?_⟩
  obtain rfl := Option.some.inj h
  refine ⟨⟨⟨by decide, by decide⟩, trivial⟩, fun n h => ?_⟩
  obtain rfl := Option.some.inj h
  refine ⟨⟨⟨by decide, by decide⟩, trivial⟩, fun n h => ?_⟩
  obtain rfl := Option.some.inj h
  refine ⟨⟨trivial, trivial⟩, fun n h => ?_⟩
  obtain rfl := Option.some.inj h
  refine ⟨⟨trivial, trivial⟩, fun n h => ?_⟩
  obtain rfl := Option.some.inj h
  refine ⟨⟨trivial, trivial⟩, fun n h => ?_⟩
  obtain rfl := Option.some.inj h
  refine ⟨⟨trivial, trivial⟩, fun n h => ?_⟩
  obtain rfl := Option.some.inj h
  refine ⟨⟨trivial, trivial⟩, fun n h => ?_⟩
  obtain rfl := Option.some.inj h
  refine ⟨⟨trivial, ?_⟩, fun n h => ?_⟩
  · intro a b ha hb
    have h1 : (1 : Nat) = a := Option.some.inj ha
    have h2 : (0 : Nat) = b := Option.some.inj hb
    subst h1; subst h2
    exact Or.inr (by decide)
  obtain rfl := Option.some.inj h
  refine ⟨⟨?_, trivial⟩, fun n h => ?_⟩
  · intro uid hu
    have h1 : (2 : Nat) = uid := Option.some.inj hu
    subst h1
    refine ⟨fun k i hk => hk, ?_, ?_⟩
    · intro i o hi
      match i, hi with
      | 0, _ => exact ⟨_, rfl⟩
      | 1, _ => exact ⟨_, rfl⟩
      | 2, _ => exact ⟨_, rfl⟩
    · intro i hi
      refine ⟨(fun h => absurd h (by decide)), ?_⟩
      match i, hi with
      | 0, _ => decide
      | 1, _ => decide
      | (k + 3), _ => exact fun _ h => absurd rfl h
  obtain rfl := Option.some.inj h
  refine ⟨⟨trivial, trivial⟩, fun n h => ?_⟩
  trivial

/-! ### C46 -/

/-- **C46, false as stated**: add nodes 5 and 6, remove 5, add 7: nodes 6 and 7 have the same id. -/
theorem C46_same_id_after_removal_partial : ∃ (ops : List DemoOp) (n : Demo),
    run id (Net.new true) ops = some n ∧ getId id n 6 = some 1 ∧ getId id n 7 = some 1 := by
  exact ⟨[.addNode 5, .addNode 6, .update, .removeNode 5, .addNode 7, .update], _, rfl, by decide, by decide⟩

/-- **C46, false as stated**: adding a present node again gives it a new id, and the next node added gets that id too:
no removal needed. -/
theorem C46_same_id_after_adding_twice_partial : ∃ (ops : List DemoOp) (n : Demo),
    run id (Net.new true) ops = some n ∧ getId id n 5 = some 1 ∧ getId id n 6 = some 1 := by
  exact ⟨[.addNode 5, .addNode 5, .addNode 6, .update], _, rfl, by decide, by decide⟩

/-- **C46, exactly**: in a network whose ids are unique, they still are after `add_node(u)` exactly if `u` is absent and
the number of nodes is not yet the id of a node, or `u` is present with that id already. -/
theorem C46_add_node_exactly_partial (ident : O → K) (n : Net K O L W) (u : O) (h : n.w.IdsUnique ident) :
    (addNode ident n u).w.IdsUnique ident ↔
      (HMap.get n.w.nodes2id (ident u) = none ∧ HMap.get n.w.id2nodes n.w.nodes2id.length = none) ∨
      HMap.get n.w.nodes2id (ident u) = some n.w.nodes2id.length := by
  constructor
  · intro h'
    have hf := h'.1
    have hb := h'.2
    simp only [addNode, HMap.get_insert] at hf hb
    cases hu : HMap.get n.w.nodes2id (ident u) with
    | some j =>
      refine Or.inr ?_
      by_cases hj : j = n.w.nodes2id.length
      · rw [hj]
      · obtain ⟨o, ho, hi⟩ := h.1 _ _ hu
        have := hb j o (by rw [if_neg (fun x => hj x)]; exact ho)
        rw [if_pos hi] at this
        exact absurd (Option.some.inj this).symm hj
    | none =>
      refine Or.inl ⟨rfl, ?_⟩
      cases hg : HMap.get n.w.id2nodes n.w.nodes2id.length with
      | none => rfl
      | some o =>
        have h1 := h.2 _ _ hg
        have hne : ident o ≠ ident u := by intro hx; rw [hx, hu] at h1; cases h1
        obtain ⟨o', ho', hi'⟩ := hf (ident o) n.w.nodes2id.length (by rw [if_neg hne]; exact h1)
        rw [if_pos rfl] at ho'
        rw [← Option.some.inj ho'] at hi'
        exact absurd hi'.symm hne
  · rintro (⟨h1, h2⟩ | h1)
    · exact addNode_idsUnique h h1 h2
    · obtain ⟨o, ho, hi⟩ := h.1 _ _ h1
      refine ⟨?_, ?_⟩
      · intro k i hk
        simp only [addNode, HMap.get_insert] at hk ⊢
        by_cases hku : k = ident u
        · rw [if_pos hku] at hk
          exact ⟨u, by rw [if_pos (Option.some.inj hk).symm], hku.symm⟩
        · rw [if_neg hku] at hk
          obtain ⟨o', ho', hi'⟩ := h.1 _ _ hk
          by_cases hil : i = n.w.nodes2id.length
          · rw [hil, ho] at ho'
            rw [← Option.some.inj ho', hi] at hi'
            exact absurd hi'.symm hku
          · exact ⟨o', by rw [if_neg hil]; exact ho', hi'⟩
      · intro i o' ho'
        simp only [addNode, HMap.get_insert] at ho' ⊢
        by_cases hil : i = n.w.nodes2id.length
        · rw [if_pos hil] at ho'
          rw [if_pos (by rw [Option.some.inj ho'])]
          rw [hil]
        · rw [if_neg hil] at ho'
          have h3 := h.2 _ _ ho'
          by_cases hio : ident o' = ident u
          · rw [hio, h1] at h3
            exact absurd (Option.some.inj h3).symm hil
          · rw [if_neg hio]; exact h3

/-- Both ways of keeping ids unique, and one of losing it: nodes 5 and 6 with ids 0 and 1, and 6 removed, or 5. -/
example : (run id (Net.new true) [.addNode 5, .addNode 6, .update, .removeNode 6] : Option Demo).map (fun n =>
      (HMap.get n.w.nodes2id 7, HMap.get n.w.id2nodes n.w.nodes2id.length)) = some (none, none) ∧
    (run id (Net.new true) [.addNode 5, .addNode 6, .update, .removeNode 5] : Option Demo).map (fun n =>
      (HMap.get n.w.nodes2id 6, n.w.nodes2id.length)) = some (some 1, 1) ∧
    (run id (Net.new true) [.addNode 5, .addNode 6, .update, .removeNode 5] : Option Demo).map (fun n =>
      (HMap.get n.w.nodes2id 7, HMap.get n.w.id2nodes n.w.nodes2id.length)) = some (none, some 6) := by
  refine ⟨?_, ?_, ?_⟩ <;> decide +kernel

/-- **C46, when nodes are only added, once each**: ids are unique, an id shows the node that has it, and with `m` nodes
the ids in use are 0, …, `m - 1`. Full statement: every history, false by the two theorems above. -/
theorem C46_ids_unique_partial (ident : O → K) (d : Bool) (ops : List (Op O L W)) (n : Net K O L W)
    (hc : Careful ident (NodesOnlyAdded ident) (Net.new d) ops) (h : run ident (Net.new d) ops = some n) :
    (∀ u v i, getId ident n u = some i → getId ident n v = some i → ident u = ident v) ∧
    (∀ u i, getId ident n u = some i → ∃ o, getObject n i = some o ∧ ident o = ident u) ∧
    (∀ i o, getObject n i = some o → getId ident n o = some i) ∧
    (∀ i, (getObject n i).isSome = true ↔ i < n.r.nodes2id.length) := by
  have hi := careful_run (I := IdsInv ident) (fun n n' op hi hp he => exec_ids hi hp he) ops (idsInv_new ident d) hc h
  have hu := hi.1.2.2.1
  refine ⟨?_, ?_, ?_, hi.2.2⟩
  · intro u v i h1 h2
    obtain ⟨o1, a1, b1⟩ := hu.1 _ _ h1
    obtain ⟨o2, a2, b2⟩ := hu.1 _ _ h2
    rw [a1] at a2
    rw [← b1, ← b2, Option.some.inj a2]
  · intro u i h1; exact hu.1 _ _ h1
  · intro i o h1; exact hu.2 _ _ h1

/-- **C46, with removals too**, if every `add_node` finds its id free and `remove_node` sees all edges. -/
theorem C46_ids_unique_careful_partial (ident : O → K) (d : Bool) (ops : List (Op O L W)) (n : Net K O L W)
    (hc : Careful ident (NodesCareful ident) (Net.new d) ops) (h : run ident (Net.new d) ops = some n) :
    (∀ u v i, getId ident n u = some i → getId ident n v = some i → ident u = ident v) ∧
    (∀ u i, getId ident n u = some i → ∃ o, getObject n i = some o ∧ ident o = ident u) ∧
    (∀ i o, getObject n i = some o → getId ident n o = some i) := by
  have hi := careful_run (I := Tidy ident) (fun n n' op hi hp he => exec_tidy hi hp he) ops (tidy_new ident d) hc h
  have hu := hi.2.2.1
  refine ⟨?_, ?_, ?_⟩
  · intro u v i h1 h2
    obtain ⟨o1, a1, b1⟩ := hu.1 _ _ h1
    obtain ⟨o2, a2, b2⟩ := hu.1 _ _ h2
    rw [a1] at a2
    rw [← b1, ← b2, Option.some.inj a2]
  · intro u i h1; exact hu.1 _ _ h1
  · intro i o h1; exact hu.2 _ _ h1

example : ∃ n : Demo,
    Careful id (NodesOnlyAdded id) (Net.new true : Demo)
      [.addNode 5, .addNode 6, .addEdge 5 6 .simple, .update, .addNode 7, .removeEdge 5 6, .update] ∧
    run id (Net.new true)
      [.addNode 5, .addNode 6, .addEdge 5 6 .simple, .update, .addNode 7, .removeEdge 5 6, .update] = some n ∧
    getId id n 7 = some 2 := by
  refine ⟨_, ?_, rfl, by decide⟩
  refine ⟨rfl, fun n h => ?_⟩
  obtain rfl := Option.some.inj h
  refine ⟨rfl, fun n h => ?_⟩
  obtain rfl := Option.some.inj h
  refine ⟨trivial, fun n h => ?_⟩
  obtain rfl := Option.some.inj h
  refine ⟨trivial, fun n h => ?_⟩
  obtain rfl := Option.some.inj h
  refine ⟨rfl, fun n h => ?_⟩
  obtain rfl := Option.some.inj h
  exact ⟨trivial, fun n _ => ⟨trivial, fun n _ => trivial⟩⟩

/-! ### C47 -/

theorem edge_new_eq (a b : Nat) (o : EdgeOptions L W) : Edge.new a b o = ⟨a, b, o.label?, o.weight?⟩ := by
  cases o <;> rfl

/-- **C47.** `add_edge` with an absent node changes nothing and answers (false, false). -/
theorem C47_absent (ident : O → K) (n : Net K O L W) (u v : O) (o : EdgeOptions L W)
    (h : HMap.get n.w.nodes2id (ident u) = none ∨ HMap.get n.w.nodes2id (ident v) = none) :
    addEdge ident n u v o = (n, false, false) := addEdge_absent h

/-- **C47.** Otherwise it appends the edge with the given label and weight to the list of `u`, in an undirected network
the reverse one to the list of `v`, and changes nothing else. -/
theorem C47_add_edge (ident : O → K) (n : Net K O L W) (u v : O) (o : EdgeOptions L W) (uid vid : Nat)
    (hu : HMap.get n.w.nodes2id (ident u) = some uid) (hv : HMap.get n.w.nodes2id (ident v) = some vid) :
    (addEdge ident n u v o).2 = (true, !n.direct) ∧
    (∀ i, (addEdge ident n u v o).1.w.adj i = n.w.adj i ++
      (if i = uid then [⟨uid, vid, o.label?, o.weight?⟩] else []) ++
      (if n.direct = false ∧ i = vid then [⟨vid, uid, o.label?, o.weight?⟩] else [])) ∧
    (∀ i, i ≠ uid → (n.direct = false → i ≠ vid) →
      HMap.get (addEdge ident n u v o).1.w.edges i = HMap.get n.w.edges i) ∧
    (addEdge ident n u v o).1.w.nodes2id = n.w.nodes2id ∧ (addEdge ident n u v o).1.w.id2nodes = n.w.id2nodes ∧
    (addEdge ident n u v o).1.r = n.r ∧ (addEdge ident n u v o).1.direct = n.direct := by
  obtain ⟨h1, h2, h3, h4, h5⟩ := addEdge_ok (o := o) hu hv
  have hr := addEdge_r ident n u v o
  refine ⟨h1, ?_, ?_, h2, h3, hr.1, hr.2⟩
  · intro i; rw [h4, edge_new_eq, edge_new_eq]
  · intro i hi hiv
    have ha := h4 i
    rw [if_neg hi, if_neg (fun hc => hiv hc.1 hc.2)] at ha
    simp only [List.append_nil] at ha
    have hn := h5 i
    cases hg : HMap.get n.w.edges i with
    | none => exact hn.2 ⟨hg, hi, hiv⟩
    | some es =>
      cases hg' : HMap.get (addEdge ident n u v o).1.w.edges i with
      | none => rw [(hn.1 hg').1] at hg; simp at hg
      | some es' => rw [adj_of_get hg, adj_of_get hg'] at ha; rw [ha]

/-- **C47, as the API shows it**: after `add_edge` and `update`, `get_edges` of a node with a list is its previous list
followed by the new edges. -/
theorem C47_seen (ident : O → K) (n : Net K O L W) (u v x : O) (o : EdgeOptions L W) (uid vid i : Nat)
    (es : List (Edge L W))
    (hu : HMap.get n.w.nodes2id (ident u) = some uid) (hv : HMap.get n.w.nodes2id (ident v) = some vid)
    (hx : HMap.get n.w.nodes2id (ident x) = some i) (hes : HMap.get n.w.edges i = some es) :
    getEdges ident (update (addEdge ident n u v o).1) x = some (es ++
      (if i = uid then [⟨uid, vid, o.label?, o.weight?⟩] else []) ++
      (if n.direct = false ∧ i = vid then [⟨vid, uid, o.label?, o.weight?⟩] else [])) := by
  obtain ⟨_, h2, _, h4, _⟩ := C47_add_edge ident n u v o uid vid hu hv
  have ha := h2 i
  have h5 := (addEdge_ok (o := o) hu hv).2.2.2.2 i
  simp only [getEdges, update]
  rw [h4, hx]
  dsimp only
  cases hg : HMap.get (addEdge ident n u v o).1.w.edges i with
  | none => rw [(h5.1 hg).1] at hes; simp at hes
  | some es' => rw [adj_of_get hg, adj_of_get hes] at ha; rw [ha]

example : (addEdge id (addNode id (addNode id (Net.new false : Demo) 5) 6) 5 6 (.weightedLabeled 3 4)).2 = (true, true) ∧
    getEdges id (update (addEdge id (addNode id (addNode id (Net.new false : Demo) 5) 6) 5 6 (.weightedLabeled 3 4)).1) 6
      = some [⟨1, 0, some 3, some 4⟩] ∧
    (addEdge id (addNode id (Net.new true : Demo) 5) 5 6 .simple).2 = (false, false) := by
  decide

/-! ### C48 -/

/-- **C48, false as stated**: in a directed network with two parallel edges 6→5, `remove_node(5)` leaves one of them, and
after publication `get_edge` panics. -/
theorem C48_dangling_edge_partial : ∃ (ops : List DemoOp) (n : Demo),
    run id (Net.new true) ops = some n ∧ getId id n 5 = none ∧ getObject n 0 = none ∧
    getEdges id n 6 = some [⟨1, 0, none, none⟩] ∧ getEdge id n 6 6 = none := by
  exact ⟨[.addNode 5, .addNode 6, .addEdge 6 5 .simple, .addEdge 6 5 .simple, .update, .removeNode 5, .update], _,
    rfl, by decide, by decide, by decide, by decide⟩

/-- **C48, if nodes are added under a free id and removed when `remove_node` can find all their edges**: every edge of
the written and of the published network starts at the node that lists it and ends at a present node, and `get_edge`
does not panic. Full statement: every history, false by `C48_dangling_edge_partial`. -/
theorem C48_edges_known_partial (ident : O → K) (d : Bool) (ops : List (Op O L W)) (n : Net K O L W)
    (hc : Careful ident (NodesCareful ident) (Net.new d) ops) (h : run ident (Net.new d) ops = some n) :
    n.w.EdgesKnown ∧ n.r.EdgesKnown ∧
    (∀ u es e, getEdges ident n u = some es → e ∈ es → getId ident n u = some e.u ∧
      ∃ o, getObject n e.v = some o ∧ getId ident n o = some e.v) ∧
    (∀ u v, getEdge ident n u v ≠ none) := by
  have hi := careful_run (I := Tidy ident) (fun n n' op hi hp he => exec_tidy hi hp he) ops (tidy_new ident d) hc h
  refine ⟨hi.2.1, hi.2.2.2, ?_, ?_⟩
  · intro u es e hg he
    unfold getEdges at hg
    cases hu : HMap.get n.r.nodes2id (ident u) with
    | none => rw [hu] at hg; simp at hg
    | some i =>
      rw [hu] at hg
      dsimp only at hg
      obtain ⟨h1, h2⟩ := hi.2.2.2.1 i e (by rw [adj_of_get hg]; exact he)
      refine ⟨by rw [getId, hu, h1], ?_⟩
      obtain ⟨o, ho⟩ := Option.isSome_iff_exists.1 h2
      exact ⟨o, ho, hi.2.2.1.2 _ _ ho⟩
  · intro u v
    rw [getEdge_eq hi.2.2.1 hi.2.2.2]
    simp

/-! ### C49 -/

/-- **C49, directed networks**: `remove_edge` of published nodes whose lists exist returns the first edge u→v, if any,
takes that one out of the list of `u` and changes nothing else. -/
theorem C49_directed_partial (ident : O → K) (n : Net K O L W) (u v : O) (uid vid : Nat) (ues : List (Edge L W))
    (hd : n.direct = true) (hown : n.w.EdgesKnown)
    (hu : HMap.get n.r.nodes2id (ident u) = some uid) (hv : HMap.get n.r.nodes2id (ident v) = some vid)
    (hes : HMap.get n.w.edges uid = some ues) :
    ∃ n', removeEdge ident n u v = some (n', ues.find? (fun e => e.v == vid)) ∧
      HMap.get n'.w.edges uid = some (ues.eraseP (fun e => e.v == vid)) ∧
      (∀ i, i ≠ uid → HMap.get n'.w.edges i = HMap.get n.w.edges i) ∧
      n'.w.nodes2id = n.w.nodes2id ∧ n'.w.id2nodes = n.w.id2nodes ∧ n'.r = n.r ∧ n'.direct = n.direct := by
  obtain ⟨m', h1, h2⟩ := removeEdgeIds_directed (b := vid) hes (own_of_known hown uid ues hes)
  refine ⟨{ n with w := { n.w with edges := m' } }, ?_, ?_, ?_, rfl, rfl, rfl, rfl⟩
  · rw [← hd] at h1
    unfold removeEdge
    rw [hu, hv]
    dsimp only
    rw [h1]
  · dsimp only; rw [h2, if_pos rfl]
  · intro i hi; dsimp only; rw [h2, if_neg hi]

/-- **C49, undirected networks, two different nodes with exactly one edge in each direction**: `remove_edge` takes out
both stored directions, returns the one stored at `u` and changes nothing else. -/
theorem C49_undirected_partial (ident : O → K) (n : Net K O L W) (u v : O) (uid vid : Nat) (ues ves : List (Edge L W))
    (hd : n.direct = false) (hown : n.w.EdgesKnown) (hne : uid ≠ vid)
    (hu : HMap.get n.r.nodes2id (ident u) = some uid) (hv : HMap.get n.r.nodes2id (ident v) = some vid)
    (hes : HMap.get n.w.edges uid = some ues) (hes' : HMap.get n.w.edges vid = some ves)
    (h1 : ues.countP (fun e => e.v == vid) = 1) (h2 : ves.countP (fun e => e.v == uid) = 1) :
    ∃ n' e, removeEdge ident n u v = some (n', some e) ∧ e ∈ ues ∧ e.u = uid ∧ e.v = vid ∧
      HMap.get n'.w.edges uid = some (ues.eraseP (fun e => e.v == vid)) ∧
      HMap.get n'.w.edges vid = some (ves.eraseP (fun e => e.v == uid)) ∧
      (∀ i, i ≠ uid → i ≠ vid → HMap.get n'.w.edges i = HMap.get n.w.edges i) ∧
      n'.w.nodes2id = n.w.nodes2id ∧ n'.w.id2nodes = n.w.id2nodes ∧ n'.r = n.r ∧ n'.direct = n.direct := by
  have ho := own_of_known hown
  cases hf : ues.find? (fun e => e.v == vid) with
  | none => rw [find?_isSome_countP] at hf; omega
  | some e =>
    obtain ⟨m', h3, h4⟩ := removeEdgeIds_undirected hne hes hes' (ho _ _ hes) (ho _ _ hes') hf
    refine ⟨{ n with w := { n.w with edges := m' } }, e, ?_, List.mem_of_find?_eq_some hf,
      ho _ _ hes e (List.mem_of_find?_eq_some hf), by simpa using List.find?_some hf, ?_, ?_, ?_, rfl, rfl, rfl, rfl⟩
    · rw [← hd] at h3
      unfold removeEdge
      rw [hu, hv]
      dsimp only
      rw [h3]
    · dsimp only; rw [h4, if_pos rfl]
    · dsimp only; rw [h4, if_neg (Ne.symm hne), if_pos rfl, eraseP_eq_filter (by omega)]
    · intro i hi hiv; dsimp only; rw [h4, if_neg hi, if_neg hiv]

/-- **C49, no edge**: in either kind of network, if `u` lists no edge to `v` (or one of them is not published),
`remove_edge` returns `None` and changes nothing. -/
theorem C49_no_edge_partial (ident : O → K) (n : Net K O L W) (u v : O)
    (h : HMap.get n.r.nodes2id (ident u) = none ∨ HMap.get n.r.nodes2id (ident v) = none ∨
      ∃ uid vid ues, HMap.get n.r.nodes2id (ident u) = some uid ∧ HMap.get n.r.nodes2id (ident v) = some vid ∧
        HMap.get n.w.edges uid = some ues ∧ (∀ e ∈ ues, e.u = uid) ∧ ∀ e ∈ ues, e.v ≠ vid) :
    removeEdge ident n u v = some (n, none) := by
  unfold removeEdge
  rcases h with h | h | ⟨uid, vid, ues, hu, hv, hes, hown, h0⟩
  · rw [h]
  · rw [h]
    cases HMap.get n.r.nodes2id (ident u) <;> rfl
  · rw [hu, hv]
    dsimp only
    rw [removeEdgeIds_undirected_none hes hown h0]

/-- **C49, false as stated**: (1) of two parallel undirected edges one direction loses both; (2) an edge added since the
last publication of its nodes is not found; (3) after `remove_all_edges` the call panics; (4) so it does when `v` was
removed in the same step and `u` still lists it. -/
theorem C49_exceptions_partial :
    (∃ (ops : List DemoOp) (n n' : Demo) (e : Edge Nat Nat),
      run id (Net.new false) ops = some n ∧ removeEdge id n 5 6 = some (n', some e) ∧
      n.w.mult 0 1 = 2 ∧ n.w.mult 1 0 = 2 ∧ n'.w.mult 0 1 = 1 ∧ n'.w.mult 1 0 = 0) ∧
    (∃ (ops : List DemoOp) (n : Demo), run id (Net.new false) ops = some n ∧
      getEdge id (update n) 5 6 ≠ some none ∧ removeEdge id n 5 6 = some (n, none)) ∧
    (∃ (ops : List DemoOp) (n : Demo), run id (Net.new true) ops = some n ∧ removeEdge id n 5 6 = none) ∧
    (∃ (ops : List DemoOp) (n n' : Demo) (b : Bool), run id (Net.new true) ops = some n ∧
      removeNode id n 5 = some (n', b) ∧ removeEdge id n' 5 6 = none) := by
  refine ⟨⟨[.addNode 5, .addNode 6, .addEdge 5 6 .simple, .addEdge 5 6 .simple, .update], _, _, _, rfl, rfl,
      by decide, by decide, by decide, by decide⟩,
    ⟨[.addNode 5, .addNode 6, .addEdge 5 6 .simple], _, rfl, by decide, rfl⟩,
    ⟨[.addNode 5, .addNode 6, .addEdge 5 6 .simple, .update, .removeAllEdges], _, rfl, rfl⟩,
    ⟨[.addNode 5, .addNode 6, .addEdge 5 6 .simple, .update], _, _, _, rfl, rfl, rfl⟩⟩

/-- The hypotheses of the positive theorems hold in ordinary networks: here a triangle. -/
example : ∃ n : Demo, run id (Net.new false)
      [.addNode 5, .addNode 6, .addNode 7, .addEdge 5 6 .simple, .addEdge 6 7 .simple, .addEdge 7 5 (.labeled 1), .update]
        = some n ∧ HMap.get n.r.nodes2id 5 = some 0 ∧ HMap.get n.r.nodes2id 7 = some 2 ∧
    HMap.get n.w.edges 0 = some [⟨0, 1, none, none⟩, ⟨0, 2, some 1, none⟩] ∧
    HMap.get n.w.edges 2 = some [⟨2, 1, none, none⟩, ⟨2, 0, some 1, none⟩] ∧
    (removeEdge id n 5 7).map (fun x => (x.2, x.1.w.edges)) = some (some ⟨0, 2, some 1, none⟩,
      [(0, [⟨0, 1, none, none⟩]), (1, [⟨1, 0, none, none⟩, ⟨1, 2, none, none⟩]), (2, [⟨2, 1, none, none⟩])]) := by
  refine ⟨_, rfl, ?_, ?_, ?_, ?_, ?_⟩ <;> decide

/-! ### C50 -/

/-- **C50, when the nodes are published under their current ids, have lists (no `remove_all_edges` since) and
`remove_node` can find all edges of `u`** (`Removable`: in a directed network at most one edge from each other node
to `u`; an undirected network may have parallel edges): the node is gone, no edge mentions it, everything else is as
before. Full statement: every network, false by `C50_exceptions_partial`. -/
theorem C50_remove_node_partial (ident : O → K) (n : Net K O L W) (u : O) (uid : Nat)
    (hu : HMap.get n.w.nodes2id (ident u) = some uid)
    (hids : n.w.IdsUnique ident) (hk : n.w.EdgesKnown) (hp : Published n) (hl : n.w.Listed) (hr : Removable n uid) :
    ∃ n', removeNode ident n u = some (n', true) ∧ SameReads ident n n' ∧
      getId ident (update n') u = none ∧ getObject (update n') uid = none ∧ getEdges ident (update n') u = none ∧
      (∀ x, ident x ≠ ident u → getId ident (update n') x = HMap.get n.w.nodes2id (ident x)) ∧
      (∀ i, i ≠ uid → getObject (update n') i = HMap.get n.w.id2nodes i) ∧
      (∀ x, ident x ≠ ident u → getEdges ident (update n') x =
        ((HMap.get n.w.nodes2id (ident x)).bind (fun i => HMap.get n.w.edges i)).map
          (fun es => es.filter (fun e => !(e.v == uid)))) ∧
      (∀ i e, e ∈ (update n').r.adj i → e.u ≠ uid ∧ e.v ≠ uid) := by
  obtain ⟨n', h1, h2, h3, h4, h5, h6⟩ := removeNode_ok hu hids hk hp hl hr
  refine ⟨n', h1, ?_, ?_, ?_, ?_, ?_, ?_, ?_, ?_⟩
  · exact ⟨fun u => by simp only [getEdges, h2], fun u v => by simp only [getEdge, h2, h3],
      fun i => by simp only [getObject, h2], fun u => by simp only [getId, h2]⟩
  · simp only [getId, update, h4, HMap.get_remove, if_pos]
  · simp only [getObject, update, h5, HMap.get_remove, if_pos]
  · simp only [getEdges, update, h4, HMap.get_remove, if_pos]
  · intro x hx
    simp only [getId, update, h4, HMap.get_remove, if_neg hx]
  · intro i hi
    simp only [getObject, update, h5, HMap.get_remove, if_neg hi]
  · intro x hx
    simp only [getEdges, update, h4, HMap.get_remove, if_neg hx]
    cases hg : HMap.get n.w.nodes2id (ident x) with
    | none => rfl
    | some i =>
      dsimp only
      rw [h6]
      by_cases hi : i = uid
      · exfalso
        subst hi
        obtain ⟨o1, a1, b1⟩ := hids.1 _ _ hg
        obtain ⟨o2, a2, b2⟩ := hids.1 _ _ hu
        rw [a1] at a2
        exact hx (by rw [← b1, ← b2, Option.some.inj a2])
      · rw [if_neg hi]; rfl
  · intro i e he
    simp only [Side.adj, update, h6] at he
    by_cases hi : i = uid
    · rw [if_pos hi] at he; simp at he
    · rw [if_neg hi] at he
      cases hg : HMap.get n.w.edges i with
      | none => rw [hg] at he; simp at he
      | some es =>
        rw [hg] at he
        simp at he
        refine ⟨?_, he.2⟩
        rw [own_of_known hk i es hg e he.1]
        exact hi

/-- **C50, absent node**: `remove_node` of an absent node answers false and changes nothing. -/
theorem C50_absent_partial (ident : O → K) (n : Net K O L W) (u : O) (h : HMap.get n.w.nodes2id (ident u) = none) :
    removeNode ident n u = some (n, false) := by
  unfold removeNode
  rw [h]

/-- **C50, false as stated**: (1) directed with two edges 6→5: one survives the removal of 5; (2) a present node that
has not been published is not removed, with answer false; (3) undirected: after one `remove_edge` between nodes with
two parallel edges, `remove_node` panics; (4) it panics after `remove_all_edges`. -/
theorem C50_exceptions_partial :
    (∃ (ops : List DemoOp) (n n' : Demo), run id (Net.new true) ops = some n ∧
      removeNode id n 5 = some (n', true) ∧ getEdges id (update n') 6 = some [⟨1, 0, none, none⟩]) ∧
    (∃ (ops : List DemoOp) (n : Demo), run id (Net.new true) ops = some n ∧
      HMap.get n.w.nodes2id 5 = some 0 ∧ removeNode id n 5 = some (n, false)) ∧
    (∃ (ops : List DemoOp) (n : Demo), run id (Net.new false) ops = some n ∧ removeNode id n 6 = none) ∧
    (∃ (ops : List DemoOp) (n : Demo), run id (Net.new true) ops = some n ∧ removeNode id n 5 = none) := by
  exact ⟨⟨[.addNode 5, .addNode 6, .addEdge 6 5 .simple, .addEdge 6 5 .simple, .update], _, _, rfl, rfl, by decide⟩,
    ⟨[.addNode 5], _, rfl, by decide, rfl⟩,
    ⟨[.addNode 5, .addNode 6, .addEdge 5 6 .simple, .addEdge 5 6 .simple, .update, .removeEdge 5 6], _, rfl, rfl⟩,
    ⟨[.addNode 5, .addNode 6, .update, .removeAllEdges], _, rfl, rfl⟩⟩

/-! ### C52 -/

/-- **C52, what holds**: after `remove_all_edges` and `update` no node lists an edge and `get_edge` finds none; ids and
objects are as written; an `add_edge` between present nodes is then the only edge. -/
theorem C52_no_edges_partial (ident : O → K) (n : Net K O L W) :
    (∀ i, (update (removeAllEdges n)).r.adj i = []) ∧
    (∀ u v, getEdge ident (update (removeAllEdges n)) u v = some none) ∧
    (∀ u, getId ident (update (removeAllEdges n)) u = HMap.get n.w.nodes2id (ident u)) ∧
    (∀ i, getObject (update (removeAllEdges n)) i = HMap.get n.w.id2nodes i) ∧
    (∀ u v o uid vid, n.direct = true → HMap.get n.w.nodes2id (ident u) = some uid →
      HMap.get n.w.nodes2id (ident v) = some vid →
      getEdges ident (update (addEdge ident (removeAllEdges n) u v o).1) u = some [⟨uid, vid, o.label?, o.weight?⟩]) := by
  refine ⟨fun _ => rfl, ?_, fun _ => rfl, fun _ => rfl, ?_⟩
  · intro u v
    simp only [getEdge, update, removeAllEdges]
    cases HMap.get n.w.nodes2id (ident u) <;> rfl
  · intro u v o uid vid hd hu hv
    have hu' : HMap.get (removeAllEdges n).w.nodes2id (ident u) = some uid := hu
    obtain ⟨_, h2, _, h4, _⟩ := C47_add_edge ident (removeAllEdges n) u v o uid vid hu' hv
    have h5 := (addEdge_ok (o := o) hu' hv).2.2.2.2 uid
    simp only [getEdges, update]
    rw [h4, hu']
    dsimp only
    have ha := h2 uid
    have hd' : (removeAllEdges n).direct = true := hd
    rw [if_pos rfl, hd'] at ha
    simp only [Bool.true_eq_false, false_and, if_false, List.append_nil] at ha
    cases hg : HMap.get (addEdge ident (removeAllEdges n) u v o).1.w.edges uid with
    | none => exact absurd rfl (h5.1 hg).2.1
    | some es' => rw [adj_of_get hg] at ha; rw [ha]; rfl

/-- **C52, false as stated**: `get_edges` answers `None`, not an empty list, for *every* node, and `remove_edge` between
any two published nodes panics, as do `remove_node`, `remove_incoming_edges` and `remove_outgoing_edges`. -/
theorem C52_get_edges_none_partial (ident : O → K) (n : Net K O L W) :
    (∀ u, getEdges ident (update (removeAllEdges n)) u = none) ∧
    (∀ u v uid vid, HMap.get n.w.nodes2id (ident u) = some uid → HMap.get n.w.nodes2id (ident v) = some vid →
      removeEdge ident (update (removeAllEdges n)) u v = none) := by
  refine ⟨?_, ?_⟩
  · intro u
    simp only [getEdges, update, removeAllEdges]
    cases HMap.get n.w.nodes2id (ident u) <;> rfl
  · intro u v uid vid hu hv
    simp only [removeEdge, update, removeAllEdges, hu, hv, removeEdgeIds]
    rfl

theorem C52_panics_partial : ∃ (ops : List DemoOp) (n : Demo), run id (Net.new true) ops = some n ∧
    getId id n 5 = some 0 ∧ getEdges id n 5 = none ∧ removeEdge id n 5 6 = none ∧ removeNode id n 5 = none ∧
    removeEdgesOf id true n 5 = none ∧ removeEdgesOf id false n 5 = none := by
  exact ⟨[.addNode 5, .addNode 6, .addEdge 5 6 .simple, .removeAllEdges, .update], _, rfl, rfl, rfl, rfl, rfl, rfl, rfl⟩

/-! ### C78 -/

/-- **C78.** In a network built with nodes added under free ids and removed when all their edges can be found, `get_edge`
returns the first edge from `u` to `v` that `get_edges(u)` shows, and `None` exactly if it shows none (or one of the
nodes is not there). -/
theorem C78_get_edge (ident : O → K) (d : Bool) (ops : List (Op O L W)) (n : Net K O L W)
    (hc : Careful ident (NodesCareful ident) (Net.new d) ops) (h : run ident (Net.new d) ops = some n) (u v : O) :
    ∃ r, getEdge ident n u v = some r ∧
      r = ((getId ident n v).bind (fun vid => ((getEdges ident n u).getD []).find? (fun e => e.v == vid))) := by
  have hi := careful_run (I := Tidy ident) (fun n n' op hi hp he => exec_tidy hi hp he) ops (tidy_new ident d) hc h
  refine ⟨_, getEdge_eq hi.2.2.1 hi.2.2.2 u v, ?_⟩
  unfold getId getEdges
  cases hu : HMap.get n.r.nodes2id (ident u) with
  | none => cases HMap.get n.r.nodes2id (ident v) <;> rfl
  | some uid =>
    cases hv : HMap.get n.r.nodes2id (ident v) with
    | none => rfl
    | some vid => rfl

/-- **C78.** In an undirected network (with the restrictions of C45) `get_edge(u, v)` finds an edge iff `get_edge(v, u)`
does. -/
theorem C78_get_edge_symmetric (ident : O → K) (ops : List (Op O L W)) (n : Net K O L W)
    (hc : Careful ident (CarefulAndSimple ident) (Net.new false) ops) (h : run ident (Net.new false) ops = some n)
    (u v : O) : getEdge ident n u v = some none ↔ getEdge ident n v u = some none := by
  have hs := (C45_symmetric_partial ident ops n hc h).2
  have hc' : Careful ident (NodesCareful ident) (Net.new false) ops := careful_mono (fun n op hp => hp.1) ops hc
  have hi := careful_run (I := Tidy ident) (fun n n' op hi hp he => exec_tidy hi hp he) ops (tidy_new ident false) hc' h
  rw [getEdge_eq hi.2.2.1 hi.2.2.2, getEdge_eq hi.2.2.1 hi.2.2.2]
  cases hu : getId ident n u with
  | none => cases getId ident n v <;> simp
  | some uid =>
    cases hv : getId ident n v with
    | none => simp
    | some vid =>
      dsimp only
      rw [Option.some.injEq, Option.some.injEq, find?_isSome_countP, find?_isSome_countP]
      have := hs uid vid
      unfold Side.mult at this
      rw [this]

example : ∃ n : Demo, run id (Net.new false) [.addNode 5, .addNode 6, .addEdge 5 6 (.labeled 3), .update] = some n ∧
    getEdge id n 6 5 = some (some ⟨1, 0, some 3, none⟩) ∧ getEdge id n 6 6 = some none := by
  refine ⟨_, rfl, ?_, ?_⟩ <;> decide

/-! ### C79 -/

/-- **C79, directed networks, no parallel edges into `u`, nodes published with lists**: `remove_incoming_edges(u)` takes
out exactly the edges from other nodes to `u` and returns them. -/
theorem C79_remove_incoming_partial (ident : O → K) (n : Net K O L W) (u : O) (uid : Nat) (hd : n.direct = true)
    (hu : HMap.get n.w.nodes2id (ident u) = some uid)
    (hids : n.w.IdsUnique ident) (hk : n.w.EdgesKnown) (hp : Published n) (hl : n.w.Listed)
    (hs : ∀ i, i ≠ uid → n.w.mult i uid ≤ 1) :
    ∃ n' l, removeEdgesOf ident true n u = some (n', some l) ∧
      HMap.get n'.w.edges uid = HMap.get n.w.edges uid ∧
      (∀ i, i ≠ uid → HMap.get n'.w.edges i = (HMap.get n.w.edges i).map (fun es => es.filter (fun e => !(e.v == uid)))) ∧
      (∀ e, e ∈ l ↔ ∃ i, i ≠ uid ∧ e ∈ n.w.adj i ∧ e.v = uid) ∧
      n'.w.nodes2id = n.w.nodes2id ∧ n'.w.id2nodes = n.w.id2nodes ∧ n'.r = n.r := by
  have hown := own_of_known hk
  have hks : ∀ k ∈ HMap.keys n.w.id2nodes, k ≠ uid →
      ∃ es, HMap.get n.w.edges k = some es ∧ es.countP (fun e => e.v == uid) ≤ 1 := by
    intro k hkk hku
    rw [HMap.mem_keys_iff, Option.isSome_iff_exists] at hkk
    obtain ⟨o, ho⟩ := hkk
    obtain ⟨es, hes⟩ := hl k o ho
    exact ⟨es, hes, by rw [← mult_of_get hes]; exact hs k hku⟩
  have hout : ∀ i, i ∉ HMap.keys n.w.id2nodes → HMap.get n.w.edges i = none := by
    intro i hi
    cases hg : HMap.get n.w.edges i with
    | none => rfl
    | some es => exact absurd (HMap.mem_keys_iff.2 (hk.2 i es hg)) hi
  obtain ⟨m, l, h1, h2⟩ := removeLoop_in_directed (HMap.keys n.w.id2nodes) hown hks
  have h3 := removeLoop_in_directed_list (HMap.keys n.w.id2nodes) hown hks h1
  refine ⟨{ n with w := { n.w with edges := m } }, l, removeEdgesOf_eq hu hids hp (by rw [hd]; exact h1), ?_, ?_, ?_, rfl, rfl, rfl⟩
  · dsimp only
    rw [h2, if_neg (by simp)]
  · intro i hi
    dsimp only
    rw [h2]
    by_cases him : i ∈ HMap.keys n.w.id2nodes
    · rw [if_pos ⟨him, hi⟩]
    · rw [if_neg (fun h => him h.1), hout i him]; rfl
  · intro e
    rw [h3]
    constructor
    · rintro ⟨k, _, hku, es, hes, he, hv⟩
      exact ⟨k, hku, by rw [adj_of_get hes]; exact he, hv⟩
    · rintro ⟨k, hku, he, hv⟩
      cases hg : HMap.get n.w.edges k with
      | none => simp [Side.adj, hg] at he
      | some es =>
        rw [adj_of_get hg] at he
        refine ⟨k, ?_, hku, es, hg, he, hv⟩
        exact HMap.mem_keys_iff.2 (hk.2 k es hg)

/-- **C79, directed networks, no parallel edges out of `u`, nodes published, `u` has a list**:
`remove_outgoing_edges(u)` takes out exactly the edges from `u` to other nodes and returns them. -/
theorem C79_remove_outgoing_partial (ident : O → K) (n : Net K O L W) (u : O) (uid : Nat) (ues : List (Edge L W))
    (hd : n.direct = true) (hu : HMap.get n.w.nodes2id (ident u) = some uid)
    (hids : n.w.IdsUnique ident) (hk : n.w.EdgesKnown) (hp : Published n) (hes : HMap.get n.w.edges uid = some ues)
    (hs : ∀ i, i ≠ uid → n.w.mult uid i ≤ 1) :
    ∃ n' l, removeEdgesOf ident false n u = some (n', some l) ∧
      HMap.get n'.w.edges uid = some (ues.filter (fun e => e.v == uid)) ∧
      (∀ i, i ≠ uid → HMap.get n'.w.edges i = HMap.get n.w.edges i) ∧
      (∀ e, e ∈ l ↔ e ∈ ues ∧ e.v ≠ uid) ∧
      n'.w.nodes2id = n.w.nodes2id ∧ n'.w.id2nodes = n.w.id2nodes ∧ n'.r = n.r := by
  have hown := own_of_known hk
  obtain ⟨m, l, h1, h2, h3, h4⟩ := removeLoop_out_directed_exact (HMap.keys n.w.id2nodes) hown hes (by
    intro k _ hku
    rw [← mult_of_get hes]
    exact hs k hku)
  have hmem : ∀ e ∈ ues, e.v ∈ HMap.keys n.w.id2nodes := by
    intro e he
    exact HMap.mem_keys_iff.2 (hk.1 uid e (by rw [adj_of_get hes]; exact he)).2
  refine ⟨{ n with w := { n.w with edges := m } }, l, removeEdgesOf_eq hu hids hp (by rw [hd]; exact h1), ?_, h3, ?_, rfl, rfl, rfl⟩
  · dsimp only
    rw [h2]
    congr 1
    refine List.filter_congr ?_
    intro e he
    simp [hmem e he]
  · intro e
    rw [h4]
    constructor
    · rintro ⟨a, b, _⟩; exact ⟨a, b⟩
    · rintro ⟨a, b⟩; exact ⟨a, b, hmem e a⟩

/-- **C79, as calls of a history**: under the same hypotheses both calls run, and after the next publication
`remove_incoming_edges(u)` shows every other list without the edges to `u` and the list of `u` unchanged,
`remove_outgoing_edges(u)` shows only the loops of `u` and the other lists unchanged. -/
theorem C79_histories_partial (ident : O → K) (n : Net K O L W) (u : O) (uid : Nat) (hd : n.direct = true)
    (hu : HMap.get n.w.nodes2id (ident u) = some uid)
    (hids : n.w.IdsUnique ident) (hk : n.w.EdgesKnown) (hp : Published n) (hl : n.w.Listed)
    (hs : ∀ i, i ≠ uid → n.w.mult i uid ≤ 1 ∧ n.w.mult uid i ≤ 1) :
    (∃ n', run ident n [.removeIncoming u, .update] = some n' ∧ n'.r.adj uid = n.w.adj uid ∧
      ∀ i, i ≠ uid → n'.r.adj i = (n.w.adj i).filter (fun e => !(e.v == uid))) ∧
    (∃ n', run ident n [.removeOutgoing u, .update] = some n' ∧
      n'.r.adj uid = (n.w.adj uid).filter (fun e => e.v == uid) ∧ ∀ i, i ≠ uid → n'.r.adj i = n.w.adj i) := by
  obtain ⟨uo, huo, _⟩ := hids.1 _ _ hu
  obtain ⟨ues, hues⟩ := hl uid uo huo
  constructor
  · obtain ⟨n', l, h1, h2, h3, _⟩ := C79_remove_incoming_partial ident n u uid hd hu hids hk hp hl (fun i hi => (hs i hi).1)
    refine ⟨update n', by simp [run, exec, h1], ?_, ?_⟩
    · show (HMap.get n'.w.edges uid).getD [] = _
      rw [h2]; rfl
    · intro i hi
      show (HMap.get n'.w.edges i).getD [] = _
      rw [h3 i hi, Side.adj]
      cases HMap.get n.w.edges i <;> rfl
  · obtain ⟨n', l, h1, h2, h3, _⟩ := C79_remove_outgoing_partial ident n u uid ues hd hu hids hk hp hues (fun i hi => (hs i hi).2)
    refine ⟨update n', by simp [run, exec, h1], ?_, ?_⟩
    · show (HMap.get n'.w.edges uid).getD [] = _
      rw [h2, Side.adj, hues]; rfl
    · intro i hi
      show (HMap.get n'.w.edges i).getD [] = _
      rw [h3 i hi]; rfl

/-- **C79, false as stated**: the example in the documentation of `remove_incoming_edges` (nodes and edges added, not yet
published): the call answers `None` and removes nothing. With parallel edges one survives. -/
theorem C79_documented_example_partial :
    (∃ (ops : List DemoOp) (n : Demo), run id (Net.new true) ops = some n ∧
      ops.length = 6 ∧ removeEdgesOf id true n 0 = some (n, none) ∧
      getEdges id (update n) 1 = some [⟨1, 0, none, none⟩] ∧ getEdges id (update n) 2 = some [⟨2, 0, none, none⟩]) ∧
    (∃ (ops : List DemoOp) (n n' : Demo) (l : List (Edge Nat Nat)), run id (Net.new true) ops = some n ∧
      removeEdgesOf id true n 0 = some (n', some l) ∧ getEdges id (update n') 1 = some [⟨1, 0, none, none⟩]) := by
  exact ⟨⟨[.addNode 0, .addNode 1, .addNode 2, .addEdge 1 0 .simple, .addEdge 2 0 .simple, .addEdge 0 1 .simple], _, rfl,
      rfl, rfl, by decide, by decide⟩,
    ⟨[.addNode 0, .addNode 1, .addEdge 1 0 .simple, .addEdge 1 0 .simple, .update], _, _, _, rfl, rfl, by decide⟩⟩

example : ∃ n : Demo, run id (Net.new true)
      [.addNode 0, .addNode 1, .addNode 2, .addEdge 1 0 .simple, .addEdge 2 0 .simple, .addEdge 0 1 .simple, .update]
        = some n ∧
    (removeEdgesOf id true n 0).map (fun x => (x.2, x.1.w.edges)) =
      some (some [⟨1, 0, none, none⟩, ⟨2, 0, none, none⟩], [(0, [⟨0, 1, none, none⟩]), (1, []), (2, [])]) ∧
    (removeEdgesOf id false n 0).map (fun x => (x.2, x.1.w.edges)) =
      some (some [⟨0, 1, none, none⟩], [(0, []), (1, [⟨1, 0, none, none⟩]), (2, [⟨2, 0, none, none⟩])]) := by
  refine ⟨_, rfl, ?_, ?_⟩ <;> decide

end Verif.Network
