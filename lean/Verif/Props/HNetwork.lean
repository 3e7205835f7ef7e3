import Verif.Lemmas.HNetwork
import Verif.Spec.Network

/-!
Properties of `HNetwork` (C46, C53-C56, C80, C81). Histories are lists of calls, oldest first; `run` is `none` if
some call panics.
-/

set_option linter.unusedSectionVars false

namespace Verif.HNetwork

open Verif.Network (EdgeOptions)

variable {K O L W : Type} [DecidableEq K]

/-- A small hypernetwork type for the concrete cases. -/
abbrev Demo := HNet Nat Nat Nat Nat

/-- Its calls. -/
abbrev DemoOp := Op Nat Nat Nat

/-! ### C53 -/

/-- **C53, second half**: after any history every hyperedge listed for a node contains the node's id, in the written and
in the published lists. -/
theorem C53_members_partial (ident : O → K) (ops : List (Op O L W)) (n : HNet K O L W)
    (h : run ident HNet.new ops = some n) :
    Members n.edges ∧ Members n.redges ∧
    ∀ u es e, getEdges ident n u = some es → e ∈ es → ∃ i, getId ident n u = some i ∧ i ∈ e.nodes := by
  have hb := run_inv (I := Base) (fun n n' op hi he => exec_base n n' op hi he) ops base_new h
  refine ⟨hb.members, hb.rmembers, ?_⟩
  intro u es e hg he
  unfold getEdges at hg
  cases hu : HMap.get n.nodes2id (ident u) with
  | none => rw [hu] at hg; simp at hg
  | some i =>
    rw [hu] at hg
    exact ⟨i, hu, hb.rmembers i e (by rw [listOf_of_get hg]; exact he)⟩

/-- **C53, first half, false as stated**: `add_edge(&[5, 5, 6])` lists the hyperedge {5, 6} for 5 only. -/
theorem C53_incomplete_partial : ∃ (ops : List DemoOp) (n : Demo),
    run id HNet.new ops = some n ∧ getEdges id n 5 = some [⟨[0, 1], none, none⟩] ∧ getEdges id n 6 = some [] ∧
    getId id n 6 = some 1 ∧ ¬ Complete n.redges := by
  refine ⟨[.addNode 5, .addNode 6, .addEdge [5, 5, 6] .simple, .update], _, rfl, by decide, by decide, by decide, ?_⟩
  intro h
  obtain ⟨e, he, _⟩ := h 0 ⟨[0, 1], none, none⟩ (by decide) 1 (by decide)
  exact absurd he (by
    have : listOf ([(0, [(⟨[0, 1], none, none⟩ : HEdge Nat Nat)]), (1, [])] : HEdgeMap Nat Nat) 1 = [] := by decide
    intro hh
    change e ∈ listOf ([(0, [(⟨[0, 1], none, none⟩ : HEdge Nat Nat)]), (1, [])] : HEdgeMap Nat Nat) 1 at hh
    rw [this] at hh
    simp at hh)

/-- **C53, first half, when every `add_edge` gets nodes with different ids**: after any history a hyperedge listed for one
id is listed for every id it contains, in the written and in the published lists. Removals of edges and nodes are
unrestricted. -/
theorem C53_complete_partial (ident : O → K) (ops : List (Op O L W)) (n : HNet K O L W)
    (hc : Careful ident (DistinctIds ident) HNet.new ops) (h : run ident HNet.new ops = some n) :
    Complete n.edges ∧ Complete n.redges := by
  have hb := careful_run (I := Full) (fun n n' op hi hp he => exec_full n n' op hi hp he) ops full_new hc h
  exact ⟨hb.complete, hb.rcomplete⟩

example : ∃ n : Demo, Careful id (DistinctIds id) (HNet.new : Demo)
      [.addNode 5, .addNode 6, .addNode 7, .addEdge [5, 6, 7] .simple, .addEdge [6, 5] (.labeled 1), .update,
        .removeObject 7, .update] ∧
    run id HNet.new
      [.addNode 5, .addNode 6, .addNode 7, .addEdge [5, 6, 7] .simple, .addEdge [6, 5] (.labeled 1), .update,
        .removeObject 7, .update] = some n ∧
    n.redges = [(0, [⟨[1, 0], some 1, none⟩]), (1, [⟨[1, 0], some 1, none⟩]), (2, [])] := by
  refine ⟨_, ?_, rfl, by decide⟩
  refine ⟨trivial, fun n h => ?_⟩
  obtain rfl := Option.some.inj h
  refine ⟨trivial, fun n h => ?_⟩
  obtain rfl := Option.some.inj h
  refine ⟨trivial, fun n h => ?_⟩
  obtain rfl := Option.some.inj h
  refine ⟨?_, fun n h => ?_⟩
  · intro ids h
    have : [0, 1, 2] = ids := Option.some.inj h
    subst this
    decide
  obtain rfl := Option.some.inj h
  refine ⟨?_, fun n h => ?_⟩
  · intro ids h
    have : [1, 0] = ids := Option.some.inj h
    subst this
    decide
  obtain rfl := Option.some.inj h
  exact ⟨trivial, fun n h => ⟨trivial, fun n h => ⟨trivial, fun n h => trivial⟩⟩⟩

/-! ### C54 -/

/-- **C54.** After any history no node lists two hyperedges with the same node set, written or published. -/
theorem C54_no_repeats (ident : O → K) (ops : List (Op O L W)) (n : HNet K O L W)
    (h : run ident HNet.new ops = some n) :
    NoRepeats n.edges ∧ NoRepeats n.redges ∧
    ∀ u es, getEdges ident n u = some es → es.Pairwise (fun a b => ¬ SameNodes a b) := by
  have hb := run_inv (I := Base) (fun n n' op hi he => exec_base n n' op hi he) ops base_new h
  refine ⟨hb.noRepeats, hb.rnoRepeats, ?_⟩
  intro u es hg
  unfold getEdges at hg
  cases hu : HMap.get n.nodes2id (ident u) with
  | none => rw [hu] at hg; simp at hg
  | some i =>
    rw [hu] at hg
    have := hb.rnoRepeats i
    rw [listOf_of_get hg] at this
    exact this

example : ∃ n : Demo, run id HNet.new [.addNode 5, .addNode 6, .addEdge [5, 6] .simple, .addEdge [6, 5] (.labeled 3),
      .addEdge [5] .simple, .update] = some n ∧
    getEdges id n 5 = some [⟨[0, 1], none, none⟩, ⟨[0], none, none⟩] := by
  refine ⟨_, rfl, by decide⟩

/-! ### C55 -/

/-- **C55, false as stated**: with a repeated node the answer is false although the hyperedge was added, to every member
(`[5, 5]`) or only to some (`[5, 5, 6]`). -/
theorem C55_false_but_added_partial : ∃ n : Demo, run id HNet.new [.addNode 5, .addNode 6] = some n ∧
    (addEdge id n [5, 5] .simple).2 = false ∧ (addEdge id n [5, 5] .simple).1 ≠ n ∧
    listOf (addEdge id n [5, 5] .simple).1.edges 0 = [⟨[0], none, none⟩] ∧
    (addEdge id n [5, 5, 6] .simple).2 = false ∧
    listOf (addEdge id n [5, 5, 6] .simple).1.edges 0 = [⟨[0, 1], none, none⟩] ∧
    listOf (addEdge id n [5, 5, 6] .simple).1.edges 1 = [] := by
  refine ⟨_, rfl, ?_, ?_, ?_, ?_, ?_, ?_⟩ <;> decide

/-- **C55, nothing to add**: an empty slice or an absent node gives false and no change. -/
theorem C55_absent_partial (ident : O → K) (n : HNet K O L W) (us : List O) (o : EdgeOptions L W)
    (h : us = [] ∨ idsOf ident n us = none) : addEdge ident n us o = (n, false) := by
  unfold addEdge
  rcases h with rfl | h
  · rfl
  · cases us with
    | nil => rfl
    | cons u us => dsimp only; rw [h]

theorem idsOf_none (ident : O → K) (n : HNet K O L W) (us : List O) :
    idsOf ident n us = none ↔ ∃ u ∈ us, HMap.get n.nodes2id (ident u) = none := by
  induction us with
  | nil => simp [idsOf]
  | cons u us ih =>
    rw [idsOf]
    cases hg : HMap.get n.nodes2id (ident u) with
    | none => simp [hg]
    | some i => simp [hg, ih]

/-- **C55, nodes with different ids, in a network built with such calls** (`Complete`, see C53): the answer is false iff a
hyperedge with the same nodes is listed already, for any (equivalently every) member; then nothing changes. Otherwise
it is appended, with its label and weight, to the list of every member and no other list changes. -/
theorem C55_add_edge_partial (ident : O → K) (n : HNet K O L W) (us : List O) (o : EdgeOptions L W) (ids : List Nat)
    (hids : idsOf ident n us = some ids) (hne : us ≠ []) (hnd : ids.Nodup) (hc : Complete n.edges) :
    ((addEdge ident n us o).2 = false ↔ ∃ i ∈ ids, ∃ x ∈ listOf n.edges i, ∀ j, j ∈ x.nodes ↔ j ∈ ids) ∧
    ((addEdge ident n us o).2 = false → (addEdge ident n us o).1 = n) ∧
    ((addEdge ident n us o).2 = true → ∃ e : HEdge L W, (∀ j, j ∈ e.nodes ↔ j ∈ ids) ∧
      e.label = o.label? ∧ e.weight = o.weight? ∧
      (∀ i, listOf (addEdge ident n us o).1.edges i = listOf n.edges i ++ (if i ∈ ids then [e] else [])) ∧
      (addEdge ident n us o).1.redges = n.redges ∧ (addEdge ident n us o).1.nodes2id = n.nodes2id ∧
      (addEdge ident n us o).1.id2nodes = n.id2nodes ∧ (addEdge ident n us o).1.rid2nodes = n.rid2nodes) := by
  have heq : addEdge ident n us o = ({ n with edges := (addLoop (HEdge.new ids o) ids n.edges).1 },
      (addLoop (HEdge.new ids o) ids n.edges).2) := by
    unfold addEdge
    cases us with
    | nil => exact absurd rfl hne
    | cons u us' => dsimp only; rw [hids]
  have hmem : ∀ j, j ∈ (HEdge.new ids o).nodes ↔ j ∈ ids := fun j => mem_new
  have hsame : ∀ x : HEdge L W, SameNodes x (HEdge.new ids o) ↔ ∀ j, j ∈ x.nodes ↔ j ∈ ids := by
    intro x
    unfold SameNodes
    simp only [hmem]
  obtain ⟨i, ids', rfl⟩ : ∃ i ids', ids = i :: ids' := by
    cases ids with
    | cons i ids' => exact ⟨i, ids', rfl⟩
    | nil =>
      exfalso
      cases us with
      | nil => exact hne rfl
      | cons u us' =>
        rw [idsOf] at hids
        cases hg : HMap.get n.nodes2id (ident u) with
        | none => rw [hg] at hids; simp at hids
        | some i => rw [hg] at hids; simp at hids
  by_cases hlisted : ∃ x ∈ listOf n.edges i, SameNodes x (HEdge.new (i :: ids') o)
  · rw [heq, addLoop_false _ _ _ _ hlisted]
    obtain ⟨x, hx, hs⟩ := hlisted
    exact ⟨⟨fun _ => ⟨i, List.mem_cons_self, x, hx, (hsame x).1 hs⟩, fun _ => rfl⟩, fun _ => rfl, by simp⟩
  · have hno : ∀ j ∈ i :: ids', ∀ x ∈ listOf n.edges j, ¬ SameNodes x (HEdge.new (i :: ids') o) := by
      intro j hj x hx hs
      obtain ⟨e', he', hs'⟩ := hc j x hx i ((hs i).2 ((hmem i).2 List.mem_cons_self))
      exact hlisted ⟨e', he', hs'.trans hs⟩
    obtain ⟨a, b⟩ := addLoop_true _ _ _ hnd hno
    rw [heq]
    refine ⟨⟨fun h => ?_, ?_⟩, fun h => ?_, fun _ => ⟨HEdge.new (i :: ids') o, hmem, ?_, ?_, b, rfl, rfl, rfl, rfl⟩⟩
    · rw [a] at h; simp at h
    · rintro ⟨j, hj, x, hx, hs⟩
      exact absurd ((hsame x).2 hs) (hno j hj x hx)
    · rw [a] at h; simp at h
    · cases o <;> rfl
    · cases o <;> rfl

example : ∃ n : Demo, run id HNet.new [.addNode 5, .addNode 6, .addNode 7, .addEdge [5, 6] .simple] = some n ∧
    idsOf id n [7, 5] = some [2, 0] ∧ (addEdge id n [7, 5] (.labeled 4)).2 = true ∧
    listOf (addEdge id n [7, 5] (.labeled 4)).1.edges 0 = [⟨[0, 1], none, none⟩, ⟨[2, 0], some 4, none⟩] ∧
    (addEdge id n [6, 5] (.labeled 4)).2 = false := by
  refine ⟨_, rfl, ?_, ?_, ?_, ?_⟩ <;> decide

/-! ### C56 -/

/-- **C56, false as stated**: (1) a hyperedge added since the last update survives `remove_object` of a member, so 6 lists
a hyperedge with the id of the removed node; (2) `remove_object` panics when the lists were cleared since the last
update; (3) the next node added gets an id in use, and is told it lists the hyperedges of another node. -/
theorem C56_exceptions_partial :
    (∃ (ops : List DemoOp) (n : Demo), run id HNet.new ops = some n ∧ getId id n 5 = none ∧
      getEdges id n 6 = some [⟨[0, 1], none, none⟩] ∧ getObject n 0 = none) ∧
    (∃ (ops : List DemoOp) (n : Demo), run id HNet.new ops = some n ∧ removeObject id n 5 = none) ∧
    (∃ (ops : List DemoOp) (n : Demo), run id HNet.new ops = some n ∧ getId id n 7 = some 2 ∧ getId id n 8 = some 2 ∧
      getEdges id n 8 = some [⟨[1, 2], none, none⟩] ∧ ops.length = 8) := by
  refine ⟨⟨[.addNode 5, .addNode 6, .addEdge [5, 6] .simple, .removeObject 5, .update], _, rfl, ?_, ?_, ?_⟩,
    ⟨[.addNode 5, .addNode 6, .addEdge [5, 6] .simple, .update, .removeAllEdges], _, rfl, ?_⟩,
    ⟨[.addNode 5, .addNode 6, .addNode 7, .addEdge [6, 7] .simple, .update, .removeObject 5, .addNode 8, .update], _, rfl,
      ?_, ?_, ?_, rfl⟩⟩ <;> decide

/-- **C56, when the published list of the node is its current one** (it was updated since its hyperedges last changed) and
every member of those hyperedges has a list: `remove_object` succeeds; afterwards no id lists a hyperedge with the id
of `u`, `u` is not found, all other hyperedges and nodes stay. Full statement: no such assumption, false by
`C56_exceptions_partial`. The history is otherwise unrestricted. -/
theorem C56_remove_object_partial (ident : O → K) (ops : List (Op O L W)) (n : HNet K O L W)
    (h : run ident HNet.new ops = some n) (hcomp : Complete n.edges) (u : O) (uid : Nat)
    (hu : getId ident n u = some uid) (hpub : listOf n.redges uid = listOf n.edges uid)
    (hlists : ∀ e ∈ listOf n.edges uid, ∀ i ∈ e.nodes, (HMap.get n.edges i).isSome = true) :
    ∃ n', removeObject ident n u = some (n', true) ∧ getId ident n' u = none ∧
      getEdges ident (update n') u = none ∧ getObject (update n') uid = none ∧
      (∀ i, listOf (update n').redges i = (listOf n.edges i).filter (fun e => !(e.nodes.contains uid))) ∧
      (∀ i e, e ∈ listOf (update n').redges i → uid ∉ e.nodes) ∧
      (∀ v, ident v ≠ ident u → getId ident n' v = getId ident n v) ∧
      (∀ i, i ≠ uid → getObject (update n') i = HMap.get n.id2nodes i) := by
  have hb := run_inv (I := Base) (fun n n' op hi he => exec_base n n' op hi he) ops base_new h
  have hu' : HMap.get n.nodes2id (ident u) = some uid := hu
  have hge : (getEdges ident n u).getD [] = listOf n.edges uid := by
    rw [← hpub]
    unfold getEdges listOf
    rw [hu']
  obtain ⟨m, hm⟩ := removeAll_some (listOf n.edges uid) n.edges hb.noRepeats hlists
  obtain ⟨_, _, _, d, _⟩ := removeAll_inv _ _ _ hb.members hb.noRepeats hm
  have hfil : ∀ i, listOf m i = (listOf n.edges i).filter (fun e => !(e.nodes.contains uid)) := by
    intro i
    rw [d]
    refine List.filter_congr ?_
    intro e he
    congr 1
    rw [Bool.eq_iff_iff, List.any_eq_true]
    constructor
    · rintro ⟨t, ht, hs⟩
      have h1 := hb.members uid t ht
      simpa using (eq_iff.1 hs uid).2 h1
    · intro hc
      have hc' : uid ∈ e.nodes := by simpa using hc
      obtain ⟨e', h1, h2⟩ := hcomp i e he uid hc'
      exact ⟨e', h1, eq_iff.2 h2.symm⟩
  refine ⟨{ n with edges := m, id2nodes := (HMap.remove n.id2nodes uid).1,
                   nodes2id := (HMap.remove n.nodes2id (ident u)).1 }, ?_, ?_, ?_, ?_, hfil, ?_, ?_, ?_⟩
  · unfold removeObject
    rw [hu']
    dsimp only
    rw [hge, hm]
  · simp only [getId, HMap.get_remove, if_pos]
  · simp only [getEdges, update, HMap.get_remove, if_pos]
  · simp only [getObject, update, HMap.get_remove, if_pos]
  · intro i e he
    have he' : e ∈ listOf m i := he
    rw [hfil, List.mem_filter] at he'
    simpa using he'.2
  · intro v hv
    simp only [getId, HMap.get_remove, if_neg hv]
  · intro i hi
    simp only [getObject, update, HMap.get_remove, if_neg hi]

example : ∃ n : Demo, run id HNet.new
      [.addNode 5, .addNode 6, .addNode 7, .addEdge [5, 6, 7] .simple, .addEdge [6, 7] .simple, .update] = some n ∧
    listOf n.redges 0 = listOf n.edges 0 ∧ getId id n 5 = some 0 ∧
    (removeObject id n 5).map (fun x => (x.2, listOf x.1.edges 1, listOf x.1.edges 2)) =
      some (true, [⟨[1, 2], none, none⟩], [⟨[1, 2], none, none⟩]) := by
  refine ⟨_, rfl, ?_, ?_, ?_⟩ <;> decide

/-- **C56, absent node**: false and no change. -/
theorem C56_absent_partial (ident : O → K) (n : HNet K O L W) (u : O) (h : getId ident n u = none) :
    removeObject ident n u = some (n, false) := by
  have h' : HMap.get n.nodes2id (ident u) = none := h
  unfold removeObject
  rw [h']

/-! ### C46 (for `HNetwork`) -/

/-- **C46, false for `HNetwork`**: after a removal the next node gets an id in use; adding a node twice has the same
effect. -/
theorem C46_hnetwork_same_id_partial :
    (∃ (ops : List DemoOp) (n : Demo), run id HNet.new ops = some n ∧ getId id n 6 = some 1 ∧ getId id n 7 = some 1) ∧
    (∃ (ops : List DemoOp) (n : Demo), run id HNet.new ops = some n ∧ getId id n 5 = some 1 ∧ getId id n 6 = some 1) := by
  exact ⟨⟨[.addNode 5, .addNode 6, .removeObject 5, .addNode 7], _, rfl, by decide, by decide⟩,
    ⟨[.addNode 5, .addNode 5, .addNode 6], _, rfl, by decide, by decide⟩⟩

/-- Ids unique and 0, …, number of nodes - 1. -/
structure IdsInv (ident : O → K) (n : HNet K O L W) : Prop where
  fwd : ∀ k i, HMap.get n.nodes2id k = some i → ∃ o, HMap.get n.id2nodes i = some o ∧ ident o = k
  back : ∀ i o, HMap.get n.id2nodes i = some o → HMap.get n.nodes2id (ident o) = some i
  contiguous : ∀ i, (HMap.get n.id2nodes i).isSome = true ↔ i < n.nodes2id.length

theorem exec_ids {ident : O → K} (n n' : HNet K O L W) (op : Op O L W) (h : IdsInv ident n)
    (hp : NodesOnlyAdded ident n op) (he : exec ident n op = some n') : IdsInv ident n' := by
  have hsame : ∀ n' : HNet K O L W, n'.nodes2id = n.nodes2id → n'.id2nodes = n.id2nodes → IdsInv ident n' := by
    intro n' h1 h2
    exact ⟨by rw [h1, h2]; exact h.fwd, by rw [h1, h2]; exact h.back, by rw [h1, h2]; exact h.contiguous⟩
  cases op with
  | addNode u =>
    simp [exec] at he
    rw [← he]
    have hp' : HMap.get n.nodes2id (ident u) = none := hp
    have hfree : HMap.get n.id2nodes n.nodes2id.length = none := by
      cases hg : HMap.get n.id2nodes n.nodes2id.length with
      | none => rfl
      | some o =>
        have := (h.contiguous n.nodes2id.length).1 (by rw [hg]; rfl)
        omega
    refine ⟨?_, ?_, ?_⟩
    · intro k i hk
      simp only [addNode, HMap.get_insert] at hk ⊢
      by_cases hku : k = ident u
      · rw [if_pos hku] at hk
        have : n.nodes2id.length = i := Option.some.inj hk
        rw [if_pos this.symm]
        exact ⟨u, rfl, hku.symm⟩
      · rw [if_neg hku] at hk
        obtain ⟨o, ho, hok⟩ := h.fwd k i hk
        have : i ≠ n.nodes2id.length := by
          rintro rfl
          rw [hfree] at ho
          simp at ho
        rw [if_neg this]
        exact ⟨o, ho, hok⟩
    · intro i o ho
      simp only [addNode, HMap.get_insert] at ho ⊢
      by_cases hi : i = n.nodes2id.length
      · rw [if_pos hi] at ho
        have : u = o := Option.some.inj ho
        rw [if_pos (by rw [this]), hi]
      · rw [if_neg hi] at ho
        have h1 := h.back i o ho
        have : ident o ≠ ident u := by
          intro heq
          rw [heq, hp'] at h1
          simp at h1
        rw [if_neg this]
        exact h1
    · intro i
      simp only [addNode, HMap.get_insert]
      rw [HMap.insert_absent hp']
      rw [List.length_append, List.length_singleton]
      by_cases hi : i = n.nodes2id.length
      · rw [if_pos hi]; simp [hi]
      · rw [if_neg hi, h.contiguous i]; omega
  | addEdge us o =>
    simp [exec] at he
    rw [← he]
    rcases addEdge_eq (ident := ident) n us o with h1 | ⟨u, us', i, ids, _, h2, h1⟩
    · rw [h1]; exact h
    · rw [h1]; exact hsame _ rfl rfl
  | removeEdge us =>
    obtain ⟨⟨n1, b⟩, hr, rfl⟩ := Option.map_eq_some_iff.1 he
    rcases removeEdge_eq hr with ⟨rfl, _⟩ | ⟨ids, x, _, hx, rfl, _⟩
    · exact h
    · exact hsame _ rfl rfl
  | removeObject u => exact absurd hp id
  | removeAllEdges => simp [exec] at he; rw [← he]; exact hsame _ rfl rfl
  | updateNode u =>
    simp [exec] at he
    rw [← he]
    unfold updateNode
    cases hu : HMap.get n.nodes2id (ident u) with
    | none => exact h
    | some uid =>
      dsimp only
      refine ⟨?_, ?_, ?_⟩
      · intro k i hk
        obtain ⟨o, ho, hok⟩ := h.fwd k i hk
        simp only [HMap.get_adjustBy]
        by_cases hi : i = uid
        · subst hi
          rw [if_pos rfl, ho]
          refine ⟨u, rfl, ?_⟩
          obtain ⟨o', ho', hok'⟩ := h.fwd _ _ hu
          rw [ho] at ho'
          rw [← hok, ← hok', Option.some.inj ho']
        · rw [if_neg hi]; exact ⟨o, ho, hok⟩
      · intro i o ho
        simp only [HMap.get_adjustBy] at ho
        by_cases hi : i = uid
        · subst hi
          rw [if_pos rfl] at ho
          obtain ⟨o', _, rfl⟩ := Option.map_eq_some_iff.1 ho
          exact hu
        · rw [if_neg hi] at ho; exact h.back i o ho
      · intro i
        simp only [HMap.get_adjustBy]
        rw [← h.contiguous i]
        split
        · rename_i hi; rw [Option.isSome_map, hi]
        · rfl
  | update => simp [exec] at he; rw [← he]; exact hsame _ rfl rfl

/-- **C46 for `HNetwork`, when nodes are only added, once each**: ids are unique, an id shows its node once published, and
the ids in use are 0, …, number of nodes - 1. -/
theorem C46_hnetwork_ids_unique_partial (ident : O → K) (ops : List (Op O L W)) (n : HNet K O L W)
    (hc : Careful ident (NodesOnlyAdded ident) HNet.new ops) (h : run ident HNet.new ops = some n) :
    (∀ u v i, getId ident n u = some i → getId ident n v = some i → ident u = ident v) ∧
    (∀ u i, getId ident n u = some i → ∃ o, getObject (update n) i = some o ∧ ident o = ident u) ∧
    (∀ i, (getObject (update n) i).isSome = true ↔ i < n.nodes2id.length) := by
  have hi := careful_run (I := IdsInv ident) (fun n n' op hi hp he => exec_ids n n' op hi hp he) ops
    (⟨by intro k i h; simp [HNet.new] at h, by intro k i h; simp [HNet.new] at h, by intro i; simp [HNet.new]⟩) hc h
  refine ⟨?_, ?_, hi.contiguous⟩
  · intro u v i h1 h2
    obtain ⟨o1, a1, b1⟩ := hi.fwd _ _ h1
    obtain ⟨o2, a2, b2⟩ := hi.fwd _ _ h2
    rw [a1] at a2
    rw [← b1, ← b2, Option.some.inj a2]
  · intro u i h1; exact hi.fwd _ _ h1

/-! ### C80 -/

/-- Not `update`. -/
def Op.isWrite : Op O L W → Bool
  | .update => false
  | _ => true

/-- Does not change which nodes are present. -/
def Op.keepsNodes : Op O L W → Bool
  | .update => false
  | .addNode _ => false
  | .removeObject _ => false
  | _ => true

theorem exec_read {ident : O → K} {n n' : HNet K O L W} {op : Op O L W} (hop : op.isWrite = true)
    (he : exec ident n op = some n') : n'.redges = n.redges ∧ n'.rid2nodes = n.rid2nodes ∧
      (op.keepsNodes = true → n'.nodes2id = n.nodes2id) := by
  cases op with
  | addNode u => simp [exec] at he; rw [← he]; exact ⟨rfl, rfl, fun h => by simp [Op.keepsNodes] at h⟩
  | addEdge us o =>
    simp [exec] at he
    rw [← he]
    rcases addEdge_eq (ident := ident) n us o with h1 | ⟨u, us', i, ids, _, h2, h1⟩
    · rw [h1]; exact ⟨rfl, rfl, fun _ => rfl⟩
    · rw [h1]; exact ⟨rfl, rfl, fun _ => rfl⟩
  | removeEdge us =>
    obtain ⟨⟨n1, b⟩, hr, rfl⟩ := Option.map_eq_some_iff.1 he
    rcases removeEdge_eq hr with ⟨rfl, _⟩ | ⟨ids, x, _, hx, rfl, _⟩
    · exact ⟨rfl, rfl, fun _ => rfl⟩
    · exact ⟨rfl, rfl, fun _ => rfl⟩
  | removeObject u =>
    obtain ⟨⟨n1, b⟩, hr, rfl⟩ := Option.map_eq_some_iff.1 he
    rcases removeObject_eq hr with ⟨rfl, _⟩ | ⟨uid, m, _, hx, rfl, _⟩
    · exact ⟨rfl, rfl, fun _ => rfl⟩
    · exact ⟨rfl, rfl, fun h => by simp [Op.keepsNodes] at h⟩
  | removeAllEdges => simp [exec] at he; rw [← he]; exact ⟨rfl, rfl, fun _ => rfl⟩
  | updateNode u =>
    simp [exec] at he
    rw [← he]
    unfold updateNode
    cases HMap.get n.nodes2id (ident u) with
    | none => exact ⟨rfl, rfl, fun _ => rfl⟩
    | some uid => exact ⟨rfl, rfl, fun _ => rfl⟩
  | update => simp [Op.isWrite] at hop

theorem run_read {ident : O → K} (ops : List (Op O L W)) : ∀ {n n' : HNet K O L W},
    (∀ op ∈ ops, op.isWrite = true) → run ident n ops = some n' →
    n'.redges = n.redges ∧ n'.rid2nodes = n.rid2nodes ∧
    ((∀ op ∈ ops, op.keepsNodes = true) → n'.nodes2id = n.nodes2id) := by
  induction ops with
  | nil => intro n n' _ h; simp [run] at h; rw [← h]; exact ⟨rfl, rfl, fun _ => rfl⟩
  | cons op ops ih =>
    intro n n' hops h
    rw [run] at h
    cases he : exec ident n op with
    | none => rw [he] at h; simp at h
    | some n1 =>
      rw [he] at h
      obtain ⟨a, b, c⟩ := exec_read (hops op List.mem_cons_self) he
      obtain ⟨a', b', c'⟩ := ih (fun o ho => hops o (List.mem_cons_of_mem _ ho)) h
      exact ⟨a'.trans a, b'.trans b, fun hk => (c' (fun o ho => hk o (List.mem_cons_of_mem _ ho))).trans
        (c (hk op List.mem_cons_self))⟩

theorem idsOf_congr {ident : O → K} {n n' : HNet K O L W} (h : n'.nodes2id = n.nodes2id) (us : List O) :
    idsOf ident n' us = idsOf ident n us := by
  induction us with
  | nil => rfl
  | cons u us ih => rw [idsOf, idsOf, h, ih]

/-- **C80, what holds**: `get_object` is isolated from every write; `get_edges`, `get_edge` and `get_id` are isolated from
the writes that do not add or remove nodes. -/
theorem C80_reads_isolated_partial (ident : O → K) (ops : List (Op O L W)) (n n' : HNet K O L W)
    (hops : ∀ op ∈ ops, op.isWrite = true) (h : run ident n ops = some n') :
    (∀ i, getObject n' i = getObject n i) ∧
    ((∀ op ∈ ops, op.keepsNodes = true) →
      (∀ u, getId ident n' u = getId ident n u) ∧ (∀ u, getEdges ident n' u = getEdges ident n u) ∧
      (∀ us, getEdge ident n' us = getEdge ident n us)) := by
  obtain ⟨a, b, c⟩ := run_read ops hops h
  refine ⟨fun i => by rw [getObject, getObject, b], fun hk => ?_⟩
  have hn := c hk
  refine ⟨fun u => by rw [getId, getId, hn], fun u => by simp only [getEdges, hn, a], fun us => ?_⟩
  unfold getEdge
  rw [idsOf_congr hn, a]

/-- **C80, false as stated**: (1) an added node has an id before `update`; (2) a removed node loses its published edges
before `update`; (3) an added node can even be told edges of another one before `update`. -/
theorem C80_not_isolated_partial :
    (∃ n : Demo, getId id n 5 = none ∧ getId id (addNode id n 5) 5 = some 0) ∧
    (∃ (ops : List DemoOp) (n n' : Demo) (b : Bool), run id HNet.new ops = some n ∧ removeObject id n 5 = some (n', b) ∧
      getEdges id n 5 = some [⟨[0], none, none⟩] ∧ getEdges id n' 5 = none) ∧
    (∃ (ops : List DemoOp) (n : Demo), run id HNet.new ops = some n ∧ getEdges id n 7 = none ∧
      getEdges id (addNode id n 7) 7 = some [⟨[1], none, none⟩]) := by
  exact ⟨⟨HNet.new, by decide, by decide⟩,
    ⟨[.addNode 5, .addEdge [5] .simple, .update], _, _, _, rfl, rfl, by decide, by decide⟩,
    ⟨[.addNode 5, .addNode 6, .addEdge [6] .simple, .update, .removeObject 5], _, rfl, by decide, by decide⟩⟩

/-- **C80**: `update` shows exactly the written lists and objects and is idempotent. -/
theorem C80_publication_partial (ident : O → K) (n : HNet K O L W) :
    (∀ i, getObject (update n) i = HMap.get n.id2nodes i) ∧
    (∀ u, getEdges ident (update n) u = (HMap.get n.nodes2id (ident u)).bind (fun i => HMap.get n.edges i)) ∧
    (∀ u, getId ident (update n) u = getId ident n u) ∧ update (update n) = update n := by
  refine ⟨fun _ => rfl, ?_, fun _ => rfl, rfl⟩
  intro u
  simp only [getEdges, update]
  cases HMap.get n.nodes2id (ident u) <;> rfl

/-! ### C81 -/

theorem getEdge_some {ident : O → K} {n : HNet K O L W} {us : List O} {i : Nat} {ids : List Nat}
    (h : idsOf ident n us = some (i :: ids)) :
    getEdge ident n us = (listOf n.redges i).find? (fun e => e.eq (HEdge.new (i :: ids) .simple)) := by
  unfold getEdge
  rw [h]
  dsimp only
  unfold listOf
  cases HMap.get n.redges i <;> rfl

/-- **C81.** `get_edge` of present nodes finds a hyperedge iff the first node lists one with exactly these nodes, and
returns that one. -/
theorem C81_get_edge (ident : O → K) (n : HNet K O L W) (us : List O) (i : Nat) (ids : List Nat)
    (h : idsOf ident n us = some (i :: ids)) :
    (∀ e, getEdge ident n us = some e → e ∈ listOf n.redges i ∧ ∀ j, j ∈ e.nodes ↔ j ∈ i :: ids) ∧
    (getEdge ident n us = none ↔ ¬ ∃ e ∈ listOf n.redges i, ∀ j, j ∈ e.nodes ↔ j ∈ i :: ids) := by
  have hs : ∀ e : HEdge L W, e.eq (HEdge.new (i :: ids) .simple) = true ↔ ∀ j, j ∈ e.nodes ↔ j ∈ i :: ids := by
    intro e
    rw [eq_iff]
    unfold SameNodes
    simp only [mem_new]
  rw [getEdge_some h]
  constructor
  · intro e he
    exact ⟨List.mem_of_find?_eq_some he,
      (hs e).1 (List.find?_some (p := fun e => HEdge.eq e (HEdge.new (i :: ids) .simple)) he)⟩
  · rw [List.find?_eq_none]
    constructor
    · rintro h1 ⟨e, he, hn⟩
      exact h1 e he ((hs e).2 hn)
    · intro h1 e he hq
      exact h1 ⟨e, he, (hs e).1 hq⟩

/-- **C81.** The order of the nodes, and repetitions, do not matter to `get_edge`: for two slices with the same ids it
finds an edge for both or for none (in a network with complete published lists, see C53). -/
theorem C81_get_edge_order (ident : O → K) (n : HNet K O L W) (us vs : List O) (i j : Nat) (is js : List Nat)
    (hu : idsOf ident n us = some (i :: is)) (hv : idsOf ident n vs = some (j :: js))
    (hset : ∀ k, k ∈ i :: is ↔ k ∈ j :: js) (hc : Complete n.redges) :
    getEdge ident n us = none ↔ getEdge ident n vs = none := by
  have key : ∀ (us vs : List O) (i j : Nat) (is js : List Nat), idsOf ident n us = some (i :: is) →
      idsOf ident n vs = some (j :: js) → (∀ k, k ∈ i :: is ↔ k ∈ j :: js) →
      getEdge ident n us = none → getEdge ident n vs = none := by
    intro us vs i j is js hu hv hset hn
    rw [(C81_get_edge ident n us i is hu).2] at hn
    rw [(C81_get_edge ident n vs j js hv).2]
    rintro ⟨e, he, hm⟩
    obtain ⟨e', he', hs⟩ := hc j e he i ((hm i).2 ((hset i).1 List.mem_cons_self))
    exact hn ⟨e', he', fun k => (hs k).trans ((hm k).trans (hset k).symm)⟩
  exact ⟨key us vs i j is js hu hv hset, key vs us j i js is hv hu (fun k => (hset k).symm)⟩

/-- **C81.** After any history, `remove_edge` of present nodes that have lists takes the hyperedge with exactly these
nodes, if there is one, from the list of every member, answers with it (`None` if there is none) and changes no other
entry. -/
theorem C81_remove_edge (ident : O → K) (ops : List (Op O L W)) (n : HNet K O L W)
    (h : run ident HNet.new ops = some n) (us : List O) (ids : List Nat) (hne : us ≠ [])
    (hids : idsOf ident n us = some ids) (hlists : ∀ i ∈ ids, (HMap.get n.edges i).isSome = true) :
    ∃ n' r, removeEdge ident n us = some (n', r) ∧
      (∀ i e, e ∈ listOf n'.edges i ↔ e ∈ listOf n.edges i ∧ ¬ ∀ j, j ∈ e.nodes ↔ j ∈ ids) ∧
      (∀ i, (listOf n'.edges i).Sublist (listOf n.edges i)) ∧
      (r = none ↔ ¬ ∃ i ∈ ids, ∃ e ∈ listOf n.edges i, ∀ j, j ∈ e.nodes ↔ j ∈ ids) ∧
      (∀ e, r = some e → (∀ j, j ∈ e.nodes ↔ j ∈ ids) ∧ ∃ i ∈ ids, e ∈ listOf n.edges i) ∧
      n'.redges = n.redges ∧ n'.nodes2id = n.nodes2id ∧ n'.id2nodes = n.id2nodes ∧ n'.rid2nodes = n.rid2nodes := by
  have hb := run_inv (I := Base) (fun n n' op hi he => exec_base n n' op hi he) ops base_new h
  obtain ⟨x, hx⟩ := removeLoop_some (HEdge.new ids .simple) ids n.edges none hlists
  obtain ⟨s1, s2, s3, s4⟩ := removeLoop_spec _ _ _ _ _ hb.noRepeats hx
  obtain ⟨_, _, s5, _⟩ := removed_inv (fun i => mem_new.symm) s1 hb.members hb.noRepeats
  have hs : ∀ e : HEdge L W, SameNodes e (HEdge.new ids .simple) ↔ ∀ j, j ∈ e.nodes ↔ j ∈ ids := by
    intro e
    unfold SameNodes
    simp only [mem_new]
  refine ⟨{ n with edges := x.1 }, x.2, ?_, ?_, ?_, ?_, ?_, rfl, rfl, rfl, rfl⟩
  · unfold removeEdge
    cases us with
    | nil => exact absurd rfl hne
    | cons u us' => dsimp only; rw [hids]; dsimp only; rw [hx]
  · intro i e
    dsimp only
    rw [s5, List.mem_filter, ← hs, ← eq_iff]
    simp
  · intro i
    dsimp only
    rw [s5]
    exact List.filter_sublist
  · constructor
    · rintro hn ⟨i, hi, e, he, hm⟩
      obtain ⟨e', h1, _⟩ := s4 ⟨i, hi, e, he, (hs e).2 hm⟩
      rw [h1] at hn
      simp at hn
    · intro hn
      rcases s3 with s3 | ⟨e, _, h2, i, hi, h3⟩
      · exact s3
      · exact absurd ⟨i, hi, e, h3, (hs e).1 h2⟩ hn
  · intro e he
    rcases s3 with s3 | ⟨e', h1, h2, h3⟩
    · rw [s3] at he; simp at he
    · rw [h1] at he
      obtain rfl := Option.some.inj he
      exact ⟨(hs e').1 h2, h3⟩

/-- **C81.** After `remove_all_edges` it panics instead. -/
theorem C81_remove_edge_panics : ∃ n : Demo,
    run id HNet.new [.addNode 5, .addNode 6, .addEdge [5, 6] .simple, .removeAllEdges] = some n ∧
    removeEdge id n [5, 6] = none := by
  exact ⟨_, rfl, by decide⟩

example : ∃ n : Demo, run id HNet.new
      [.addNode 5, .addNode 6, .addNode 7, .addEdge [5, 6] (.labeled 2), .addEdge [5, 6, 7] .simple, .update] = some n ∧
    getEdge id n [6, 5] = some ⟨[0, 1], some 2, none⟩ ∧ getEdge id n [6, 5, 6] = some ⟨[0, 1], some 2, none⟩ ∧
    getEdge id n [6, 7] = none ∧
    (removeEdge id n [6, 5]).map (fun x => (x.2, listOf x.1.edges 0)) =
      some (some ⟨[0, 1], some 2, none⟩, [⟨[0, 1, 2], none, none⟩]) := by
  refine ⟨_, rfl, ?_, ?_, ?_, ?_⟩ <;> decide

end Verif.HNetwork
