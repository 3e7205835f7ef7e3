import Verif.Lemmas.NetworkOrder
import Verif.Props.ParNetwork

/-!
C215: the edges that are there after a step do not depend on the order in which the agents changed them, when no two
agents are in conflict about a pair of nodes; and they do depend on it when an edge is both added and removed, or when
one of two edges is removed from both ends.
-/

namespace Verif.Network

open Verif.ParNetwork (Gentle Good PNet)
open Verif.DBDashMap (shardAmount)

variable {K O L W : Type} [DecidableEq K]

/-- The history `hist`, a publication, the calls of one step and a publication. -/
def stepAfter (hist ops : List (Op O L W)) : List (Op O L W) := hist ++ (.update :: (ops ++ [.update]))

theorem run_append_par (ident : O → K) (l l' : List (Op O L W)) : ∀ p : PNet K O L W,
    ParNetwork.run ident p (l ++ l') = (ParNetwork.run ident p l).bind (fun m => ParNetwork.run ident m l') := by
  induction l with
  | nil => intro n; rfl
  | cons op l ih =>
    intro n
    rw [List.cons_append, ParNetwork.run, ParNetwork.run, Option.bind_assoc]
    congr 1
    funext m
    exact ih m

theorem good_update {ident : O → K} {n : Net K O L W} (hg : Good ident n) :
    Good ident (update n) ∧ IdsShown (update n) :=
  ⟨ParNetwork.exec_good hg (op := .update) trivial rfl, fun _ => rfl⟩

/-- The network after the step, in the sequential and in the parallel implementation. -/
theorem stepAfter_run (ident : O → K) {cpus : Nat} (hc : shardAmount cpus ≤ 2 ^ 64) (hash : Nat → Nat) (d : Bool)
    (hist : List (Op O L W)) (hg : Careful ident (Gentle ident) (Net.new d) hist) :
    ∃ m : Net K O L W, Good ident m ∧ IdsShown m ∧ ∀ ops, (∀ op ∈ ops, op.isEdgeCall = true) →
      ∃ n' p, run ident m ops = some n' ∧ Same m n' ∧
        run ident (Net.new d) (stepAfter hist ops) = some (update n') ∧
        ParNetwork.run ident (ParNetwork.new cpus hash d) (stepAfter hist ops) = some p ∧
        ParNetwork.SameAnswers ident p (update n') := by
  obtain ⟨n0, p0, h1, h2, h3, h4⟩ := ParNetwork.run_both hist (ParNetwork.sim_new hc hash d) (ParNetwork.good_new ident d) hg
  obtain ⟨n1, p1, a1, a2, a3, a4⟩ := ParNetwork.exec_both h3 h4 (op := .update) trivial
  obtain rfl : update n0 = n1 := Option.some.inj a1
  obtain ⟨g1, g2⟩ := good_update h4
  refine ⟨update n0, g1, g2, ?_⟩
  intro ops ho
  obtain ⟨n', e1, e2, e3⟩ := edge_run ops g1 g2 ho
  have careful : ∀ (ops : List (Op O L W)) (n : Net K O L W), Good ident n → IdsShown n → (∀ op ∈ ops, op.isEdgeCall = true) →
      Careful ident (Gentle ident) n ops := by
    intro ops
    induction ops with
    | nil => intro n _ _ _; trivial
    | cons op ops ih =>
      intro n hg hs ho
      obtain ⟨m, b1, b2, b3, _⟩ := edge_exec hg hs (ho op List.mem_cons_self)
      refine ⟨?_, ?_⟩
      · have := ho op List.mem_cons_self
        cases op with
        | addEdge u v o => trivial
        | removeEdge u v => exact ⟨hs _, hs _⟩
        | _ => simp [Op.isEdgeCall] at this
      · intro n' hn'
        obtain rfl : m = n' := Option.some.inj (b1.symm.trans hn')
        exact ih m b3 (hs.same b2) (fun x hx => ho x (List.mem_cons_of_mem _ hx))
  obtain ⟨n2, p2, b1, b2, b3, b4⟩ := ParNetwork.run_both ops a3 g1 (careful ops _ g1 g2 ho)
  obtain rfl : n' = n2 := Option.some.inj (e1.symm.trans b1)
  obtain ⟨n3, p3, c1, c2, c3, c4⟩ := ParNetwork.exec_both b3 b4 (op := .update) trivial
  obtain rfl : update n' = n3 := Option.some.inj c1
  refine ⟨n', p3, e1, e2, ?_, ?_, ParNetwork.sameAnswers c3 c4⟩
  · rw [stepAfter, run_append, h1, Option.bind_some, run, a1, Option.bind_some, run_append, b1, Option.bind_some, run, c1]
    rfl
  · rw [stepAfter, run_append_par, h2, Option.bind_some, ParNetwork.run, a2, Option.bind_some, run_append_par, b2,
      Option.bind_some, ParNetwork.run, c2]
    rfl

theorem sameEdges_two {ident : O → K} {n n1 n2 : Net K O L W} (hg : Good ident n) (hs : IdsShown n)
    {ops ops' : List (Op O L W)} (ho : ∀ op ∈ ops, op.isEdgeCall = true) (ho' : ∀ op ∈ ops', op.isEdgeCall = true)
    (h1 : run ident n ops = some n1) (h2 : run ident n ops' = some n2) (hp : SamePerPair ident ops ops')
    (s1 : Same n n1) (s2 : Same n n2) (l1 : n1.w.Listed) (l2 : n2.w.Listed) (hids : n1.w.IdsUnique ident) (u : O) :
    SameEdges (getEdges ident (update n1) u) (getEdges ident (update n2) u) := by
  have hperm : ∀ i, (n1.w.adj i).Perm (n2.w.adj i) := by
    intro i
    refine perm_of_parts (fun a b => ?_)
    rcases part_two hg hs ho ho' h1 h2 a b with ⟨k, k', q1, q2⟩ | q
    · rcases hp k k' with h | ⟨h, h'⟩
      · exact (List.Perm.of_eq (q1 h i))
      · exact q2 h h' i
    · exact List.Perm.of_eq (q i)
  show SameEdges (match HMap.get n1.w.nodes2id (ident u) with | none => none | some uid => HMap.get n1.w.edges uid)
    (match HMap.get n2.w.nodes2id (ident u) with | none => none | some uid => HMap.get n2.w.edges uid)
  have e : n2.w.nodes2id = n1.w.nodes2id := by rw [s1.nodes2id, s2.nodes2id]
  have e' : n2.w.id2nodes = n1.w.id2nodes := by rw [s1.id2nodes, s2.id2nodes]
  rw [e]
  cases hu : HMap.get n1.w.nodes2id (ident u) with
  | none => exact Or.inl ⟨rfl, rfl⟩
  | some i =>
    obtain ⟨o, ho, _⟩ := hids.1 _ _ hu
    obtain ⟨l, hl⟩ := l1 i o ho
    obtain ⟨l', hl'⟩ := l2 i o (by rw [e']; exact ho)
    refine Or.inr ⟨l, l', hl, hl', ?_⟩
    have := hperm i
    unfold Side.adj at this
    rw [hl, hl'] at this
    exact this

/-- **C215, calls about one pair of nodes in one order**: two histories of edges added and removed within one step that
contain the same calls about every pair of nodes, in the same order for each pair (or in any order where edges are only
added), lead to the same edges up to the order of the lists, with and without the feature `parallel`. Full statement:
for every two orders of the agents; false by `C215_conflict_partial`. -/
theorem C215_pairs_partial (ident : O → K) {cpus : Nat} (hc : shardAmount cpus ≤ 2 ^ 64) (hash : Nat → Nat) (d : Bool)
    (hist ops ops' : List (Op O L W)) (hg : Careful ident (Gentle ident) (Net.new d) hist)
    (ho : ∀ op ∈ ops, op.isEdgeCall = true) (ho' : ∀ op ∈ ops', op.isEdgeCall = true) (hp : SamePerPair ident ops ops') :
    ∃ n n' p p', run ident (Net.new d) (stepAfter hist ops) = some n ∧
      run ident (Net.new d) (stepAfter hist ops') = some n' ∧
      ParNetwork.run ident (ParNetwork.new cpus hash d) (stepAfter hist ops) = some p ∧
      ParNetwork.run ident (ParNetwork.new cpus hash d) (stepAfter hist ops') = some p' ∧
      (∀ u, SameEdges (getEdges ident n u) (getEdges ident n' u)) ∧
      (∀ i, getObject n i = getObject n' i) ∧
      (∀ u, ∃ x y, ParNetwork.getEdges ident p u = some x ∧ ParNetwork.getEdges ident p' u = some y ∧ SameEdges x y) ∧
      (∀ i, ParNetwork.getObject p i = ParNetwork.getObject p' i) := by
  obtain ⟨m, hm, hs, hall⟩ := stepAfter_run ident hc hash d hist hg
  obtain ⟨n1, p1, a1, a2, a3, a4, a5⟩ := hall ops ho
  obtain ⟨n2, p2, b1, b2, b3, b4, b5⟩ := hall ops' ho'
  obtain ⟨n1', c1, _, c3⟩ := edge_run ops hm hs ho
  obtain rfl : n1 = n1' := Option.some.inj (a1.symm.trans c1)
  obtain ⟨n2', d1, _, d3⟩ := edge_run ops' hm hs ho'
  obtain rfl : n2 = n2' := Option.some.inj (b1.symm.trans d1)
  have key := fun u => sameEdges_two hm hs ho ho' a1 b1 hp a2 b2 c3.lw d3.lw c3.ids.1.1 u
  have key' : ∀ i, getObject (update n1) i = getObject (update n2) i := by
    intro i
    show HMap.get n1.w.id2nodes i = HMap.get n2.w.id2nodes i
    rw [a2.id2nodes, b2.id2nodes]
  refine ⟨_, _, p1, p2, a3, b3, a4, b4, key, key', ?_, ?_⟩
  · intro u
    exact ⟨_, _, a5.1 u, b5.1 u, key u⟩
  · intro i
    rw [a5.2.2 i, b5.2.2 i, key' i]

/-- **C215, the order of the agents**: if for every pair of nodes at most one of the agents changes the edges between
them, or all of them only add edges there, then every order of the agents leads to the same edges, with and without the
feature `parallel`. Full statement: for all agents; false by `C215_conflict_partial`. -/
theorem C215_agents_partial (ident : O → K) {cpus : Nat} (hc : shardAmount cpus ≤ 2 ^ 64) (hash : Nat → Nat) (d : Bool)
    (hist : List (Op O L W)) (agents agents' : List (List (Op O L W)))
    (hg : Careful ident (Gentle ident) (Net.new d) hist)
    (ho : ∀ x ∈ agents, ∀ op ∈ x, op.isEdgeCall = true) (hn : NoConflict ident agents) (hperm : agents.Perm agents') :
    ∃ n n' p p', run ident (Net.new d) (stepAfter hist agents.flatten) = some n ∧
      run ident (Net.new d) (stepAfter hist agents'.flatten) = some n' ∧
      ParNetwork.run ident (ParNetwork.new cpus hash d) (stepAfter hist agents.flatten) = some p ∧
      ParNetwork.run ident (ParNetwork.new cpus hash d) (stepAfter hist agents'.flatten) = some p' ∧
      (∀ u, SameEdges (getEdges ident n u) (getEdges ident n' u)) ∧
      (∀ i, getObject n i = getObject n' i) ∧
      (∀ u, ∃ x y, ParNetwork.getEdges ident p u = some x ∧ ParNetwork.getEdges ident p' u = some y ∧ SameEdges x y) ∧
      (∀ i, ParNetwork.getObject p i = ParNetwork.getObject p' i) := by
  refine C215_pairs_partial ident hc hash d hist _ _ hg ?_ ?_ ?_
  · intro op h
    obtain ⟨x, hx, hop⟩ := List.mem_flatten.1 h
    exact ho x hx op hop
  · intro op h
    obtain ⟨x, hx, hop⟩ := List.mem_flatten.1 h
    exact ho x (hperm.mem_iff.2 hx) op hop
  · intro k k'
    rcases hn k k' with h | h
    · left
      rw [List.filter_flatten, List.filter_flatten]
      refine flatten_perm_alone (hperm.map _) ?_
      rw [List.pairwise_map]
      refine h.imp (fun {x y} hxy => ?_)
      rcases hxy with h | h
      · left
        rw [List.filter_eq_nil_iff]
        intro op hop
        have := List.all_eq_true.1 h op hop
        simpa using this
      · right
        rw [List.filter_eq_nil_iff]
        intro op hop
        have := List.all_eq_true.1 h op hop
        simpa using this
    · right
      refine ⟨(hperm.flatten).filter _, ?_⟩
      intro op hop
      obtain ⟨h1, h2⟩ := List.mem_filter.1 hop
      obtain ⟨x, hx, hx'⟩ := List.mem_flatten.1 h1
      exact h x hx op hx' h2

/-- Two nodes, published. -/
def pairNodes : List (Op Nat Nat Nat) := [.addNode 5, .addNode 6]

/-- The edges of 5 and of 6 after the agents acted in this order. -/
def shownAfter (d : Bool) (hist ops : List (Op Nat Nat Nat)) :
    Option (Option (List (Edge Nat Nat)) × Option (List (Edge Nat Nat))) :=
  (run id (Net.new d) (stepAfter hist ops)).map (fun n => (getEdges id n 5, getEdges id n 6))

/-- The same in the parallel implementation. -/
def shownAfterPar (d : Bool) (hist ops : List (Op Nat Nat Nat)) :
    Option (Option (Option (List (Edge Nat Nat))) × Option (Option (List (Edge Nat Nat)))) :=
  (ParNetwork.run id (ParNetwork.new 1 id d) (stepAfter hist ops)).map
    (fun p => (ParNetwork.getEdges id p 5, ParNetwork.getEdges id p 6))

/-- **C215, false as stated**: (1) one agent adds an edge and another removes the edges of the same pair: whether there
is an edge afterwards depends on who acts first, in both implementations; (2) the agents 5 and 6 are joined by two
edges without direction and each removes its edge to the other: the one that acts first keeps an edge that the other
does not have. -/
theorem C215_conflict_partial :
    (shownAfter true pairNodes [.addEdge 5 6 .simple, .removeEdge 5 6] = some (some [], some []) ∧
      shownAfter true pairNodes [.removeEdge 5 6, .addEdge 5 6 .simple] =
        some (some [⟨0, 1, none, none⟩], some []) ∧
      shownAfterPar true pairNodes [.addEdge 5 6 .simple, .removeEdge 5 6] = some (some (some []), some (some [])) ∧
      shownAfterPar true pairNodes [.removeEdge 5 6, .addEdge 5 6 .simple] =
        some (some (some [⟨0, 1, none, none⟩]), some (some []))) ∧
    (shownAfter false (pairNodes ++ [.addEdge 5 6 .simple, .addEdge 5 6 .simple]) [.removeEdge 5 6, .removeEdge 6 5] =
        some (some [⟨0, 1, none, none⟩], some []) ∧
      shownAfter false (pairNodes ++ [.addEdge 5 6 .simple, .addEdge 5 6 .simple]) [.removeEdge 6 5, .removeEdge 5 6] =
        some (some [], some [⟨1, 0, none, none⟩]) ∧
      shownAfterPar false (pairNodes ++ [.addEdge 5 6 .simple, .addEdge 5 6 .simple]) [.removeEdge 5 6, .removeEdge 6 5] =
        some (some (some [⟨0, 1, none, none⟩]), some (some [])) ∧
      shownAfterPar false (pairNodes ++ [.addEdge 5 6 .simple, .addEdge 5 6 .simple]) [.removeEdge 6 5, .removeEdge 5 6] =
        some (some (some []), some (some [⟨1, 0, none, none⟩]))) := by
  refine ⟨⟨?_, ?_, ?_, ?_⟩, ?_, ?_, ?_, ?_⟩ <;> decide +kernel

namespace OrderDemo

/-- Three nodes and an edge. -/
def hist : List (Op Nat Nat Nat) := [.addNode 5, .addNode 6, .addNode 7, .addEdge 5 6 .simple]

/-- The agent 5 drops its edge to 6 and joins 7, the agent 6 joins 7, the agent 7 joins 5 with a label. -/
def agents : List (List (Op Nat Nat Nat)) :=
  [[.removeEdge 5 6, .addEdge 5 7 .simple], [.addEdge 6 7 .simple], [.addEdge 7 5 (.labeled 3)]]

theorem careful : Careful id (Gentle id) (Net.new false) hist := by
  refine ⟨rfl, ?_⟩
  rintro n ⟨⟩
  refine ⟨rfl, ?_⟩
  rintro n ⟨⟩
  refine ⟨rfl, ?_⟩
  rintro n ⟨⟩
  refine ⟨trivial, ?_⟩
  rintro n ⟨⟩
  trivial

theorem noConflict : NoConflict id agents := by
  intro k k'
  by_cases h : (k = 5 ∧ k' = 6) ∨ (k = 6 ∧ k' = 5)
  · left
    rcases h with ⟨rfl, rfl⟩ | ⟨rfl, rfl⟩ <;> decide
  · right
    intro x hx op hop hab
    simp only [agents, List.mem_cons, List.not_mem_nil, or_false] at hx
    rcases hx with rfl | rfl | rfl <;> simp only [List.mem_cons, List.not_mem_nil, or_false] at hop
    · rcases hop with rfl | rfl
      · simp only [Op.isAbout, id_eq, decide_eq_true_iff] at hab
        omega
      · rfl
    · rw [hop]; rfl
    · rw [hop]; rfl

/-- The hypotheses can be met, and the lists do come out in different orders. -/
example : ∃ n n' p p', run id (Net.new false) (stepAfter hist agents.flatten) = some n ∧
    run id (Net.new false) (stepAfter hist agents.reverse.flatten) = some n' ∧
    ParNetwork.run id (ParNetwork.new 1 id false) (stepAfter hist agents.flatten) = some p ∧
    ParNetwork.run id (ParNetwork.new 1 id false) (stepAfter hist agents.reverse.flatten) = some p' ∧
    (∀ u, SameEdges (getEdges id n u) (getEdges id n' u)) ∧ (∀ i, getObject n i = getObject n' i) ∧
    (∀ u, ∃ x y, ParNetwork.getEdges id p u = some x ∧ ParNetwork.getEdges id p' u = some y ∧ SameEdges x y) ∧
    (∀ i, ParNetwork.getObject p i = ParNetwork.getObject p' i) :=
  C215_agents_partial id ParNetwork.shards_ok id false hist agents agents.reverse careful (by decide) noConflict
    (List.reverse_perm _).symm

example : shownAfter false hist agents.flatten =
      some (some [⟨0, 2, none, none⟩, ⟨0, 2, some 3, none⟩], some [⟨1, 2, none, none⟩]) ∧
    shownAfter false hist agents.reverse.flatten =
      some (some [⟨0, 2, some 3, none⟩, ⟨0, 2, none, none⟩], some [⟨1, 2, none, none⟩]) := by
  decide +kernel

end OrderDemo

end Verif.Network
