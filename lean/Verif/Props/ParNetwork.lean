import Verif.Props.Network
import Verif.Lemmas.ParNetwork7
import Verif.Props.NetworkPA

/-!
Properties of `Network` under the feature `parallel` (C116-C124). Histories are lists of calls, oldest first, on a network
made by `Network::new(d)`; `cpus` is the number of processors and `hash` the hash function, every statement holds for
all of them. The hypothesis on `shardAmount` only says that the number of shards fits a machine word.
-/

set_option linter.unusedSectionVars false

namespace Verif.ParNetwork

open Verif.Network (Edge EdgeOptions Net Side Op Published IdsInv Removable PairsSimple GoodPick GoodTargets IsEdge)
open Verif.DBDashMap (DB Inv abs update_sim shardAmount)
open Verif.ParGrid (getRead_abs getWrite_abs)

variable {K O L W : Type} [DecidableEq K]

abbrev Demo := PNet Nat Nat Unit Unit
abbrev DemoSeq := Net Nat Nat Unit Unit
abbrev DemoOp := Op Nat Unit Unit

/-- A network of numbers on one processor (four shards), and its sequential counterpart. -/
def demo (d : Bool) (ops : List DemoOp) : Option Demo := run id (new 1 id d) ops
def demoSeq (d : Bool) (ops : List DemoOp) : Option DemoSeq := Network.run id (Net.new d) ops

/-- A choice function of the promised kind: the first positions. -/
def firsts (dist : List (Nat × Nat)) (amount : Nat) : List Nat := List.range (min amount dist.length)

theorem goodChoice_firsts : GoodChoice firsts := by
  intro dist amount
  refine ⟨List.nodup_range, by simp [firsts], ?_⟩
  intro c hc
  simp only [firsts, List.mem_range] at hc
  omega

theorem shards_ok : shardAmount 1 ≤ 2 ^ 64 := by decide +kernel

/-! ### C116: the same answers as without the feature -/

/-- **C116, for histories of new nodes, new edges, replaced nodes, publications and edges removed between published
nodes**: both implementations run without a panic and every query has the same answer. Full statement: every history;
false by `C116_differences_partial`. -/
theorem C116_same_answers_partial (ident : O → K) {cpus : Nat} (hc : shardAmount cpus ≤ 2 ^ 64) (hash : Nat → Nat)
    (d : Bool) (ops : List (Op O L W)) (hg : Network.Careful ident (Gentle ident) (Net.new d) ops) :
    ∃ n p, Network.run ident (Net.new d) ops = some n ∧ run ident (new cpus hash d) ops = some p ∧
      SameAnswers ident p n := by
  obtain ⟨n, p, h1, h2, h3, h4⟩ := run_both ops (sim_new hc hash d) (good_new ident d) hg
  exact ⟨n, p, h1, h2, sameAnswers h3 h4⟩

/-- **C116, the values returned after such a history**: `add_edge` reports the same flags, `remove_edge` the same edge,
`remove_incoming_edges` and `remove_outgoing_edges` the same edges up to order. -/
theorem C116_same_results_partial (ident : O → K) {cpus : Nat} (hc : shardAmount cpus ≤ 2 ^ 64) (hash : Nat → Nat)
    (d : Bool) (ops : List (Op O L W)) (hg : Network.Careful ident (Gentle ident) (Net.new d) ops)
    (n : Net K O L W) (p : PNet K O L W) (hn : Network.run ident (Net.new d) ops = some n)
    (hp : run ident (new cpus hash d) ops = some p) :
    (∀ u v o, (addEdge ident p u v o).map Prod.snd = some (Network.addEdge ident n u v o).2) ∧
    (∀ u v, Gentle ident n (.removeEdge u v) → ∃ r, (Network.removeEdge ident n u v).map Prod.snd = some r ∧
      (removeEdge ident p u v).map Prod.snd = some r) ∧
    (Published n → ∀ inc u, ∃ r r', (Network.removeEdgesOf ident inc n u).map Prod.snd = some r ∧
      (removeEdgesOf ident inc p u).map Prod.snd = some r' ∧
      ((r = none ∧ r' = none) ∨ ∃ l l', r = some l ∧ r' = some l' ∧ l'.Perm l)) := by
  obtain ⟨n1, p1, h1, h2, hs, hgood⟩ := run_both ops (sim_new hc hash d) (good_new ident d) hg
  obtain rfl : n1 = n := Option.some.inj (h1.symm.trans hn)
  obtain rfl : p1 = p := Option.some.inj (h2.symm.trans hp)
  refine ⟨?_, ?_, ?_⟩
  · intro u v o
    obtain ⟨p', h, _⟩ := addEdge_sim (ident := ident) hs u v o
    rw [h]; rfl
  · intro u v hgen
    obtain ⟨n', r, h3⟩ := removeEdge_some hgood u v
    have h4 := removeEdge_sim (ident := ident) hs u v hgen.1 hgen.2
    rw [h3] at h4
    obtain ⟨p', h5, _⟩ := h4
    exact ⟨r, by rw [h3]; rfl, by rw [h5]; rfl⟩
  · intro hpub inc u
    obtain ⟨n', p', r, r', h3, h4, _, h5⟩ := removeEdgesOf_both (inc := inc) hs hgood hpub u
    refine ⟨r, r', by rw [h3]; rfl, by rw [h4]; rfl, ?_⟩
    match r, r', h5 with
    | none, none, _ => exact Or.inl ⟨rfl, rfl⟩
    | some l, some l', h6 => exact Or.inr ⟨l, l', rfl, rfl, h6⟩

/-- **C116, false as stated**: (1) after `remove_all_edges` and a publication the parallel network still lists the edge
5→6, the sequential one has no lists; (2) after `remove_node` and a publication the parallel network still shows the
node under its id; (3) an edge between nodes that have not been published is removed by the parallel `remove_edge`
and left in place by the sequential one. -/
theorem C116_differences_partial :
    ((demo true [.addNode 5, .addNode 6, .addEdge 5 6 .simple, .update, .removeAllEdges, .update]).bind
        (fun p => getEdges id p 5) = some (some [⟨0, 1, none, none⟩]) ∧
      (demoSeq true [.addNode 5, .addNode 6, .addEdge 5 6 .simple, .update, .removeAllEdges, .update]).map
        (fun n => Network.getEdges id n 5) = some none) ∧
    ((demo true [.addNode 5, .addNode 6, .update, .removeNode 6, .update]).bind (fun p => getObject p 1) =
        some (some 6) ∧
      (demoSeq true [.addNode 5, .addNode 6, .update, .removeNode 6, .update]).map
        (fun n => Network.getObject n 1) = some none) ∧
    ((demo true [.addNode 5, .addNode 6, .addEdge 5 6 .simple, .removeEdge 5 6, .update]).bind
        (fun p => getEdges id p 5) = some (some []) ∧
      (demoSeq true [.addNode 5, .addNode 6, .addEdge 5 6 .simple, .removeEdge 5 6, .update]).map
        (fun n => Network.getEdges id n 5) = some (some [⟨0, 1, none, none⟩])) := by
  refine ⟨⟨?_, ?_⟩, ⟨?_, ?_⟩, ?_, ?_⟩ <;> decide +kernel

/-- The hypothesis of `C116_same_answers_partial` on a history with a removed edge. -/
example : Network.Careful (id : Nat → Nat) (Gentle id) (Net.new false : DemoSeq)
    [.addNode 5, .addNode 6, .addEdge 5 6 .simple, .update, .removeEdge 5 6, .update] := by
  refine ⟨rfl, ?_⟩; rintro _ ⟨⟩
  refine ⟨rfl, ?_⟩; rintro _ ⟨⟩
  refine ⟨trivial, ?_⟩; rintro _ ⟨⟩
  refine ⟨trivial, ?_⟩; rintro _ ⟨⟩
  refine ⟨⟨rfl, rfl⟩, ?_⟩; rintro _ ⟨⟩
  exact ⟨trivial, fun _ _ => trivial⟩

/-! ### C117: nothing written is seen before the publication -/

/-- **C117, if nodes are only added, once each**: whatever has happened before, calls other than `update` and
`lazy_update` change the answer of no query. Full statement: with `remove_node` too; false by
`C117_removal_visible_partial`. -/
theorem C117_reads_isolated_partial (ident : O → K) {cpus : Nat} (hc : shardAmount cpus ≤ 2 ^ 64) (hash : Nat → Nat)
    (d : Bool) (before ops : List (Op O L W)) (p p' : PNet K O L W)
    (hb : Careful ident (NodesOnlyAdded ident) (new cpus hash d) before)
    (hp : run ident (new cpus hash d) before = some p) (ho : Careful ident (NodesOnlyAdded ident) p ops)
    (hw : ∀ op ∈ ops, op.isWrite = true) (hr : run ident p ops = some p') : SameReads ident p p' :=
  run_sameReads ops (run_tidy before (tidy_new ident hc hash d) hb hp) ho hw hr

/-- **C117, `get_object`**: for all histories, with removals. -/
theorem C117_objects_isolated (ident : O → K) {cpus : Nat} (hc : shardAmount cpus ≤ 2 ^ 64) (hash : Nat → Nat)
    (d : Bool) (before ops : List (Op O L W)) (p p' : PNet K O L W)
    (hp : run ident (new cpus hash d) before = some p) (hw : ∀ op ∈ ops, op.isWrite = true)
    (hr : run ident p ops = some p') (i : Nat) : getObject p' i = getObject p i := by
  have h := run_pinv before (pinv_new hc hash d) hp
  have hk := run_objects ops h hw hr
  rw [getObject_abs h, getObject_abs hk.inv, hk.i]

/-- **C117, `get_edges`**: for all histories, the answer for a node is unchanged as long as the node keeps its id. -/
theorem C117_lists_isolated (ident : O → K) {cpus : Nat} (hc : shardAmount cpus ≤ 2 ^ 64) (hash : Nat → Nat)
    (d : Bool) (before ops : List (Op O L W)) (p p' : PNet K O L W)
    (hp : run ident (new cpus hash d) before = some p) (hw : ∀ op ∈ ops, op.isWrite = true)
    (hr : run ident p ops = some p') (u : O) (hu : HMap.get p'.nodes2id (ident u) = HMap.get p.nodes2id (ident u)) :
    getEdges ident p' u = getEdges ident p u := by
  have h := run_pinv before (pinv_new hc hash d) hp
  have hk := run_objects ops h hw hr
  rw [getEdges_abs h, getEdges_abs hk.inv, hk.e, hu]

/-- **C117, before the first publication**: no query finds anything, whatever was written. -/
theorem C117_nothing_before_publication (ident : O → K) {cpus : Nat} (hc : shardAmount cpus ≤ 2 ^ 64)
    (hash : Nat → Nat) (d : Bool) (ops : List (Op O L W)) (p : PNet K O L W) (hw : ∀ op ∈ ops, op.isWrite = true)
    (hr : run ident (new cpus hash d) ops = some p) :
    (∀ u, getEdges ident p u = some none) ∧ (∀ u v, getEdge ident p u v = some none) ∧
      (∀ i, getObject p i = some none) := by
  have hs := sim_new (K := K) (O := O) (L := L) (W := W) hc hash d
  have hk := run_objects ops hs.inv hw hr
  have he : ∀ i, (abs p.edges).read i = none := by
    intro i; rw [hk.e, hs.re]; rfl
  have hi : ∀ i, (abs p.id2nodes).read i = none := by
    intro i; rw [hk.i, hs.ri]; rfl
  refine ⟨?_, ?_, ?_⟩
  · intro u
    rw [getEdges_abs hk.inv]
    cases HMap.get p.nodes2id (ident u) with
    | none => rfl
    | some i => rw [Option.bind_some, he]
  · intro u v
    unfold getEdge
    cases HMap.get p.nodes2id (ident u) with
    | none => rfl
    | some i => dsimp only; rw [getRead_abs hk.inv.e, he]
  · intro i
    rw [getObject_abs hk.inv, hi]

/-- **C117, false as stated**: with nodes 5, 6, 7 and edges 5→6, 5→7 published, `remove_node(6)` at once makes `get_edges`
of 6 answer that there is no such node, and `get_edge(5, 7)`, which found an edge, panic. -/
theorem C117_removal_visible_partial :
    let h : List DemoOp := [.addNode 5, .addNode 6, .addNode 7, .addEdge 5 6 .simple, .addEdge 5 7 .simple, .update]
    ((demo true h).bind (fun p => getEdges id p 6) = some (some []) ∧
      (demo true h).bind (fun p => getEdge id p 5 7) = some (some ⟨0, 2, none, none⟩)) ∧
    ((demo true (h ++ [.removeNode 6])).bind (fun p => getEdges id p 6) = some none ∧
      (demo true (h ++ [.removeNode 6])).isSome = true ∧
      (demo true (h ++ [.removeNode 6])).bind (fun p => getEdge id p 5 7) = none) := by
  refine ⟨⟨?_, ?_⟩, ?_, ?_, ?_⟩ <;> decide +kernel

/-- A written edge that is not yet visible. -/
example : (demo true [.addNode 5, .addNode 6, .update, .addEdge 5 6 .simple]).bind (fun p => getEdges id p 5) =
      some (some []) ∧
    (demo true [.addNode 5, .addNode 6, .update, .addEdge 5 6 .simple, .update]).bind (fun p => getEdges id p 5) =
      some (some [⟨0, 1, none, none⟩]) := by
  refine ⟨?_, ?_⟩ <;> decide +kernel

/-! ### C118: what a publication shows -/

/-- **C118.** For all histories: after `update` (or `lazy_update`) a query shows what is written, and where nothing is
written it keeps showing what it showed. The written state is not changed, so a second `update` changes nothing. -/
theorem C118_publication (ident : O → K) {cpus : Nat} (hc : shardAmount cpus ≤ 2 ^ 64) (hash : Nat → Nat)
    (d : Bool) (ops : List (Op O L W)) (p : PNet K O L W) (hp : run ident (new cpus hash d) ops = some p) :
    (∀ i, getObject (update p) i =
      some (((DBDashMap.getWrite p.id2nodes i).getD none).or ((getObject p i).getD none))) ∧
    (∀ u, getEdges ident (update p) u = some ((HMap.get p.nodes2id (ident u)).bind (fun uid =>
      ((DBDashMap.getWrite p.edges uid).getD none).or ((DBDashMap.getRead p.edges uid).getD none)))) ∧
    (∀ i, DBDashMap.getWrite (update p).edges i = DBDashMap.getWrite p.edges i ∧
      DBDashMap.getWrite (update p).id2nodes i = DBDashMap.getWrite p.id2nodes i) ∧
    (∀ i, getObject (update (update p)) i = getObject (update p) i) ∧
    (∀ u, getEdges ident (update (update p)) u = getEdges ident (update p) u) := by
  have h := run_pinv ops (pinv_new hc hash d) hp
  have h' := update_pinv h
  have h'' := update_pinv h'
  obtain ⟨_, e2⟩ := update_sim h.e
  obtain ⟨_, i2⟩ := update_sim h.i
  obtain ⟨_, ee2⟩ := update_sim h'.e
  obtain ⟨_, ii2⟩ := update_sim h'.i
  have e3 : abs (update p).edges = _ := e2
  have i3 : abs (update p).id2nodes = _ := i2
  have e4 : abs (update (update p)).edges = _ := ee2
  have i4 : abs (update (update p)).id2nodes = _ := ii2
  have hor : ∀ {α : Type} (a b : Option α), a.or (a.or b) = a.or b := by
    intro α a b; cases a <;> rfl
  refine ⟨?_, ?_, ?_, ?_, ?_⟩
  · intro i
    rw [getObject_abs h', getObject_abs h, getWrite_abs h.i, i3]; rfl
  · intro u
    rw [getEdges_abs h', e3]
    have : (update p).nodes2id = p.nodes2id := rfl
    rw [this]
    cases HMap.get p.nodes2id (ident u) with
    | none => rfl
    | some uid => simp [getWrite_abs h.e, getRead_abs h.e]
  · intro i
    rw [getWrite_abs h'.e, getWrite_abs h.e, getWrite_abs h'.i, getWrite_abs h.i, e3, i3]
    exact ⟨rfl, rfl⟩
  · intro i
    rw [getObject_abs h', getObject_abs h'', i4, i3]
    simp only [hor]
  · intro u
    rw [getEdges_abs h', getEdges_abs h'', e4, e3]
    have : (update (update p)).nodes2id = (update p).nodes2id := rfl
    rw [this]
    simp only [hor]

/-- **C118.** For all histories: an id that shows a node shows a node for ever after. -/
theorem C118_never_forgets (ident : O → K) {cpus : Nat} (hc : shardAmount cpus ≤ 2 ^ 64) (hash : Nat → Nat)
    (d : Bool) (ops later : List (Op O L W)) (p p' : PNet K O L W) (hp : run ident (new cpus hash d) ops = some p)
    (hl : run ident p later = some p') (i : Nat) (hi : ∃ o, getObject p i = some (some o)) :
    ∃ o, getObject p' i = some (some o) := by
  have h := run_pinv ops (pinv_new hc hash d) hp
  have h' := run_pinv later h hl
  obtain ⟨o, ho⟩ := hi
  rw [getObject_abs h, Option.some.injEq] at ho
  have := run_sticky later h hl i (by rw [ho]; rfl)
  obtain ⟨o', ho'⟩ := Option.isSome_iff_exists.1 this
  exact ⟨o', by rw [getObject_abs h', ho']⟩

/-- The hypothesis of `C118_never_forgets`, met by a node that is then removed. -/
example : (demo false [.addNode 5, .update]).bind (fun p => getObject p 0) = some (some 5) ∧
    (demo false [.addNode 5, .update, .removeNode 5, .update, .update]).bind (fun p => getObject p 0) =
      some (some 5) := by
  refine ⟨?_, ?_⟩ <;> decide +kernel

/-! ### C119: `remove_all_edges` -/

/-- **C119, false of the code**: for all histories, `remove_all_edges` followed by `update` shows every list of edges as
it was before. -/
theorem C119_nothing_removed_partial (ident : O → K) {cpus : Nat} (hc : shardAmount cpus ≤ 2 ^ 64) (hash : Nat → Nat)
    (d : Bool) (ops : List (Op O L W)) (p : PNet K O L W) (hp : run ident (new cpus hash d) ops = some p) (u : O) :
    getEdges ident (update (removeAllEdges p)) u = getEdges ident p u := by
  have h := run_pinv ops (pinv_new hc hash d) hp
  have hk := removeAllEdges_kept h
  have h' := update_pinv hk.inv
  rw [getEdges_abs h', getEdges_abs h]
  have e3 : abs (update (removeAllEdges p)).edges = _ := (update_sim hk.inv.e).2
  have e4 : abs (removeAllEdges p).edges = _ := (clear_sim h.e).2
  have : (update (removeAllEdges p)).nodes2id = p.nodes2id := rfl
  rw [e3, e4, this]
  rfl

/-- **C119, false of the code**: for all histories, after `remove_all_edges` a `remove_edge` between two present nodes
panics, as their lists are missing. -/
theorem C119_then_remove_edge_panics_partial (ident : O → K) {cpus : Nat} (hc : shardAmount cpus ≤ 2 ^ 64)
    (hash : Nat → Nat) (d : Bool) (ops : List (Op O L W)) (p : PNet K O L W)
    (hp : run ident (new cpus hash d) ops = some p) (u v : O)
    (hu : (HMap.get p.nodes2id (ident u)).isSome = true) (hv : (HMap.get p.nodes2id (ident v)).isSome = true) :
    removeEdge ident (removeAllEdges p) u v = none := by
  have h := run_pinv ops (pinv_new hc hash d) hp
  obtain ⟨uid, hu⟩ := Option.isSome_iff_exists.1 hu
  obtain ⟨vid, hv⟩ := Option.isSome_iff_exists.1 hv
  have e4 : abs (removeAllEdges p).edges = _ := (clear_sim h.e).2
  have e5 : (removeAllEdges p).nodes2id = p.nodes2id := rfl
  unfold removeEdge removeEdgeIds
  rw [e5, hu, hv]
  dsimp only
  rw [getWrite_abs (removeAllEdges_kept h).inv.e, e4]

/-- **C119, what does hold**: for all histories, afterwards no list is written, so the next edge between present nodes
is the only one in the written list of its source. -/
theorem C119_written_cleared_partial (ident : O → K) {cpus : Nat} (hc : shardAmount cpus ≤ 2 ^ 64) (hash : Nat → Nat)
    (d : Bool) (ops : List (Op O L W)) (p : PNet K O L W) (hp : run ident (new cpus hash d) ops = some p) :
    (∀ i, DBDashMap.getWrite (removeAllEdges p).edges i = some none) ∧
    (∀ u v o uid vid, HMap.get p.nodes2id (ident u) = some uid → HMap.get p.nodes2id (ident v) = some vid →
      uid ≠ vid → ∃ p', addEdge ident (removeAllEdges p) u v o = some (p', true, !p.direct) ∧
        getEdges ident (update p') u = some (some [Edge.new uid vid o])) := by
  have h := run_pinv ops (pinv_new hc hash d) hp
  have hk := removeAllEdges_kept h
  have e4 : abs (removeAllEdges p).edges = _ := (clear_sim h.e).2
  refine ⟨fun i => by rw [getWrite_abs hk.inv.e, e4], ?_⟩
  intro u v o uid vid hu hv hne
  obtain ⟨p', h1, h2, h3, _, h4⟩ := addEdge_written (ident := ident) (o := o) hk.inv (u := u) (v := v) hu hv
  refine ⟨p', h1, ?_⟩
  have h5 := h4 uid
  rw [writtenList_abs h2.inv, writtenList_abs hk.inv, e4, if_pos rfl, if_neg (fun hx => hne hx.2)] at h5
  have h6 : (abs p'.edges).write uid = some [Edge.new uid vid o] := by
    cases hx : (abs p'.edges).write uid with
    | none => rw [hx] at h5; simp at h5
    | some es => rw [hx] at h5; simpa using h5
  have e3 : abs (update p').edges = _ := (update_sim h2.inv.e).2
  have h7 : (update p').nodes2id = p.nodes2id := h3
  rw [getEdges_abs (update_pinv h2.inv), e3, h7, hu, Option.bind_some]
  simp only [h6, Option.some_or]

/-- A case with an edge to remove: it stays, and `remove_edge` then panics. -/
example : (demo false [.addNode 5, .addNode 6, .addEdge 5 6 .simple, .update]).bind (fun p => getEdges id p 5) =
      some (some [⟨0, 1, none, none⟩]) ∧
    (demo false [.addNode 5, .addNode 6, .addEdge 5 6 .simple, .update, .removeAllEdges, .update]).bind
      (fun p => getEdges id p 5) = some (some [⟨0, 1, none, none⟩]) ∧
    (demo false [.addNode 5, .addNode 6, .addEdge 5 6 .simple, .update, .removeAllEdges, .update,
      .removeEdge 5 6]).isNone = true := by
  refine ⟨?_, ?_, ?_⟩ <;> decide +kernel

/-! ### C120: `remove_node` -/

/-- **C120, edges**: after a history as in C116 and a publication, `remove_node` of a present node whose edges it can
find (`Removable`) reports success, and the next publication shows no list for the node and every other list without
the edges that end in it. Full statement: and the node itself is gone; false by `C120_ghost_partial`. -/
theorem C120_remove_node_partial (ident : O → K) {cpus : Nat} (hc : shardAmount cpus ≤ 2 ^ 64) (hash : Nat → Nat)
    (d : Bool) (ops : List (Op O L W)) (hg : Network.Careful ident (Gentle ident) (Net.new d) ops)
    (n : Net K O L W) (hn : Network.run ident (Net.new d) ops = some n) (u : O) (uid : Nat)
    (hu : HMap.get n.w.nodes2id (ident u) = some uid) (hr : Removable n uid) :
    ∃ p p', run ident (new cpus hash d) (ops ++ [.update]) = some p ∧ removeNode ident p u = some (p', true) ∧
      getEdges ident (update p') u = some none ∧
      (∀ v, ident v ≠ ident u → getEdges ident (update p') v =
        (getEdges ident p v).map (fun l => l.map (fun es => es.filter (fun e => !(e.v == uid))))) ∧
      (∀ i, getObject (update p') i = getObject p i) := by
  obtain ⟨n1, p0, h1, h2, hs0, hg0⟩ := run_both ops (sim_new hc hash d) (good_new ident d) hg
  obtain rfl : n1 = n := Option.some.inj (h1.symm.trans hn)
  obtain ⟨n2, p, h3, h4, hs, hgd⟩ := exec_both hs0 hg0 (op := .update) trivial
  obtain rfl : n2 = Network.update n1 := by simpa [Network.exec] using h3.symm
  obtain rfl : p = update p0 := by simpa [exec] using h4.symm
  have hpub : Published (Network.update n1) := fun k i h => h
  have hap := hgd.allPublished hpub
  obtain ⟨n3, h5, h6, h7, h8, h9, h10⟩ := Network.removeNode_ok (ident := ident) (n := Network.update n1) (u := u)
    (uid := uid) hu hgd.ids.1.1 hgd.ids.1.2.1 hpub hgd.lw hr
  obtain ⟨p', h11, hs'⟩ := removeNode_sim hs hap h5
  have hinv' := hs'.inv
  have e3 : abs (update p').edges = _ := (update_sim hinv'.e).2
  have i3 : abs (update p').id2nodes = _ := (update_sim hinv'.i).2
  refine ⟨update p0, p', ?_, h11, ?_, ?_, ?_⟩
  · rw [run_append, h2]; rfl
  · rw [getEdges_abs (update_pinv hinv')]
    have : HMap.get (update p').nodes2id (ident u) = none := by
      have h12 : HMap.get (update p').nodes2id (ident u) = HMap.get n3.w.nodes2id (ident u) := hs'.n2 _
      rw [h12, h8, HMap.get_remove, if_pos rfl]
    rw [this]; rfl
  · intro v hv
    rw [getEdges_abs (update_pinv hinv'), getEdges_abs hs.inv]
    have h12 : HMap.get (update p').nodes2id (ident v) = HMap.get (update p0).nodes2id (ident v) := by
      rw [hs.n2]
      refine (hs'.n2 _).trans ?_
      rw [h8, HMap.get_remove, if_neg hv]
    rw [h12]
    cases hx : HMap.get (update p0).nodes2id (ident v) with
    | none => rfl
    | some i =>
      rw [hs.n2] at hx
      have hne : i ≠ uid := by
        rintro rfl
        obtain ⟨o, ho, ho'⟩ := hgd.ids.1.1.1 _ _ hx
        obtain ⟨o2, ho2, ho2'⟩ := hgd.ids.1.1.1 _ _ (show HMap.get (Network.update n1).w.nodes2id (ident u) = some i from hu)
        rw [ho] at ho2
        exact hv (by rw [← ho', ← ho2', Option.some.inj ho2])
      obtain ⟨o, ho, _⟩ := hgd.ids.1.1.1 _ _ hx
      obtain ⟨es, hes⟩ := hgd.lw i o ho
      rw [Option.bind_some, Option.bind_some, e3, hs.re]
      have h13 : HMap.get (Network.update n1).r.edges i = some es := hes
      simp only [hs'.e.w, h10 i, if_neg hne, hes, h13]
      rfl
  · intro i
    rw [getObject_abs (update_pinv hinv'), getObject_abs hs.inv, i3]
    have h14 : HMap.get (Network.update n1).r.id2nodes i = HMap.get (Network.update n1).w.id2nodes i := rfl
    simp only [hs'.i.w, hs'.ri, h6, hs.ri, h9, HMap.get_remove, h14]
    by_cases hi : i = uid
    · rw [if_pos hi]; rfl
    · rw [if_neg hi]
      cases HMap.get (Network.update n1).w.id2nodes i <;> rfl

/-- **C120, false as stated**: the node is still shown under its id after its removal has been published; and a removal
after `remove_all_edges` panics. -/
theorem C120_ghost_partial :
    ((demo false [.addNode 5, .addNode 6, .addEdge 5 6 .simple, .update, .removeNode 5, .update]).bind
        (fun p => getObject p 0) = some (some 5) ∧
      (demo false [.addNode 5, .addNode 6, .addEdge 5 6 .simple, .update, .removeNode 5, .update]).bind
        (fun p => getEdges id p 6) = some (some [])) ∧
    (demo false [.addNode 5, .addNode 6, .addEdge 5 6 .simple, .update, .removeAllEdges, .removeNode 5]).isNone = true := by
  refine ⟨⟨?_, ?_⟩, ?_⟩ <;> decide +kernel

/-- The hypotheses of `C120_remove_node_partial`: the node 5 with an edge to 6, in either kind of network. -/
example (d : Bool) : ∃ n, demoSeq d [.addNode 5, .addNode 6, .addEdge 5 6 .simple] = some n ∧
    HMap.get n.w.nodes2id 5 = some 0 ∧ Removable n 0 := by
  cases d
  · refine ⟨_, rfl, rfl, fun i hi => ⟨fun h => by simp [Network.addEdge, Network.addNode, Net.new] at h, ?_⟩⟩
    match i, hi with
    | 1, _ => intro _ _; decide
    | i + 2, _ => intro _ h; exact absurd rfl h
  · refine ⟨_, rfl, rfl, fun i hi => ⟨fun _ => ?_, fun h => by
      simp [Network.addEdge, Network.addNode, Net.new] at h⟩⟩
    match i, hi with
    | 1, _ => decide
    | i + 2, _ => exact Nat.zero_le _

/-! ### C121: ids -/

/-- **C121, if nodes are only added, once each**: the ids are 0, 1, 2, … without gaps or repetitions; a further node gets
the next one, and after the publication it is shown there with an empty list, while the others keep their ids. Full
statement: with removals; false by `C121_reuse_partial`. -/
theorem C121_ids_partial (ident : O → K) {cpus : Nat} (hc : shardAmount cpus ≤ 2 ^ 64) (hash : Nat → Nat)
    (d : Bool) (ops : List (Op O L W)) (p : PNet K O L W)
    (ho : Careful ident (NodesOnlyAdded ident) (new cpus hash d) ops) (hp : run ident (new cpus hash d) ops = some p) :
    (∀ u i, HMap.get p.nodes2id (ident u) = some i → i < p.nodes2id.length) ∧
    (∀ u v i, HMap.get p.nodes2id (ident u) = some i → HMap.get p.nodes2id (ident v) = some i → ident u = ident v) ∧
    (∀ i, i < p.nodes2id.length → ∃ u, HMap.get p.nodes2id (ident u) = some i) ∧
    (∀ u, HMap.get p.nodes2id (ident u) = none → ∃ p', addNode ident p u = some p' ∧
      p'.nodes2id.length = p.nodes2id.length + 1 ∧
      (∀ v, HMap.get p'.nodes2id (ident v) =
        if ident v = ident u then some p.nodes2id.length else HMap.get p.nodes2id (ident v)) ∧
      getObject (update p') p.nodes2id.length = some (some u) ∧
      getEdges ident (update p') u = some (some [])) := by
  have h := run_tidy ops (tidy_new ident hc hash d) ho hp
  have hlt : ∀ u i, HMap.get p.nodes2id (ident u) = some i → i < p.nodes2id.length := by
    intro u i hi
    obtain ⟨o, ho, _⟩ := h.ids1 _ _ hi
    exact (h.cont i).1 (by rw [ho]; rfl)
  refine ⟨hlt, ?_, ?_, ?_⟩
  · intro u v i hu hv
    obtain ⟨o, ho, ho'⟩ := h.ids1 _ _ hu
    obtain ⟨o2, ho2, ho2'⟩ := h.ids1 _ _ hv
    rw [ho] at ho2
    rw [← ho', ← ho2', Option.some.inj ho2]
  · intro i hi
    obtain ⟨o, ho⟩ := Option.isSome_iff_exists.1 ((h.cont i).2 hi)
    exact ⟨o, h.ids2 i o ho⟩
  · intro u hu
    obtain ⟨p', h1, h2, h3, h4, h5⟩ := addNode_spec (ident := ident) h.inv u
    have hr : (abs p.edges).read p.nodes2id.length = none := by
      cases hx : (abs p.edges).read p.nodes2id.length with
      | none => rfl
      | some es =>
        obtain ⟨o, ho⟩ := Option.isSome_iff_exists.1 (h.rk _ _ hx).1
        exact absurd (hlt o _ (h.rid _ _ ho)) (lt_irrefl _)
    rw [if_pos hr] at h5
    have hget : ∀ v, HMap.get p'.nodes2id (ident v) =
        if ident v = ident u then some p.nodes2id.length else HMap.get p.nodes2id (ident v) := by
      intro v; rw [h3, HMap.get_insert]
    have e3 : abs (update p').edges = _ := (update_sim h2.inv.e).2
    have i3 : abs (update p').id2nodes = _ := (update_sim h2.inv.i).2
    refine ⟨p', h1, ?_, hget, ?_, ?_⟩
    · rw [h3]; exact Network.length_insert_absent hu
    · rw [getObject_abs (update_pinv h2.inv), i3]
      simp [h4, DBDashMap.set]
    · rw [getEdges_abs (update_pinv h2.inv), e3]
      have : HMap.get (update p').nodes2id (ident u) = some p.nodes2id.length := by
        refine (hget u).trans (if_pos rfl)
      rw [this]
      simp [h5, DBDashMap.set]

/-- **C121, exactly**: after any history, in a network whose ids fit, they still do after `add_node(u)` exactly if `u` is
absent and the number of nodes is not yet the id of a node, or `u` is present with that id already. -/
theorem C121_add_node_exactly_partial (ident : O → K) {cpus : Nat} (hc : shardAmount cpus ≤ 2 ^ 64) (hash : Nat → Nat)
    (d : Bool) (ops : List (Op O L W)) (p : PNet K O L W) (hp : run ident (new cpus hash d) ops = some p) (u : O)
    (hm : IdsMatch ident p) :
    ∃ p', addNode ident p u = some p' ∧ (IdsMatch ident p' ↔
      (HMap.get p.nodes2id (ident u) = none ∧ DBDashMap.getWrite p.id2nodes p.nodes2id.length = some none) ∨
      HMap.get p.nodes2id (ident u) = some p.nodes2id.length) := by
  have h := run_pinv ops (pinv_new hc hash d) hp
  obtain ⟨p', h1, h2, h3, h4, _⟩ := addNode_spec (ident := ident) h u
  refine ⟨p', h1, ?_⟩
  have hv := sim_view h
  have hw : ∀ i, DBDashMap.getWrite p.id2nodes i = some (HMap.get (view p).w.id2nodes i) := by
    intro i; rw [getWrite_abs h.i, hv.i.w]
  have hw' : ∀ i, DBDashMap.getWrite p'.id2nodes i = some (HMap.get (Network.addNode ident (view p) u).w.id2nodes i) := by
    intro i
    rw [getWrite_abs h2.inv.i, h4]
    simp only [DBDashMap.set, Network.addNode, HMap.get_insert]
    by_cases hi : i = p.nodes2id.length
    · rw [if_pos hi, if_pos (show i = (view p).w.nodes2id.length from hi)]
    · rw [if_neg hi, if_neg (show ¬ i = (view p).w.nodes2id.length from hi), hv.i.w]
  have e : IdsMatch ident p ↔ (view p).w.IdsUnique ident := by
    unfold IdsMatch Network.Side.IdsUnique
    simp only [hw, Option.some.injEq]
    exact Iff.rfl
  have e' : IdsMatch ident p' ↔ (Network.addNode ident (view p) u).w.IdsUnique ident := by
    unfold IdsMatch Network.Side.IdsUnique
    simp only [hw', Option.some.injEq, h3]
    exact Iff.rfl
  rw [e', Network.C46_add_node_exactly_partial ident (view p) u (e.1 hm), hw, Option.some.injEq]
  exact Iff.rfl

/-- A node with the last id removed, and the first: the next node gets a free id, and a used one. -/
example : (demo false [.addNode 5, .addNode 6, .addNode 7, .update, .removeNode 7]).map (fun p =>
      (HMap.get p.nodes2id 8, DBDashMap.getWrite p.id2nodes p.nodes2id.length)) = some (none, some none) ∧
    (demo false [.addNode 5, .addNode 6, .addNode 7, .update, .removeNode 5]).map (fun p =>
      (HMap.get p.nodes2id 8, DBDashMap.getWrite p.id2nodes p.nodes2id.length)) = some (none, some (some 7)) := by
  constructor <;> decide +kernel

/-- **C121, false as stated**: (1) nodes 5, 6, 7 added, 5 removed, 8 added: 7 and 8 have the same id, which shows 8;
(2) nodes 5 and 6 with the edge 6→5, then 6 removed and 7 added: the new node 7 has the id and, once published, the
edge of 6, although no edge was ever added to it; trying to remove that edge panics. -/
theorem C121_reuse_partial :
    ((demo false [.addNode 5, .addNode 6, .addNode 7, .update, .removeNode 5, .addNode 8, .update]).map
        (fun p => (HMap.get p.nodes2id 7, HMap.get p.nodes2id 8)) = some (some 2, some 2) ∧
      (demo false [.addNode 5, .addNode 6, .addNode 7, .update, .removeNode 5, .addNode 8, .update]).bind
        (fun p => getObject p 2) = some (some 8)) ∧
    ((demo true [.addNode 5, .addNode 6, .addEdge 6 5 .simple, .update, .removeNode 6, .addNode 7, .update]).bind
        (fun p => getEdges id p 7) = some (some [⟨1, 0, none, none⟩]) ∧
      (demo true [.addNode 5, .addNode 6, .addEdge 6 5 .simple, .update, .removeNode 6, .addNode 7, .update,
        .removeEdge 7 5]).isNone = true) := by
  refine ⟨⟨?_, ?_⟩, ?_, ?_⟩ <;> decide +kernel

/-- The hypothesis on a history with `remove_all_edges`. -/
example : Careful (id : Nat → Nat) (NodesOnlyAdded id) (new 1 id true : Demo)
      [.addNode 5, .addNode 6, .addEdge 5 6 .simple, .update, .removeAllEdges] ∧
    (demo true [.addNode 5, .addNode 6, .addEdge 5 6 .simple, .update, .removeAllEdges]).isSome = true := by
  refine ⟨?_, by decide +kernel⟩
  refine ⟨rfl, fun p hp => ⟨?_, fun _ _ => ⟨trivial, fun _ _ => ⟨trivial, fun _ _ => ⟨trivial, fun _ _ => trivial⟩⟩⟩⟩⟩
  have h2 := addNode_spec (ident := (id : Nat → Nat)) (pinv_new shards_ok id true : PInv (new 1 id true : Demo)) 5
  obtain ⟨p', h3, _, h4, _⟩ := h2
  have : p' = p := Option.some.inj (h3.symm.trans hp)
  rw [← this]
  show HMap.get p'.nodes2id 6 = none
  rw [h4]
  rfl

/-! ### C122: edges and nodes fit together -/

/-- **C122, if nodes are only added, once each**: every edge shown for a node starts at its id and ends at the id of a
shown node, and `get_edge(u, v)` never panics: it returns the first edge of the list of `u` that ends in `v`. Full
statement: with removals; false by `C122_exceptions_partial`. -/
theorem C122_edges_fit_partial (ident : O → K) {cpus : Nat} (hc : shardAmount cpus ≤ 2 ^ 64) (hash : Nat → Nat)
    (d : Bool) (ops : List (Op O L W)) (p : PNet K O L W)
    (ho : Careful ident (NodesOnlyAdded ident) (new cpus hash d) ops) (hp : run ident (new cpus hash d) ops = some p) :
    (∀ u e, e ∈ listOf ident p u → HMap.get p.nodes2id (ident u) = some e.u ∧
      ∃ w, getObject p e.v = some (some w) ∧ HMap.get p.nodes2id (ident w) = some e.v) ∧
    (∀ u v vid, HMap.get p.nodes2id (ident v) = some vid →
      getEdge ident p u v = some ((listOf ident p u).find? (fun e => e.v == vid))) ∧
    (∀ u v, HMap.get p.nodes2id (ident v) = none → getEdge ident p u v = some none) := by
  have h := run_tidy ops (tidy_new ident hc hash d) ho hp
  refine ⟨?_, ?_, ?_⟩
  · intro u e he
    rw [listOf_abs h.inv] at he
    cases hu : HMap.get p.nodes2id (ident u) with
    | none => rw [hu] at he; simp at he
    | some uid =>
      rw [hu, Option.bind_some] at he
      cases hl : (abs p.edges).read uid with
      | none => rw [hl] at he; simp at he
      | some es =>
        rw [hl, Option.getD_some] at he
        obtain ⟨h1, h2⟩ := (h.rk _ _ hl).2 e he
        obtain ⟨w, hw⟩ := Option.isSome_iff_exists.1 h2
        exact ⟨by rw [h1], w, by rw [getObject_abs h.inv, hw], h.rid _ _ hw⟩
  · intro u v vid hv
    rw [getEdge_tidy h, listOf_abs h.inv, hv]
    cases (HMap.get p.nodes2id (ident u)).bind (abs p.edges).read <;> rfl
  · intro u v hv
    rw [getEdge_tidy h, hv]
    cases (HMap.get p.nodes2id (ident u)).bind (abs p.edges).read <;> rfl

/-- **C122, undirected networks, histories as in C116 that remove edges only between nodes with at most one edge**: a
shown node lists another as often as the other lists it. -/
theorem C122_both_ways_partial (ident : O → K) {cpus : Nat} (hc : shardAmount cpus ≤ 2 ^ 64) (hash : Nat → Nat)
    (ops : List (Op O L W))
    (hg : Network.Careful ident (fun n op => Gentle ident n op ∧ PairsSimple ident n op) (Net.new false) ops)
    (p : PNet K O L W) (hp : run ident (new cpus hash false) ops = some p) (u v : O) (uid vid : Nat)
    (hu : HMap.get p.nodes2id (ident u) = some uid) (hv : HMap.get p.nodes2id (ident v) = some vid) :
    (listOf ident p u).countP (fun e => e.v == vid) = (listOf ident p v).countP (fun e => e.v == uid) := by
  obtain ⟨n, p1, h1, h2, hs, hgd⟩ := run_both ops (sim_new hc hash false) (good_new ident false)
    (Network.careful_mono (fun _ _ h => h.1) ops hg)
  obtain rfl : p1 = p := Option.some.inj (h2.symm.trans hp)
  have hsym := Network.careful_run (I := Network.SymInv) (fun n n' op hi hp he => Network.exec_sym hi hp.2
    (fun u hu => by subst hu; exact hp.1) he) ops Network.symInv_new hg h1
  rw [listOf_abs hs.inv, listOf_abs hs.inv, hu, hv, Option.bind_some, Option.bind_some, hs.re, hs.re]
  exact hsym.r uid vid

/-- The hypothesis of `C122_both_ways_partial` on a history with a removed edge. -/
example : Network.Careful (id : Nat → Nat) (fun n op => Gentle id n op ∧ PairsSimple id n op) (Net.new false : DemoSeq)
    [.addNode 5, .addNode 6, .addEdge 5 6 .simple, .update, .removeEdge 5 6] := by
  refine ⟨⟨rfl, trivial⟩, ?_⟩; rintro _ ⟨⟩
  refine ⟨⟨rfl, trivial⟩, ?_⟩; rintro _ ⟨⟩
  refine ⟨⟨trivial, trivial⟩, ?_⟩; rintro _ ⟨⟩
  refine ⟨⟨trivial, trivial⟩, ?_⟩; rintro _ ⟨⟩
  refine ⟨⟨⟨rfl, rfl⟩, ?_⟩, fun _ _ => trivial⟩
  intro uid vid h1 h2
  obtain rfl : 0 = uid := Option.some.inj h1
  obtain rfl : 1 = vid := Option.some.inj h2
  exact Or.inr (by decide)

/-- **C122, false as stated**: (1) after `remove_node(6)` and before the publication `get_edge(5, 7)` meets the edge to 6
and panics; (2) in an undirected network with one edge 5-6, `remove_all_edges`, a loop at 5 and a publication leave an
edge listed by 6 that 5 does not list. -/
theorem C122_exceptions_partial :
    (demo true [.addNode 5, .addNode 6, .addNode 7, .addEdge 5 6 .simple, .addEdge 5 7 .simple, .update,
      .removeNode 6]).map (fun p => (getEdge id p 5 7).isNone) = some true ∧
    ((demo false [.addNode 5, .addNode 6, .addEdge 5 6 .simple, .update, .removeAllEdges, .addEdge 5 5 .simple,
        .update]).bind (fun p => getEdges id p 5) = some (some [⟨0, 0, none, none⟩, ⟨0, 0, none, none⟩]) ∧
      (demo false [.addNode 5, .addNode 6, .addEdge 5 6 .simple, .update, .removeAllEdges, .addEdge 5 5 .simple,
        .update]).bind (fun p => getEdges id p 6) = some (some [⟨1, 0, none, none⟩])) := by
  refine ⟨?_, ?_, ?_⟩ <;> decide +kernel

/-! ### C123: `add_prob_edge` -/

theorem forall₂_right {α β : Type} {R : α → β → Prop} {l : List α} {l' : List β} (h : List.Forall₂ R l l') {b : β}
    (hb : b ∈ l') : ∃ a, R a b := by
  induction h with
  | nil => simp at hb
  | cons hr _ ih =>
    rcases List.mem_cons.1 hb with rfl | hb
    · exact ⟨_, hr⟩
    · exact ih hb

/-- **C123, if no node is added twice or after a removal**: nodes are added once each, then nodes may be removed, with any
other calls in between. For every random choice, `add_prob_edge(u, k)` of a present node writes one edge without label
and weight from `u` to each of a set of different present nodes with shown lists, as many as `k`, the number of written
lists and the number of such nodes allow, with the reverse edges if undirected; no other edge is written and no query
changes. Full statement: every history; false by `C123_reused_ids_partial`. -/
theorem C123_prob_edges_partial (ident : O → K) {cpus : Nat} (hc : shardAmount cpus ≤ 2 ^ 64) (hash : Nat → Nat)
    (d : Bool) (ops later : List (Op O L W)) (p0 p : PNet K O L W)
    (ho : Careful ident (NodesOnlyAdded ident) (new cpus hash d) ops) (hp0 : run ident (new cpus hash d) ops = some p0)
    (hl : ∀ op ∈ later, ∀ u, op ≠ .addNode u) (hp : run ident p0 later = some p)
    (pick : List (O × Nat) → Nat → List Nat) (hpick : GoodChoice pick) (u : O) (uid k : Nat)
    (hu : HMap.get p.nodes2id (ident u) = some uid) :
    ∃ (p' : PNet K O L W) (T : List Nat), addProbEdge ident pick p u k = some p' ∧ T.Nodup ∧
      T.length = min (min k (DBDashMap.len p.edges))
        ((DBDashMap.keys p.edges).filter (stillThere ident p)).length ∧
      (∀ t ∈ T, ∃ v, HMap.get p.nodes2id (ident v) = some t ∧ ∃ es, getEdges ident p v = some (some es)) ∧
      (∀ a b, (writtenList p' a).countP (fun e => e.v == b) = (writtenList p a).countP (fun e => e.v == b) +
        (if a = uid ∧ b ∈ T then 1 else 0) + (if p.direct = false ∧ b = uid ∧ a ∈ T then 1 else 0)) ∧
      (∀ a e, e ∈ writtenList p' a → e ∈ writtenList p a ∨ (e.u = a ∧ e.label = none ∧ e.weight = none)) ∧
      (∀ v, getEdges ident p' v = getEdges ident p v) ∧ (∀ i, getObject p' i = getObject p i) := by
  have h := run_settled later (run_tidy ops (tidy_new ident hc hash d) ho hp0).settled hl hp
  have hkeys : (DBDashMap.keys p.edges).Nodup ∧ ∀ k ∈ DBDashMap.keys p.edges, ((abs p.edges).read k).isSome = true := by
    have hv := sim_view h.inv
    have hw : HMap.WF (view p).r.edges := h.inv.e.r.wf_flatten
    obtain ⟨h1, h2⟩ := keys_perm h.inv.e hw (fun i => by rw [hv.re])
    refine ⟨h1, fun k hk => ?_⟩
    rw [hv.re]
    exact HMap.mem_keys_iff.1 (h2.mem_iff.1 hk)
  obtain ⟨dist, hd, hf⟩ := degrees_settled h (DBDashMap.keys p.edges) hkeys.2
  obtain ⟨g1, g2, g3⟩ := hpick dist (if DBDashMap.len p.edges < k then DBDashMap.len p.edges else k)
  set cs := pick dist (if DBDashMap.len p.edges < k then DBDashMap.len p.edges else k) with hcs
  obtain ⟨f1, f2⟩ := filterMap_positions hf cs g3
  have f3 := nodup_positions (hkeys.1.filter (stillThere ident p)) cs g1
  set T := cs.filterMap (fun c => ((DBDashMap.keys p.edges).filter (stillThere ident p))[c]?) with hT
  have f4 : List.Forall₂ (fun v t => HMap.get p.nodes2id (ident v) = some t)
      ((cs.filterMap (fun c => dist[c]?)).map Prod.fst) T := by
    rw [List.forall₂_map_left_iff]
    exact f1.imp (fun _ _ h => h.1)
  obtain ⟨p', a1, a2, a3, _, a4, a5⟩ := attach_written h.inv hu f4
  refine ⟨p', T, ?_, f3, ?_, ?_, ?_, a5, ?_, ?_⟩
  · unfold addProbEdge
    rw [hd]
    exact a1
  · rw [f2, g2, hf.length_eq]
    congr 1
    split <;> omega
  · intro t ht
    obtain ⟨x, hx1, es, hx2, _⟩ := forall₂_right f1 ht
    exact ⟨x.1, hx1, es, by rw [getEdges_abs h.inv, hx1, Option.bind_some, hx2]⟩
  · intro a b
    rw [a4 a b, f3.count, f3.count]
    congr 1
    · congr 1
      by_cases h1 : a = uid <;> by_cases h2 : b ∈ T <;> simp [h1, h2]
    · by_cases h1 : p.direct = false ∧ b = uid <;> by_cases h2 : a ∈ T <;> simp [h1, h2]
  · intro v
    rw [getEdges_abs a2.inv, getEdges_abs h.inv, a2.e, a3]
  · intro i
    rw [getObject_abs a2.inv, getObject_abs h.inv, a2.i]

/-- **C123, a node that is not present**: nothing changes (for histories as above). -/
theorem C123_absent_partial (ident : O → K) {cpus : Nat} (hc : shardAmount cpus ≤ 2 ^ 64) (hash : Nat → Nat)
    (d : Bool) (ops later : List (Op O L W)) (p0 p : PNet K O L W)
    (ho : Careful ident (NodesOnlyAdded ident) (new cpus hash d) ops) (hp0 : run ident (new cpus hash d) ops = some p0)
    (hl : ∀ op ∈ later, ∀ u, op ≠ .addNode u) (hp : run ident p0 later = some p)
    (pick : List (O × Nat) → Nat → List Nat) (u : O) (k : Nat) (hu : HMap.get p.nodes2id (ident u) = none) :
    addProbEdge ident pick p u k = some p := by
  have h := run_settled later (run_tidy ops (tidy_new ident hc hash d) ho hp0).settled hl hp
  have hv := sim_view h.inv
  have hw : HMap.WF (view p).r.edges := h.inv.e.r.wf_flatten
  obtain ⟨_, h2⟩ := keys_perm h.inv.e hw (fun i => by rw [hv.re])
  obtain ⟨dist, hd, _⟩ := degrees_settled h (DBDashMap.keys p.edges) (fun k hk => by
    rw [hv.re]; exact HMap.mem_keys_iff.1 (h2.mem_iff.1 hk))
  unfold addProbEdge
  rw [hd]
  dsimp only
  generalize ((pick dist _).filterMap _).map Prod.fst = vs
  induction vs with
  | nil => rfl
  | cons v vs ih =>
    unfold attach addEdge
    rw [hu]
    exact ih

/-- The hypotheses of `C123_prob_edges_partial` with a node removed: 5 and 6 are shown, 6 is removed, and
`add_prob_edge(5, 2)` writes one edge. -/
example :
    Careful (id : Nat → Nat) (NodesOnlyAdded id) (new 1 id true : Demo) [.addNode 5, .addNode 6, .update] ∧
    (demo true [.addNode 5, .addNode 6, .update, .removeNode 6]).bind (fun p =>
      (addProbEdge id firsts p 5 2).map (fun p' => (writtenList p' 0, (DBDashMap.keys p.edges).length,
        ((DBDashMap.keys p.edges).filter (stillThere id p)).length))) =
      some ([⟨0, 0, none, none⟩], 2, 1) := by
  refine ⟨⟨rfl, fun p hp => ⟨?_, fun _ _ => ⟨trivial, fun _ _ => trivial⟩⟩⟩, by decide +kernel⟩
  have h2 := addNode_spec (ident := (id : Nat → Nat)) (pinv_new shards_ok id true : PInv (new 1 id true : Demo)) 5
  obtain ⟨p', h3, _, h4, _⟩ := h2
  have : p' = p := Option.some.inj (h3.symm.trans hp)
  rw [← this]
  show HMap.get p'.nodes2id 6 = none
  rw [h4]
  rfl

/-- Another choice function of the promised kind: of three positions the outer two. -/
def outer (dist : List (Nat × Nat)) (amount : Nat) : List Nat :=
  if amount = 2 ∧ dist.length = 3 then [0, 2] else firsts dist amount

theorem goodChoice_outer : GoodChoice outer := by
  intro dist amount
  unfold outer
  by_cases h : amount = 2 ∧ dist.length = 3
  · rw [if_pos h, h.1, h.2]
    exact ⟨by decide, rfl, by decide⟩
  · rw [if_neg h]
    exact goodChoice_firsts dist amount

/-- **C123, false as stated**: a node added after a removal may get the id of another one. (1) Nodes 5 and 6, 5 removed,
7 added (it gets the id of 6) and removed, a loop at 6, a publication: `add_prob_edge(6, 1)` panics, because id 1 has a
list and no node. (2) Nodes 5, 6 and 7 are shown; 5 is removed and added again (with the id of 7), and there is a
publication: `add_prob_edge(6, 2)` can write two edges to the same node. -/
theorem C123_reused_ids_partial :
    (demo true [.addNode 5, .addNode 6, .removeNode 5, .addNode 7, .removeNode 7, .addEdge 6 6 .simple, .update]).map
      (fun p => (addProbEdge id firsts p 6 1).isNone) = some true ∧
    (demo true [.addNode 5, .addNode 6, .addNode 7, .update, .removeNode 5, .addNode 5, .update]).bind
      (fun p => (addProbEdge id outer p 6 2).map (fun p => writtenList p 1)) =
      some [⟨1, 2, none, none⟩, ⟨1, 2, none, none⟩] := by
  constructor <;> decide +kernel

/-- **C123**: the chosen nodes may include `u` itself, which then gets a loop. -/
theorem C123_may_choose_itself_partial :
    ((demo true [.addNode 5, .addNode 6, .update]).bind (fun p => addProbEdge id firsts p 5 2)).map
      (fun p => writtenList p 0) = some [⟨0, 0, none, none⟩, ⟨0, 1, none, none⟩] := by decide +kernel

/-! ### C124: preferential attachment -/

/-- **C124, undirected, or directed if the second node of the node set shows no edges**: for every history before it and
every random stream, on `N ≥ 2` nodes with distinct ids listed in the node set, and `m ≥ 1`, the network shows exactly
the edges of C51: 0→1 and, for each node `i ≥ 2`, edges to `min i m` different earlier nodes (and their reverses if
undirected). Nodes and ids are unchanged. Full statement: every directed network too; false by
`C124_stale_edges_partial`. -/
theorem C124_graph_partial (ident : O → K) {cpus : Nat} (hc : shardAmount cpus ≤ 2 ^ 64) (hash : Nat → Nat)
    (d : Bool) (ops : List (Op O L W)) (p : PNet K O L W) (hrun : run ident (new cpus hash d) ops = some p)
    (pick : Nat → List (O × Int × Nat) → Nat → List Nat) (hp : GoodPick pick)
    (nodes : List O) (m N : Nat) (node : Nat → O) (idOf : Nat → Nat) (hm : 1 ≤ m)
    (hN : DBDashMap.len p.id2nodes = N) (h2 : 2 ≤ N) (hnodes : ∀ i, i < N → nodes[i]? = some (node i))
    (hids : ∀ i, i < N → HMap.get p.nodes2id (ident (node i)) = some (idOf i))
    (hinj : ∀ a b, a < N → b < N → idOf a = idOf b → a = b)
    (hstale : p.direct = false ∨ listOf ident p (node 1) = []) :
    ∃ T p', GoodTargets N m T ∧ preferentialAttachment ident pick p nodes m = some p' ∧
      (∀ a b, a < N → b < N → (listOf ident p' (node a)).countP (fun e => e.v == idOf b) =
        if IsEdge N T a b ∨ (p.direct = false ∧ IsEdge N T b a) then 1 else 0) ∧
      (∀ a e, a < N → e ∈ listOf ident p' (node a) → e.u = idOf a ∧ (∃ b, b < N ∧ e.v = idOf b) ∧ e.label = none ∧
        e.weight = none) ∧
      ((List.range N).map (fun a => (listOf ident p' (node a)).length)).sum =
        (if p.direct then 1 else 2) * (1 + ((List.range' 2 (N - 2)).map (fun j => min j m)).sum) ∧
      p'.nodes2id = p.nodes2id ∧
      (∀ i, getObject p' i = getObject (update p) i) := by
  have h := run_pinv ops (pinv_new hc hash d) hrun
  have hv := sim_view h
  obtain ⟨T, n', hT, h3, h4, h5, h6, _⟩ := Network.C51_graph ident pick hp (view p) nodes m N node idOf hm
    (len_view.trans hN) h2 hnodes hids hinj
  obtain ⟨_, n'', _, h7, _, _, h8, _⟩ := Network.preferential_shape ident pick hp (view p) nodes m N node idOf hm
    (len_view.trans hN) h2 hnodes hids
  obtain rfl : n'' = n' := Option.some.inj (h7.symm.trans h3)
  obtain ⟨a, b, t, rfl⟩ : ∃ a b t, nodes = a :: b :: t := by
    match nodes, hnodes 0 (by omega), hnodes 1 (by omega) with
    | a :: b :: t, _, _ => exact ⟨a, b, t, rfl⟩
  obtain ⟨p1, g1, g2, g3, g4, g5, g6, g7⟩ := preferential_sim h h3
  have e3 : abs (update p1).edges = _ := (update_sim g2.e).2
  have hn2 : (update p1).nodes2id = p.nodes2id := g5
  have hlist : ∀ a, a < N → listOf ident (update p1) (node a) = n''.r.adj (idOf a) := by
    intro a ha
    rw [listOf_abs (update_pinv g2), hn2, hids a ha, Option.bind_some, e3]
    dsimp only
    rw [g3, g4, Side.adj, h8]
    cases hg : HMap.get n''.w.edges (idOf a) with
    | some es => rfl
    | none =>
      have hempty : n''.r.adj (idOf a) = [] := by rw [Side.adj, h8, hg]; rfl
      have hnone : ∀ b, b < N → ¬ (IsEdge N T a b ∨ ((view p).direct = false ∧ IsEdge N T b a)) := by
        intro b hb hE
        have := h4 a b ha hb
        rw [if_pos hE, Side.mult, hempty] at this
        simp at this
      have ha1 : a = 1 := by
        by_contra hne
        rcases Nat.lt_or_ge a 2 with h9 | h9
        · have h0 : a = 0 := by omega
          subst h0
          exact hnone 1 (by omega) (Or.inl (Or.inl ⟨rfl, rfl⟩))
        · obtain ⟨t1, t2, t3⟩ := hT a h9 ha
          have : 0 < (T a).length := by rw [t2]; omega
          obtain ⟨y, hy⟩ := List.exists_mem_of_length_pos this
          exact hnone y (lt_trans (t3 y hy) ha) (Or.inl (Or.inr ⟨h9, ha, hy⟩))
      subst ha1
      have hdir : p.direct ≠ false := by
        intro hd
        exact hnone 0 (by omega) (Or.inr ⟨hd, Or.inl ⟨rfl, rfl⟩⟩)
      have hst := hstale.resolve_left hdir
      rw [listOf_abs h, hids 1 ha, Option.bind_some] at hst
      simpa using hst
  refine ⟨T, update p1, hT, g1, ?_, ?_, ?_, hn2, ?_⟩
  · intro a b ha hb
    rw [hlist a ha]
    exact h4 a b ha hb
  · intro a e ha he
    rw [hlist a ha] at he
    exact h5 a e ha he
  · rw [← show (view p).direct = p.direct from rfl, ← h6]
    congr 1
    apply List.map_congr_left
    intro a ha
    rw [hlist a (List.mem_range.1 ha)]
  · intro i
    have : (update p1).id2nodes = (update p).id2nodes := by simp only [update, g6]
    unfold getObject
    rw [this]

/-- Preferential attachment makes no empty lists. -/
theorem addEdge_no_empty {ident : O → K} {n : Net K O L W} (u v : O) (o : EdgeOptions L W)
    (h : ∀ i, HMap.get n.w.edges i ≠ some []) (i : Nat) :
    HMap.get (Network.addEdge ident n u v o).1.w.edges i ≠ some [] := by
  cases hu : HMap.get n.w.nodes2id (ident u) with
  | none => rw [Network.addEdge_absent (Or.inl hu)]; exact h i
  | some uid =>
    cases hv : HMap.get n.w.nodes2id (ident v) with
    | none => rw [Network.addEdge_absent (Or.inr hv)]; exact h i
    | some vid =>
      obtain ⟨_, _, _, h1, h2⟩ := Network.addEdge_ok (o := o) hu hv
      intro hx
      have h3 := h1 i
      rw [Side.adj, hx] at h3
      have h4 : n.w.adj i = [] ∧ i ≠ uid ∧ ¬ (n.direct = false ∧ i = vid) := by
        simp only [Option.getD_some] at h3
        refine ⟨?_, ?_, ?_⟩
        · cases hq : n.w.adj i with
          | nil => rfl
          | cons x xs => rw [hq] at h3; simp at h3
        · intro hq; rw [if_pos hq] at h3; simp at h3
        · intro hq; rw [if_pos hq] at h3; simp at h3
      have h5 : HMap.get n.w.edges i = none := by
        cases hq : HMap.get n.w.edges i with
        | none => rfl
        | some es =>
          have := h4.1
          rw [Side.adj, hq] at this
          simp only [Option.getD_some] at this
          rw [this] at hq
          exact absurd hq (h i)
      have h6 := (h2 i).2 ⟨h5, h4.2.1, fun hd hi => h4.2.2 ⟨hd, hi⟩⟩
      rw [hx] at h6
      cases h6

theorem attachLoop_no_empty {ident : O → K} {pick : Nat → List (O × Int × Nat) → Nat → List Nat} {nodes : List O}
    {m : Nat} (k : Nat) : ∀ (i : Nat) (n n' : Net K O L W) (dist : List (O × Int × Nat)),
    (∀ i, HMap.get n.w.edges i ≠ some []) → Network.attachLoop ident pick nodes m k i n dist = some n' →
    ∀ i, HMap.get n'.w.edges i ≠ some [] := by
  induction k with
  | zero =>
    intro i n n' dist h hx
    simp only [Network.attachLoop, Option.some.injEq] at hx
    rw [← hx]; exact h
  | succ k ih =>
    intro i n n' dist h hx
    rw [Network.attachLoop] at hx
    cases hy : nodes[i]? with
    | none => rw [hy] at hx; simp at hx
    | some node =>
      rw [hy] at hx
      refine ih _ _ _ _ ?_ hx
      have h10 : ∀ (cs : List (O × Int × Nat)) (n : Net K O L W), (∀ i, HMap.get n.w.edges i ≠ some []) →
          ∀ i, HMap.get (Network.attach ident n node cs).w.edges i ≠ some [] := by
        intro cs
        induction cs with
        | nil => intro n h; exact h
        | cons c cs ih2 =>
          intro n h
          exact ih2 _ (addEdge_no_empty node c.1 .simple h)
      exact h10 _ _ h

theorem preferential_no_empty {ident : O → K} {pick : Nat → List (O × Int × Nat) → Nat → List Nat} {n n' : Net K O L W}
    {a b : O} {t : List O} {m : Nat} (hn : Network.preferentialAttachment ident pick n (a :: b :: t) m = some n')
    (i : Nat) : HMap.get n'.w.edges i ≠ some [] := by
  unfold Network.preferentialAttachment at hn
  dsimp only at hn
  cases hl : Network.attachLoop ident pick (a :: b :: t) m (n.w.id2nodes.length - 2) 2
      (Network.addEdge ident (Network.removeAllEdges n) a b .simple).1 [(a, 1, 0), (b, 1, 1)] with
  | none => rw [hl] at hn; simp at hn
  | some n1 =>
    rw [hl] at hn
    simp only [Option.some.injEq] at hn
    rw [← hn]
    exact attachLoop_no_empty _ _ _ _ _ (addEdge_no_empty a b .simple (by intro i hx; simp [Network.removeAllEdges] at hx))
      hl i

/-- **C124, directed**: in every directed network the call leaves the edges that the second node of the node set showed
before it, and shows no others there; so the condition of `C124_graph_partial` is exact: the edges of C51, none of which
starts at that node, are shown exactly if it showed none. -/
theorem C124_second_node_partial (ident : O → K) {cpus : Nat} (hc : shardAmount cpus ≤ 2 ^ 64) (hash : Nat → Nat)
    (d : Bool) (ops : List (Op O L W)) (p : PNet K O L W) (hrun : run ident (new cpus hash d) ops = some p)
    (pick : Nat → List (O × Int × Nat) → Nat → List Nat) (hp : GoodPick pick)
    (nodes : List O) (m N : Nat) (node : Nat → O) (idOf : Nat → Nat) (hm : 1 ≤ m)
    (hN : DBDashMap.len p.id2nodes = N) (h2 : 2 ≤ N) (hnodes : ∀ i, i < N → nodes[i]? = some (node i))
    (hids : ∀ i, i < N → HMap.get p.nodes2id (ident (node i)) = some (idOf i))
    (hinj : ∀ a b, a < N → b < N → idOf a = idOf b → a = b) (hd : p.direct = true) :
    ∃ p', preferentialAttachment ident pick p nodes m = some p' ∧
      listOf ident p' (node 1) = listOf ident p (node 1) := by
  have h := run_pinv ops (pinv_new hc hash d) hrun
  obtain ⟨T, n', hT, h3, h4, h5, h6, _⟩ := Network.C51_graph ident pick hp (view p) nodes m N node idOf hm
    (len_view.trans hN) h2 hnodes hids hinj
  obtain ⟨_, n'', _, h7, _, _, h8, _⟩ := Network.preferential_shape ident pick hp (view p) nodes m N node idOf hm
    (len_view.trans hN) h2 hnodes hids
  obtain rfl : n'' = n' := Option.some.inj (h7.symm.trans h3)
  obtain ⟨a, b, t, rfl⟩ : ∃ a b t, nodes = a :: b :: t := by
    match nodes, hnodes 0 (by omega), hnodes 1 (by omega) with
    | a :: b :: t, _, _ => exact ⟨a, b, t, rfl⟩
  obtain ⟨p1, g1, g2, g3, g4, g5, g6, g7⟩ := preferential_sim h h3
  have e3 : abs (update p1).edges = _ := (update_sim g2.e).2
  have hn2 : (update p1).nodes2id = p.nodes2id := g5
  refine ⟨update p1, g1, ?_⟩
  have hadj : n''.r.adj (idOf 1) = [] := by
    cases hq : n''.r.adj (idOf 1) with
    | nil => rfl
    | cons e es =>
      exfalso
      obtain ⟨_, ⟨b, hb, hv⟩, _⟩ := h5 1 e (by omega) (by rw [hq]; simp)
      have hcnt := h4 1 b (by omega) hb
      rw [if_neg, Side.mult, hq, List.countP_cons, if_pos (by simpa using hv)] at hcnt
      · omega
      · rintro (hE | ⟨hf, _⟩)
        · rcases hE with ⟨hz, _⟩ | ⟨hz, _⟩ <;> omega
        · rw [show (view p).direct = p.direct from rfl, hd] at hf; cases hf
  have hnone : HMap.get n''.w.edges (idOf 1) = none := by
    cases hq : HMap.get n''.w.edges (idOf 1) with
    | none => rfl
    | some es =>
      rw [Side.adj, h8, hq] at hadj
      simp only [Option.getD_some] at hadj
      rw [hadj] at hq
      exact absurd hq (preferential_no_empty h3 _)
  rw [listOf_abs (update_pinv g2), listOf_abs h, hn2, hids 1 (by omega), Option.bind_some, Option.bind_some, e3]
  dsimp only
  rw [g3, g4, hnone]
  rfl

/-- **C124, false as stated**: in a directed network of three nodes with the edge 1→2 published before, the call leaves
that edge, which is not one of the two edges it makes. -/
theorem C124_stale_edges_partial :
    ((demo true [.addNode 5, .addNode 6, .addNode 7, .addEdge 6 7 .simple, .update]).bind (fun p =>
        preferentialAttachment id (fun _ dist k => List.range (min k dist.length)) p [5, 6, 7] 1)).map
      (fun p => [5, 6, 7].map (fun u => (listOf id p u).map (fun e => (e.u, e.v)))) =
    some [[(0, 1)], [(1, 2)], [(2, 0)]] := by decide +kernel

/-- A directed network without published edges: the graph of C51 for `N = 3`, `m = 1`. -/
example : ((demo true [.addNode 5, .addNode 6, .addNode 7, .update]).bind (fun p =>
        preferentialAttachment id (fun _ dist k => List.range (min k dist.length)) p [5, 6, 7] 1)).map
      (fun p => [5, 6, 7].map (fun u => (listOf id p u).map (fun e => (e.u, e.v)))) =
    some [[(0, 1)], [], [(2, 0)]] := by decide +kernel

end Verif.ParNetwork
