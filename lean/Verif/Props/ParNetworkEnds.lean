import Verif.Props.NetworkEnds
import Verif.Props.ParNetwork

/-!
C270 under the feature `parallel`: in an undirected network it does not matter which end of an edge is named first (src/engine/fields/network.rs:102-143, 423-460).
-/

set_option linter.unusedSectionVars false

namespace Verif.ParNetwork

open Verif.Network (Edge EdgeOptions Net Op Published SameLists EndsSwapped ProgramsSwapped EndsAlikeNets)
open Verif.DBDashMap (shardAmount)

variable {K O L W : Type} [DecidableEq K]

/-- A gentle call stays gentle when the other end is named first. -/
theorem gentle_swapped {ident : O → K} {n n' : Net K O L W} (h : SameLists n n') {op op' : Op O L W} (hs : EndsSwapped ident n op op') (hg : Gentle ident n op) :
    Gentle ident n' op' := by
  have pub : Published n → Published n' := by
    intro hp k j hk
    rw [h.readIds]
    rw [h.ids] at hk
    exact hp k j hk
  cases hs with
  | add u v o => trivial
  | remove u v ho =>
    show HMap.get n'.r.nodes2id (ident v) = HMap.get n'.w.nodes2id (ident v) ∧ HMap.get n'.r.nodes2id (ident u) = HMap.get n'.w.nodes2id (ident u)
    rw [h.readIds, h.ids]
    exact ⟨hg.2, hg.1⟩
  | same =>
    cases op with
    | addNode u =>
      show HMap.get n'.w.nodes2id (ident u) = none
      rw [h.ids]
      exact hg
    | addEdge u v o => trivial
    | removeEdge u v =>
      show HMap.get n'.r.nodes2id (ident u) = HMap.get n'.w.nodes2id (ident u) ∧ HMap.get n'.r.nodes2id (ident v) = HMap.get n'.w.nodes2id (ident v)
      rw [h.readIds, h.ids]
      exact hg
    | removeIncoming u => exact pub hg
    | removeOutgoing u => exact pub hg
    | removeNode u => exact hg
    | removeAllEdges => exact hg
    | updateNode u => trivial
    | update => trivial
    | lazyUpdate => trivial

theorem careful_swapped {ident : O → K} {n : Net K O L W} {ops ops' : List (Op O L W)} (hs : ProgramsSwapped ident n ops ops') : ∀ {n' : Net K O L W},
    n.direct = false → SameLists n n' → Network.Careful ident (Gentle ident) n ops → Network.Careful ident (Gentle ident) n' ops' := by
  induction hs with
  | nil n => exact fun _ _ _ => trivial
  | @cons n op op' ops ops' h1 h2 ih =>
    intro n' hd h hg
    refine ⟨gentle_swapped h h1 hg.1, fun m' hm' => ?_⟩
    have key := Network.exec_swapped ident hd h h1
    rw [hm'] at key
    cases hx : Network.exec ident n op with
    | none =>
      rw [hx] at key
      exact key.elim
    | some m =>
      rw [hx] at key
      exact ih m hx ((Network.direct_exec ident hx).trans hd) key (hg.2 m hx)

/-- **C270 under the feature `parallel`.** (Partial: as without it, and nodes are added once each and not removed, lists are not cleared, and edges are removed
between published nodes.) Two programs on an undirected network that differ only in which end of an edge they name first both run, and the networks then give
the same answers to all questions. -/
theorem C270_parallel_partial (ident : O → K) {cpus : Nat} (hc : shardAmount cpus ≤ 2 ^ 64) (hash : Nat → Nat) {ops ops' : List (Op O L W)}
    (hs : ProgramsSwapped ident (Net.new false) ops ops') (hg : Network.Careful ident (Gentle ident) (Net.new false) ops) :
    ∃ p p', run ident (new cpus hash false) ops = some p ∧ run ident (new cpus hash false) ops' = some p' ∧
      (∀ u, getEdges ident p' u = getEdges ident p u ∧ (getEdges ident p u).isSome = true) ∧ (∀ u v, getEdge ident p' u v = getEdge ident p u v) ∧
      ∀ i, getObject p' i = getObject p i := by
  obtain ⟨n, p, h1, h2, h3⟩ := C116_same_answers_partial ident hc hash false ops hg
  obtain ⟨n', p', h1', h2', h3'⟩ := C116_same_answers_partial ident hc hash false ops' (careful_swapped hs rfl (SameLists.refl _) hg)
  rcases Network.C270_ends_partial ident hs with ⟨e, _⟩ | ⟨m, m', e, e', a, b, c, _⟩
  · rw [e] at h1
    cases h1
  · rw [h1] at e
    rw [h1'] at e'
    cases e
    cases e'
    refine ⟨p, p', h2, h2', fun u => ?_, fun u v => ?_, fun i => ?_⟩
    · rw [h3.1, h3'.1, a]
      exact ⟨rfl, rfl⟩
    · rw [h3.2.1, h3'.2.1, b]
    · rw [h3.2.2, h3'.2.2, c]

/-- **C270** is false under the feature `parallel` with two edges between the same nodes: `remove_edge(5, 6)` leaves 5 with one edge and 6 with none,
`remove_edge(6, 5)` the other way round. -/
theorem C270_parallel_negation_partial :
    (run id (new 1 (fun _ => 0) false : PNet Nat Nat Nat Nat) [.addNode 5, .addNode 6, .addEdge 5 6 .simple, .addEdge 5 6 .simple, .update, .removeEdge 5 6, .update]).map
      (fun n => ((getEdges id n 5).map (Option.map List.length), (getEdges id n 6).map (Option.map List.length))) = some (some (some 1), some (some 0)) ∧
    (run id (new 1 (fun _ => 0) false : PNet Nat Nat Nat Nat) [.addNode 5, .addNode 6, .addEdge 5 6 .simple, .addEdge 5 6 .simple, .update, .removeEdge 6 5, .update]).map
      (fun n => ((getEdges id n 5).map (Option.map List.length), (getEdges id n 6).map (Option.map List.length))) = some (some (some 0), some (some 1)) := by
  decide +kernel

/-- The hypotheses hold of programs that add an edge and remove it again. -/
example : ∃ ops ops' : List (Op Nat Nat Nat), ops ≠ ops' ∧ ProgramsSwapped id (Net.new false : Net Nat Nat Nat Nat) ops ops' ∧
    Network.Careful id (Gentle id) (Net.new false : Net Nat Nat Nat Nat) ops := by
  refine ⟨[.addNode 5, .addNode 6, .addEdge 5 6 (.labeled 1), .update, .removeEdge 5 6], [.addNode 5, .addNode 6, .addEdge 6 5 (.labeled 1), .update, .removeEdge 6 5],
    (fun h => by injection h with _ h; injection h with _ h; injection h with h _; injection h with h; exact absurd h (by decide)), ?_, ?_⟩
  · refine .cons (.same _) (fun _ h => ?_)
    cases h
    refine .cons (.same _) (fun _ h => ?_)
    cases h
    refine .cons (.add 5 6 _) (fun _ h => ?_)
    cases h
    refine .cons (.same _) (fun _ h => ?_)
    cases h
    refine .cons (.remove 5 6 ?_) (fun _ h => .nil _)
    intro a b h1 h2
    cases h1
    cases h2
    exact ⟨_, _, rfl, rfl, by decide, by decide, by decide⟩
  · refine ⟨rfl, fun _ h => ?_⟩
    cases h
    refine ⟨rfl, fun _ h => ?_⟩
    cases h
    refine ⟨trivial, fun _ h => ?_⟩
    cases h
    refine ⟨trivial, fun _ h => ?_⟩
    cases h
    exact ⟨⟨rfl, rfl⟩, fun _ _ => trivial⟩

end Verif.ParNetwork
