import Verif.Lemmas.NetworkDisplay
import Verif.Props.Network

/-!
What printing a network shows (C145).
-/

namespace Verif.Network

variable {K O L W : Type} [DecidableEq K]

/-! ### C145 -/

/-- **C145, when nodes are only added**: with `m` nodes, printing the network shows the `m` by `m` matrix whose entry `i`, `j` is
1 iff the published list of the node with id `i` shows an edge to id `j`. Full statement: every history; false, see below. -/
theorem C145_matrix_partial (ident : O → K) (d : Bool) (ops : List (Op O L W)) (n : Net K O L W)
    (hc : Careful ident (NodesOnlyAdded ident) (Net.new d) ops) (h : run ident (Net.new d) ops = some n) :
    ∃ m, (∀ i, (getObject n i).isSome = true ↔ i < m) ∧
      display ident n = some (matrixTitle (matrixText m (edgeShown ident n))) := by
  have hi := careful_run (I := IdsInv ident) (fun n n' op hi hp he => exec_ids hi hp he) ops (idsInv_new ident d) hc h
  have hw := run_wf (ident := ident) ops (n := Net.new d) ⟨by simp [Net.new], by simp [Net.new]⟩ h
  refine ⟨n.r.nodes2id.length, hi.2.2, ?_⟩
  have := display_eq (ids := List.range n.r.nodes2id.length) hi.1.2.2.1 hi.1.2.2.2 hw.2 List.nodup_range
    (fun i => by rw [List.mem_range]; exact (hi.2.2 i).symm)
  rw [this, List.length_range]
  exact if_pos (fun i hi => List.mem_range.2 hi)

/-- **C145, with removals**: let `ids` be the ids of the published nodes. Printing shows the matrix if they are 0, 1, …, and panics
otherwise. -/
theorem C145_removals_partial (ident : O → K) (d : Bool) (ops : List (Op O L W)) (n : Net K O L W)
    (hc : Careful ident (NodesCareful ident) (Net.new d) ops) (h : run ident (Net.new d) ops = some n)
    (ids : List Nat) (hn : ids.Nodup) (hm : ∀ i, i ∈ ids ↔ (getObject n i).isSome = true) :
    ((∀ i < ids.length, i ∈ ids) → display ident n = some (matrixTitle (matrixText ids.length (edgeShown ident n)))) ∧
    ((∃ i < ids.length, i ∉ ids) → display ident n = none) := by
  have hi := careful_run (I := Tidy ident) (fun n n' op hi hp he => exec_tidy hi hp he) ops (tidy_new ident d) hc h
  have hw := run_wf (ident := ident) ops (n := Net.new d) ⟨by simp [Net.new], by simp [Net.new]⟩ h
  have := display_eq hi.2.2.1 hi.2.2.2 hw.2 hn hm
  constructor
  · intro hall; rw [this]; exact if_pos hall
  · rintro ⟨i, hi, hni⟩; rw [this]; exact if_neg (fun hall => hni (hall i hi))

/-- **C145, false as stated**: after removing any node but the last, printing the network panics. -/
theorem C145_panics_partial : ∃ (ops : List DemoOp) (n : Demo),
    run id (Net.new true) ops = some n ∧ (getObject n 1).isSome = true ∧ display id n = none := by
  exact ⟨[.addNode 5, .addNode 6, .update, .removeNode 5, .update], _, rfl, by decide, by decide⟩

/-- The hypotheses of `C145_matrix_partial` are met by a network with three nodes and two edges; this is what is printed. -/
example : ∃ n : Demo, run id (Net.new true)
      [.addNode 5, .addNode 6, .addNode 7, .addEdge 5 6 .simple, .addEdge 7 7 .simple, .update] = some n ∧
    Careful id (NodesOnlyAdded id) (Net.new true : Demo)
      [.addNode 5, .addNode 6, .addNode 7, .addEdge 5 6 .simple, .addEdge 7 7 .simple, .update] ∧
    display id n = some "MATRIX:\n\"010-000-001-\"".toList := by
  refine ⟨_, rfl, ?_, by decide +kernel⟩
  refine ⟨rfl, fun n h => ?_⟩
  obtain rfl := Option.some.inj h
  refine ⟨rfl, fun n h => ?_⟩
  obtain rfl := Option.some.inj h
  refine ⟨rfl, fun n h => ?_⟩
  obtain rfl := Option.some.inj h
  exact ⟨trivial, fun n h => ⟨trivial, fun n h => ⟨trivial, fun n h => trivial⟩⟩⟩

/-- An undirected network prints a symmetric matrix. -/
example : ∃ n : Demo, run id (Net.new false) [.addNode 5, .addNode 6, .addEdge 5 6 .simple, .update] = some n ∧
    display id n = some "MATRIX:\n\"01-10-\"".toList := ⟨_, rfl, by decide +kernel⟩

end Verif.Network
