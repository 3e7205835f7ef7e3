import Verif.Props.NetworkParts
import Verif.Props.ParNetwork

/-!
C265 under the feature `parallel`: parts of a network without edges between them do not influence each other
(src/engine/fields/network.rs:102-572).
-/

set_option linter.unusedSectionVars false

namespace Verif.ParNetwork

open Verif.Network (Edge EdgeOptions Net Op Published PartBoth partId)
open Verif.DBDashMap (shardAmount)

variable {K O L W : Type} [DecidableEq K]

/-- What `get_edges` shows of a node, with the nodes the ids stand for (`none`: a panic). -/
def edgesShown (ident : O → K) (p : PNet K O L W) (u : O) : Option (Option (List (Option O × Option O × Option L × Option W))) :=
  (getEdges ident p u).map (Option.map (List.map (fun e => ((getObject p e.u).join, (getObject p e.v).join, e.label, e.weight))))

theorem edgesShown_seq {ident : O → K} {p : PNet K O L W} {n : Net K O L W} (h : SameAnswers ident p n) (u : O) :
    edgesShown ident p u = some (Network.edgesShown ident n u) := by
  unfold edgesShown Network.edgesShown
  rw [h.1 u]
  simp only [Option.map_some, h.2.2, Option.join_some]

/-- A gentle call about the part is gentle in the network of the part alone. -/
theorem gentle_part {ident : O → K} {N : List K} {P : K → Bool} (hN : N.Nodup) {lr lw : Nat} {n n' : Net K O L W} (h : PartBoth ident N P lr lw n n')
    {op : Op O L W} (hw : op.Within ident P) (ha : op.about ident P = true) (hg : Gentle ident n op) : Gentle ident n' op := by
  have pub : Published n → Published n' := by
    intro hp k j hk
    obtain ⟨i, h1, h2, h3, h4⟩ := (Network.filter_get_iff hN).1 ((h.w.names'.get k j).1 hk)
    rw [h.r.id_via hN h3, hp k i ((h.w.names.get k i).2 (Network.take_get.2 ⟨h1, h2⟩)), Option.map_some, h4]
  cases op with
  | addNode u =>
    show HMap.get n'.w.nodes2id (ident u) = none
    rw [h.w.id_via hN ha, show HMap.get n.w.nodes2id (ident u) = none from hg]
    rfl
  | addEdge u v o => trivial
  | removeEdge u v =>
    have h1 : P (ident u) = true := ha
    have h2 : P (ident v) = true := (show P (ident u) = P (ident v) from hw).symm.trans h1
    refine ⟨?_, ?_⟩
    · rw [h.w.id_via hN h1, h.r.id_via hN h1, hg.1]
    · rw [h.w.id_via hN h2, h.r.id_via hN h2, hg.2]
  | removeIncoming u => exact pub hg
  | removeOutgoing u => exact pub hg
  | removeNode u => exact hg
  | removeAllEdges => exact hg
  | updateNode u => trivial
  | update => trivial
  | lazyUpdate => trivial

theorem careful_part {ident : O → K} {N : List K} {P : K → Bool} (hN : N.Nodup) : ∀ (ops : List (Op O L W)) {lr lw : Nat} {n n' n1 : Net K O L W},
    PartBoth ident N P lr lw n n' → (∀ op ∈ ops, op.Within ident P) → (∀ u, Op.removeNode u ∉ ops) → N.drop lw = (Network.nodesAdded ops).map ident →
    Network.run ident n ops = some n1 → Network.Careful ident (Gentle ident) n ops → Network.Careful ident (Gentle ident) n' (ops.filter (Network.Op.about ident P))
  | [], _, _, _, _, _, _, _, _, _, _, _ => trivial
  | op :: ops, lr, lw, n, n', n1, h, hw, hr, hd, hx, hg => by
    rw [Network.run] at hx
    cases he : Network.exec ident n op with
    | none => rw [he] at hx; cases hx
    | some n2 =>
      rw [he] at hx
      have hadd : ∀ u, op = .addNode u → N[lw]? = some (ident u) := by
        rintro u rfl
        have := congrArg (fun l : List K => l[0]?) hd
        rw [List.getElem?_drop] at this
        exact this
      have hd' : N.drop (lw + (Network.nodesAdded [op]).length) = (Network.nodesAdded ops).map ident := by
        rw [← List.drop_drop, hd]
        cases op <;> rfl
      obtain ⟨lr', h1, h2⟩ := h.step hN (hw op List.mem_cons_self) (fun u hc => hr u (hc ▸ List.mem_cons_self)) hadd he
      have hw' := fun o ho => hw o (List.mem_cons_of_mem _ ho)
      have hr' := fun u hu => hr u (List.mem_cons_of_mem _ hu)
      by_cases ha : op.about ident P = true
      · obtain ⟨n2', h3, h4⟩ := h1 ha
        rw [List.filter_cons_of_pos ha]
        refine ⟨gentle_part hN h (hw op List.mem_cons_self) ha hg.1, fun m hm => ?_⟩
        rw [h3] at hm
        cases hm
        exact careful_part hN ops h4 hw' hr' hd' hx (hg.2 n2 he)
      · have ha' : op.about ident P = false := by simpa using ha
        rw [List.filter_cons_of_neg ha]
        exact careful_part hN ops (h2 ha') hw' hr' hd' hx (hg.2 n2 he)

theorem gentle_keeps {ident : O → K} : ∀ (ops : List (Op O L W)) {n n1 : Net K O L W}, Network.run ident n ops = some n1 →
    Network.Careful ident (Gentle ident) n ops → ∀ u, Op.removeNode u ∉ ops
  | [], _, _, _, _, _, hu => by cases hu
  | op :: ops, n, n1, hx, hg, u, hu => by
    rw [Network.run] at hx
    obtain ⟨n2, he, hx⟩ := Option.bind_eq_some_iff.1 hx
    rcases List.mem_cons.1 hu with rfl | hu
    · exact hg.1
    · exact gentle_keeps ops hx (hg.2 n2 he) u hu

/-- **C265 under the feature `parallel`.** (Partial: nodes are added once each and not removed, lists are not cleared, and edges are removed between
published nodes.) If a history makes no edge between the nodes of a part and the others, then neither it nor the calls about this part alone panic, and every
node of the part shows the same edges in the same order, between the same objects. -/
theorem C265_parallel_partial (ident : O → K) {cpus : Nat} (hc : shardAmount cpus ≤ 2 ^ 64) (hash : Nat → Nat) (d : Bool) (P : K → Bool)
    (ops : List (Op O L W)) (hg : Network.Careful ident (Gentle ident) (Net.new d) ops) (hw : ∀ op ∈ ops, op.Within ident P)
    (ha : ((Network.nodesAdded ops).map ident).Nodup) :
    ∃ p p', run ident (new cpus hash d) ops = some p ∧ run ident (new cpus hash d) (ops.filter (Network.Op.about ident P)) = some p' ∧
      ∀ u, P (ident u) = true → edgesShown ident p' u = edgesShown ident p u ∧ (edgesShown ident p u).isSome = true := by
  obtain ⟨n, p, h1, h2, h3⟩ := C116_same_answers_partial ident hc hash d ops hg
  have hr := gentle_keeps ops h1 hg
  have hg' := careful_part ha ops (Network.both_new ident _ P d) hw hr rfl h1 hg
  obtain ⟨n', p', h1', h2', h3'⟩ := C116_same_answers_partial ident hc hash d _ hg'
  obtain ⟨m, hm, hu⟩ := Network.C265_parts_partial ident P d ops hw hr ha n h1
  rw [h1'] at hm
  cases hm
  refine ⟨p, p', h2, h2', fun u hp => ?_⟩
  rw [edgesShown_seq h3, edgesShown_seq h3', (hu u hp).1]
  exact ⟨rfl, rfl⟩

set_option synthInstance.maxSize 1000 in
/-- What is shown of a network of numbers can be compared. -/
instance decShown : DecidableEq (Option (Option (List (Option Nat × Option Nat × Option Nat × Option Nat)))) := inferInstance

/-- A history of two parts, the nodes below 5 and the others. -/
def demoTwoParts : List (Op Nat Nat Nat) :=
  [.addNode 8, .addNode 1, .addNode 9, .addNode 2, .addEdge 8 9 .simple, .addEdge 1 2 (.labeled 7), .update, .removeIncoming 8, .addEdge 2 2 .simple, .update]

example : Network.Careful id (Gentle id) (Net.new false : Net Nat Nat Nat Nat) demoTwoParts ∧ (∀ op ∈ demoTwoParts, op.Within id (fun k => decide (k < 5))) ∧
    ((Network.nodesAdded demoTwoParts).map id).Nodup ∧
    (run id (new 1 id false) demoTwoParts).bind (fun p => edgesShown id p 2) =
      some (some [(some 2, some 1, some 7, none), (some 2, some 2, none, none), (some 2, some 2, none, none)]) ∧
    (run id (new 1 id false) (demoTwoParts.filter (Network.Op.about id (fun k => decide (k < 5))))).bind (fun p => edgesShown id p 2) =
      some (some [(some 2, some 1, some 7, none), (some 2, some 2, none, none), (some 2, some 2, none, none)]) := by
  refine ⟨?_, fun op hop => ?_, by decide, by decide +kernel, by decide +kernel⟩
  · refine ⟨rfl, ?_⟩; rintro _ ⟨⟩
    refine ⟨rfl, ?_⟩; rintro _ ⟨⟩
    refine ⟨rfl, ?_⟩; rintro _ ⟨⟩
    refine ⟨rfl, ?_⟩; rintro _ ⟨⟩
    refine ⟨trivial, ?_⟩; rintro _ ⟨⟩
    refine ⟨trivial, ?_⟩; rintro _ ⟨⟩
    refine ⟨trivial, ?_⟩; rintro _ ⟨⟩
    refine ⟨fun k i h => h, ?_⟩; rintro _ ⟨⟩
    refine ⟨trivial, ?_⟩; rintro _ ⟨⟩
    exact ⟨trivial, fun _ _ => trivial⟩
  · simp only [demoTwoParts, List.mem_cons, List.not_mem_nil, or_false] at hop
    rcases hop with rfl | rfl | rfl | rfl | rfl | rfl | rfl | rfl | rfl | rfl <;> trivial

/-- **C265 under the feature `parallel`** is false of networks in which nodes are removed: a node of this part gets the id of a node of the other part and
shows its edges. -/
theorem C265_parallel_removal_negation_partial : ∃ ops : List (Op Nat Nat Nat), (∀ op ∈ ops, op.Within id (fun k => decide (k < 5))) ∧
    ((Network.nodesAdded ops).map id).Nodup ∧
    (run id (new 1 id false) ops).bind (fun p => edgesShown id p 2) = some (some [(some 2, some 9, none, none)]) ∧
    (run id (new 1 id false) (ops.filter (Network.Op.about id (fun k => decide (k < 5))))).bind (fun p => edgesShown id p 2) = some (some []) := by
  refine ⟨[.addNode 1, .addNode 8, .addNode 9, .addNode 10, .addEdge 9 10 .simple, .update, .removeNode 8, .addNode 2, .update], ?_, by decide, by decide +kernel, by decide +kernel⟩
  intro op hop
  simp only [List.mem_cons, List.not_mem_nil, or_false] at hop
  rcases hop with rfl | rfl | rfl | rfl | rfl | rfl | rfl | rfl | rfl <;> trivial

end Verif.ParNetwork
