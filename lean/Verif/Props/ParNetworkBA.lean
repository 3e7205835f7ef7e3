import Verif.Props.NetworkBA
import Verif.Props.ParNetwork

/-! Preferential attachment of the parallel network draws with the degrees as weights (C212). -/

set_option linter.unusedSectionVars false

namespace Verif.ParNetwork

open Verif.Network (Edge EdgeOptions Net Side Op GoodPick GoodTargets IsEdge textbook)
open Verif.DBDashMap (DB Inv abs update_sim shardAmount)

variable {K O L W : Type} [DecidableEq K]

/-- **C212, parallel network, undirected, or directed if the second node of the node set shows no edges**: for every history before
it and every drawing function, the lists shown after the call are those of the textbook process. For the directed networks left out
see C124: the list of the second node is then the stale one, the others are as here. -/
theorem C212_parallel (ident : O → K) {cpus : Nat} (hc : shardAmount cpus ≤ 2 ^ 64) (hash : Nat → Nat)
    (d : Bool) (ops : List (Op O L W)) (p : PNet K O L W) (hrun : run ident (new cpus hash d) ops = some p)
    (pick : Nat → List (O × Int × Nat) → Nat → List Nat) (hp : GoodPick pick)
    (nodes : List O) (m N : Nat) (node : Nat → O) (idOf : Nat → Nat) (hm : 1 ≤ m)
    (hN : DBDashMap.len p.id2nodes = N) (h2 : 2 ≤ N) (hnodes : ∀ i, i < N → nodes[i]? = some (node i))
    (hids : ∀ i, i < N → HMap.get p.nodes2id (ident (node i)) = some (idOf i))
    (hinj : ∀ a b, a < N → b < N → idOf a = idOf b → a = b) :
    ∃ p', preferentialAttachment ident pick p nodes m = some p' ∧
      ∀ a, a < N → (a ≠ 1 ∨ p.direct = false ∨ listOf ident p (node 1) = []) →
        listOf ident p' (node a) = (textbook pick node m (N - 2) 2 [(0, 1)]).flatMap (fun e =>
          (if a = e.1 then [⟨idOf e.1, idOf e.2, none, none⟩] else []) ++
          (if p.direct = false ∧ a = e.2 then [⟨idOf e.2, idOf e.1, none, none⟩] else [])) := by
  have h := run_pinv ops (pinv_new hc hash d) hrun
  have hv := sim_view h
  obtain ⟨T, n', hT, h3, h4, h5, h6, _⟩ := Network.C51_graph ident pick hp (view p) nodes m N node idOf hm
    (len_view.trans hN) h2 hnodes hids hinj
  obtain ⟨_, n'', _, h7, _, _, h8, _⟩ := Network.preferential_shape ident pick hp (view p) nodes m N node idOf hm
    (len_view.trans hN) h2 hnodes hids
  obtain rfl : n'' = n' := Option.some.inj (h7.symm.trans h3)
  obtain ⟨n3, h9, _, hb, h10⟩ := Network.C212_textbook ident pick hp (view p) nodes m N node idOf hm
    (len_view.trans hN) h2 hnodes hids
  obtain rfl : n3 = n'' := Option.some.inj (h9.symm.trans h3)
  obtain ⟨a, b, t, rfl⟩ : ∃ a b t, nodes = a :: b :: t := by
    match nodes, hnodes 0 (by omega), hnodes 1 (by omega) with
    | a :: b :: t, _, _ => exact ⟨a, b, t, rfl⟩
  obtain ⟨p1, g1, g2, g3, g4, g5, g6, g7⟩ := preferential_sim h h3
  have e3 : abs (update p1).edges = _ := (update_sim g2.e).2
  have hn2 : (update p1).nodes2id = p.nodes2id := g5
  have hlist : ∀ a, a < N → (a ≠ 1 ∨ p.direct = false ∨ listOf ident p (node 1) = []) →
      listOf ident (update p1) (node a) = n3.r.adj (idOf a) := by
    intro a ha hstale
    rw [listOf_abs (update_pinv g2), hn2, hids a ha, Option.bind_some, e3]
    dsimp only
    rw [g3, g4, Side.adj, h8]
    cases hg : HMap.get n3.w.edges (idOf a) with
    | some es => rfl
    | none =>
      have hempty : n3.r.adj (idOf a) = [] := by rw [Side.adj, h8, hg]; rfl
      have hnone : ∀ b, b < N → ¬ (IsEdge N T a b ∨ ((view p).direct = false ∧ IsEdge N T b a)) := by
        intro b hb hE
        have := h4 a b ha hb
        rw [if_pos hE, Side.mult, hempty] at this
        simp at this
      have ha1 : a = 1 := by
        by_contra hne
        rcases Nat.lt_or_ge a 2 with h9 | h9
        · have h0 : a = 0 := by omega
          subst h0
          exact hnone 1 (by omega) (Or.inl (Or.inl ⟨rfl, rfl⟩))
        · obtain ⟨t1, t2, t3⟩ := hT a h9 ha
          have : 0 < (T a).length := by rw [t2]; omega
          obtain ⟨y, hy⟩ := List.exists_mem_of_length_pos this
          exact hnone y (lt_trans (t3 y hy) ha) (Or.inl (Or.inr ⟨h9, ha, hy⟩))
      subst ha1
      have hdir : p.direct ≠ false := by
        intro hd
        exact hnone 0 (by omega) (Or.inr ⟨hd, Or.inl ⟨rfl, rfl⟩⟩)
      have hst := (hstale.resolve_left (by simp)).resolve_left hdir
      rw [listOf_abs h, hids 1 ha, Option.bind_some] at hst
      simpa using hst
  refine ⟨update p1, g1, ?_⟩
  intro a ha hstale
  rw [hlist a ha hstale, h10]
  refine List.flatMap_congr (fun e he => ?_)
  obtain ⟨b1, b2⟩ := hb e he
  have q1 : (idOf a = idOf e.1) ↔ (a = e.1) := ⟨fun h => hinj _ _ ha b1 h, fun h => by rw [h]⟩
  have q2 : (idOf a = idOf e.2) ↔ (a = e.2) := ⟨fun h => hinj _ _ ha b2 h, fun h => by rw [h]⟩
  simp only [q1, q2]
  rfl

/-- A directed parallel network of four published nodes without edges: the lists after the call with `m = 1`, every later node
drawing the heaviest. -/
example : (demo true [.addNode 5, .addNode 6, .addNode 7, .addNode 8, .update]).bind
      (fun p => (preferentialAttachment id Network.heaviest p [5, 6, 7, 8] 1).map
        (fun p => [5, 6, 7, 8].map (fun x => (listOf id p x).map (fun e => e.v)))) = some [[1], [], [1], [1]] := by decide +kernel

end Verif.ParNetwork
