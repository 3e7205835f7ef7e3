import Verif.Spec.NetworkSeed
import Verif.Props.ParNetworkBA
import Mathlib.Data.Nat.ModEq

/-! Preferential attachment with a seed is reproducible (C236). -/

set_option linter.unusedSectionVars false

namespace Verif.NetworkSeed

open Verif.Network (Net Op GoodPick textbook bump)
open Verif.ParNetwork (PNet listOf)
open Verif.DBDashMap (shardAmount)

variable {K O L W G : Type} [DecidableEq K]

/-! ### The drawing function of a seed -/

/-- The generator and `dist` before the round of node `j + 2`; they do not depend on the network. -/
def states (gen : Gen G) (seed : Nat) (a b : O) (nodes : List O) (m : Nat) : Nat → G × List (O × Int × Nat)
  | 0 => (gen.start seed, [(a, 1, 0), (b, 1, 1)])
  | j + 1 =>
    match nodes[j + 2]? with
    | none => states gen seed a b nodes m j
    | some node =>
      (moved gen (states gen seed a b nodes m j).1 (states gen seed a b nodes m j).2 m,
        nextDist gen (states gen seed a b nodes m j).1 (states gen seed a b nodes m j).2 m (j + 2) node)

/-- The draws made with a seed, as a drawing function. -/
def pickOf (gen : Gen G) (seed : Nat) (a b : O) (nodes : List O) (m : Nat) (i : Nat) (dist : List (O × Int × Nat))
    (amount : Nat) : List Nat :=
  (gen.draw (states gen seed a b nodes m (i - 2)).1 (dist.map (fun x => x.2.1)) amount).1

theorem goodPick_pickOf {gen : Gen G} (hg : GoodGen gen) (seed : Nat) (a b : O) (nodes : List O) (m : Nat) :
    GoodPick (pickOf gen seed a b nodes m) := by
  intro i dist amount hpos hle
  have h := hg (states gen seed a b nodes m (i - 2)).1 (dist.map (fun x => x.2.1)) amount
    (fun w hw => by
      obtain ⟨x, hx, rfl⟩ := List.mem_map.1 hw
      exact hpos x hx) (by simpa using hle)
  simpa [pickOf] using h

theorem seededLoop_eq (ident : O → K) (gen : Gen G) (seed : Nat) (a b : O) (nodes : List O) (m : Nat) :
    ∀ (k j : Nat) (n : Net K O L W),
      seededLoop ident gen nodes m k (j + 2) (states gen seed a b nodes m j).1 n (states gen seed a b nodes m j).2 =
        Network.attachLoop ident (pickOf gen seed a b nodes m) nodes m k (j + 2) n (states gen seed a b nodes m j).2 := by
  intro k
  induction k with
  | zero => intro j n; rfl
  | succ k ih =>
    intro j n
    rw [seededLoop, Network.attachLoop]
    cases hn : nodes[j + 2]? with
    | none => rfl
    | some node =>
      have hs : states gen seed a b nodes m (j + 1) =
          (moved gen (states gen seed a b nodes m j).1 (states gen seed a b nodes m j).2 m,
            nextDist gen (states gen seed a b nodes m j).1 (states gen seed a b nodes m j).2 m (j + 2) node) := by
        rw [states, hn]
      have := ih (j + 1) (Network.attach ident n node
        (drawn gen (states gen seed a b nodes m j).1 (states gen seed a b nodes m j).2 m))
      rw [hs] at this
      exact this

theorem seededLoopPar_eq (ident : O → K) (gen : Gen G) (seed : Nat) (a b : O) (nodes : List O) (m : Nat) :
    ∀ (k j : Nat) (n : PNet K O L W),
      seededLoopPar ident gen nodes m k (j + 2) (states gen seed a b nodes m j).1 n (states gen seed a b nodes m j).2 =
        ParNetwork.attachLoop ident (pickOf gen seed a b nodes m) nodes m k (j + 2) n
          (states gen seed a b nodes m j).2 := by
  intro k
  induction k with
  | zero => intro j n; rfl
  | succ k ih =>
    intro j n
    rw [seededLoopPar, ParNetwork.attachLoop]
    cases hn : nodes[j + 2]? with
    | none => rfl
    | some node =>
      have hs : states gen seed a b nodes m (j + 1) =
          (moved gen (states gen seed a b nodes m j).1 (states gen seed a b nodes m j).2 m,
            nextDist gen (states gen seed a b nodes m j).1 (states gen seed a b nodes m j).2 m (j + 2) node) := by
        rw [states, hn]
      dsimp only
      have hd : drawn gen (states gen seed a b nodes m j).1 (states gen seed a b nodes m j).2 m =
          (pickOf gen seed a b nodes m (j + 2) (states gen seed a b nodes m j).2
            (if (states gen seed a b nodes m j).2.length < m then (states gen seed a b nodes m j).2.length else m)).filterMap
            (fun c => (states gen seed a b nodes m j).2[c]?) := rfl
      rw [hd]
      cases ha : ParNetwork.attach ident n node ((List.filterMap (fun c => (states gen seed a b nodes m j).2[c]?)
          (pickOf gen seed a b nodes m (j + 2) (states gen seed a b nodes m j).2
            (if (states gen seed a b nodes m j).2.length < m then (states gen seed a b nodes m j).2.length else m))).map
              (fun c => c.1)) with
      | none => rfl
      | some n' =>
        have := ih (j + 1) n'
        rw [hs] at this
        exact this

/-- **C236, the draws.** For every generator, seed, node set and number of edges there is one drawing function, of the promised
kind if the generator is, with which the seeded call is the preferential attachment of C51, C124 and C212: on every network,
whatever it holds, with the feature `parallel` and without. So everything shown there for all drawing functions holds of the
seeded call, and no network influences the draws. -/
theorem C236_draws_partial (gen : Gen G) (seed : Nat) (nodes : List O) (m : Nat) :
    ∃ pick, (GoodGen gen → GoodPick pick) ∧
      (∀ (K L W : Type) [DecidableEq K] (ident : O → K) (n : Net K O L W),
        seeded ident gen seed n nodes m = Network.preferentialAttachment ident pick n nodes m) ∧
      (∀ (K L W : Type) [DecidableEq K] (ident : O → K) (p : PNet K O L W),
        seededPar ident gen seed p nodes m = ParNetwork.preferentialAttachment ident pick p nodes m) := by
  match nodes with
  | [] =>
    refine ⟨fun _ _ k => List.range k, fun _ i dist k _ hk => ⟨List.nodup_range, List.length_range, fun c hc => ?_⟩,
      fun _ _ _ _ _ _ => rfl, fun _ _ _ _ _ _ => rfl⟩
    exact lt_of_lt_of_le (List.mem_range.1 hc) hk
  | [_] =>
    refine ⟨fun _ _ k => List.range k, fun _ i dist k _ hk => ⟨List.nodup_range, List.length_range, fun c hc => ?_⟩,
      fun _ _ _ _ _ _ => rfl, fun _ _ _ _ _ _ => rfl⟩
    exact lt_of_lt_of_le (List.mem_range.1 hc) hk
  | a :: b :: t =>
    refine ⟨pickOf gen seed a b (a :: b :: t) m, fun hg => goodPick_pickOf hg seed a b _ m, ?_, ?_⟩
    · intro K L W _ ident n
      unfold seeded Network.preferentialAttachment
      have := seededLoop_eq ident gen seed a b (a :: b :: t) m (n.w.id2nodes.length - 2) 0
        (Network.addEdge ident (Network.removeAllEdges n) a b .simple).1
      dsimp only
      simp only [states, Nat.zero_add] at this
      rw [this]
      rfl
    · intro K L W _ ident p
      unfold seededPar ParNetwork.preferentialAttachment
      dsimp only
      cases h : ParNetwork.addEdge ident (ParNetwork.removeAllEdges p) a b .simple with
      | none => rfl
      | some x =>
        have := seededLoopPar_eq ident gen seed a b (a :: b :: t) m (DBDashMap.len p.id2nodes - 2) 0 x.1
        dsimp only
        simp only [states, Nat.zero_add] at this
        rw [this]
        rfl

/-! ### The sequential network -/

/-- Two networks with the same written lists, in which the nodes have the same ids. -/
structure Alike (ident : O → K) (nodes : List O) (n1 n2 : Net K O L W) : Prop where
  direct : n1.direct = n2.direct
  edges : n1.w.edges = n2.w.edges
  ids : ∀ o ∈ nodes, HMap.get n1.w.nodes2id (ident o) = HMap.get n2.w.nodes2id (ident o)

theorem addEdge_alike {ident : O → K} {nodes : List O} {n1 n2 : Net K O L W} (h : Alike ident nodes n1 n2) {u v : O}
    (hu : u ∈ nodes) (hv : v ∈ nodes) (o : Network.EdgeOptions L W) :
    Alike ident nodes (Network.addEdge ident n1 u v o).1 (Network.addEdge ident n2 u v o).1 := by
  unfold Network.addEdge
  rw [h.ids u hu, h.ids v hv, h.direct, h.edges]
  cases HMap.get n2.w.nodes2id (ident u) with
  | none => exact h
  | some uid =>
    cases HMap.get n2.w.nodes2id (ident v) with
    | none => exact h
    | some vid =>
      by_cases hd : n2.direct = true
      · simp only [hd, if_true]
        exact ⟨rfl, rfl, h.ids⟩
      · simp only [hd]
        exact ⟨rfl, rfl, h.ids⟩

theorem attach_alike {ident : O → K} {nodes : List O} {node : O} (hn : node ∈ nodes) :
    ∀ (chosen : List (O × Int × Nat)) {n1 n2 : Net K O L W}, Alike ident nodes n1 n2 → (∀ c ∈ chosen, c.1 ∈ nodes) →
      Alike ident nodes (Network.attach ident n1 node chosen) (Network.attach ident n2 node chosen) := by
  intro chosen
  induction chosen with
  | nil => intro n1 n2 h _; exact h
  | cons c cs ih =>
    intro n1 n2 h hc
    exact ih (addEdge_alike h hn (hc c List.mem_cons_self) _) (fun d hd => hc d (List.mem_cons_of_mem _ hd))

theorem bump_objects : ∀ (cs : List Nat) (dist : List (O × Int × Nat)),
    (bump dist cs).map (fun x => x.1) = dist.map (fun x => x.1) := by
  intro cs
  induction cs with
  | nil => intro dist; rfl
  | cons c cs ih =>
    intro dist
    have := ih (dist.modify c (fun x => (x.1, x.2.1 + 1, x.2.2)))
    unfold bump at this ⊢
    rw [List.foldl_cons, this]
    apply List.ext_getElem?
    intro i
    rw [List.getElem?_map, List.getElem?_map, List.getElem?_modify]
    cases hd : dist[i]? with
    | none => rfl
    | some x => by_cases hc : c = i <;> simp [hc]

theorem nextDist_mem {gen : Gen G} {g : G} {nodes : List O} {m i : Nat} {node : O} (hn : node ∈ nodes)
    {dist : List (O × Int × Nat)} (hd : ∀ x ∈ dist, x.1 ∈ nodes) : ∀ x ∈ nextDist gen g dist m i node, x.1 ∈ nodes := by
  intro x hx
  rcases List.mem_append.1 hx with hx | hx
  · have : x.1 ∈ (bump dist ((drawn gen g dist m).map (fun c => c.2.2))).map (fun x => x.1) :=
      List.mem_map.2 ⟨x, hx, rfl⟩
    rw [bump_objects] at this
    obtain ⟨y, hy, hxy⟩ := List.mem_map.1 this
    rw [← hxy]
    exact hd y hy
  · rw [List.mem_singleton.1 hx]
    exact hn

theorem seededLoop_alike {ident : O → K} (gen : Gen G) {nodes : List O} (m : Nat) :
    ∀ (k i : Nat) (g : G) {n1 n2 : Net K O L W} (dist : List (O × Int × Nat)), Alike ident nodes n1 n2 →
      (∀ x ∈ dist, x.1 ∈ nodes) →
      (seededLoop ident gen nodes m k i g n1 dist = none ∧ seededLoop ident gen nodes m k i g n2 dist = none) ∨
      ∃ r1 r2, seededLoop ident gen nodes m k i g n1 dist = some r1 ∧
        seededLoop ident gen nodes m k i g n2 dist = some r2 ∧ Alike ident nodes r1 r2 := by
  intro k
  induction k with
  | zero => intro i g n1 n2 dist h _; exact Or.inr ⟨n1, n2, rfl, rfl, h⟩
  | succ k ih =>
    intro i g n1 n2 dist h hd
    rw [seededLoop, seededLoop]
    cases hn : nodes[i]? with
    | none => exact Or.inl ⟨rfl, rfl⟩
    | some node =>
      have hmem : node ∈ nodes := List.mem_of_getElem? hn
      refine ih (i + 1) _ _ (attach_alike hmem _ h ?_) (nextDist_mem hmem hd)
      intro c hc
      obtain ⟨j, _, hj⟩ := List.mem_filterMap.1 hc
      exact hd c (List.mem_of_getElem? hj)

/-- **C236, sequential.** Two networks, both directed or both not, with the same number of nodes, in which the nodes of the node set
have the same ids: the same seed gives the same lists of edges, in the same order, whatever edges the two networks had before,
and whatever the generator is; if one call panics so does the other. -/
theorem C236_sequential_partial (ident : O → K) (gen : Gen G) (seed : Nat) (n1 n2 : Net K O L W) (nodes : List O) (m : Nat)
    (hd : n1.direct = n2.direct) (hl : n1.w.id2nodes.length = n2.w.id2nodes.length)
    (hi : ∀ o ∈ nodes, HMap.get n1.w.nodes2id (ident o) = HMap.get n2.w.nodes2id (ident o)) (h2 : 2 ≤ nodes.length) :
    (seeded ident gen seed n1 nodes m).map (fun n => nodes.map (Network.getEdges ident n)) =
      (seeded ident gen seed n2 nodes m).map (fun n => nodes.map (Network.getEdges ident n)) := by
  obtain ⟨a, b, t, rfl⟩ : ∃ a b t, nodes = a :: b :: t := by
    match nodes, h2 with
    | a :: b :: t, _ => exact ⟨a, b, t, rfl⟩
  have h0 : Alike ident (a :: b :: t) (Network.removeAllEdges n1) (Network.removeAllEdges n2) := ⟨hd, rfl, hi⟩
  have h1 := addEdge_alike (u := a) (v := b) h0 (by simp) (by simp) .simple
  unfold seeded
  dsimp only
  rw [hl]
  rcases seededLoop_alike gen m (n2.w.id2nodes.length - 2) 2 (gen.start seed) [(a, 1, 0), (b, 1, 1)] h1
      (by simp) with ⟨e1, e2⟩ | ⟨r1, r2, e1, e2, h3⟩
  · rw [e1, e2]
  · rw [e1, e2]
    dsimp only [Option.map_some]
    congr 1
    refine List.map_congr_left (fun o ho => ?_)
    unfold Network.getEdges Network.update
    dsimp only
    rw [h3.ids o ho, h3.edges]

/-! ### The parallel network -/

/-- No stored list is empty. -/
def Full (n : Net K O L W) : Prop := ∀ x es, HMap.get n.w.edges x = some es → es ≠ []

theorem addEdge_full {ident : O → K} {n : Net K O L W} (h : Full n) (u v : O) (o : Network.EdgeOptions L W) :
    Full (Network.addEdge ident n u v o).1 := by
  unfold Network.addEdge
  cases HMap.get n.w.nodes2id (ident u) with
  | none => exact h
  | some uid =>
    cases HMap.get n.w.nodes2id (ident v) with
    | none => exact h
    | some vid =>
      by_cases hd : n.direct = true
      · simp only [hd, if_true]
        intro x es hx
        dsimp only at hx
        rw [Network.get_pushEdge] at hx
        by_cases hxu : x = uid
        · rw [if_pos hxu] at hx
          obtain rfl := Option.some.inj hx
          simp
        · rw [if_neg hxu] at hx
          exact h x es hx
      · simp only [hd]
        intro x es hx
        have hx : HMap.get (Network.pushEdge (Network.pushEdge n.w.edges uid (Network.Edge.new uid vid o)) vid
          (Network.Edge.new vid uid o)) x = some es := hx
        rw [Network.get_pushEdge] at hx
        by_cases hxv : x = vid
        · rw [if_pos hxv] at hx
          obtain rfl := Option.some.inj hx
          simp
        · rw [if_neg hxv, Network.get_pushEdge] at hx
          by_cases hxu : x = uid
          · rw [if_pos hxu] at hx
            obtain rfl := Option.some.inj hx
            simp
          · rw [if_neg hxu] at hx
            exact h x es hx

theorem attach_full {ident : O → K} (node : O) : ∀ (chosen : List (O × Int × Nat)) {n : Net K O L W}, Full n →
    Full (Network.attach ident n node chosen) := by
  intro chosen
  induction chosen with
  | nil => intro n h; exact h
  | cons c cs ih => intro n h; exact ih (addEdge_full h _ _ _)

theorem attachLoop_full {ident : O → K} {pick : Nat → List (O × Int × Nat) → Nat → List Nat} {nodes : List O} {m : Nat} :
    ∀ (k i : Nat) {n n' : Net K O L W} (dist : List (O × Int × Nat)), Full n →
      Network.attachLoop ident pick nodes m k i n dist = some n' → Full n' := by
  intro k
  induction k with
  | zero => intro i n n' dist h e; rw [Network.attachLoop] at e; exact Option.some.inj e ▸ h
  | succ k ih =>
    intro i n n' dist h e
    rw [Network.attachLoop] at e
    cases hn : nodes[i]? with
    | none => rw [hn] at e; simp at e
    | some node =>
      rw [hn] at e
      exact ih (i + 1) _ (attach_full node _ h) e

theorem preferential_full {ident : O → K} {pick : Nat → List (O × Int × Nat) → Nat → List Nat} {nodes : List O} {m : Nat}
    {n n' : Net K O L W} (e : Network.preferentialAttachment ident pick n nodes m = some n') : Full n' := by
  have h0 : Full (Network.removeAllEdges n) := by intro x es hx; simp [Network.removeAllEdges, HMap.get] at hx
  match nodes, e with
  | [], e => exact Option.some.inj e ▸ h0
  | [_], e => exact Option.some.inj e ▸ h0
  | a :: b :: t, e =>
    unfold Network.preferentialAttachment at e
    dsimp only at e
    cases hl : Network.attachLoop ident pick (a :: b :: t) m (n.w.id2nodes.length - 2) 2
        (Network.addEdge ident (Network.removeAllEdges n) a b .simple).1 [(a, 1, 0), (b, 1, 1)] with
    | none => rw [hl] at e; simp at e
    | some n1 =>
      rw [hl] at e
      obtain rfl := Option.some.inj e
      exact fun x es hx => attachLoop_full _ _ _ (addEdge_full h0 _ _ _) hl x es hx

/-- In a directed parallel network the second node of the node set shows after the call what it showed before. -/
theorem second_kept (ident : O → K) {cpus : Nat} (hc : shardAmount cpus ≤ 2 ^ 64) (hash : Nat → Nat) (d : Bool)
    (ops : List (Op O L W)) (p : PNet K O L W) (hrun : ParNetwork.run ident (ParNetwork.new cpus hash d) ops = some p)
    (pick : Nat → List (O × Int × Nat) → Nat → List Nat) (hp : GoodPick pick)
    (nodes : List O) (m N : Nat) (node : Nat → O) (idOf : Nat → Nat) (hm : 1 ≤ m)
    (hN : DBDashMap.len p.id2nodes = N) (h2 : 2 ≤ N) (hnodes : ∀ i, i < N → nodes[i]? = some (node i))
    (hids : ∀ i, i < N → HMap.get p.nodes2id (ident (node i)) = some (idOf i))
    (hinj : ∀ a b, a < N → b < N → idOf a = idOf b → a = b) (hdir : p.direct = true) (p' : PNet K O L W)
    (hp' : ParNetwork.preferentialAttachment ident pick p nodes m = some p') :
    listOf ident p' (node 1) = listOf ident p (node 1) := by
  have h := ParNetwork.run_pinv ops (ParNetwork.pinv_new hc hash d) hrun
  have hv := ParNetwork.sim_view h
  obtain ⟨T, n', hT, h3, h4, h5, _, _⟩ := Network.C51_graph ident pick hp (ParNetwork.view p) nodes m N node idOf hm
    (ParNetwork.len_view.trans hN) h2 hnodes hids hinj
  obtain ⟨_, n'', _, h7, _, _, h8, _⟩ := Network.preferential_shape ident pick hp (ParNetwork.view p) nodes m N node idOf hm
    (ParNetwork.len_view.trans hN) h2 hnodes hids
  obtain rfl : n'' = n' := Option.some.inj (h7.symm.trans h3)
  obtain ⟨a, b, t, rfl⟩ : ∃ a b t, nodes = a :: b :: t := by
    match nodes, hnodes 0 (by omega), hnodes 1 (by omega) with
    | a :: b :: t, _, _ => exact ⟨a, b, t, rfl⟩
  obtain ⟨p1, g1, g2, g3, g4, g5, g6, g7⟩ := ParNetwork.preferential_sim h h3
  obtain rfl : p' = ParNetwork.update p1 := Option.some.inj (hp'.symm.trans g1)
  have e3 : DBDashMap.abs (ParNetwork.update p1).edges = _ := (DBDashMap.update_sim g2.e).2
  have hn2 : (ParNetwork.update p1).nodes2id = p.nodes2id := g5
  have hempty : n''.r.adj (idOf 1) = [] := by
    apply List.eq_nil_iff_forall_not_mem.2
    intro e he
    obtain ⟨_, ⟨b', hb, hv'⟩, _⟩ := h5 1 e (by omega) he
    have := h4 1 b' (by omega) hb
    rw [if_neg (by
      rintro (h | ⟨h, _⟩)
      · rcases h with ⟨h, _⟩ | ⟨h, _⟩ <;> omega
      · have : p.direct = false := h
        rw [hdir] at this
        exact absurd this (by simp)), Network.Side.mult] at this
    have := List.countP_eq_zero.1 this e he
    simp [hv'] at this
  have hnone : HMap.get n''.w.edges (idOf 1) = none := by
    cases hg : HMap.get n''.w.edges (idOf 1) with
    | none => rfl
    | some es =>
      rw [Network.Side.adj, h8, hg] at hempty
      exact absurd hempty (preferential_full h3 _ _ hg)
  rw [ParNetwork.listOf_abs (ParNetwork.update_pinv g2), hn2, hids 1 (by omega), Option.bind_some, e3,
    ParNetwork.listOf_abs h, hids 1 (by omega), Option.bind_some]
  dsimp only
  rw [g3, g4, hnone]
  rfl

/-- **C236, parallel.** Two networks made by any histories, on machines with different numbers of processors and with different
hash functions, in which the nodes have the same ids: the same seed gives the same lists of edges, in the same order — of all
nodes if the networks are undirected, and of all but the second node of the node set if they are directed. That one shows what
it showed before the call, so it agrees exactly if it agreed before. -/
theorem C236_parallel_partial (ident : O → K) {cpus1 cpus2 : Nat} (hc1 : shardAmount cpus1 ≤ 2 ^ 64)
    (hc2 : shardAmount cpus2 ≤ 2 ^ 64) (hash1 hash2 : Nat → Nat) (d : Bool) (ops1 ops2 : List (Op O L W))
    (p1 p2 : PNet K O L W) (hr1 : ParNetwork.run ident (ParNetwork.new cpus1 hash1 d) ops1 = some p1)
    (hr2 : ParNetwork.run ident (ParNetwork.new cpus2 hash2 d) ops2 = some p2) (hdir : p1.direct = p2.direct)
    (gen : Gen G) (hg : GoodGen gen) (seed : Nat) (nodes : List O) (m N : Nat) (node : Nat → O) (idOf : Nat → Nat)
    (hm : 1 ≤ m) (h2 : 2 ≤ N) (hnodes : ∀ i, i < N → nodes[i]? = some (node i))
    (hinj : ∀ a b, a < N → b < N → idOf a = idOf b → a = b)
    (hN1 : DBDashMap.len p1.id2nodes = N) (hN2 : DBDashMap.len p2.id2nodes = N)
    (hi1 : ∀ i, i < N → HMap.get p1.nodes2id (ident (node i)) = some (idOf i))
    (hi2 : ∀ i, i < N → HMap.get p2.nodes2id (ident (node i)) = some (idOf i)) :
    ∃ q1 q2, seededPar ident gen seed p1 nodes m = some q1 ∧ seededPar ident gen seed p2 nodes m = some q2 ∧
      (∀ a, a < N → (a ≠ 1 ∨ p1.direct = false) → listOf ident q1 (node a) = listOf ident q2 (node a)) ∧
      (p1.direct = true → listOf ident q1 (node 1) = listOf ident p1 (node 1) ∧
        listOf ident q2 (node 1) = listOf ident p2 (node 1)) := by
  obtain ⟨pick, hgp, _, hpar⟩ := C236_draws_partial gen seed nodes m
  have hp := hgp hg
  obtain ⟨q1, e1, f1⟩ := ParNetwork.C212_parallel ident hc1 hash1 d ops1 p1 hr1 pick hp nodes m N node idOf hm hN1 h2 hnodes
    hi1 hinj
  obtain ⟨q2, e2, f2⟩ := ParNetwork.C212_parallel ident hc2 hash2 d ops2 p2 hr2 pick hp nodes m N node idOf hm hN2 h2 hnodes
    hi2 hinj
  refine ⟨q1, q2, (hpar K L W ident p1).trans e1, (hpar K L W ident p2).trans e2, ?_, fun hd => ⟨?_, ?_⟩⟩
  · intro a ha h
    rw [f1 a ha (h.imp id Or.inl), f2 a ha (h.imp id (fun h => Or.inl (hdir ▸ h))), hdir]
  · exact second_kept ident hc1 hash1 d ops1 p1 hr1 pick hp nodes m N node idOf hm hN1 h2 hnodes hi1 hinj hd q1 e1
  · exact second_kept ident hc2 hash2 d ops2 p2 hr2 pick hp nodes m N node idOf hm hN2 h2 hnodes hi2 hinj (hdir ▸ hd) q2 e2

/-- **C236, across the feature.** The lists of the parallel network are those of the sequential one in which the nodes have the same
ids, again of all nodes but the second one of a directed network; that one agrees if it showed no edges before. -/
theorem C236_across_partial (ident : O → K) {cpus : Nat} (hc : shardAmount cpus ≤ 2 ^ 64) (hash : Nat → Nat) (d : Bool)
    (ops : List (Op O L W)) (p : PNet K O L W) (hr : ParNetwork.run ident (ParNetwork.new cpus hash d) ops = some p)
    (n : Net K O L W) (hdir : p.direct = n.direct) (gen : Gen G) (hg : GoodGen gen) (seed : Nat) (nodes : List O)
    (m N : Nat) (node : Nat → O) (idOf : Nat → Nat) (hm : 1 ≤ m) (h2 : 2 ≤ N)
    (hnodes : ∀ i, i < N → nodes[i]? = some (node i)) (hinj : ∀ a b, a < N → b < N → idOf a = idOf b → a = b)
    (hN1 : DBDashMap.len p.id2nodes = N) (hN2 : n.w.id2nodes.length = N)
    (hi1 : ∀ i, i < N → HMap.get p.nodes2id (ident (node i)) = some (idOf i))
    (hi2 : ∀ i, i < N → HMap.get n.w.nodes2id (ident (node i)) = some (idOf i)) :
    ∃ q r, seededPar ident gen seed p nodes m = some q ∧ seeded ident gen seed n nodes m = some r ∧
      ∀ a, a < N → (a ≠ 1 ∨ p.direct = false ∨ listOf ident p (node 1) = []) →
        listOf ident q (node a) = (Network.getEdges ident r (node a)).getD [] := by
  obtain ⟨pick, hgp, hseq, hpar⟩ := C236_draws_partial gen seed nodes m
  have hp := hgp hg
  obtain ⟨q, e1, f1⟩ := ParNetwork.C212_parallel ident hc hash d ops p hr pick hp nodes m N node idOf hm hN1 h2 hnodes
    hi1 hinj
  obtain ⟨r, e2, hrw, hb, f2⟩ := Network.C212_textbook ident pick hp n nodes m N node idOf hm hN2 h2 hnodes hi2
  obtain ⟨_, r', _, e3, k1, _, k3, _⟩ := Network.preferential_shape ident pick hp n nodes m N node idOf hm hN2 h2 hnodes hi2
  obtain rfl : r' = r := Option.some.inj (e3.symm.trans e2)
  refine ⟨q, r', (hpar K L W ident p).trans e1, (hseq K L W ident n).trans e2, ?_⟩
  intro a ha h
  have hg : (Network.getEdges ident r' (node a)).getD [] = r'.r.adj (idOf a) := by
    unfold Network.getEdges
    rw [k3, k1, hi2 a ha]
    rfl
  rw [f1 a ha h, hg, f2, hdir]
  refine List.flatMap_congr (fun e he => ?_)
  obtain ⟨b1, b2⟩ := hb e he
  have q1 : (idOf a = idOf e.1) ↔ (a = e.1) := ⟨fun h => hinj _ _ ha b1 h, fun h => by rw [h]⟩
  have q2 : (idOf a = idOf e.2) ↔ (a = e.2) := ⟨fun h => hinj _ _ ha b2 h, fun h => by rw [h]⟩
  simp only [q1, q2]

/-! ### Cases -/

/-- A generator of the promised kind: it counts its draws and begins each at the position it has reached. -/
def turning : Gen Nat :=
  ⟨fun seed => seed, fun g ws k => ((List.range k).map (fun i => (i + g % ws.length) % ws.length), g + 1)⟩

theorem good_turning : GoodGen turning := by
  intro g ws k _ hk
  refine ⟨?_, by simp [turning], ?_⟩
  · refine List.Nodup.map_on ?_ List.nodup_range
    intro x hx y hy hxy
    have hx := lt_of_lt_of_le (List.mem_range.1 hx) hk
    have hy := lt_of_lt_of_le (List.mem_range.1 hy) hk
    have := Nat.ModEq.add_right_cancel' _ hxy
    exact Nat.ModEq.eq_of_lt_of_lt this hx hy
  · intro c hc
    obtain ⟨i, hi, rfl⟩ := List.mem_map.1 hc
    have := lt_of_lt_of_le (List.mem_range.1 hi) hk
    exact Nat.mod_lt _ (by omega)

abbrev DemoNet := Net Nat Nat Unit Unit

/-- The example in the documentation, with five nodes: the second network had edges before. -/
example :
    (Network.run id (Net.new false : DemoNet) [.addNode 0, .addNode 1, .addNode 2, .addNode 3, .addNode 4, .update]).bind
      (fun n => (seeded id turning 5 n [0, 1, 2, 3, 4] 1).map
        (fun n => [0, 1, 2, 3, 4].map (fun u => ((Network.getEdges id n u).getD []).map (fun e => (e.u, e.v))))) =
      some [[(0, 1), (0, 3)], [(1, 0), (1, 2)], [(2, 1)], [(3, 0), (3, 4)], [(4, 3)]] ∧
    (Network.run id (Net.new false : DemoNet) [.addNode 0, .addNode 1, .addNode 2, .addNode 3, .addNode 4,
        .addEdge 3 4 .simple, .update]).bind
      (fun n => (seeded id turning 5 n [0, 1, 2, 3, 4] 1).map
        (fun n => [0, 1, 2, 3, 4].map (fun u => ((Network.getEdges id n u).getD []).map (fun e => (e.u, e.v))))) =
      some [[(0, 1), (0, 3)], [(1, 0), (1, 2)], [(2, 1)], [(3, 0), (3, 4)], [(4, 3)]] := by
  constructor <;> decide +kernel

abbrev DemoPar := PNet Nat Nat Unit Unit

/-- **C236, false of directed parallel networks**: two networks with the nodes 5, 6 and 7, the second of which showed the edge
from 6 to 7. The same seed gives different edges. -/
theorem C236_directed_negation_partial :
    ((ParNetwork.run id (ParNetwork.new 1 id true : DemoPar) [.addNode 5, .addNode 6, .addNode 7, .update]).bind
      (fun p => seededPar id turning 0 p [5, 6, 7] 1)).map
      (fun p => [5, 6, 7].map (fun u => (listOf id p u).map (fun e => (e.u, e.v)))) = some [[(0, 1)], [], [(2, 0)]] ∧
    ((ParNetwork.run id (ParNetwork.new 1 id true : DemoPar) [.addNode 5, .addNode 6, .addNode 7, .addEdge 6 7 .simple,
        .update]).bind
      (fun p => seededPar id turning 0 p [5, 6, 7] 1)).map
      (fun p => [5, 6, 7].map (fun u => (listOf id p u).map (fun e => (e.u, e.v)))) =
      some [[(0, 1)], [(1, 2)], [(2, 0)]] := by
  constructor <;> decide +kernel

/-- **C236, false of node sets with fewer than two nodes**: the written edges are cleared, but nothing is published, so two networks
with different edges show different edges after the call. -/
theorem C236_short_negation_partial :
    ((Network.run id (Net.new true : DemoNet) [.addNode 5, .addEdge 5 5 .simple, .update]).bind
      (fun n => seeded id turning 0 n [5] 1)).map (fun n => (n.w.edges, (Network.getEdges id n 5).map List.length)) =
      some ([], some 1) ∧
    ((Network.run id (Net.new true : DemoNet) [.addNode 5, .update]).bind
      (fun n => seeded id turning 0 n [5] 1)).map (fun n => (n.w.edges, (Network.getEdges id n 5).map List.length)) =
      some ([], some 0) := by
  constructor <;> decide +kernel

/-- **C236, the ids matter**: the nodes added in another order have other ids, and the lists name other ids; that the neighbours
are the same nodes is C212. -/
example :
    ((Network.run id (Net.new true : DemoNet) [.addNode 5, .addNode 6, .update]).bind
      (fun n => seeded id turning 0 n [5, 6] 1)).map (fun n => ((Network.getEdges id n 5).getD []).map (fun e => (e.u, e.v))) =
      some [(0, 1)] ∧
    ((Network.run id (Net.new true : DemoNet) [.addNode 6, .addNode 5, .update]).bind
      (fun n => seeded id turning 0 n [5, 6] 1)).map (fun n => ((Network.getEdges id n 5).getD []).map (fun e => (e.u, e.v))) =
      some [(1, 0)] := by
  constructor <;> decide +kernel

/-- **C236, false of `add_prob_edge`** (src/engine/fields/network.rs:161-191), which takes a seed too: it draws from the nodes in
the order in which the sharded map lists them, and that is the order of the hashes. Two runs of a program that makes a network
by the same calls on the same machine, with different hash functions (each process draws its own, src/utils/dbdashmap.rs:11-13,
80-86): the same draw, of the first position, joins the node 5 to itself in one and to 6 in the other. -/
theorem C236_add_prob_edge_negation_partial :
    ((ParNetwork.run id (ParNetwork.new 1 (fun i => i * 2 ^ 55) true : DemoPar) [.addNode 5, .addNode 6, .update]).bind
      (fun p => ParNetwork.addProbEdge id ParNetwork.firsts p 5 1)).map
      (fun p => (ParNetwork.writtenList p 0).map (fun e => (e.u, e.v))) = some [(0, 0)] ∧
    ((ParNetwork.run id (ParNetwork.new 1 (fun i => (1 - i) * 2 ^ 55) true : DemoPar) [.addNode 5, .addNode 6, .update]).bind
      (fun p => ParNetwork.addProbEdge id ParNetwork.firsts p 5 1)).map
      (fun p => (ParNetwork.writtenList p 0).map (fun e => (e.u, e.v))) = some [(0, 1)] ∧
    ParNetwork.GoodChoice ParNetwork.firsts := by
  refine ⟨?_, ?_, ParNetwork.goodChoice_firsts⟩ <;> decide +kernel

end Verif.NetworkSeed
