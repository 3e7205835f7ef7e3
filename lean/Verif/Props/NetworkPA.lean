import Verif.Lemmas.NetworkPA
import Verif.Lemmas.Network2

/-! Preferential attachment (C51). -/

set_option linter.unusedSectionVars false

namespace Verif.Network

variable {K O L W : Type} [DecidableEq K]

/-- What the call does: `node i` / `idOf i` is the node at position `i` of the node set and its id. -/
theorem preferential_shape (ident : O → K) (pick : Nat → List (O × Int × Nat) → Nat → List Nat) (hp : GoodPick pick)
    (n : Net K O L W) (nodes : List O) (m N : Nat) (node : Nat → O) (idOf : Nat → Nat) (hm : 1 ≤ m)
    (hN : n.w.id2nodes.length = N) (h2 : 2 ≤ N) (hnodes : ∀ i, i < N → nodes[i]? = some (node i))
    (hids : ∀ i, i < N → HMap.get n.w.nodes2id (ident (node i)) = some (idOf i)) :
    ∃ T n', GoodTargets N m T ∧ preferentialAttachment ident pick n nodes m = some n' ∧
      n'.w.nodes2id = n.w.nodes2id ∧ n'.w.id2nodes = n.w.id2nodes ∧ n'.r = n'.w ∧ n'.direct = n.direct ∧
      (∀ p ∈ (0, 1) :: pairs 2 (N - 2) T, p.1 < N ∧ p.2 < N) ∧
      ∀ x, n'.r.adj x = ((0, 1) :: pairs 2 (N - 2) T).flatMap (entries idOf n.direct x) := by
  obtain ⟨a, b, t, rfl⟩ : ∃ a b t, nodes = a :: b :: t := by
    match nodes, hnodes 0 (by omega), hnodes 1 (by omega) with
    | a :: b :: t, _, _ => exact ⟨a, b, t, rfl⟩
  have ha : a = node 0 := by simpa using hnodes 0 (by omega)
  have hb : b = node 1 := by simpa using hnodes 1 (by omega)
  obtain ⟨T, hT, hl⟩ := attachLoop_spec (ident := ident) hp (node := node) (nodes := a :: b :: t) hm (N - 2) 2
    (addEdge ident (removeAllEdges n) a b .simple).1 [(a, 1, 0), (b, 1, 1)] (by omega)
    ⟨rfl, by
      intro c hc
      match c, hc with
      | 0, _ => exact ⟨1, by omega, by rw [ha]; rfl⟩
      | 1, _ => exact ⟨1, by omega, by rw [hb]; rfl⟩⟩
    (fun j hj => hnodes j (by omega))
  have hb' : ∀ p ∈ (0, 1) :: pairs 2 (N - 2) T, p.1 < N ∧ p.2 < N := by
    intro p hpm
    rcases List.mem_cons.1 hpm with rfl | hpm
    · exact ⟨by omega, by omega⟩
    · obtain ⟨x, y⟩ := p
      rw [mem_pairs] at hpm
      have := (hT x hpm.1 hpm.2.1).2.2 y hpm.2.2
      dsimp only
      omega
  have hE : addPairs ident node (addEdge ident (removeAllEdges n) a b .simple).1 (pairs 2 (N - 2) T) =
      addPairs ident node (removeAllEdges n) ((0, 1) :: pairs 2 (N - 2) T) := by
    unfold addPairs
    rw [List.foldl_cons, ha, hb]
  obtain ⟨e1, e2, e3, e4⟩ := addPairs_adj (ident := ident) (node := node) (idOf := idOf)
    ((0, 1) :: pairs 2 (N - 2) T) (removeAllEdges n) (fun p hpm => ⟨hids _ (hb' p hpm).1, hids _ (hb' p hpm).2⟩)
  refine ⟨T, update (addPairs ident node (removeAllEdges n) ((0, 1) :: pairs 2 (N - 2) T)), ?_, ?_, e1, e2, rfl, e3,
    hb', ?_⟩
  · intro j h1 h3
    exact hT j h1 (by omega)
  · unfold preferentialAttachment
    dsimp only
    rw [hN, hl, hE]
  · intro x
    exact e4 x

/-- **C51.** For every random stream, on `N ≥ 2` nodes with distinct ids listed in the node set, and `m ≥ 1`: there are
targets `T i` (`min i m` different earlier nodes for each node `i ≥ 2`) such that the published network has exactly the
edges 0→1 and i→t for `t ∈ T i`, once each (and their reverses if undirected), all without label or weight. Nodes and
ids are unchanged. -/
theorem C51_graph (ident : O → K) (pick : Nat → List (O × Int × Nat) → Nat → List Nat) (hp : GoodPick pick)
    (n : Net K O L W) (nodes : List O) (m N : Nat) (node : Nat → O) (idOf : Nat → Nat) (hm : 1 ≤ m)
    (hN : n.w.id2nodes.length = N) (h2 : 2 ≤ N) (hnodes : ∀ i, i < N → nodes[i]? = some (node i))
    (hids : ∀ i, i < N → HMap.get n.w.nodes2id (ident (node i)) = some (idOf i))
    (hinj : ∀ a b, a < N → b < N → idOf a = idOf b → a = b) :
    ∃ T n', GoodTargets N m T ∧ preferentialAttachment ident pick n nodes m = some n' ∧
      (∀ a b, a < N → b < N → n'.r.mult (idOf a) (idOf b) =
        if IsEdge N T a b ∨ (n.direct = false ∧ IsEdge N T b a) then 1 else 0) ∧
      (∀ a e, a < N → e ∈ n'.r.adj (idOf a) → e.u = idOf a ∧ (∃ b, b < N ∧ e.v = idOf b) ∧ e.label = none ∧
        e.weight = none) ∧
      ((List.range N).map (fun a => (n'.r.adj (idOf a)).length)).sum =
        (if n.direct then 1 else 2) * (1 + ((List.range' 2 (N - 2)).map (fun j => min j m)).sum) ∧
      (∀ u, getId ident n' u = HMap.get n.w.nodes2id (ident u)) ∧
      (∀ i, getObject n' i = HMap.get n.w.id2nodes i) := by
  obtain ⟨T, n', hT, h1, e1, e2, e3, e4, hE, hadj⟩ :=
    preferential_shape ident pick hp n nodes m N node idOf hm hN h2 hnodes hids
  refine ⟨T, n', hT, h1, ?_, ?_, ?_, ?_, ?_⟩
  · intro a b ha hb
    unfold Side.mult
    rw [hadj, countP_flatMap_entries hinj n.direct ha hb _ hE]
    have hnd : ((0, 1) :: pairs 2 (N - 2) T).Nodup := by
      rw [List.nodup_cons]
      refine ⟨by rw [mem_pairs]; omega, nodup_pairs _ _ _ ?_⟩
      intro j h3 h4
      exact (hT j h3 (by omega)).1
    have hmem : ∀ x y, (x, y) ∈ (0, 1) :: pairs 2 (N - 2) T ↔ IsEdge N T x y := by
      intro x y
      rw [List.mem_cons, mem_pairs, Prod.mk.injEq, IsEdge]
      have : (2 + (N - 2)) = N := by omega
      rw [this]
    have hcount : ∀ x y, ((0, 1) :: pairs 2 (N - 2) T).count (x, y) = if IsEdge N T x y then 1 else 0 := by
      intro x y
      rw [hnd.count]
      simp only [hmem]
    rw [hcount, hcount]
    have hexcl : IsEdge N T a b → ¬ IsEdge N T b a := by
      unfold IsEdge
      rintro (⟨rfl, rfl⟩ | ⟨h3, h4, h5⟩) (⟨h6, h7⟩ | ⟨h6, h7, h8⟩)
      · omega
      · omega
      · have := (hT a h3 h4).2.2 b h5; omega
      · have h9 := (hT a h3 h4).2.2 b h5
        have h10 := (hT b h6 h7).2.2 a h8
        omega
    by_cases hab : IsEdge N T a b
    · rw [if_pos hab, if_pos (Or.inl hab), if_neg (hexcl hab)]
      simp
    · rw [if_neg hab]
      cases hd : n.direct with
      | true => simp [hab]
      | false =>
        by_cases hba : IsEdge N T b a
        · simp [hba]
        · simp [hab, hba]
  · intro a e ha he
    rw [hadj, List.mem_flatMap] at he
    obtain ⟨p, hp1, hp2⟩ := he
    obtain ⟨h3, h4⟩ := hE p hp1
    unfold entries at hp2
    rw [List.mem_append] at hp2
    rcases hp2 with h5 | h5
    · by_cases h6 : idOf a = idOf p.1
      · rw [if_pos h6, List.mem_singleton] at h5
        subst h5
        exact ⟨h6.symm, ⟨p.2, h4, rfl⟩, rfl, rfl⟩
      · rw [if_neg h6] at h5; simp at h5
    · by_cases h6 : n.direct = false ∧ idOf a = idOf p.2
      · rw [if_pos h6, List.mem_singleton] at h5
        subst h5
        exact ⟨h6.2.symm, ⟨p.1, h3, rfl⟩, rfl, rfl⟩
      · rw [if_neg h6] at h5; simp at h5
  · simp only [hadj]
    rw [length_flatMap_entries_sum hinj n.direct _ hE, List.length_cons,
      length_pairs m (N - 2) T 2 (fun j h3 h4 => (hT j h3 (by omega)).2.1), Nat.add_comm 1]
  · intro u; rw [getId, e3, e1]
  · intro i; rw [getObject, e3, e2]

/-- **C51.** Hence no loops, no parallel edges, and from every node a path to the first one. -/
theorem C51_simple_connected (ident : O → K) (pick : Nat → List (O × Int × Nat) → Nat → List Nat) (hp : GoodPick pick)
    (n : Net K O L W) (nodes : List O) (m N : Nat) (node : Nat → O) (idOf : Nat → Nat) (hm : 1 ≤ m)
    (hN : n.w.id2nodes.length = N) (h2 : 2 ≤ N) (hnodes : ∀ i, i < N → nodes[i]? = some (node i))
    (hids : ∀ i, i < N → HMap.get n.w.nodes2id (ident (node i)) = some (idOf i))
    (hinj : ∀ a b, a < N → b < N → idOf a = idOf b → a = b) :
    ∃ n', preferentialAttachment ident pick n nodes m = some n' ∧
      (∀ a, a < N → n'.r.mult (idOf a) (idOf a) = 0) ∧
      (∀ a b, a < N → b < N → n'.r.mult (idOf a) (idOf b) ≤ 1) ∧
      (n.direct = true → ∀ a b, a < N → b < N → n'.r.mult (idOf a) (idOf b) + n'.r.mult (idOf b) (idOf a) ≤ 1) ∧
      (∀ a, a < N → n'.r.Joined (idOf a) (idOf 0)) := by
  obtain ⟨T, n', hT, h1, hmult, _⟩ := C51_graph ident pick hp n nodes m N node idOf hm hN h2 hnodes hids hinj
  refine ⟨n', h1, ?_, ?_, ?_, ?_⟩
  · intro a ha
    rw [hmult a a ha ha]
    have : ¬ IsEdge N T a a := by
      rintro (⟨h3, h4⟩ | ⟨h3, h4, h5⟩)
      · omega
      · have := (hT a h3 h4).2.2 a h5; omega
    simp [this]
  · intro a b ha hb
    rw [hmult a b ha hb]
    split <;> omega
  · intro hd a b ha hb
    rw [hmult a b ha hb, hmult b a hb ha, hd]
    simp only [Bool.true_eq_false, false_and, or_false]
    by_cases hab : IsEdge N T a b
    · have : ¬ IsEdge N T b a := by
        revert hab
        unfold IsEdge
        rintro (⟨rfl, rfl⟩ | ⟨h3, h4, h5⟩) (⟨h6, h7⟩ | ⟨h6, h7, h8⟩)
        · omega
        · omega
        · have := (hT a h3 h4).2.2 b h5; omega
        · have h9 := (hT a h3 h4).2.2 b h5
          have h10 := (hT b h6 h7).2.2 a h8
          omega
      rw [if_pos hab, if_neg this]; omega
    · rw [if_neg hab]
      split <;> omega
  · intro a
    induction a using Nat.strongRecOn with
    | _ a ih =>
      intro ha
      match a, ih, ha with
      | 0, _, _ => exact .refl _
      | 1, _, ha =>
        refine .step _ (idOf 0) _ (Or.inr ?_) (.refl _)
        rw [hmult 0 1 (by omega) ha, if_pos (Or.inl (show IsEdge N T 0 1 from Or.inl ⟨rfl, rfl⟩))]
        omega
      | a + 2, ih, ha =>
        obtain ⟨h3, h4, h5⟩ := hT (a + 2) (by omega) ha
        obtain ⟨t, ht⟩ : ∃ t, t ∈ T (a + 2) := by
          refine List.exists_mem_of_length_pos ?_
          rw [h4]; omega
        have hlt := h5 t ht
        refine .step _ (idOf t) _ (Or.inl ?_) (ih t hlt (by omega))
        rw [hmult (a + 2) t ha (by omega), if_pos (Or.inl (show IsEdge N T (a + 2) t from Or.inr ⟨by omega, ha, ht⟩))]
        omega

/-- A choice function as assumed: the last `amount` positions. -/
def lastPick (_ : Nat) (dist : List (Nat × Int × Nat)) (amount : Nat) : List Nat :=
  List.range' (dist.length - amount) amount

theorem lastPick_good : GoodPick lastPick := by
  intro i dist amount _ h
  refine ⟨List.nodup_range', List.length_range', ?_⟩
  intro c hc
  unfold lastPick at hc
  rw [List.mem_range'_1] at hc
  omega

/-- Four nodes, `m = 2`: edges 0-1, 2-{0,1}, 3-{1,2}. -/
example : (preferentialAttachment id lastPick
      (addNode id (addNode id (addNode id (addNode id (Net.new false : Net Nat Nat Nat Nat) 10) 11) 12) 13)
      [10, 11, 12, 13] 2).map (fun n => (List.range 4).map (fun i => (n.r.adj i).map (fun e => e.v))) =
    some [[1, 2], [0, 2, 3], [0, 1, 3], [1, 2]] := by decide

/-- With fewer nodes in the node set than in the network the call panics; with a node set of length one it clears the
edges without publishing. -/
theorem C51_short_node_set :
    (∀ pick, preferentialAttachment id pick
      (addNode id (addNode id (addNode id (Net.new false : Net Nat Nat Nat Nat) 10) 11) 12) [10, 11] 1 = none) ∧
    (∀ (ident : O → K) pick (n : Net K O L W) (a : O) m,
      preferentialAttachment ident pick n [a] m = some (removeAllEdges n)) :=
  ⟨fun _ => rfl, fun _ _ _ _ _ => rfl⟩

end Verif.Network
