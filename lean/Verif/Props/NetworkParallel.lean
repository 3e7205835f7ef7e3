import Verif.Lemmas.NetworkParallel
import Verif.Lemmas.Network3
import Verif.Props.Network
import Mathlib.Tactic.ByContra

/-!
Parallel edges in networks (C48, C49, C79): everything the removals do, with any number of edges between two nodes.
-/

set_option linter.unusedSectionVars false

namespace Verif.Network

variable {K O L W : Type} [DecidableEq K]

/-! ### C49 -/

/-- **C49, undirected networks, any number of edges between two nodes**: `remove_edge(u, v)` takes the first edge to `v` out
of the list of `u`, returns it, and takes *all* the edges to `u` out of the list of `v`. So it removes exactly one edge,
in both directions, if and only if `v` lists exactly one edge to `u`. -/
theorem C49_undirected_parallel_partial (ident : O → K) (n : Net K O L W) (u v : O) (uid vid : Nat)
    (ues ves : List (Edge L W)) (hd : n.direct = false) (hown : n.w.EdgesKnown) (hne : uid ≠ vid)
    (hu : HMap.get n.r.nodes2id (ident u) = some uid) (hv : HMap.get n.r.nodes2id (ident v) = some vid)
    (hes : HMap.get n.w.edges uid = some ues) (hes' : HMap.get n.w.edges vid = some ves)
    (h1 : n.w.mult uid vid ≠ 0) :
    ∃ n', removeEdge ident n u v = some (n', ues.find? (fun e => e.v == vid)) ∧
      HMap.get n'.w.edges uid = some (ues.eraseP (fun e => e.v == vid)) ∧
      HMap.get n'.w.edges vid = some (ves.filter (fun e => !(e.v == uid))) ∧
      (∀ i, i ≠ uid → i ≠ vid → HMap.get n'.w.edges i = HMap.get n.w.edges i) ∧
      n'.w.nodes2id = n.w.nodes2id ∧ n'.w.id2nodes = n.w.id2nodes ∧ n'.r = n.r ∧ n'.direct = n.direct ∧
      n'.w.mult uid vid + 1 = n.w.mult uid vid ∧ n'.w.mult vid uid = 0 ∧
      (n'.w.mult vid uid + 1 = n.w.mult vid uid ↔ n.w.mult vid uid = 1) := by
  have ho := own_of_known hown
  cases hf : ues.find? (fun e => e.v == vid) with
  | none =>
    obtain ⟨e, he, hev⟩ := (mult_ne_zero hes).1 h1
    rw [List.find?_eq_none] at hf
    exact absurd hev (by simpa using hf e he)
  | some e =>
    obtain ⟨m', h3, h4⟩ := removeEdgeIds_undirected hne hes hes' (ho _ _ hes) (ho _ _ hes') hf
    have g1 : HMap.get m' uid = some (ues.eraseP (fun e => e.v == vid)) := by rw [h4, if_pos rfl]
    have g2 : HMap.get m' vid = some (ves.filter (fun e => !(e.v == uid))) := by
      rw [h4, if_neg (Ne.symm hne), if_pos rfl]
    have m1 : ({ n.w with edges := m' } : Side K O L W).mult uid vid + 1 = n.w.mult uid vid := by
      rw [mult_of_get (s := { n.w with edges := m' }) g1, countP_eraseP_self, ← mult_of_get hes]
      omega
    have m2 : ({ n.w with edges := m' } : Side K O L W).mult vid uid = 0 := by
      rw [mult_of_get (s := { n.w with edges := m' }) g2, List.countP_eq_zero]
      intro e he
      rw [List.mem_filter] at he
      simpa using he.2
    refine ⟨{ n with w := { n.w with edges := m' } }, ?_, g1, g2, ?_, rfl, rfl, rfl, rfl, m1, m2, ?_⟩
    · rw [← hd] at h3
      unfold removeEdge
      rw [hu, hv]
      dsimp only
      rw [h3]
    · intro i hi hiv; dsimp only; rw [h4, if_neg hi, if_neg hiv]
    · dsimp only
      rw [m2]
      omega

/-- Three parallel edges: one direction keeps two, the other none. -/
example : ∃ n n' : Demo, run id (Net.new false) [.addNode 5, .addNode 6, .addEdge 5 6 .simple, .addEdge 5 6 (.labeled 2),
      .addEdge 6 5 (.labeled 3), .update] = some n ∧ n.w.mult 0 1 = 3 ∧ n.w.mult 1 0 = 3 ∧
    removeEdge id n 5 6 = some (n', some ⟨0, 1, none, none⟩) ∧ n'.w.adj 0 = [⟨0, 1, some 2, none⟩, ⟨0, 1, some 3, none⟩] ∧
    n'.w.adj 1 = [] := by
  refine ⟨_, _, rfl, ?_, ?_, rfl, ?_, ?_⟩ <;> decide

/-! ### C45 -/

/-- **C45, exactly when `remove_edge` keeps an undirected network symmetric**: between two different nodes with an edge, if and
only if there is one edge only. -/
theorem C45_remove_edge_exactly_partial (ident : O → K) (n n' : Net K O L W) (u v : O) (uid vid : Nat)
    (ues ves : List (Edge L W)) (r : Option (Edge L W)) (hd : n.direct = false) (hown : n.w.EdgesKnown) (hne : uid ≠ vid)
    (hu : HMap.get n.r.nodes2id (ident u) = some uid) (hv : HMap.get n.r.nodes2id (ident v) = some vid)
    (hes : HMap.get n.w.edges uid = some ues) (hes' : HMap.get n.w.edges vid = some ves)
    (hs : n.w.Symmetric) (hr : removeEdge ident n u v = some (n', r)) :
    n'.w.Symmetric ↔ n.w.mult uid vid ≤ 1 := by
  by_cases h0 : n.w.mult uid vid = 0
  · have hno : removeEdge ident n u v = some (n, none) := by
      refine C49_no_edge_partial ident n u v (Or.inr (Or.inr ⟨uid, vid, ues, hu, hv, hes, own_of_known hown _ _ hes, ?_⟩))
      intro e he hev
      exact (mult_ne_zero hes).2 ⟨e, he, hev⟩ h0
    rw [hno] at hr
    obtain ⟨rfl, -⟩ := Prod.mk.inj (Option.some.inj hr)
    exact ⟨fun _ => by omega, fun _ => hs⟩
  · obtain ⟨n1, h1, h2, h3, h4, _, _, _, _, h5, h6, _⟩ :=
      C49_undirected_parallel_partial ident n u v uid vid ues ves hd hown hne hu hv hes hes' h0
    rw [h1] at hr
    obtain ⟨rfl, -⟩ := Prod.mk.inj (Option.some.inj hr)
    constructor
    · intro hsym
      have := hsym uid vid
      omega
    · intro hle a b
      have hone : n.w.mult uid vid = 1 := by omega
      have hadj : ∀ i, i ≠ uid → i ≠ vid → n1.w.adj i = n.w.adj i := by
        intro i hi hi'
        rw [Side.adj, h4 i hi hi', Side.adj]
      have hmu : ∀ j, j ≠ vid → n1.w.mult uid j = n.w.mult uid j := by
        intro j hj
        rw [mult_of_get h2, mult_of_get hes, List.countP_eq_length_filter, List.countP_eq_length_filter,
          filter_eraseP_target, if_neg hj]
      have hmv : ∀ j, j ≠ uid → n1.w.mult vid j = n.w.mult vid j := by
        intro j hj
        rw [mult_of_get h3, mult_of_get hes', List.countP_filter]
        apply List.countP_congr
        intro e _
        by_cases he : e.v = j
        · simp [he, hj]
        · simp [he]
      have hmo : ∀ i j, i ≠ uid → i ≠ vid → n1.w.mult i j = n.w.mult i j := by
        intro i j hi hi'
        rw [Side.mult, hadj i hi hi', Side.mult]
      have key : ∀ i j, ¬ (i = uid ∧ j = vid) → ¬ (i = vid ∧ j = uid) → n1.w.mult i j = n.w.mult i j := by
        intro i j hij hji
        by_cases hi : i = uid
        · subst hi
          exact hmu j (fun h => hij ⟨rfl, h⟩)
        · by_cases hi' : i = vid
          · subst hi'
            exact hmv j (fun h => hji ⟨rfl, h⟩)
          · exact hmo i j hi hi'
      by_cases c1 : a = uid ∧ b = vid
      · obtain ⟨rfl, rfl⟩ := c1
        omega
      · by_cases c2 : a = vid ∧ b = uid
        · obtain ⟨rfl, rfl⟩ := c2
          omega
        · rw [key a b c1 c2, key b a (fun h => c2 ⟨h.2, h.1⟩) (fun h => c1 ⟨h.2, h.1⟩)]
          exact hs a b

/-! ### C79 -/

theorem keys_nodup {m : HMap Nat O} (h : HMap.WF m) : (HMap.keys m).Nodup := h

theorem keys_listed {n : Net K O L W} (hl : n.w.Listed) (uid : Nat) : ∀ k ∈ HMap.keys n.w.id2nodes, k ≠ uid →
    ∃ es, HMap.get n.w.edges k = some es := by
  intro k hk _
  rw [HMap.mem_keys_iff, Option.isSome_iff_exists] at hk
  obtain ⟨o, ho⟩ := hk
  exact hl k o ho

theorem unlisted {n : Net K O L W} (hk : n.w.EdgesKnown) {i : Nat} (hi : i ∉ HMap.keys n.w.id2nodes) :
    HMap.get n.w.edges i = none := by
  cases hg : HMap.get n.w.edges i with
  | none => rfl
  | some es => exact absurd (HMap.mem_keys_iff.2 (hk.2 i es hg)) hi

theorem mem_firsts {n : Net K O L W} (hk : n.w.EdgesKnown) (uid : Nat) (e : Edge L W) :
    e ∈ (HMap.keys n.w.id2nodes).flatMap (fun k => if k = uid then [] else
        (((HMap.get n.w.edges k).getD []).find? (fun e => e.v == uid)).toList) ↔
      ∃ i, i ≠ uid ∧ (n.w.adj i).find? (fun e => e.v == uid) = some e := by
  rw [List.mem_flatMap]
  constructor
  · rintro ⟨k, _, hm⟩
    by_cases hu : k = uid
    · rw [if_pos hu] at hm; cases hm
    · rw [if_neg hu] at hm
      exact ⟨k, hu, by simpa [Option.mem_toList, Side.adj] using hm⟩
  · rintro ⟨i, hi, hf⟩
    by_cases him : i ∈ HMap.keys n.w.id2nodes
    · refine ⟨i, him, ?_⟩
      rw [if_neg hi]
      simpa [Option.mem_toList, Side.adj] using hf
    · rw [Side.adj, unlisted hk him] at hf
      simp at hf

theorem mem_firsts_out {n : Net K O L W} (hk : n.w.EdgesKnown) {uid : Nat} {ues : List (Edge L W)}
    (hu : HMap.get n.w.edges uid = some ues) (e : Edge L W) :
    e ∈ (HMap.keys n.w.id2nodes).flatMap (fun k => if k = uid then [] else (ues.find? (fun e => e.v == k)).toList) ↔
      e.v ≠ uid ∧ ues.find? (fun e' => e'.v == e.v) = some e := by
  rw [List.mem_flatMap]
  constructor
  · rintro ⟨k, _, hm⟩
    by_cases hu : k = uid
    · rw [if_pos hu] at hm; cases hm
    · rw [if_neg hu] at hm
      have hm' : ues.find? (fun e => e.v == k) = some e := by simpa [Option.mem_toList] using hm
      have hv : e.v = k := by simpa using List.find?_some hm'
      rw [hv]
      exact ⟨hu, hm'⟩
  · rintro ⟨hne, hf⟩
    refine ⟨e.v, ?_, ?_⟩
    · exact HMap.mem_keys_iff.2 (hk.1 uid e (by rw [adj_of_get hu]; exact List.mem_of_find?_eq_some hf)).2
    · rw [if_neg hne]
      simpa [Option.mem_toList] using hf

theorem filter_other {n : Net K O L W} (hk : n.w.EdgesKnown) {uid : Nat} {ues ues' : List (Edge L W)}
    (hu : HMap.get n.w.edges uid = some ues)
    (h : ∀ k, ues'.filter (fun e => e.v == k) = if k ∈ HMap.keys n.w.id2nodes ∧ k ≠ uid then
      (ues.filter (fun e => e.v == k)).tail else ues.filter (fun e => e.v == k)) (k : Nat) :
    ues'.filter (fun e => e.v == k) = if k = uid then ues.filter (fun e => e.v == k)
      else (ues.filter (fun e => e.v == k)).tail := by
  rw [h k]
  by_cases hku : k = uid
  · simp [hku]
  · by_cases hkm : k ∈ HMap.keys n.w.id2nodes
    · simp [hkm, hku]
    · have : ues.filter (fun e => e.v == k) = [] := by
        rw [List.filter_eq_nil_iff]
        intro e he hv
        refine hkm (HMap.mem_keys_iff.2 ?_)
        have := (hk.1 uid e (by rw [adj_of_get hu]; exact he)).2
        rwa [beq_iff_eq.1 hv] at this
      rw [this]
      simp

/-- **C79, `remove_incoming_edges`, directed networks, any number of parallel edges**: the list of every other node loses its
first edge to `u`, these are returned, and nothing else changes. So all the edges from other nodes to `u` are removed if
and only if no two of them are parallel. -/
theorem C79_incoming_exactly_partial (ident : O → K) (n : Net K O L W) (u : O) (uid : Nat) (hd : n.direct = true)
    (hu : HMap.get n.w.nodes2id (ident u) = some uid) (hw : HMap.WF n.w.id2nodes)
    (hids : n.w.IdsUnique ident) (hk : n.w.EdgesKnown) (hp : Published n) (hl : n.w.Listed) :
    ∃ n' l, removeEdgesOf ident true n u = some (n', some l) ∧
      HMap.get n'.w.edges uid = HMap.get n.w.edges uid ∧
      (∀ i, i ≠ uid → HMap.get n'.w.edges i = (HMap.get n.w.edges i).map (fun es => es.eraseP (fun e => e.v == uid))) ∧
      (∀ e, e ∈ l ↔ ∃ i, i ≠ uid ∧ (n.w.adj i).find? (fun e => e.v == uid) = some e) ∧
      n'.w.nodes2id = n.w.nodes2id ∧ n'.w.id2nodes = n.w.id2nodes ∧ n'.r = n.r ∧
      ((∀ i, i ≠ uid → n'.w.mult i uid = 0) ↔ ∀ i, i ≠ uid → n.w.mult i uid ≤ 1) := by
  obtain ⟨m, l, h1, h2, h3⟩ := loop_in_directed (HMap.keys n.w.id2nodes) (own_of_known hk) (keys_nodup hw) (keys_listed hl uid)
  have he : ∀ i, i ≠ uid → HMap.get m i = (HMap.get n.w.edges i).map (fun es => es.eraseP (fun e => e.v == uid)) := by
    intro i hi
    rw [h2]
    by_cases him : i ∈ HMap.keys n.w.id2nodes
    · rw [if_pos ⟨him, hi⟩]
    · rw [if_neg (fun h => him h.1), unlisted hk him]; rfl
  have hm : ∀ i, i ≠ uid → ({ n.w with edges := m } : Side K O L W).mult i uid = n.w.mult i uid - 1 := by
    intro i hi
    show (((HMap.get m i).getD []).countP (fun e => e.v == uid)) = _
    rw [he i hi, Side.mult, Side.adj]
    cases HMap.get n.w.edges i with
    | none => simp
    | some es =>
      rw [Option.map_some, Option.getD_some, Option.getD_some, countP_eraseP_self]
  refine ⟨{ n with w := { n.w with edges := m } }, l, removeEdgesOf_eq hu hids hp (by rw [hd]; exact h1), ?_, he, ?_, rfl,
    rfl, rfl, ?_⟩
  · dsimp only
    rw [h2, if_neg (by simp)]
  · intro e
    rw [h3]
    exact mem_firsts hk uid e
  · dsimp only
    constructor
    · intro h i hi
      have := h i hi
      rw [hm i hi] at this
      omega
    · intro h i hi
      have := h i hi
      rw [hm i hi]
      omega

/-- **C79, `remove_outgoing_edges`, directed networks, any number of parallel edges**: the list of `u` loses its first edge to
each other node, these are returned, and nothing else changes. So all the edges from `u` to other nodes are removed if and
only if no two of them are parallel. -/
theorem C79_outgoing_exactly_partial (ident : O → K) (n : Net K O L W) (u : O) (uid : Nat) (ues : List (Edge L W))
    (hd : n.direct = true) (hu : HMap.get n.w.nodes2id (ident u) = some uid) (hw : HMap.WF n.w.id2nodes)
    (hids : n.w.IdsUnique ident) (hk : n.w.EdgesKnown) (hp : Published n) (hes : HMap.get n.w.edges uid = some ues) :
    ∃ n' l ues', removeEdgesOf ident false n u = some (n', some l) ∧ HMap.get n'.w.edges uid = some ues' ∧
      ues'.Sublist ues ∧
      (∀ k, ues'.filter (fun e => e.v == k) = if k = uid then ues.filter (fun e => e.v == k)
        else (ues.filter (fun e => e.v == k)).tail) ∧
      (∀ i, i ≠ uid → HMap.get n'.w.edges i = HMap.get n.w.edges i) ∧
      (∀ e, e ∈ l ↔ e.v ≠ uid ∧ ues.find? (fun e' => e'.v == e.v) = some e) ∧
      n'.w.nodes2id = n.w.nodes2id ∧ n'.w.id2nodes = n.w.id2nodes ∧ n'.r = n.r ∧
      ((∀ i, i ≠ uid → n'.w.mult uid i = 0) ↔ ∀ i, i ≠ uid → n.w.mult uid i ≤ 1) := by
  obtain ⟨m, l, ues', h1, h2, h3, h4, h5, h6⟩ := loop_out_directed (HMap.keys n.w.id2nodes) (own_of_known hk) (keys_nodup hw) hes
  have h4' := filter_other hk hes h4
  have hm : ∀ i, i ≠ uid → ({ n.w with edges := m } : Side K O L W).mult uid i = n.w.mult uid i - 1 := by
    intro i hi
    rw [mult_of_get (s := { n.w with edges := m }) h2, mult_of_get hes, List.countP_eq_length_filter,
      List.countP_eq_length_filter, h4' i, if_neg hi, List.length_tail]
  refine ⟨{ n with w := { n.w with edges := m } }, l, ues', removeEdgesOf_eq hu hids hp (by rw [hd]; exact h1), h2, h3, h4',
    h5, ?_, rfl, rfl, rfl, ?_⟩
  · intro e
    rw [h6]
    exact mem_firsts_out hk hes e
  · dsimp only
    constructor
    · intro h i hi
      have := h i hi
      rw [hm i hi] at this
      omega
    · intro h i hi
      have := h i hi
      rw [hm i hi]
      omega

/-- **C79, undirected networks, any number of parallel edges**, where a node lists `u` if and only if `u` lists it:
`remove_incoming_edges(u)` takes the first edge to `u` out of every other list and returns these, and leaves only loops in
the list of `u`; `remove_outgoing_edges(u)` takes the first edge to each other node out of the list of `u` and returns these,
and all the edges to `u` out of the other lists. -/
theorem C79_undirected_partial (ident : O → K) (n : Net K O L W) (u : O) (uid : Nat) (ues : List (Edge L W))
    (hd : n.direct = false) (hu : HMap.get n.w.nodes2id (ident u) = some uid) (hw : HMap.WF n.w.id2nodes)
    (hids : n.w.IdsUnique ident) (hk : n.w.EdgesKnown) (hp : Published n) (hl : n.w.Listed)
    (hes : HMap.get n.w.edges uid = some ues)
    (hsym : ∀ i, i ≠ uid → (n.w.mult i uid ≠ 0 ↔ n.w.mult uid i ≠ 0)) :
    (∃ n' l, removeEdgesOf ident true n u = some (n', some l) ∧
      HMap.get n'.w.edges uid = some (ues.filter (fun e => e.v == uid)) ∧
      (∀ i, i ≠ uid → HMap.get n'.w.edges i = (HMap.get n.w.edges i).map (fun es => es.eraseP (fun e => e.v == uid))) ∧
      (∀ e, e ∈ l ↔ ∃ i, i ≠ uid ∧ (n.w.adj i).find? (fun e => e.v == uid) = some e) ∧
      n'.w.nodes2id = n.w.nodes2id ∧ n'.w.id2nodes = n.w.id2nodes ∧ n'.r = n.r) ∧
    (∃ n' l ues', removeEdgesOf ident false n u = some (n', some l) ∧ HMap.get n'.w.edges uid = some ues' ∧
      ues'.Sublist ues ∧
      (∀ k, ues'.filter (fun e => e.v == k) = if k = uid then ues.filter (fun e => e.v == k)
        else (ues.filter (fun e => e.v == k)).tail) ∧
      (∀ i, i ≠ uid → HMap.get n'.w.edges i = (HMap.get n.w.edges i).map (fun es => es.filter (fun e => !(e.v == uid)))) ∧
      (∀ e, e ∈ l ↔ e.v ≠ uid ∧ ues.find? (fun e' => e'.v == e.v) = some e) ∧
      n'.w.nodes2id = n.w.nodes2id ∧ n'.w.id2nodes = n.w.id2nodes ∧ n'.r = n.r) := by
  have hks : ∀ k ∈ HMap.keys n.w.id2nodes, k ≠ uid → ∃ es, HMap.get n.w.edges k = some es ∧
      ((∃ e ∈ es, e.v = uid) ↔ ∃ e ∈ ues, e.v = k) := by
    intro k hkk hku
    obtain ⟨es, he⟩ := keys_listed hl uid k hkk hku
    exact ⟨es, he, by rw [← mult_ne_zero he, ← mult_ne_zero hes]; exact hsym k hku⟩
  have hmem : ∀ e ∈ ues, e.v ∈ HMap.keys n.w.id2nodes := fun e he =>
    HMap.mem_keys_iff.2 (hk.1 uid e (by rw [adj_of_get hes]; exact he)).2
  constructor
  · obtain ⟨m, l, h1, h2, h3, h4⟩ := loop_in_undirected (HMap.keys n.w.id2nodes) (own_of_known hk) (keys_nodup hw) hes hks
    refine ⟨{ n with w := { n.w with edges := m } }, l, removeEdgesOf_eq hu hids hp (by rw [hd]; exact h1), ?_, ?_, ?_, rfl,
      rfl, rfl⟩
    · dsimp only
      rw [h2]
      congr 1
      refine List.filter_congr ?_
      intro e he
      simp [hmem e he]
    · intro i hi
      dsimp only
      rw [h3 i hi]
      by_cases him : i ∈ HMap.keys n.w.id2nodes
      · rw [if_pos him]
      · rw [if_neg him, unlisted hk him]; rfl
    · intro e
      rw [h4]
      exact mem_firsts hk uid e
  · obtain ⟨m, l, ues', h1, h2, h3, h4, h5, h6⟩ := loop_out_undirected (HMap.keys n.w.id2nodes) (own_of_known hk)
      (keys_nodup hw) hes hks
    refine ⟨{ n with w := { n.w with edges := m } }, l, ues', removeEdgesOf_eq hu hids hp (by rw [hd]; exact h1), h2, h3,
      filter_other hk hes h4, ?_, ?_, rfl, rfl, rfl⟩
    · intro i hi
      dsimp only
      rw [h5 i hi]
      by_cases him : i ∈ HMap.keys n.w.id2nodes
      · rw [if_pos him]
      · rw [if_neg him, unlisted hk him]; rfl
    · intro e
      rw [h6]
      exact mem_firsts_out hk hes e

/-- Directed and undirected networks with parallel edges, before and after the calls. -/
example : ∃ n n1 n2 : Demo, run id (Net.new true) [.addNode 5, .addNode 6, .addNode 7, .addEdge 6 5 .simple,
      .addEdge 6 5 (.labeled 2), .addEdge 7 5 .simple, .addEdge 5 6 .simple, .addEdge 5 6 (.labeled 4), .update] = some n ∧
    removeEdgesOf id true n 5 = some (n1, some [⟨1, 0, none, none⟩, ⟨2, 0, none, none⟩]) ∧
    n1.w.edges = [(0, [⟨0, 1, none, none⟩, ⟨0, 1, some 4, none⟩]), (1, [⟨1, 0, some 2, none⟩]), (2, [])] ∧
    removeEdgesOf id false n 5 = some (n2, some [⟨0, 1, none, none⟩]) ∧
    n2.w.adj 0 = [⟨0, 1, some 4, none⟩] := by
  refine ⟨_, _, _, rfl, rfl, ?_, rfl, ?_⟩ <;> decide

example : ∃ n n1 n2 : Demo, run id (Net.new false) [.addNode 5, .addNode 6, .addNode 7, .addEdge 6 5 .simple,
      .addEdge 6 5 (.labeled 2), .addEdge 7 5 .simple, .addEdge 7 6 .simple, .update] = some n ∧
    removeEdgesOf id true n 5 = some (n1, some [⟨1, 0, none, none⟩, ⟨2, 0, none, none⟩]) ∧
    n1.w.edges = [(0, []), (1, [⟨1, 0, some 2, none⟩, ⟨1, 2, none, none⟩]), (2, [⟨2, 1, none, none⟩])] ∧
    removeEdgesOf id false n 5 = some (n2, some [⟨0, 1, none, none⟩, ⟨0, 2, none, none⟩]) ∧
    n2.w.edges = [(0, [⟨0, 1, some 2, none⟩]), (1, [⟨1, 2, none, none⟩]), (2, [⟨2, 1, none, none⟩])] := by
  refine ⟨_, _, _, rfl, rfl, ?_, rfl, ?_⟩ <;> decide

/-! ### C48 -/

/-- **C48, exactly when `remove_node` keeps the edges in order**: in a network whose ids and edges are in order, with
published and listed nodes, `remove_node(u)` comes to an end without a panic and leaves every edge ending at a present
node if and only if, directed, no two edges to `u` are parallel and, undirected, `u` lists every node that lists `u`. -/
theorem C48_remove_node_exactly_partial (ident : O → K) (n : Net K O L W) (u : O) (uid : Nat)
    (hu : HMap.get n.w.nodes2id (ident u) = some uid) (hw : HMap.WF n.w.id2nodes)
    (hids : n.w.IdsUnique ident) (hk : n.w.EdgesKnown) (hp : Published n) (hl : n.w.Listed) :
    (∃ n' b, removeNode ident n u = some (n', b) ∧ n'.w.EdgesKnown) ↔ Removable n uid := by
  have hown := own_of_known hk
  have hru := hp _ _ hu
  obtain ⟨uo, huo, _⟩ := hids.1 _ _ hu
  obtain ⟨ues, hues⟩ := hl uid uo huo
  constructor
  · rintro ⟨n', b, hr, hk'⟩
    unfold removeNode at hr
    rw [hu] at hr
    dsimp only at hr
    intro i hi
    constructor
    · intro hd
      by_contra hc
      have hc2 : 2 ≤ n.w.mult i uid := by omega
      obtain ⟨m1, l1, h1, _, h3⟩ := removeLoop_out_directed (uid := uid) (HMap.keys n.w.id2nodes) hown ⟨ues, hues⟩
      have e1 := removeEdgesOf_eq (inc := false) hu hids hp (by rw [hd]; exact h1)
      have hsh : Shrinks n.w.edges m1 := by
        have := foldl_removeStep_eq (inc := false) (HMap.keys n.w.id2nodes) n [] hru (published_keys hids hp uid)
        rw [hd, h1] at this
        exact (foldl_removeStep_frame _ this).edges
      rw [e1] at hr
      dsimp only at hr
      generalize hn1 : (dropList { n with w := { n.w with edges := m1 } } uid) = n1 at hr
      have hn1e : ∀ j, j ≠ uid → HMap.get n1.w.edges j = HMap.get n.w.edges j := by
        intro j hj
        rw [← hn1]
        simp only [dropList, HMap.get_remove]
        rw [if_neg hj, h3 j hj]
      have hn1u : HMap.get n1.w.edges uid = none := by
        rw [← hn1]
        simp only [dropList, HMap.get_remove]
        rw [if_pos trivial]
      have hown1 : Own n1.w.edges := by
        intro j es he
        by_cases hj : j = uid
        · subst hj; rw [hn1u] at he; cases he
        · rw [hn1e j hj] at he; exact hown j es he
      have hn1r : n1.r = n.r := by rw [← hn1]; rfl
      have hn1d : n1.direct = n.direct := by rw [← hn1]; rfl
      have hn1n : n1.w.nodes2id = n.w.nodes2id := by rw [← hn1]; rfl
      have hn1i : n1.w.id2nodes = n.w.id2nodes := by rw [← hn1]; rfl
      obtain ⟨m2, l2, h4, h5, _⟩ := loop_in_directed (uid := uid) (HMap.keys n1.w.id2nodes) hown1
        (by rw [hn1i]; exact keys_nodup hw) (by
          intro k hkk hku
          rw [hn1i] at hkk
          rw [hn1e k hku]
          exact keys_listed hl uid k hkk hku)
      have e2 := removeEdgesOf_eq (ident := ident) (n := n1) (u := u) (uid := uid) (inc := true) (by rw [hn1n]; exact hu)
        (idsUnique_congr hids hn1n hn1i) (by unfold Published; rw [hn1n, hn1r]; exact hp)
        (by rw [hn1d, hd]; exact h4)
      rw [e2] at hr
      obtain ⟨rfl, -⟩ := Prod.mk.inj (Option.some.inj hr)
      obtain ⟨es, hes⟩ : ∃ es, HMap.get n.w.edges i = some es := by
        cases hg : HMap.get n.w.edges i with
        | none => rw [Side.mult, Side.adj, hg] at hc2; simp at hc2
        | some es => exact ⟨es, rfl⟩
      have him : i ∈ HMap.keys n1.w.id2nodes := by rw [hn1i]; exact HMap.mem_keys_iff.2 (hk.2 i es hes)
      have hfin : HMap.get (HMap.remove m2 uid).1 i = some (es.eraseP (fun e => e.v == uid)) := by
        rw [HMap.get_remove, if_neg hi, h5, if_pos ⟨him, hi⟩, hn1e i hi, hes]; rfl
      have hpos : 0 < (es.eraseP (fun e => e.v == uid)).countP (fun e => e.v == uid) := by
        rw [countP_eraseP_self, ← mult_of_get hes]
        omega
      obtain ⟨e, he, hv⟩ := List.countP_pos_iff.1 hpos
      have := (hk'.1 i e (by
        unfold Side.adj
        dsimp only
        rw [hfin]
        exact he)).2
      dsimp only at this
      rw [beq_iff_eq.1 hv, HMap.get_remove, if_pos rfl] at this
      cases this
    · intro hd hin hno
      have hno' : ∀ e ∈ ues, e.v ≠ i := by
        intro e he hv
        exact (mult_ne_zero hues).2 ⟨e, he, hv⟩ hno
      obtain ⟨es, hes⟩ : ∃ es, HMap.get n.w.edges i = some es := by
        cases hg : HMap.get n.w.edges i with
        | none => rw [Side.mult, Side.adj, hg] at hin; simp at hin
        | some es => exact ⟨es, rfl⟩
      obtain ⟨e, he, hv⟩ := (mult_ne_zero hes).1 hin
      have him : i ∈ HMap.keys n.w.id2nodes := HMap.mem_keys_iff.2 (hk.2 i es hes)
      cases h1 : removeLoop n.direct false uid (HMap.keys n.w.id2nodes) n.w.edges with
      | none =>
        unfold removeEdgesOf at hr
        rw [hru] at hr
        dsimp only at hr
        rw [foldl_removeStep_eq (inc := false) (HMap.keys n.w.id2nodes) n [] hru (published_keys hids hp uid), h1] at hr
        cases hr
      | some x =>
        obtain ⟨m1, l1⟩ := x
        have e1 := removeEdgesOf_eq (inc := false) hu hids hp h1
        have hsh : Shrinks n.w.edges m1 := by
          have := foldl_removeStep_eq (inc := false) (HMap.keys n.w.id2nodes) n [] hru (published_keys hids hp uid)
          rw [h1] at this
          exact (foldl_removeStep_frame _ this).edges
        rw [hd] at h1
        have hkeep := loop_out_keeps (HMap.keys n.w.id2nodes) hown hues hi hno' hes h1
        rw [e1] at hr
        dsimp only at hr
        generalize hn1 : (dropList { n with w := { n.w with edges := m1 } } uid) = n1 at hr
        have hn1e : HMap.get n1.w.edges i = some es := by
          rw [← hn1]
          simp only [dropList, HMap.get_remove]
          rw [if_neg hi, hkeep]
        have hn1u : HMap.get n1.w.edges uid = none := by
          rw [← hn1]
          simp only [dropList, HMap.get_remove]
          rw [if_pos trivial]
        have hown1 : Own n1.w.edges := by
          intro j js he
          rw [← hn1] at he
          simp only [dropList, HMap.get_remove] at he
          by_cases hj : j = uid
          · rw [if_pos hj] at he; cases he
          · rw [if_neg hj] at he; exact hown.shrinks hsh j js he
        have hn1r : n1.r = n.r := by rw [← hn1]; rfl
        have hn1d : n1.direct = n.direct := by rw [← hn1]; rfl
        have hn1i : n1.w.id2nodes = n.w.id2nodes := by rw [← hn1]; rfl
        have h2 := loop_in_panics (HMap.keys n1.w.id2nodes) hown1 hn1u (by rw [hn1i]; exact him) hi hn1e he hv
        unfold removeEdgesOf at hr
        rw [hn1r, hru] at hr
        dsimp only at hr
        rw [foldl_removeStep_eq (inc := true) (HMap.keys n1.w.id2nodes) n1 [] (by rw [hn1r]; exact hru)
          (by rw [hn1r, hn1i]; exact published_keys hids hp uid), hn1d, hd, h2] at hr
        cases hr
  · intro hr
    obtain ⟨n', h1, _, _, _, h5, h6⟩ := removeNode_ok hu hids hk hp hl hr
    refine ⟨n', true, h1, ?_, ?_⟩
    · intro i e he
      unfold Side.adj at he
      rw [h6] at he
      by_cases hi : i = uid
      · rw [if_pos hi] at he; cases he
      · rw [if_neg hi] at he
        cases hg : HMap.get n.w.edges i with
        | none => rw [hg] at he; cases he
        | some es =>
          rw [hg] at he
          obtain ⟨hm, hv⟩ := List.mem_filter.1 he
          obtain ⟨k1, k2⟩ := hk.1 i e (by rw [adj_of_get hg]; exact hm)
          refine ⟨k1, ?_⟩
          have hv' : e.v ≠ uid := by simpa using hv
          rw [h5, HMap.get_remove, if_neg hv']
          exact k2
    · intro i es hes
      rw [h6] at hes
      by_cases hi : i = uid
      · rw [if_pos hi] at hes; cases hes
      · rw [if_neg hi] at hes
        obtain ⟨es0, h0, _⟩ := Option.map_eq_some_iff.1 hes
        rw [h5, HMap.get_remove, if_neg hi]
        exact hk.2 i es0 h0

/-- Two parallel undirected edges are no problem for `remove_node`; two parallel edges out of the node in a directed network
neither. -/
example : ∃ n n' m m' : Demo, run id (Net.new false) [.addNode 5, .addNode 6, .addEdge 5 6 .simple, .addEdge 5 6 .simple,
      .update] = some n ∧ n.w.mult 1 0 = 2 ∧ removeNode id n 5 = some (n', true) ∧ n'.w.edges = [(1, [])] ∧
    run id (Net.new true) [.addNode 5, .addNode 6, .addEdge 5 6 .simple, .addEdge 5 6 .simple, .addEdge 6 5 .simple,
      .update] = some m ∧ m.w.mult 0 1 = 2 ∧ removeNode id m 5 = some (m', true) ∧ m'.w.edges = [(1, [])] := by
  refine ⟨_, _, _, _, rfl, ?_, rfl, ?_, rfl, ?_, rfl, ?_⟩ <;> decide

end Verif.Network
