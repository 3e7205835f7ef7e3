import Verif.Props.Network
import Verif.Props.Field2D
import Mathlib.Data.List.Basic
import Mathlib.Tactic.Linarith
import Mathlib.Tactic.Positivity

/-!
C210 and C211: what the documentation says of `get_edges` of a network and of the number of empty bags of a field, against what
the code does for every network and field. The examples themselves are run in `Conformance.Docs`.
-/

namespace Verif.Network

variable {K O L W : Type} [DecidableEq K]

/-! ### C210 -/

/-- The calls that build a network without removing anything. -/
def Builds : Op O L W → Prop
  | .addNode _ => True
  | .addEdge _ _ _ => True
  | .update => True
  | .lazyUpdate => True
  | _ => False

/-- The nodes added, in order. -/
def namesOf (ident : O → K) : List (Op O L W) → List K
  | [] => []
  | .addNode u :: ops => ident u :: namesOf ident ops
  | _ :: ops => namesOf ident ops

/-- The edges accepted, in order: those both ends of which had been added (`ks`) before. -/
def accepted (ident : O → K) : List K → List (Op O L W) → List (O × O × EdgeOptions L W)
  | _, [] => []
  | ks, .addNode u :: ops => accepted ident (ks ++ [ident u]) ops
  | ks, .addEdge u v o :: ops =>
    if ident u ∈ ks ∧ ident v ∈ ks then (u, v, o) :: accepted ident ks ops else accepted ident ks ops
  | ks, _ :: ops => accepted ident ks ops

/-- What an accepted edge adds to the list of the node `k`: itself if it leaves `k`, and in an undirected network its reverse if it
enters `k`. -/
def listedAt (ident : O → K) (d : Bool) (names : List K) (k : K) (e : O × O × EdgeOptions L W) : List (Edge L W) :=
  (if ident e.1 = k then [⟨names.idxOf (ident e.1), names.idxOf (ident e.2.1), e.2.2.label?, e.2.2.weight?⟩] else []) ++
  (if d = false ∧ ident e.2.1 = k then
    [⟨names.idxOf (ident e.2.1), names.idxOf (ident e.1), e.2.2.label?, e.2.2.weight?⟩] else [])

/-- The accepted edges with the node `k` at one end. -/
def touching (ident : O → K) (k : K) (es : List (O × O × EdgeOptions L W)) : List (O × O × EdgeOptions L W) :=
  es.filter (fun e => decide (ident e.1 = k ∨ ident e.2.1 = k))

/-- The number of edges that `get_edges` returns by its documentation (src/engine/fields/network.rs:908-962): every edge at the
node, whichever its direction, and in an undirected network each of them twice. -/
def documented (ident : O → K) (d : Bool) (k : K) (es : List (O × O × EdgeOptions L W)) : Nat :=
  if d then (touching ident k es).length else 2 * (touching ident k es).length

/-- What a network under construction stores when the nodes `ks` have been added and node `i` lists `l i`. -/
structure Built (n : Net K O L W) (d : Bool) (ks : List K) (l : Nat → List (Edge L W)) : Prop where
  direct : n.direct = d
  size : n.w.nodes2id.length = ks.length
  ids : ∀ k, HMap.get n.w.nodes2id k = if k ∈ ks then some (ks.idxOf k) else none
  lists : ∀ i, HMap.get n.w.edges i = if i < ks.length then some (l i) else none
  rest : ∀ i, ks.length ≤ i → l i = []

/-- `listedAt` by id. -/
def listedId (ident : O → K) (d : Bool) (names : List K) (i : Nat) (e : O × O × EdgeOptions L W) : List (Edge L W) :=
  (if names.idxOf (ident e.1) = i then
    [⟨names.idxOf (ident e.1), names.idxOf (ident e.2.1), e.2.2.label?, e.2.2.weight?⟩] else []) ++
  (if d = false ∧ names.idxOf (ident e.2.1) = i then
    [⟨names.idxOf (ident e.2.1), names.idxOf (ident e.1), e.2.2.label?, e.2.2.weight?⟩] else [])

theorem built_addNode {ident : O → K} {n : Net K O L W} {d : Bool} {ks : List K} {l : Nat → List (Edge L W)}
    (hb : Built n d ks l) (u : O) (hu : ident u ∉ ks) : Built (addNode ident n u) d (ks ++ [ident u]) l := by
  have habs : HMap.get n.w.nodes2id (ident u) = none := by rw [hb.ids, if_neg hu]
  refine ⟨hb.direct, ?_, ?_, ?_, ?_⟩
  · show (HMap.insert n.w.nodes2id (ident u) n.w.nodes2id.length).1.length = _
    rw [HMap.insert_absent habs]
    simp [hb.size]
  · intro k
    show HMap.get (HMap.insert n.w.nodes2id (ident u) n.w.nodes2id.length).1 k = _
    rw [HMap.get_insert, hb.ids, hb.size]
    by_cases hk : k = ident u
    · subst hk
      simp [List.idxOf_append, hu]
    · by_cases hm : k ∈ ks
      · simp [hk, hm, List.idxOf_append]
      · simp [hk, hm]
  · intro i
    show HMap.get (ensureList n.w.edges n.w.nodes2id.length) i = _
    rw [get_ensureList, hb.size, hb.lists, hb.lists]
    simp only [List.length_append, List.length_singleton]
    by_cases hi : i = ks.length
    · subst hi
      simp [hb.rest ks.length (le_refl _)]
    · by_cases h2 : i < ks.length
      · simp [hi, h2, Nat.lt_succ_of_lt h2]
      · rw [if_neg hi, if_neg h2, if_neg (by omega)]
  · intro i hi
    simp only [List.length_append, List.length_singleton] at hi
    exact hb.rest i (by omega)

theorem built_addEdge {ident : O → K} {n : Net K O L W} {d : Bool} {ks : List K} {l : Nat → List (Edge L W)}
    (hb : Built n d ks l) (u v : O) (o : EdgeOptions L W) (hu : ident u ∈ ks) (hv : ident v ∈ ks) :
    Built (addEdge ident n u v o).1 d ks (fun i => l i ++ listedId ident d ks i (u, v, o)) := by
  have h1 : HMap.get n.w.nodes2id (ident u) = some (ks.idxOf (ident u)) := by rw [hb.ids, if_pos hu]
  have h2 : HMap.get n.w.nodes2id (ident v) = some (ks.idxOf (ident v)) := by rw [hb.ids, if_pos hv]
  have lu := List.idxOf_lt_length_iff.2 hu
  have lv := List.idxOf_lt_length_iff.2 hv
  obtain ⟨_, hadj, hsame, hn, _, _, hd⟩ := C47_add_edge ident n u v o _ _ h1 h2
  have hnone := (addEdge_ok (o := o) h1 h2).2.2.2.2
  rw [hb.direct] at hadj hnone
  refine ⟨hd.trans hb.direct, by rw [hn]; exact hb.size, by rw [hn]; exact hb.ids, ?_, ?_⟩
  · intro i
    by_cases hi : i < ks.length
    · rw [if_pos hi]
      have hli : HMap.get n.w.edges i = some (l i) := by rw [hb.lists, if_pos hi]
      have ha := hadj i
      rw [adj_of_get hli] at ha
      cases hg : HMap.get (addEdge ident n u v o).1.w.edges i with
      | none => rw [((hnone i).1 hg).1] at hli; simp at hli
      | some es =>
        rw [adj_of_get hg] at ha
        rw [ha, List.append_assoc]
        simp only [listedId, eq_comm]
    · rw [if_neg hi]
      have hli : HMap.get n.w.edges i = none := by rw [hb.lists, if_neg hi]
      exact (hnone i).2 ⟨hli, by omega, fun _ => by omega⟩
  · intro i hi
    have e1 : ks.idxOf (ident u) ≠ i := by omega
    have e2 : ks.idxOf (ident v) ≠ i := by omega
    simp [listedId, hb.rest i hi, e1, e2]

theorem built_run {ident : O → K} {d : Bool} : ∀ (ops : List (Op O L W)) (n : Net K O L W) (ks : List K)
    (l : Nat → List (Edge L W)), Built n d ks l → (∀ op ∈ ops, Builds op) → (ks ++ namesOf ident ops).Nodup →
    ∃ n', run ident n ops = some n' ∧ Built n' d (ks ++ namesOf ident ops)
      (fun i => l i ++ (accepted ident ks ops).flatMap (listedId ident d (ks ++ namesOf ident ops) i)) := by
  intro ops
  induction ops with
  | nil => intro n ks l hb _ _; exact ⟨n, rfl, by simpa [namesOf, accepted] using hb⟩
  | cons op ops ih =>
    intro n ks l hb hops hnd
    have hops' : ∀ op ∈ ops, Builds op := fun o ho => hops o (List.mem_cons_of_mem _ ho)
    have hop := hops op List.mem_cons_self
    have keep : ∀ n1 : Net K O L W, n1.w = n.w → n1.direct = n.direct → Built n1 d ks l := by
      intro n1 e1 e2
      exact ⟨e2.trans hb.direct, by rw [e1]; exact hb.size, by rw [e1]; exact hb.ids, by rw [e1]; exact hb.lists, hb.rest⟩
    cases op with
    | addNode u =>
      have hu : ident u ∉ ks := by
        intro hm
        exact (List.nodup_append.1 hnd).2.2 _ hm _ (by simp [namesOf]) rfl
      obtain ⟨n', h1, h2⟩ := ih (addNode ident n u) (ks ++ [ident u]) l (built_addNode hb u hu) hops'
        (by simpa [namesOf] using hnd)
      exact ⟨n', h1, by simpa [namesOf, accepted] using h2⟩
    | addEdge u v o =>
      by_cases hin : ident u ∈ ks ∧ ident v ∈ ks
      · obtain ⟨n', h1, h2⟩ := ih (addEdge ident n u v o).1 ks _ (built_addEdge hb u v o hin.1 hin.2) hops'
          (by simpa [namesOf] using hnd)
        refine ⟨n', h1, ?_⟩
        have e1 : (ks ++ namesOf ident ops).idxOf (ident u) = ks.idxOf (ident u) := by
          rw [List.idxOf_append_of_mem hin.1]
        have e2 : (ks ++ namesOf ident ops).idxOf (ident v) = ks.idxOf (ident v) := by
          rw [List.idxOf_append_of_mem hin.2]
        have e3 : ∀ i, listedId ident d (ks ++ namesOf ident ops) i (u, v, o) = listedId ident d ks i (u, v, o) := by
          intro i; simp only [listedId, e1, e2]
        show Built n' d (ks ++ namesOf ident ops) _
        have e4 : accepted ident ks (.addEdge u v o :: ops) = (u, v, o) :: accepted ident ks ops := by
          simp only [accepted]; rw [if_pos hin]
        have e5 : namesOf ident (.addEdge u v o :: ops : List (Op O L W)) = namesOf ident ops := rfl
        rw [e4, e5]
        simpa [e3, List.flatMap_cons, List.append_assoc] using h2
      · have hsame : (addEdge ident n u v o).1 = n := by
          rw [C47_absent ident n u v o]
          rw [hb.ids, hb.ids]
          by_cases h1 : ident u ∈ ks
          · exact Or.inr (if_neg (fun h2 => hin ⟨h1, h2⟩))
          · exact Or.inl (if_neg h1)
        obtain ⟨n', h1, h2⟩ := ih n ks l hb hops' (by simpa [namesOf] using hnd)
        refine ⟨n', ?_, ?_⟩
        · show run ident (addEdge ident n u v o).1 ops = some n'
          rw [hsame]; exact h1
        · have e4 : accepted ident ks (.addEdge u v o :: ops) = accepted ident ks ops := by
            simp only [accepted]; rw [if_neg hin]
          have e5 : namesOf ident (.addEdge u v o :: ops : List (Op O L W)) = namesOf ident ops := rfl
          rw [e4, e5]; exact h2
    | update =>
      obtain ⟨n', h1, h2⟩ := ih (update n) ks l (keep _ rfl rfl) hops' (by simpa [namesOf] using hnd)
      exact ⟨n', h1, by simpa [namesOf, accepted] using h2⟩
    | lazyUpdate =>
      obtain ⟨n', h1, h2⟩ := ih (lazyUpdate n) ks l (keep _ rfl rfl) hops' (by simpa [namesOf] using hnd)
      exact ⟨n', h1, by simpa [namesOf, accepted] using h2⟩
    | removeEdge u v => exact hop.elim
    | removeIncoming u => exact hop.elim
    | removeOutgoing u => exact hop.elim
    | removeNode u => exact hop.elim
    | removeAllEdges => exact hop.elim
    | updateNode u => exact hop.elim

theorem accepted_mem {ident : O → K} : ∀ (ops : List (Op O L W)) (ks : List K), ∀ e ∈ accepted ident ks ops,
    ident e.1 ∈ ks ++ namesOf ident ops ∧ ident e.2.1 ∈ ks ++ namesOf ident ops := by
  intro ops
  induction ops with
  | nil => intro ks e he; simp [accepted] at he
  | cons op ops ih =>
    intro ks e he
    cases op with
    | addNode u => simpa [namesOf] using ih _ e he
    | addEdge u v o =>
      simp only [accepted] at he
      show ident e.1 ∈ ks ++ namesOf ident ops ∧ ident e.2.1 ∈ ks ++ namesOf ident ops
      split at he
      · rename_i hin
        rcases List.mem_cons.1 he with rfl | he
        · exact ⟨List.mem_append_left _ hin.1, List.mem_append_left _ hin.2⟩
        · exact ih _ e he
      · exact ih _ e he
    | removeEdge u v => exact ih _ e he
    | removeIncoming u => exact ih _ e he
    | removeOutgoing u => exact ih _ e he
    | removeNode u => exact ih _ e he
    | removeAllEdges => exact ih _ e he
    | updateNode u => exact ih _ e he
    | update => exact ih _ e he
    | lazyUpdate => exact ih _ e he

/-- **C210, what `get_edges` shows**: in a network built by adding nodes (each once) and edges in any order, and published, a node
lists, in the order of the calls, the accepted edges that leave it, in an undirected network also the reverses of those that enter
it, and nothing else; an unknown node has no list. -/
theorem C210_get_edges_partial (ident : O → K) (d : Bool) (ops : List (Op O L W)) (hops : ∀ op ∈ ops, Builds op)
    (hnd : (namesOf ident ops).Nodup) : ∃ n, run ident (Net.new d) (ops ++ [.update]) = some n ∧ ∀ x,
      getEdges ident n x = if ident x ∈ namesOf ident ops then
        some ((accepted ident [] ops).flatMap (listedAt ident d (namesOf ident ops) (ident x))) else none := by
  have h0 : Built (Net.new d : Net K O L W) d [] (fun _ => []) :=
    ⟨rfl, rfl, by simp [Net.new], by simp [Net.new], by simp⟩
  obtain ⟨n, h1, h2⟩ := built_run ops (Net.new d) [] _ h0 hops (by simpa using hnd)
  rw [List.nil_append] at h2
  refine ⟨update n, by rw [run_append, h1]; rfl, ?_⟩
  intro x
  simp only [getEdges, update]
  rw [h2.ids]
  by_cases hx : ident x ∈ namesOf ident ops
  · rw [if_pos hx, if_pos hx]
    dsimp only
    rw [h2.lists, if_pos (List.idxOf_lt_length_iff.2 hx), List.nil_append]
    congr 1
    refine List.flatMap_congr (fun e he => ?_)
    obtain ⟨m1, m2⟩ := accepted_mem ops [] e he
    rw [List.nil_append] at m1 m2
    simp only [listedId, listedAt, List.idxOf_inj m1, List.idxOf_inj m2]
  · rw [if_neg hx, if_neg hx]

theorem listed_length (ident : O → K) (d : Bool) (names : List K) (k : K) : ∀ es : List (O × O × EdgeOptions L W),
    (es.flatMap (listedAt ident d names k)).length =
      (es.filter (fun e => decide (ident e.1 = k))).length +
      (if d then 0 else (es.filter (fun e => decide (ident e.2.1 = k))).length) := by
  intro es
  induction es with
  | nil => simp
  | cons e es ih =>
    rw [List.flatMap_cons, List.length_append, ih]
    cases d <;> by_cases h1 : ident e.1 = k <;> by_cases h2 : ident e.2.1 = k <;> simp [listedAt, h1, h2] <;> omega

/-- **C210, dividing line**: the number of edges shown for a node is the documented one exactly if, in a directed network, no edge
enters the node from another node and, in an undirected network, every edge at the node is a loop. -/
theorem C210_documented_partial (ident : O → K) (d : Bool) (ops : List (Op O L W)) (hops : ∀ op ∈ ops, Builds op)
    (hnd : (namesOf ident ops).Nodup) : ∃ n, run ident (Net.new d) (ops ++ [.update]) = some n ∧
      ∀ x, ident x ∈ namesOf ident ops → ∃ es, getEdges ident n x = some es ∧
        (es.length = documented ident d (ident x) (accepted ident [] ops) ↔
          ∀ e ∈ accepted ident [] ops, (ident e.2.1 = ident x → ident e.1 = ident x) ∧
            (d = false → ident e.1 = ident x → ident e.2.1 = ident x)) := by
  obtain ⟨n, h1, h2⟩ := C210_get_edges_partial ident d ops hops hnd
  refine ⟨n, h1, fun x hx => ⟨_, by rw [h2, if_pos hx], ?_⟩⟩
  rw [listed_length]
  generalize ident x = k
  generalize accepted ident [] ops = es
  have le : ∀ es : List (O × O × EdgeOptions L W),
      (es.filter (fun e => decide (ident e.1 = k))).length + (if d then 0 else
        (es.filter (fun e => decide (ident e.2.1 = k))).length) ≤ documented ident d k es := by
    intro es
    induction es with
    | nil => simp [documented, touching]
    | cons e es ih =>
      unfold documented touching at ih ⊢
      cases d <;> by_cases c1 : ident e.1 = k <;> by_cases c2 : ident e.2.1 = k <;> simp [c1, c2] at ih ⊢ <;> omega
  induction es with
  | nil => simp [documented, touching]
  | cons e es ih =>
    have hle := le es
    rw [List.forall_mem_cons]
    refine Iff.trans ?_ (and_congr Iff.rfl ih)
    unfold documented touching at hle ⊢
    cases d <;> by_cases c1 : ident e.1 = k <;> by_cases c2 : ident e.2.1 = k <;> simp [c1, c2] at hle ⊢ <;> omega

/-- **C210 is false**: the two examples of the documentation (src/engine/fields/network.rs:908-962). In the directed network node 1,
entered by one edge, lists none; in the undirected network node 0, with two edges, lists two and not four. -/
theorem C210_documentation_examples_partial :
    let ops : List (Op Nat Nat Nat) := [.addNode 0, .addNode 1, .addNode 2, .addNode 3, .addEdge 0 1 .simple, .addEdge 0 2 .simple]
    (∃ n : Net Nat Nat Nat Nat, run id (Net.new true) (ops ++ [.update]) = some n ∧ getEdges id n 1 = some [] ∧
      documented id true 1 (accepted id [] ops) = 1) ∧
    (∃ n : Net Nat Nat Nat Nat, run id (Net.new false) (ops ++ [.update]) = some n ∧
      getEdges id n 0 = some [⟨0, 1, none, none⟩, ⟨0, 2, none, none⟩] ∧ documented id false 0 (accepted id [] ops) = 4) :=
  ⟨⟨_, rfl, by decide, by decide⟩, ⟨_, rfl, by decide, by decide⟩⟩

/-- The hypotheses hold for a program that publishes in between and offers an edge too early. -/
example : let ops : List (Op Nat Nat Nat) := [.addNode 7, .addEdge 7 8 .simple, .update, .addNode 8, .addEdge 8 7 (.weighted 3),
      .lazyUpdate, .addEdge 7 7 .simple]
    (∀ op ∈ ops, Builds op) ∧ (namesOf id ops).Nodup ∧ (accepted id [] ops).length = 2 ∧
    ((accepted id [] ops).flatMap (listedAt id false (namesOf id ops) 7)) =
      [⟨0, 1, none, some 3⟩, ⟨0, 0, none, none⟩, ⟨0, 0, none, none⟩] := by
  refine ⟨?_, by decide, by decide, by decide⟩
  intro op hop
  simp only [List.mem_cons, List.not_mem_nil, or_false] at hop
  rcases hop with rfl | rfl | rfl | rfl | rfl | rfl | rfl <;> trivial

end Verif.Network

namespace Verif.Field2D

variable {O : Type} [BEq O]

/-! ### C211 -/

/-- The number of bags of a field by the documentation of `get_empty_bags` (src/engine/fields/field_2d.rs:712):
`(width / discretization) * (height / discretization)`. -/
def documentedBags (w h d : ℚ) : ℚ := w / d * (h / d)

theorem corner_inj {d : ℚ} (hd : 0 < d) {i j i' j' : Nat} (h : corner d i j = corner d i' j') : i = i' ∧ j = j' := by
  simp only [corner, Torus.Pos.mk.injEq] at h
  obtain ⟨h1, h2⟩ := h
  have e1 := mul_right_cancel₀ (ne_of_gt hd) h1
  have e2 := mul_right_cancel₀ (ne_of_gt hd) h2
  exact ⟨by exact_mod_cast e1, by exact_mod_cast e2⟩

/-- The cells of a field: all pairs up to `a` and `b`. -/
def allCells (a b : Nat) : List (Nat × Nat) :=
  (List.range (a + 1)).flatMap (fun i => (List.range (b + 1)).map (fun j => (i, j)))

theorem mem_allCells {a b : Nat} {c : Nat × Nat} : c ∈ allCells a b ↔ c.1 ≤ a ∧ c.2 ≤ b := by
  obtain ⟨i, j⟩ := c
  simp [allCells]
  omega

theorem nodup_allCells (a b : Nat) : (allCells a b).Nodup := by
  rw [allCells, List.nodup_flatMap]
  refine ⟨fun i _ => (List.nodup_range).map (fun x y h => (Prod.mk.injEq _ _ _ _ ▸ h).2), ?_⟩
  refine List.Pairwise.imp ?_ (List.nodup_range (n := a + 1))
  intro x y hxy
  rw [Function.onFun, List.disjoint_left]
  rintro ⟨p, q⟩ h1 h2
  simp at h1 h2
  exact hxy (h1.2.trans h2.2.symm)

theorem length_allCells (a b : Nat) : (allCells a b).length = (a + 1) * (b + 1) := by
  simp [allCells, List.length_flatMap]

/-- **C211, what `get_empty_bags` shows**: after any program with positions inside the field, the number of empty bags and the number
of cells with a published object make (⌈w/d⌉ + 1)·(⌈h/d⌉ + 1). -/
theorem C211_count_partial (w h d : ℚ) (t : Bool) (hw : 0 < w) (hh : 0 < h) (hd : 0 < d)
    (hist : List (FieldOp O)) (hin : ∀ op ∈ hist, op.InField w h) (occ : List (Nat × Nat)) (hocc : occ.Nodup)
    (hmem : ∀ i j : Nat, (i, j) ∈ occ ↔ (i : ℤ) ≤ (w / d).ceil ∧ (j : ℤ) ≤ (h / d).ceil ∧
      objsPublished d hist (corner d i j) ≠ []) :
    ∃ f es, run (new w h d t) hist = some f ∧ getEmptyBags f = some es ∧
      ((es.length + occ.length : Nat) : ℤ) = ((w / d).ceil + 1) * ((h / d).ceil + 1) := by
  obtain ⟨f, es, h1, h2, h3, h4⟩ := C43_get_empty_bags w h d t hw hh hd hist hin
  refine ⟨f, es, h1, h2, ?_⟩
  have pw : 0 ≤ (w / d).ceil := by
    have : (0 : ℚ) ≤ ((w / d).ceil : ℚ) := le_trans (le_of_lt (div_pos hw hd)) (Rat.le_ceil)
    exact_mod_cast this
  have ph : 0 ≤ (h / d).ceil := by
    have : (0 : ℚ) ≤ ((h / d).ceil : ℚ) := le_trans (le_of_lt (div_pos hh hd)) (Rat.le_ceil)
    exact_mod_cast this
  obtain ⟨a, ha⟩ := Int.eq_ofNat_of_zero_le pw
  obtain ⟨b, hb⟩ := Int.eq_ofNat_of_zero_le ph
  rw [ha, hb] at hmem h4 ⊢
  have hperm : (es ++ occ.map (fun c => corner d c.1 c.2)).Perm ((allCells a b).map (fun c => corner d c.1 c.2)) := by
    refine (List.perm_ext_iff_of_nodup ?_ ?_).2 ?_
    · refine List.nodup_append.2 ⟨h3, hocc.map_on ?_, ?_⟩
      · rintro ⟨i, j⟩ _ ⟨i', j'⟩ _ he
        obtain ⟨e1, e2⟩ := corner_inj hd he
        exact Prod.ext e1 e2
      · intro p hp q hq hpq
        subst hpq
        obtain ⟨⟨i, j⟩, hc, rfl⟩ := List.mem_map.1 hq
        obtain ⟨_, _, _, _, _, h5⟩ := (h4 _).1 hp
        exact ((hmem i j).1 hc).2.2 h5
    · refine (nodup_allCells a b).map_on ?_
      rintro ⟨i, j⟩ _ ⟨i', j'⟩ _ he
      obtain ⟨e1, e2⟩ := corner_inj hd he
      exact Prod.ext e1 e2
    · intro p
      rw [List.mem_append, List.mem_map, List.mem_map, h4]
      constructor
      · rintro (⟨i, j, b1, b2, b3, _⟩ | ⟨⟨i, j⟩, hc, rfl⟩)
        · exact ⟨(i, j), mem_allCells.2 ⟨by omega, by omega⟩, b3.symm⟩
        · obtain ⟨b1, b2, _⟩ := (hmem i j).1 hc
          exact ⟨(i, j), mem_allCells.2 ⟨by omega, by omega⟩, rfl⟩
      · rintro ⟨⟨i, j⟩, hc, rfl⟩
        obtain ⟨b1, b2⟩ := mem_allCells.1 hc
        dsimp only at b1 b2
        by_cases he : objsPublished d hist (corner d i j) = []
        · exact Or.inl ⟨i, j, by omega, by omega, rfl, he⟩
        · exact Or.inr ⟨(i, j), (hmem i j).2 ⟨by omega, by omega, he⟩, rfl⟩
  have hl := hperm.length_eq
  rw [List.length_append, List.length_map, List.length_map, length_allCells] at hl
  have : ((es.length + occ.length : Nat) : ℤ) = (((a + 1) * (b + 1) : Nat) : ℤ) := by rw [hl]
  rw [this]
  simp

/-- **C211 is false of every field**: as long as nothing is published the field has more empty bags than documented, by at least
`w/d + h/d + 1`. -/
theorem C211_never_documented_partial (w h d : ℚ) (t : Bool) (hw : 0 < w) (hh : 0 < h) (hd : 0 < d)
    (hist : List (FieldOp O)) (hin : ∀ op ∈ hist, op.InField w h) (hno : FieldOp.lazyUpdate ∉ hist) :
    ∃ f es, run (new w h d t) hist = some f ∧ getEmptyBags f = some es ∧
      documentedBags w h d + w / d + h / d + 1 ≤ (es.length : ℚ) := by
  have hpub : ∀ p, objsPublished d hist p = [] := by
    intro p
    induction hist with
    | nil => rfl
    | cons op hist ih =>
      cases op with
      | lazyUpdate => exact absurd List.mem_cons_self hno
      | place o q => exact ih (fun x hx => hin x (List.mem_cons_of_mem _ hx)) (fun hx => hno (List.mem_cons_of_mem _ hx))
      | update => exact ih (fun x hx => hin x (List.mem_cons_of_mem _ hx)) (fun hx => hno (List.mem_cons_of_mem _ hx))
      | remove o q => exact ih (fun x hx => hin x (List.mem_cons_of_mem _ hx)) (fun hx => hno (List.mem_cons_of_mem _ hx))
  obtain ⟨f, es, h1, h2, h3⟩ := C211_count_partial w h d t hw hh hd hist hin [] List.nodup_nil (by
    intro i j; simp [hpub])
  refine ⟨f, es, h1, h2, ?_⟩
  rw [List.length_nil, Nat.add_zero] at h3
  have h4 : (es.length : ℚ) = ((w / d).ceil + 1) * ((h / d).ceil + 1) := by exact_mod_cast h3
  have a1 : w / d ≤ ((w / d).ceil : ℚ) := Rat.le_ceil
  have a2 : h / d ≤ ((h / d).ceil : ℚ) := Rat.le_ceil
  have p1 := div_pos hw hd
  have p2 := div_pos hh hd
  rw [h4, documentedBags]
  nlinarith

/-- The example of the documentation: 441 and 438 bags instead of 400 and 397, with the three occupied cells. -/
example : documentedBags 10 10 (1 / 2) = 400 ∧ ((10 / (1 / 2) : ℚ).ceil + 1) * ((10 / (1 / 2) : ℚ).ceil + 1) = 441 ∧
    ((run (new 10 10 (1 / 2) true) ([.lazyUpdate, .place 2 ⟨3 / 2, 3 / 2⟩, .place 1 ⟨4, 4⟩, .place 0 ⟨5, 5⟩] :
      List (FieldOp Nat))).bind getEmptyBags).map List.length = some 438 ∧
    objsPublished (1 / 2) ([.lazyUpdate, .place 2 ⟨3 / 2, 3 / 2⟩, .place 1 ⟨4, 4⟩, .place 0 ⟨5, 5⟩] : List (FieldOp Nat))
      (corner (1 / 2) 10 10) = [0] := by
  refine ⟨by decide +kernel, by decide +kernel, by decide +kernel, by decide +kernel⟩

end Verif.Field2D
