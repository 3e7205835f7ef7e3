import Verif.Props.NetworkPA

/-! Preferential attachment draws with the degrees as weights (C212). -/

set_option linter.unusedSectionVars false

namespace Verif.Network

variable {K O L W : Type} [DecidableEq K]

theorem bump_count (cs : List Nat) : ∀ (dist : List (O × Int × Nat)) (k : Nat),
    (bump dist cs)[k]? = (dist[k]?).map (fun x => (x.1, x.2.1 + (cs.count k : Int), x.2.2)) := by
  unfold bump
  induction cs with
  | nil => intro dist k; cases h : dist[k]? <;> simp [h]
  | cons c cs ih =>
    intro dist k
    rw [List.foldl_cons, ih, List.getElem?_modify, List.count_cons]
    cases dist[k]? with
    | none => by_cases h : c = k <;> simp [h]
    | some x =>
      by_cases h : c = k
      · simp [h]; omega
      · simp [h]

theorem degreeIn_append (E F : List (Nat × Nat)) (j : Nat) : degreeIn (E ++ F) j = degreeIn E j + degreeIn F j := by
  unfold degreeIn
  rw [List.countP_append, List.countP_append]
  omega

theorem degreeIn_star (i : Nat) (cs : List Nat) (hc : ∀ c ∈ cs, c < i) (j : Nat) :
    degreeIn (cs.map (fun t => (i, t))) j = if j = i then (cs.length : Int) else (cs.count j : Int) := by
  unfold degreeIn
  rw [List.countP_map, List.countP_map]
  by_cases hj : j = i
  · subst hj
    rw [if_pos rfl]
    have h1 : cs.countP ((fun e : Nat × Nat => e.1 == j) ∘ fun t => (j, t)) = cs.length :=
      List.countP_eq_length.2 (by simp)
    have h2 : cs.countP ((fun e : Nat × Nat => e.2 == j) ∘ fun t => (j, t)) = 0 :=
      List.countP_eq_zero.2 (fun c hm => by have := hc c hm; simp; omega)
    rw [h1, h2]; simp
  · rw [if_neg hj]
    have h1 : cs.countP ((fun e : Nat × Nat => e.1 == j) ∘ fun t => (i, t)) = 0 :=
      List.countP_eq_zero.2 (fun c _ => by simp; omega)
    rw [h1, Nat.zero_add, List.count_eq_countP]
    rfl

theorem degreeIn_new (E : List (Nat × Nat)) (i : Nat) (hE : ∀ e ∈ E, e.1 < i ∧ e.2 < i) : degreeIn E i = 0 := by
  unfold degreeIn
  rw [List.countP_eq_zero.2 (fun e he => by have := (hE e he).1; simp; omega),
    List.countP_eq_zero.2 (fun e he => by have := (hE e he).2; simp; omega)]
  rfl

theorem byDegree_get (node : Nat → O) (E : List (Nat × Nat)) (i k : Nat) :
    (byDegree node E i)[k]? = if k < i then some (node k, degreeIn E k, k) else none := by
  unfold byDegree
  rw [List.getElem?_map]
  by_cases h : k < i
  · rw [if_pos h, List.getElem?_range h]; rfl
  · rw [if_neg h, List.getElem?_eq_none (by simpa using h)]; rfl

/-- The table of weights after one more node is again the table of degrees. -/
theorem byDegree_next (node : Nat → O) (E : List (Nat × Nat)) (i : Nat) (hE : ∀ e ∈ E, e.1 < i ∧ e.2 < i) (cs : List Nat)
    (hc : ∀ c ∈ cs, c < i) : bump (byDegree node E i) cs ++ [(node i, (cs.length : Int), i)] =
      byDegree node (E ++ cs.map (fun t => (i, t))) (i + 1) := by
  have hlen : (bump (byDegree node E i) cs).length = i := by rw [length_bump]; simp [byDegree]
  apply List.ext_getElem?
  intro k
  rw [byDegree_get]
  by_cases hk : k < i
  · rw [List.getElem?_append_left (by rw [hlen]; exact hk), bump_count, byDegree_get, if_pos hk, if_pos (by omega),
      degreeIn_append, degreeIn_star i cs hc, if_neg (by omega)]
    rfl
  · rw [List.getElem?_append_right (by rw [hlen]; omega), hlen]
    by_cases hki : k = i
    · subst hki
      rw [if_pos (by omega), degreeIn_append, degreeIn_star k cs hc, if_pos rfl, degreeIn_new E k hE]
      simp
    · rw [if_neg (by omega)]
      rw [List.getElem?_eq_none]
      simp; omega

theorem attachLoop_textbook {ident : O → K} {pick : Nat → List (O × Int × Nat) → Nat → List Nat} (hp : GoodPick pick)
    {node : Nat → O} {nodes : List O} {m : Nat} (hm : 1 ≤ m) {n0 : Net K O L W} (k : Nat) :
    ∀ (i : Nat) (E : List (Nat × Nat)), 1 ≤ i → DistOk node (byDegree node E i) i → (∀ e ∈ E, e.1 < i ∧ e.2 < i) →
      (∀ j, j < i + k → nodes[j]? = some (node j)) →
      attachLoop ident pick nodes m k i (addPairs ident node n0 E) (byDegree node E i) =
        some (addPairs ident node n0 (textbook pick node m k i E)) ∧
      ∀ e ∈ textbook pick node m k i E, e.1 < i + k ∧ e.2 < i + k := by
  induction k with
  | zero => intro i E _ _ hE _; exact ⟨rfl, hE⟩
  | succ k ih =>
    intro i E hi hd hE hn
    unfold attachLoop
    rw [hn i (by omega)]
    dsimp only
    generalize ha : (if (byDegree node E i).length < m then (byDegree node E i).length else m) = amount
    have ham : amount = min i m := by
      rw [← ha, hd.1]
      split <;> omega
    obtain ⟨h1, h2, h3⟩ := hp i (byDegree node E i) amount (by
      intro x hx
      obtain ⟨c, hc⟩ := List.mem_iff_getElem?.1 hx
      have hlt : c < i := by
        rw [← hd.1]
        exact (List.getElem?_eq_some_iff.1 hc).1
      obtain ⟨w, hw, hw'⟩ := hd.2 c hlt
      rw [hc] at hw'
      simp at hw'
      rw [hw']
      exact hw) (by rw [ham, hd.1]; omega)
    rw [hd.1] at h3
    obtain ⟨h4, h5⟩ := filterMap_dist hd (pick i (byDegree node E i) amount) h3
    have hnext := byDegree_next node E i hE _ h3
    rw [h2] at hnext
    have hd' := hd.next (pick i (byDegree node E i) amount) (w := (amount : Int)) (by rw [ham]; omega)
    rw [hnext] at hd'
    rw [h4, attach_eq ident node i _ _ h5, hnext]
    have hadd : addPairs ident node (addPairs ident node n0 E) ((pick i (byDegree node E i) amount).map (fun t => (i, t))) =
        addPairs ident node n0 (E ++ (pick i (byDegree node E i) amount).map (fun t => (i, t))) := by
      unfold addPairs; rw [List.foldl_append]
    rw [hadd]
    have hE' : ∀ e ∈ E ++ (pick i (byDegree node E i) amount).map (fun t => (i, t)), e.1 < i + 1 ∧ e.2 < i + 1 := by
      intro e he
      rcases List.mem_append.1 he with he | he
      · have := hE e he; omega
      · obtain ⟨c, hc, rfl⟩ := List.mem_map.1 he
        have := h3 c hc
        dsimp only; omega
    obtain ⟨r1, r2⟩ := ih (i + 1) _ (by omega) hd' hE' (fun j hj => hn j (by omega))
    have ht : textbook pick node m (k + 1) i E =
        textbook pick node m k (i + 1) (E ++ (pick i (byDegree node E i) amount).map (fun t => (i, t))) := by
      rw [ham]; rfl
    rw [ht]
    exact ⟨r1, fun e he => by have := r2 e he; omega⟩

/-- **C212.** For every drawing function, the network made by the call is the one made by the textbook process: the lists published
are exactly those of the edges the process yields when each later node draws among the earlier ones with their present degrees as
weights. -/
theorem C212_textbook (ident : O → K) (pick : Nat → List (O × Int × Nat) → Nat → List Nat) (hp : GoodPick pick)
    (n : Net K O L W) (nodes : List O) (m N : Nat) (node : Nat → O) (idOf : Nat → Nat) (hm : 1 ≤ m)
    (hN : n.w.id2nodes.length = N) (h2 : 2 ≤ N) (hnodes : ∀ i, i < N → nodes[i]? = some (node i))
    (hids : ∀ i, i < N → HMap.get n.w.nodes2id (ident (node i)) = some (idOf i)) :
    ∃ n', preferentialAttachment ident pick n nodes m = some n' ∧ n'.r = n'.w ∧
      (∀ e ∈ textbook pick node m (N - 2) 2 [(0, 1)], e.1 < N ∧ e.2 < N) ∧
      ∀ x, n'.r.adj x = (textbook pick node m (N - 2) 2 [(0, 1)]).flatMap (fun e =>
        (if x = idOf e.1 then [⟨idOf e.1, idOf e.2, none, none⟩] else []) ++
        (if n.direct = false ∧ x = idOf e.2 then [⟨idOf e.2, idOf e.1, none, none⟩] else [])) := by
  obtain ⟨a, b, t, rfl⟩ : ∃ a b t, nodes = a :: b :: t := by
    match nodes, hnodes 0 (by omega), hnodes 1 (by omega) with
    | a :: b :: t, _, _ => exact ⟨a, b, t, rfl⟩
  have ha : a = node 0 := by simpa using hnodes 0 (by omega)
  have hb : b = node 1 := by simpa using hnodes 1 (by omega)
  have hdist : byDegree node [(0, 1)] 2 = [(a, 1, 0), (b, 1, 1)] := by
    rw [ha, hb]; simp [byDegree, List.range_succ, degreeIn]
  obtain ⟨h3, h4⟩ := attachLoop_textbook (ident := ident) hp (node := node) (nodes := a :: b :: t) hm
    (n0 := removeAllEdges n) (N - 2) 2 [(0, 1)] (by omega)
    ⟨by rw [hdist]; rfl, by
      rw [hdist]
      intro c hc
      match c, hc with
      | 0, _ => exact ⟨1, by omega, by rw [ha]; rfl⟩
      | 1, _ => exact ⟨1, by omega, by rw [hb]; rfl⟩⟩
    (by simp) (fun j hj => hnodes j (by omega))
  have hN2 : 2 + (N - 2) = N := by omega
  rw [hN2] at h4
  obtain ⟨e1, e2, e3, e4⟩ := addPairs_adj (ident := ident) (node := node) (idOf := idOf)
    (textbook pick node m (N - 2) 2 [(0, 1)]) (removeAllEdges n) (fun p hpm => ⟨hids _ (h4 p hpm).1, hids _ (h4 p hpm).2⟩)
  refine ⟨update (addPairs ident node (removeAllEdges n) (textbook pick node m (N - 2) 2 [(0, 1)])), ?_, rfl, h4, ?_⟩
  · unfold preferentialAttachment
    dsimp only
    have hE : (addEdge ident (removeAllEdges n) a b .simple).1 = addPairs ident node (removeAllEdges n) [(0, 1)] := by
      rw [ha, hb]; rfl
    rw [hN, hE, ← hdist, h3]
  · intro x
    exact e4 x

/-- **C212.** The weights are the degrees the network itself shows: in an undirected network with the edges `E` between nodes with
distinct ids, the list of node `j` has the length `degreeIn E j`; in a directed one that is the number of edges it lists plus the
number of edges that lead to it. -/
theorem C212_degrees (idOf : Nat → Nat) (N : Nat) (hinj : ∀ a b, a < N → b < N → idOf a = idOf b → a = b) (d : Bool)
    (E : List (Nat × Nat)) (hE : ∀ e ∈ E, e.1 < N ∧ e.2 < N) (j : Nat) (hj : j < N) :
    degreeIn E j = ((E.flatMap (fun e =>
        ((if idOf j = idOf e.1 then [⟨idOf e.1, idOf e.2, none, none⟩] else []) ++
        (if d = false ∧ idOf j = idOf e.2 then [⟨idOf e.2, idOf e.1, none, none⟩] else []) : List (Edge L W)))).length +
      (if d then E.countP (fun e => e.2 == j) else 0) : Nat) := by
  unfold degreeIn
  congr 1
  induction E with
  | nil => simp
  | cons e E ih =>
    have ih := ih (fun q hq => hE q (List.mem_cons_of_mem _ hq))
    obtain ⟨h1, h2⟩ := hE e List.mem_cons_self
    have e1 : (idOf j = idOf e.1 ↔ e.1 = j) := ⟨fun h => (hinj _ _ hj h1 h).symm, fun h => by rw [h]⟩
    have e2 : (idOf j = idOf e.2 ↔ e.2 = j) := ⟨fun h => (hinj _ _ hj h2 h).symm, fun h => by rw [h]⟩
    rw [List.countP_cons, List.countP_cons, List.flatMap_cons, List.length_append]
    simp only [e1, e2]
    cases d <;> by_cases c1 : e.1 = j <;> by_cases c2 : e.2 = j <;> simp [c1, c2] at ih ⊢ <;> omega

/-- The position of the heaviest node, the last one among equals: a draw that depends on the weights. -/
def heaviest (_ : Nat) (dist : List (Nat × Int × Nat)) (amount : Nat) : List Nat :=
  if amount = 1 then [(dist.foldl (fun a x => if a.2.1 ≤ x.2.1 then x else a) (0, 0, 0)).2.2] else List.range amount

/-- Five nodes, `m = 1`: every later node draws node 1, which becomes the heaviest with the first draw; and five nodes with `m = 2`,
with the weights seen by the last draw. -/
example : textbook heaviest id 1 3 2 [(0, 1)] = [(0, 1), (2, 1), (3, 1), (4, 1)] ∧
    textbook heaviest id 2 3 2 [(0, 1)] = [(0, 1), (2, 0), (2, 1), (3, 0), (3, 1), (4, 0), (4, 1)] ∧
    byDegree id [(0, 1), (2, 0), (2, 1), (3, 0), (3, 1)] 4 = [(0, 3, 0), (1, 3, 1), (2, 2, 2), (3, 2, 3)] ∧
    ((preferentialAttachment id heaviest ((List.range 5).foldl (addNode id) (Net.new false : Net Nat Nat Nat Nat))
      (List.range 5) 1).map (fun n => (List.range 5).map (fun i => (n.r.adj i).map (fun e => e.v)))) =
      some [[1], [0, 2, 3, 4], [1], [1], [1]] := by decide +kernel

end Verif.Network
