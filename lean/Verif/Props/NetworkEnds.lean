import Verif.Lemmas.Network
import Verif.Spec.NetworkEnds

/-!
C270: in an undirected network it does not matter which end of an edge is named first (src/engine/fields/network.rs:741-781, 1314-1351).
-/

set_option linter.unusedSectionVars false

namespace Verif.Network

variable {K O L W : Type} [DecidableEq K]

/-! ### Networks with the same lists -/

/-- Nothing tells the two networks apart: they differ in the iteration order of the edge maps at most, which no method looks at. -/
structure SameLists (n n' : Net K O L W) : Prop where
  direct : n'.direct = n.direct
  readIds : n'.r.nodes2id = n.r.nodes2id
  readNodes : n'.r.id2nodes = n.r.id2nodes
  readEdges : ∀ k, HMap.get n'.r.edges k = HMap.get n.r.edges k
  ids : n'.w.nodes2id = n.w.nodes2id
  nodes : n'.w.id2nodes = n.w.id2nodes
  edges : ∀ k, HMap.get n'.w.edges k = HMap.get n.w.edges k

theorem SameLists.refl (n : Net K O L W) : SameLists n n := ⟨rfl, rfl, rfl, fun _ => rfl, rfl, rfl, fun _ => rfl⟩

/-- Both panic, or neither does and the networks and answers agree. -/
def EndsAlike {A : Type} (x x' : Option (Net K O L W × A)) : Prop :=
  match x, x' with
  | none, none => True
  | some y, some y' => SameLists y.1 y'.1 ∧ y'.2 = y.2
  | _, _ => False

theorem alike_some {A : Type} {x : Net K O L W × A} {x' : Option (Net K O L W × A)} (h : EndsAlike (some x) x') :
    ∃ n', x' = some (n', x.2) ∧ SameLists x.1 n' := by
  cases x' with
  | none => exact h.elim
  | some y => exact ⟨y.1, by rw [← h.2], h.1⟩

theorem alike_none {A : Type} {x' : Option (Net K O L W × A)} (h : EndsAlike none x') : x' = none := by
  cases x' with
  | none => rfl
  | some y => exact h.elim

theorem withEdges {n n' : Net K O L W} (h : SameLists n n') {m m' : EdgeMap L W} (hm : ∀ k, HMap.get m' k = HMap.get m k) :
    SameLists ⟨n.r, ⟨m, n.w.nodes2id, n.w.id2nodes⟩, n.direct⟩ ⟨n'.r, ⟨m', n'.w.nodes2id, n'.w.id2nodes⟩, n'.direct⟩ :=
  ⟨h.direct, h.readIds, h.readNodes, h.readEdges, h.ids, h.nodes, hm⟩

theorem pushEdge_same {m m' : EdgeMap L W} (h : ∀ k, HMap.get m' k = HMap.get m k) (a : Nat) (e : Edge L W) (k : Nat) :
    HMap.get (pushEdge m' a e) k = HMap.get (pushEdge m a e) k := by
  rw [get_pushEdge, get_pushEdge, h, h]

theorem ids_same {m m' : EdgeMap L W} (h : ∀ k, HMap.get m' k = HMap.get m k) (d : Bool) (a b : Nat) :
    (removeEdgeIds d m a b = none ∧ removeEdgeIds d m' a b = none) ∨
      ∃ m1 m1' r, removeEdgeIds d m a b = some (m1, r) ∧ removeEdgeIds d m' a b = some (m1', r) ∧ ∀ k, HMap.get m1' k = HMap.get m1 k := by
  unfold removeEdgeIds
  rw [h a, h b]
  cases HMap.get m a with
  | none => exact Or.inl ⟨rfl, rfl⟩
  | some us =>
    dsimp only
    cases us.find? (between a b) with
    | none => exact Or.inr ⟨m, m', none, rfl, rfl, h⟩
    | some e =>
      dsimp only
      cases d with
      | true =>
        refine Or.inr ⟨_, _, some e, rfl, rfl, fun k => ?_⟩
        simp only [HMap.get_adjustBy, h]
      | false =>
        cases HMap.get m b with
        | none => exact Or.inl ⟨rfl, rfl⟩
        | some vs =>
          refine Or.inr ⟨_, _, some e, rfl, rfl, fun k => ?_⟩
          simp only [HMap.get_adjustBy, h]

theorem removeEdge_same (ident : O → K) {n n' : Net K O L W} (h : SameLists n n') (u v : O) : EndsAlike (removeEdge ident n u v) (removeEdge ident n' u v) := by
  unfold removeEdge
  rw [h.readIds]
  cases HMap.get n.r.nodes2id (ident u) with
  | none => exact ⟨h, rfl⟩
  | some uid =>
    dsimp only
    cases HMap.get n.r.nodes2id (ident v) with
    | none => exact ⟨h, rfl⟩
    | some vid =>
      dsimp only
      rw [h.direct]
      rcases ids_same h.edges n.direct uid vid with ⟨e1, e2⟩ | ⟨m, m', r, e1, e2, e3⟩
      · rw [e1, e2]
        trivial
      · rw [e1, e2]
        exact ⟨⟨rfl, h.readIds, h.readNodes, h.readEdges, h.ids, h.nodes, e3⟩, rfl⟩

theorem removeStep_same (ident : O → K) (inc : Bool) (ns : HMap Nat O) (uid : Nat) (u : O) {x x' : Option (Net K O L W × List (Edge L W))} (h : EndsAlike x x') (v : Nat) :
    EndsAlike (removeStep ident inc ns uid u x v) (removeStep ident inc ns uid u x' v) := by
  cases x with
  | none =>
    rw [alike_none h]
    trivial
  | some y =>
    obtain ⟨n', rfl, hn⟩ := alike_some h
    obtain ⟨n, ris⟩ := y
    unfold removeStep
    dsimp only
    by_cases hv : v = uid
    · rw [if_pos hv, if_pos hv]
      exact ⟨hn, rfl⟩
    · rw [if_neg hv, if_neg hv]
      cases HMap.get ns v with
      | none => trivial
      | some vn =>
        dsimp only
        have key : EndsAlike (if inc = true then removeEdge ident n vn u else removeEdge ident n u vn) (if inc = true then removeEdge ident n' vn u else removeEdge ident n' u vn) := by
          cases inc
          · exact removeEdge_same ident hn u vn
          · exact removeEdge_same ident hn vn u
        generalize (if inc = true then removeEdge ident n vn u else removeEdge ident n u vn) = y at key ⊢
        generalize (if inc = true then removeEdge ident n' vn u else removeEdge ident n' u vn) = y' at key ⊢
        cases y with
        | none =>
          rw [alike_none key]
          trivial
        | some z =>
          obtain ⟨m', rfl, hm⟩ := alike_some key
          obtain ⟨m, r⟩ := z
          cases r with
          | none => exact ⟨hm, rfl⟩
          | some e => exact ⟨hm, rfl⟩

theorem removeFold_same (ident : O → K) (inc : Bool) (ns : HMap Nat O) (uid : Nat) (u : O) (ks : List Nat) : ∀ {x x' : Option (Net K O L W × List (Edge L W))}, EndsAlike x x' →
    EndsAlike (ks.foldl (removeStep ident inc ns uid u) x) (ks.foldl (removeStep ident inc ns uid u) x') := by
  induction ks with
  | nil => exact fun h => h
  | cons k ks ih => exact fun h => ih (removeStep_same ident inc ns uid u h k)

theorem removeEdgesOf_same (ident : O → K) (inc : Bool) {n n' : Net K O L W} (h : SameLists n n') (u : O) :
    EndsAlike (removeEdgesOf ident inc n u) (removeEdgesOf ident inc n' u) := by
  unfold removeEdgesOf
  rw [h.readIds, h.nodes]
  cases HMap.get n.r.nodes2id (ident u) with
  | none => exact ⟨h, rfl⟩
  | some uid =>
    dsimp only
    have key := removeFold_same ident inc n.w.id2nodes uid u (HMap.keys n.w.id2nodes) (x := some (n, [])) (x' := some (n', [])) ⟨h, rfl⟩
    generalize (HMap.keys n.w.id2nodes).foldl (removeStep ident inc n.w.id2nodes uid u) (some (n, [])) = y at key ⊢
    generalize (HMap.keys n.w.id2nodes).foldl (removeStep ident inc n.w.id2nodes uid u) (some (n', [])) = y' at key ⊢
    cases y with
    | none =>
      rw [alike_none key]
      trivial
    | some z =>
      obtain ⟨m', rfl, hm⟩ := alike_some key
      exact ⟨hm, rfl⟩

theorem remove_same {m m' : EdgeMap L W} (h : ∀ k, HMap.get m' k = HMap.get m k) (a k : Nat) :
    HMap.get (HMap.remove m' a).1 k = HMap.get (HMap.remove m a).1 k := by
  rw [HMap.get_remove, HMap.get_remove, h]

theorem removeNode_same (ident : O → K) {n n' : Net K O L W} (h : SameLists n n') (u : O) : EndsAlike (removeNode ident n u) (removeNode ident n' u) := by
  unfold removeNode
  rw [h.ids]
  cases HMap.get n.w.nodes2id (ident u) with
  | none => exact ⟨h, rfl⟩
  | some uid =>
    dsimp only
    have key := removeEdgesOf_same ident false h u
    generalize removeEdgesOf ident false n u = y at key ⊢
    generalize removeEdgesOf ident false n' u = y' at key ⊢
    cases y with
    | none =>
      rw [alike_none key]
      trivial
    | some z =>
      obtain ⟨m', rfl, hm⟩ := alike_some key
      obtain ⟨m, r⟩ := z
      cases r with
      | none => exact ⟨hm, rfl⟩
      | some es =>
        dsimp only
        have hd : SameLists (dropList m uid) (dropList m' uid) :=
          ⟨hm.direct, hm.readIds, hm.readNodes, hm.readEdges, hm.ids, hm.nodes, remove_same hm.edges uid⟩
        have key2 := removeEdgesOf_same ident true hd u
        generalize removeEdgesOf ident true (dropList m uid) u = y at key2 ⊢
        generalize removeEdgesOf ident true (dropList m' uid) u = y' at key2 ⊢
        cases y with
        | none =>
          rw [alike_none key2]
          trivial
        | some z =>
          obtain ⟨m2', rfl, hm2⟩ := alike_some key2
          obtain ⟨m2, r⟩ := z
          cases r with
          | none => exact ⟨hm2, rfl⟩
          | some es =>
            refine ⟨⟨hm2.direct, hm2.readIds, hm2.readNodes, hm2.readEdges, ?_, ?_, remove_same hm2.edges uid⟩, rfl⟩
            · dsimp only
              rw [hm2.ids]
            · dsimp only
              rw [hm2.nodes]

theorem addEdge_lists (ident : O → K) {n n' : Net K O L W} (h : SameLists n n') (u v : O) (o : EdgeOptions L W) :
    SameLists (addEdge ident n u v o).1 (addEdge ident n' u v o).1 := by
  unfold addEdge
  rw [h.ids, h.direct]
  cases HMap.get n.w.nodes2id (ident u) with
  | none => exact h
  | some uid =>
    dsimp only
    cases HMap.get n.w.nodes2id (ident v) with
    | none => exact h
    | some vid =>
      dsimp only
      cases n.direct with
      | true => exact ⟨rfl, h.readIds, h.readNodes, h.readEdges, h.ids, h.nodes, pushEdge_same h.edges _ _⟩
      | false => exact ⟨rfl, h.readIds, h.readNodes, h.readEdges, h.ids, h.nodes, pushEdge_same (pushEdge_same h.edges _ _) _ _⟩

/-- Both panic, or neither does and the networks agree. -/
def EndsAlikeNets (x x' : Option (Net K O L W)) : Prop :=
  match x, x' with
  | none, none => True
  | some y, some y' => SameLists y y'
  | _, _ => False

theorem alike_fst {A : Type} {x x' : Option (Net K O L W × A)} (h : EndsAlike x x') : EndsAlikeNets (x.map Prod.fst) (x'.map Prod.fst) := by
  cases x with
  | none =>
    rw [alike_none h]
    trivial
  | some y =>
    obtain ⟨n', rfl, hn⟩ := alike_some h
    exact hn

theorem exec_same (ident : O → K) {n n' : Net K O L W} (h : SameLists n n') (op : Op O L W) : EndsAlikeNets (exec ident n op) (exec ident n' op) := by
  cases op with
  | addNode u =>
    refine ⟨h.direct, h.readIds, h.readNodes, h.readEdges, ?_, ?_, fun k => ?_⟩
    · unfold addNode
      dsimp only
      rw [h.ids]
    · unfold addNode
      dsimp only
      rw [h.nodes, h.ids]
    · unfold addNode
      dsimp only
      rw [h.ids, get_ensureList, get_ensureList, h.edges, h.edges]
  | addEdge u v o => exact addEdge_lists ident h u v o
  | removeEdge u v => exact alike_fst (removeEdge_same ident h u v)
  | removeIncoming u => exact alike_fst (removeEdgesOf_same ident true h u)
  | removeOutgoing u => exact alike_fst (removeEdgesOf_same ident false h u)
  | removeNode u => exact alike_fst (removeNode_same ident h u)
  | removeAllEdges => exact ⟨h.direct, h.readIds, h.readNodes, h.readEdges, h.ids, h.nodes, fun _ => rfl⟩
  | updateNode u =>
    show SameLists (updateNode ident n u) (updateNode ident n' u)
    unfold updateNode
    rw [h.ids]
    cases HMap.get n.w.nodes2id (ident u) with
    | none => exact h
    | some uid =>
      refine ⟨h.direct, h.readIds, h.readNodes, h.readEdges, h.ids, ?_, h.edges⟩
      dsimp only
      rw [h.nodes]
  | update => exact ⟨h.direct, h.ids, h.nodes, h.edges, h.ids, h.nodes, h.edges⟩
  | lazyUpdate => exact ⟨h.direct, h.ids, h.nodes, h.edges, h.ids, h.nodes, h.edges⟩

/-! ### Naming the other end first -/

theorem addEdge_swapped (ident : O → K) {n : Net K O L W} (hd : n.direct = false) (u v : O) (o : EdgeOptions L W) :
    SameLists (addEdge ident n u v o).1 (addEdge ident n v u o).1 ∧ (addEdge ident n v u o).2 = (addEdge ident n u v o).2 := by
  unfold addEdge
  cases hu : HMap.get n.w.nodes2id (ident u) with
  | none =>
    cases hv : HMap.get n.w.nodes2id (ident v) with
    | none => exact ⟨SameLists.refl n, rfl⟩
    | some vid => exact ⟨SameLists.refl n, rfl⟩
  | some uid =>
    cases hv : HMap.get n.w.nodes2id (ident v) with
    | none => exact ⟨SameLists.refl n, rfl⟩
    | some vid =>
      dsimp only
      rw [hd]
      refine ⟨⟨rfl, rfl, rfl, fun _ => rfl, rfl, rfl, fun k => ?_⟩, rfl⟩
      show HMap.get (pushEdge (pushEdge n.w.edges vid (Edge.new vid uid o)) uid (Edge.new uid vid o)) k =
        HMap.get (pushEdge (pushEdge n.w.edges uid (Edge.new uid vid o)) vid (Edge.new vid uid o)) k
      by_cases h : uid = vid
      · rw [h]
      · rw [get_pushEdge, get_pushEdge, get_pushEdge, get_pushEdge, get_pushEdge, get_pushEdge]
        have h' : ¬ vid = uid := fun e => h e.symm
        by_cases h1 : k = uid
        · have h2 : ¬ k = vid := fun e => h (h1.symm.trans e)
          simp only [h1, h, h', if_true, if_false]
        · by_cases h2 : k = vid
          · simp only [h2, h, h', if_true, if_false]
          · simp only [h1, h2, if_false]

theorem between_swap (a b : Nat) (e : Edge L W) : between b a e = between a b e := by
  unfold between
  exact Bool.or_comm _ _

theorem removeEdge_swapped (ident : O → K) {n : Net K O L W} (hd : n.direct = false) (u v : O) (h : AtMostOne ident n u v) :
    ∃ m m' r, removeEdge ident n u v = some (m, r) ∧ removeEdge ident n v u = some (m', r.map Edge.mirror) ∧ SameLists m m' := by
  unfold removeEdge
  cases hu : HMap.get n.r.nodes2id (ident u) with
  | none =>
    cases hv : HMap.get n.r.nodes2id (ident v) with
    | none => exact ⟨n, n, none, rfl, rfl, SameLists.refl n⟩
    | some vid => exact ⟨n, n, none, rfl, rfl, SameLists.refl n⟩
  | some uid =>
    cases hv : HMap.get n.r.nodes2id (ident v) with
    | none => exact ⟨n, n, none, rfl, rfl, SameLists.refl n⟩
    | some vid =>
      obtain ⟨us, vs, h1, h2, h3, h4, h5⟩ := h uid vid hu hv
      have h3' : us.countP (between uid vid) ≤ 1 := h3
      have h5' : vs.countP (between uid vid) ≤ 1 := h5
      have hb : (between vid uid : Edge L W → Bool) = between uid vid := funext (between_swap uid vid)
      have h4' : vs.find? (between uid vid) = (us.find? (between uid vid)).map Edge.mirror := by
        have : vs.find? (between vid uid) = (us.find? (between uid vid)).map Edge.mirror := h4
        rwa [hb] at this
      dsimp only
      unfold removeEdgeIds
      rw [h1, h2, hd, hb]
      dsimp only
      rw [h4']
      cases hf : us.find? (between uid vid) with
      | none => exact ⟨n, n, none, by cases n; cases hd; rfl, by simp only [Option.map_none]; cases n; cases hd; rfl, SameLists.refl n⟩
      | some e =>
        simp only [Option.map_some, Bool.false_eq_true, if_false]
        refine ⟨_, _, some e, rfl, rfl, rfl, rfl, rfl, fun _ => rfl, rfl, rfl, fun k => ?_⟩
        dsimp only
        simp only [HMap.get_adjustBy]
        by_cases e1 : k = uid
        · subst e1
          by_cases e2 : k = vid
          · subst e2
            simp only [if_true]
          · simp only [e2, if_true, if_false, h1, Option.map_some]
            rw [eraseP_eq_filter h3']
        · by_cases e2 : k = vid
          · subst e2
            simp only [e1, if_true, if_false, h2, Option.map_some]
            rw [eraseP_eq_filter h5']
          · simp only [e1, e2, if_false]

/-! ### C270 -/

theorem exec_swapped (ident : O → K) {n n' : Net K O L W} (hd : n.direct = false) (h : SameLists n n') {op op' : Op O L W} (hs : EndsSwapped ident n op op') :
    EndsAlikeNets (exec ident n op) (exec ident n' op') := by
  cases hs with
  | same => exact exec_same ident h op
  | add u v o =>
    have h1 := (addEdge_swapped ident hd u v o).1
    have h2 := addEdge_lists ident h v u o
    exact ⟨h2.direct.trans h1.direct, h2.readIds.trans h1.readIds, h2.readNodes.trans h1.readNodes, fun k => (h2.readEdges k).trans (h1.readEdges k),
      h2.ids.trans h1.ids, h2.nodes.trans h1.nodes, fun k => (h2.edges k).trans (h1.edges k)⟩
  | remove u v ho =>
    obtain ⟨m, m', r, e1, e2, h1⟩ := removeEdge_swapped ident hd u v ho
    have h2 := removeEdge_same ident h v u
    rw [e2] at h2
    obtain ⟨m2, e3, h3⟩ := alike_some h2
    show EndsAlikeNets ((removeEdge ident n u v).map Prod.fst) ((removeEdge ident n' v u).map Prod.fst)
    rw [e1, e3]
    exact ⟨h3.direct.trans h1.direct, h3.readIds.trans h1.readIds, h3.readNodes.trans h1.readNodes, fun k => (h3.readEdges k).trans (h1.readEdges k),
      h3.ids.trans h1.ids, h3.nodes.trans h1.nodes, fun k => (h3.edges k).trans (h1.edges k)⟩

theorem direct_exec (ident : O → K) {n n' : Net K O L W} {op : Op O L W} (h : exec ident n op = some n') : n'.direct = n.direct := by
  cases op with
  | addNode u => cases h; rfl
  | addEdge u v o =>
    cases h
    unfold addEdge
    cases HMap.get n.w.nodes2id (ident u) with
    | none => rfl
    | some uid =>
      cases HMap.get n.w.nodes2id (ident v) with
      | none => rfl
      | some vid =>
        dsimp only
        cases n.direct <;> rfl
  | removeEdge u v =>
    obtain ⟨x, hx, rfl⟩ := Option.map_eq_some_iff.1 h
    exact (removeEdge_frame hx).direct
  | removeIncoming u =>
    obtain ⟨x, hx, rfl⟩ := Option.map_eq_some_iff.1 h
    exact (removeEdgesOf_frame hx).direct
  | removeOutgoing u =>
    obtain ⟨x, hx, rfl⟩ := Option.map_eq_some_iff.1 h
    exact (removeEdgesOf_frame hx).direct
  | removeNode u =>
    obtain ⟨x, hx, rfl⟩ := Option.map_eq_some_iff.1 h
    exact (removeNode_r hx).2
  | removeAllEdges => cases h; rfl
  | updateNode u =>
    cases h
    unfold updateNode
    cases HMap.get n.w.nodes2id (ident u) <;> rfl
  | update => cases h; rfl
  | lazyUpdate => cases h; rfl

theorem run_swapped (ident : O → K) {n : Net K O L W} {ops ops' : List (Op O L W)} (hs : ProgramsSwapped ident n ops ops') : ∀ {n' : Net K O L W},
    n.direct = false → SameLists n n' → EndsAlikeNets (run ident n ops) (run ident n' ops') := by
  induction hs with
  | nil n => exact fun _ h => h
  | @cons n op op' ops ops' h1 h2 ih =>
    intro n' hd h
    have key := exec_swapped ident hd h h1
    unfold run
    cases hx : exec ident n op with
    | none =>
      rw [hx] at key
      cases hx' : exec ident n' op' with
      | none => trivial
      | some m' =>
        rw [hx'] at key
        exact key.elim
    | some m =>
      rw [hx] at key
      cases hx' : exec ident n' op' with
      | none =>
        rw [hx'] at key
        exact key.elim
      | some m' =>
        rw [hx'] at key
        exact ih m hx ((direct_exec ident hx).trans hd) key

/-- **C270.** (Partial: an edge is removed with its ends swapped only where there is at most one edge between the two nodes.) Two programs on an undirected
network that differ only in which end of an edge they name first both panic or both run, and the networks then give the same answers to all questions. -/
theorem C270_ends_partial (ident : O → K) {ops ops' : List (Op O L W)} (hs : ProgramsSwapped ident (Net.new false) ops ops') :
    (run ident (Net.new false : Net K O L W) ops = none ∧ run ident (Net.new false : Net K O L W) ops' = none) ∨
    ∃ n n', run ident (Net.new false) ops = some n ∧ run ident (Net.new false) ops' = some n' ∧ (∀ u, getEdges ident n' u = getEdges ident n u) ∧
      (∀ u v, getEdge ident n' u v = getEdge ident n u v) ∧ (∀ i, getObject n' i = getObject n i) ∧ (∀ u, getId ident n' u = getId ident n u) ∧
      ∀ u v, (removeEdge ident n' u v).map Prod.snd = (removeEdge ident n u v).map Prod.snd := by
  have key := run_swapped ident hs rfl (SameLists.refl _)
  cases hx : run ident (Net.new false) ops with
  | none =>
    rw [hx] at key
    cases hx' : run ident (Net.new false) ops' with
    | none => exact Or.inl ⟨rfl, rfl⟩
    | some m' =>
      rw [hx'] at key
      exact key.elim
  | some n =>
    rw [hx] at key
    cases hx' : run ident (Net.new false) ops' with
    | none =>
      rw [hx'] at key
      exact key.elim
    | some n' =>
      rw [hx'] at key
      have h : SameLists n n' := key
      refine Or.inr ⟨n, n', rfl, rfl, fun u => ?_, fun u v => ?_, fun i => ?_, fun u => ?_, fun u v => ?_⟩
      · unfold getEdges
        rw [h.readIds]
        cases HMap.get n.r.nodes2id (ident u) with
        | none => rfl
        | some uid => exact h.readEdges uid
      · have hscan : ∀ uid vid es, scanEdge ident n'.r n'.direct uid vid es = scanEdge ident n.r n.direct uid vid es := by
          intro uid vid es
          induction es with
          | nil => rfl
          | cons e es ih =>
            unfold scanEdge
            rw [ih, h.readNodes, h.readIds, h.direct]
        unfold getEdge
        rw [h.readIds]
        cases HMap.get n.r.nodes2id (ident u) with
        | none => rfl
        | some uid =>
          dsimp only
          rw [h.readEdges]
          cases HMap.get n.r.edges uid with
          | none => rfl
          | some es =>
            dsimp only
            cases HMap.get n.r.nodes2id (ident v) with
            | none => rfl
            | some vid => exact hscan uid vid es
      · unfold getObject
        rw [h.readNodes]
      · unfold getId
        rw [h.readIds]
      · have := removeEdge_same ident h u v
        cases hr : removeEdge ident n u v with
        | none =>
          rw [hr] at this
          rw [alike_none this]
        | some x =>
          rw [hr] at this
          obtain ⟨m', e, _⟩ := alike_some this
          rw [e]
          rfl

/-- **C270**, the calls themselves: `add_edge` gives the same answer for both orders, and `remove_edge` gives back the same edge, seen from the end that is
named first. -/
theorem C270_answers_partial (ident : O → K) {n : Net K O L W} (hd : n.direct = false) (u v : O) :
    (∀ o, (addEdge ident n v u o).2 = (addEdge ident n u v o).2) ∧
    (AtMostOne ident n u v → ∃ r, (removeEdge ident n u v).map Prod.snd = some r ∧ (removeEdge ident n v u).map Prod.snd = some (r.map Edge.mirror)) := by
  refine ⟨fun o => (addEdge_swapped ident hd u v o).2, fun h => ?_⟩
  obtain ⟨m, m', r, e1, e2, _⟩ := removeEdge_swapped ident hd u v h
  exact ⟨r, by rw [e1]; rfl, by rw [e2]; rfl⟩

/-- **C270** is false with two edges between the same nodes: `remove_edge(5, 6)` leaves 5 with one edge and 6 with none, `remove_edge(6, 5)` the other way round. -/
theorem C270_two_edges_negation_partial :
    (run id (Net.new false : Net Nat Nat Nat Nat) [.addNode 5, .addNode 6, .addEdge 5 6 .simple, .addEdge 5 6 .simple, .update, .removeEdge 5 6, .update]).map
      (fun n => ((getEdges id n 5).map List.length, (getEdges id n 6).map List.length)) = some (some 1, some 0) ∧
    (run id (Net.new false : Net Nat Nat Nat Nat) [.addNode 5, .addNode 6, .addEdge 5 6 .simple, .addEdge 5 6 .simple, .update, .removeEdge 6 5, .update]).map
      (fun n => ((getEdges id n 5).map List.length, (getEdges id n 6).map List.length)) = some (some 0, some 1) := by
  decide +kernel

/-- The hypotheses hold of programs that add and remove edges. -/
example : ProgramsSwapped id (Net.new false : Net Nat Nat Nat Nat)
    [.addNode 5, .addNode 6, .addEdge 5 6 (.labeled 1), .update, .removeEdge 5 6, .addEdge 5 5 .simple]
    [.addNode 5, .addNode 6, .addEdge 6 5 (.labeled 1), .update, .removeEdge 6 5, .addEdge 5 5 .simple] := by
  refine .cons (.same _) (fun _ h => ?_)
  cases h
  refine .cons (.same _) (fun _ h => ?_)
  cases h
  refine .cons (.add 5 6 _) (fun _ h => ?_)
  cases h
  refine .cons (.same _) (fun _ h => ?_)
  cases h
  refine .cons (.remove 5 6 ?_) (fun _ h => .cons (.same _) (fun _ _ => .nil _))
  intro a b h1 h2
  cases h1
  cases h2
  exact ⟨_, _, rfl, rfl, by decide, by decide, by decide⟩

/-- Networks without and with one edge between two nodes, and what removing it gives back. -/
example : (run id (Net.new false : Net Nat Nat Nat Nat) [.addNode 5, .addNode 6, .addEdge 6 5 (.labeled 1), .update]).bind
      (fun n => (removeEdge id n 5 6).map Prod.snd) = some (some ⟨0, 1, some 1, none⟩) := by
  decide +kernel

end Verif.Network
