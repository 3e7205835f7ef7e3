import Verif.Spec.Network
import Verif.Lemmas.HashMap
import Mathlib.Data.List.Basic

/-! Lemmas about the network model: the maps after each call. -/

set_option linter.unusedSectionVars false

namespace Verif.Network

variable {K O L W : Type} [DecidableEq K]

theorem get_pushEdge (m : EdgeMap L W) (k i : Nat) (e : Edge L W) :
    HMap.get (pushEdge m k e) i = if i = k then some ((HMap.get m k).getD [] ++ [e]) else HMap.get m i := by
  unfold pushEdge
  cases h : HMap.get m k with
  | none => simp
  | some es => simp [HMap.get_adjustBy, h]

theorem get_ensureList (m : EdgeMap L W) (k i : Nat) :
    HMap.get (ensureList m k) i = if i = k then some ((HMap.get m k).getD []) else HMap.get m i := by
  unfold ensureList
  cases h : HMap.get m k with
  | none => simp
  | some es =>
    by_cases hi : i = k
    · subst hi; simp [h]
    · simp [hi]

/-- Every list of `m'` is a sublist of the one in `m`, and the same ids have lists. -/
def Shrinks (m m' : EdgeMap L W) : Prop :=
  ∀ i, (HMap.get m i = none → HMap.get m' i = none) ∧
    ∀ es, HMap.get m i = some es → ∃ es', HMap.get m' i = some es' ∧ es'.Sublist es

theorem Shrinks.refl (m : EdgeMap L W) : Shrinks m m := fun _ => ⟨id, fun es h => ⟨es, h, List.Sublist.refl _⟩⟩

theorem Shrinks.trans {m m' m'' : EdgeMap L W} (h : Shrinks m m') (h' : Shrinks m' m'') : Shrinks m m'' := by
  intro i
  refine ⟨fun hn => (h' i).1 ((h i).1 hn), ?_⟩
  intro es he
  obtain ⟨es', h1, h2⟩ := (h i).2 es he
  obtain ⟨es'', h3, h4⟩ := (h' i).2 es' h1
  exact ⟨es'', h3, h4.trans h2⟩

theorem Shrinks.adjust (m : EdgeMap L W) (k : Nat) (f : List (Edge L W) → List (Edge L W))
    (hf : ∀ es, (f es).Sublist es) : Shrinks m (HMap.adjust m k f) := by
  intro i
  rw [HMap.get_adjustBy]
  by_cases h : i = k
  · subst h
    refine ⟨fun hn => by simp [hn], ?_⟩
    intro es he
    exact ⟨f es, by simp [he], hf es⟩
  · refine ⟨fun hn => by simp [h, hn], ?_⟩
    intro es he
    exact ⟨es, by simp [h, he], List.Sublist.refl _⟩

theorem removeEdgeIds_shrinks {d : Bool} {m m' : EdgeMap L W} {a b : Nat} {r : Option (Edge L W)}
    (h : removeEdgeIds d m a b = some (m', r)) : Shrinks m m' := by
  unfold removeEdgeIds at h
  cases hu : HMap.get m a with
  | none => rw [hu] at h; simp at h
  | some ues =>
    rw [hu] at h
    dsimp only at h
    cases hf : ues.find? (between a b) with
    | none => rw [hf] at h; simp at h; rw [← h.1]; exact Shrinks.refl _
    | some e =>
      rw [hf] at h
      dsimp only at h
      cases d with
      | true =>
        simp at h
        rw [← h.1]
        exact Shrinks.adjust _ _ _ (fun es => List.eraseP_sublist)
      | false =>
        simp only [Bool.false_eq_true, if_false] at h
        cases hv : HMap.get m b with
        | none => rw [hv] at h; simp at h
        | some ves =>
          rw [hv] at h
          simp at h
          rw [← h.1]
          exact (Shrinks.adjust _ _ _ (fun es => List.eraseP_sublist)).trans
            (Shrinks.adjust _ _ _ (fun es => List.filter_sublist))

/-- Only lists of the write side changed, and they only lost edges. -/
structure Frame (n n' : Net K O L W) : Prop where
  r : n'.r = n.r
  direct : n'.direct = n.direct
  nodes2id : n'.w.nodes2id = n.w.nodes2id
  id2nodes : n'.w.id2nodes = n.w.id2nodes
  edges : Shrinks n.w.edges n'.w.edges

theorem Frame.refl (n : Net K O L W) : Frame n n := ⟨rfl, rfl, rfl, rfl, Shrinks.refl _⟩

theorem Frame.trans {n n' n'' : Net K O L W} (h : Frame n n') (h' : Frame n' n'') : Frame n n'' :=
  ⟨h'.r.trans h.r, h'.direct.trans h.direct, h'.nodes2id.trans h.nodes2id, h'.id2nodes.trans h.id2nodes,
    h.edges.trans h'.edges⟩

theorem removeEdge_frame {ident : O → K} {n n' : Net K O L W} {u v : O} {r : Option (Edge L W)}
    (h : removeEdge ident n u v = some (n', r)) : Frame n n' := by
  unfold removeEdge at h
  cases hu : HMap.get n.r.nodes2id (ident u) with
  | none => rw [hu] at h; simp at h; rw [← h.1]; exact Frame.refl _
  | some uid =>
    rw [hu] at h
    dsimp only at h
    cases hv : HMap.get n.r.nodes2id (ident v) with
    | none => rw [hv] at h; simp at h; rw [← h.1]; exact Frame.refl _
    | some vid =>
      rw [hv] at h
      dsimp only at h
      cases hx : removeEdgeIds n.direct n.w.edges uid vid with
      | none => rw [hx] at h; simp at h
      | some x =>
        rw [hx] at h
        simp at h
        rw [← h.1]
        exact ⟨rfl, rfl, rfl, rfl, removeEdgeIds_shrinks (by rw [hx])⟩

theorem removeStep_frame {ident : O → K} {inc : Bool} {ns : HMap Nat O} {uid : Nat} {u : O} {n n' : Net K O L W}
    {l l' : List (Edge L W)} {v : Nat} (h : removeStep ident inc ns uid u (some (n, l)) v = some (n', l')) :
    Frame n n' := by
  unfold removeStep at h
  dsimp only at h
  by_cases hv : v = uid
  · rw [if_pos hv] at h; simp at h; rw [← h.1]; exact Frame.refl _
  · rw [if_neg hv] at h
    cases hg : HMap.get ns v with
    | none => rw [hg] at h; simp at h
    | some o =>
      rw [hg] at h
      dsimp only at h
      cases hr : (if inc = true then removeEdge ident n o u else removeEdge ident n u o) with
      | none => rw [hr] at h; simp at h
      | some x =>
        obtain ⟨n1, r⟩ := x
        have hf : Frame n n1 := by
          cases inc with
          | true => exact removeEdge_frame (by simpa using hr)
          | false => exact removeEdge_frame (by simpa using hr)
        rw [hr] at h
        cases r with
        | none => simp at h; rw [← h.1]; exact hf
        | some e => simp at h; rw [← h.1]; exact hf

theorem foldl_removeStep_none {ident : O → K} {inc : Bool} {ns : HMap Nat O} {uid : Nat} {u : O} (ks : List Nat) :
    ks.foldl (removeStep (L := L) (W := W) ident inc ns uid u) none = none := by
  induction ks with
  | nil => rfl
  | cons k ks ih => exact ih

theorem foldl_removeStep_frame {ident : O → K} {inc : Bool} {ns : HMap Nat O} {uid : Nat} {u : O} (ks : List Nat) :
    ∀ {n n' : Net K O L W} {l l' : List (Edge L W)},
      ks.foldl (removeStep ident inc ns uid u) (some (n, l)) = some (n', l') → Frame n n' := by
  induction ks with
  | nil => intro n n' l l' h; simp at h; rw [← h.1]; exact Frame.refl _
  | cons k ks ih =>
    intro n n' l l' h
    rw [List.foldl_cons] at h
    cases hs : removeStep ident inc ns uid u (some (n, l)) k with
    | none => rw [hs, foldl_removeStep_none] at h; simp at h
    | some x =>
      obtain ⟨n1, l1⟩ := x
      rw [hs] at h
      exact (removeStep_frame hs).trans (ih h)

theorem removeEdgesOf_frame {ident : O → K} {inc : Bool} {n n' : Net K O L W} {u : O}
    {r : Option (List (Edge L W))} (h : removeEdgesOf ident inc n u = some (n', r)) : Frame n n' := by
  unfold removeEdgesOf at h
  cases hu : HMap.get n.r.nodes2id (ident u) with
  | none => rw [hu] at h; simp at h; rw [← h.1]; exact Frame.refl _
  | some uid =>
    rw [hu] at h
    dsimp only at h
    cases hf : (HMap.keys n.w.id2nodes).foldl (removeStep ident inc n.w.id2nodes uid u) (some (n, [])) with
    | none => rw [hf] at h; simp at h
    | some x =>
      obtain ⟨n1, l⟩ := x
      rw [hf] at h
      simp at h
      rw [← h.1]
      exact foldl_removeStep_frame _ hf

theorem removeNode_r {ident : O → K} {n n' : Net K O L W} {u : O} {b : Bool}
    (h : removeNode ident n u = some (n', b)) : n'.r = n.r ∧ n'.direct = n.direct := by
  unfold removeNode at h
  cases hu : HMap.get n.w.nodes2id (ident u) with
  | none => rw [hu] at h; simp at h; rw [← h.1]; exact ⟨rfl, rfl⟩
  | some uid =>
    rw [hu] at h
    dsimp only at h
    cases h1 : removeEdgesOf ident false n u with
    | none => rw [h1] at h; simp at h
    | some x =>
      obtain ⟨n1, r1⟩ := x
      have f1 := removeEdgesOf_frame h1
      rw [h1] at h
      cases r1 with
      | none => simp at h; rw [← h.1]; exact ⟨f1.r, f1.direct⟩
      | some l1 =>
        dsimp only at h
        cases h2 : removeEdgesOf ident true (dropList n1 uid) u with
        | none => rw [h2] at h; simp at h
        | some x =>
          obtain ⟨n2, r2⟩ := x
          have f2 := removeEdgesOf_frame h2
          have e : n2.r = n.r ∧ n2.direct = n.direct := ⟨f2.r.trans f1.r, f2.direct.trans f1.direct⟩
          rw [h2] at h
          cases r2 with
          | none => simp at h; rw [← h.1]; exact e
          | some l2 => simp at h; rw [← h.1]; exact e

theorem addEdge_r (ident : O → K) (n : Net K O L W) (u v : O) (o : EdgeOptions L W) :
    (addEdge ident n u v o).1.r = n.r ∧ (addEdge ident n u v o).1.direct = n.direct := by
  unfold addEdge
  cases HMap.get n.w.nodes2id (ident u) with
  | none => exact ⟨rfl, rfl⟩
  | some uid =>
    dsimp only
    cases HMap.get n.w.nodes2id (ident v) with
    | none => exact ⟨rfl, rfl⟩
    | some vid =>
      dsimp only
      split <;> exact ⟨rfl, rfl⟩

theorem updateNode_r (ident : O → K) (n : Net K O L W) (u : O) :
    (updateNode ident n u).r = n.r ∧ (updateNode ident n u).direct = n.direct := by
  unfold updateNode
  cases HMap.get n.w.nodes2id (ident u) <;> exact ⟨rfl, rfl⟩

/-- A call that does not publish leaves the read side alone. -/
theorem exec_r {ident : O → K} {n n' : Net K O L W} {op : Op O L W} (hop : op.isWrite = true)
    (h : exec ident n op = some n') : n'.r = n.r ∧ n'.direct = n.direct := by
  cases op with
  | addNode u => simp [exec] at h; rw [← h]; exact ⟨rfl, rfl⟩
  | addEdge u v o => simp [exec] at h; rw [← h]; exact addEdge_r ..
  | removeEdge u v =>
    simp [exec] at h
    obtain ⟨r, hr⟩ := h
    have f := removeEdge_frame hr
    exact ⟨f.r, f.direct⟩
  | removeIncoming u =>
    simp [exec] at h
    obtain ⟨r, hr⟩ := h
    have f := removeEdgesOf_frame hr
    exact ⟨f.r, f.direct⟩
  | removeOutgoing u =>
    simp [exec] at h
    obtain ⟨r, hr⟩ := h
    have f := removeEdgesOf_frame hr
    exact ⟨f.r, f.direct⟩
  | removeNode u =>
    obtain ⟨⟨n1, b⟩, hr, rfl⟩ := Option.map_eq_some_iff.1 h
    exact removeNode_r hr
  | removeAllEdges => simp [exec] at h; rw [← h]; exact ⟨rfl, rfl⟩
  | updateNode u => simp [exec] at h; rw [← h]; exact updateNode_r ..
  | update => simp [Op.isWrite] at hop
  | lazyUpdate => simp [Op.isWrite] at hop

theorem run_r {ident : O → K} (ops : List (Op O L W)) : ∀ {n n' : Net K O L W},
    (∀ op ∈ ops, op.isWrite = true) → run ident n ops = some n' → n'.r = n.r ∧ n'.direct = n.direct := by
  induction ops with
  | nil => intro n n' _ h; simp [run] at h; rw [← h]; exact ⟨rfl, rfl⟩
  | cons op ops ih =>
    intro n n' hops h
    rw [run] at h
    cases he : exec ident n op with
    | none => rw [he] at h; simp at h
    | some n1 =>
      rw [he] at h
      have h1 := exec_r (hops op (by simp)) he
      have h2 := ih (fun o ho => hops o (List.mem_cons_of_mem _ ho)) h
      exact ⟨h2.1.trans h1.1, h2.2.trans h1.2⟩

theorem run_append {ident : O → K} (ops ops' : List (Op O L W)) : ∀ n : Net K O L W,
    run ident n (ops ++ ops') = (run ident n ops).bind (fun n' => run ident n' ops') := by
  induction ops with
  | nil => intro n; rfl
  | cons op ops ih =>
    intro n
    rw [List.cons_append, run, run]
    cases exec ident n op with
    | none => rfl
    | some n1 => exact ih n1

/-! ### Lists -/

theorem between_own {a b : Nat} {e : Edge L W} (h : e.u = a) : between a b e = (e.v == b) := by
  unfold between
  subst h
  by_cases hb : e.u = b
  · subst hb; simp
  · simp [hb]

theorem between_own' {a b : Nat} {e : Edge L W} (h : e.u = b) : between a b e = (e.v == a) := by
  unfold between
  subst h
  by_cases hb : e.u = a
  · subst hb; simp
  · simp [hb]

theorem find?_congr' {α : Type} {p q : α → Bool} {l : List α} (h : ∀ x ∈ l, p x = q x) : l.find? p = l.find? q := by
  induction l with
  | nil => rfl
  | cons x l ih =>
    rw [List.find?_cons, List.find?_cons, h x (by simp), ih (fun y hy => h y (List.mem_cons_of_mem _ hy))]

theorem eraseP_congr' {α : Type} {p q : α → Bool} {l : List α} (h : ∀ x ∈ l, p x = q x) : l.eraseP p = l.eraseP q := by
  induction l with
  | nil => rfl
  | cons x l ih =>
    rw [List.eraseP_cons, List.eraseP_cons, h x (by simp), ih (fun y hy => h y (List.mem_cons_of_mem _ hy))]

theorem eraseP_eq_filter {α : Type} {p : α → Bool} {l : List α} (h : l.countP p ≤ 1) :
    l.eraseP p = l.filter (fun x => !p x) := by
  induction l with
  | nil => rfl
  | cons x l ih =>
    rw [List.eraseP_cons, List.filter_cons]
    rw [List.countP_cons] at h
    cases hp : p x with
    | true =>
      simp only [hp, if_true] at h
      have h0 : l.countP p = 0 := by omega
      simp only [Bool.not_true, Bool.false_eq_true, if_false, cond_true]
      symm
      rw [List.filter_eq_self]
      intro y hy
      rw [List.countP_eq_zero] at h0
      simpa using h0 y hy
    | false =>
      simp only [Bool.not_false, cond_false, if_true]
      rw [ih (by simp only [hp] at h; simpa using h)]

theorem countP_eraseP_other {α : Type} {p q : α → Bool} (l : List α) (h : ∀ x ∈ l, p x = true → q x = false) :
    (l.eraseP p).countP q = l.countP q := by
  induction l with
  | nil => rfl
  | cons x l ih =>
    rw [List.eraseP_cons, List.countP_cons]
    cases hp : p x with
    | true => simp [h x (by simp) hp]
    | false =>
      simp only [cond_false]
      rw [List.countP_cons, ih (fun y hy => h y (List.mem_cons_of_mem _ hy))]

theorem countP_eraseP_self {α : Type} {p : α → Bool} (l : List α) :
    (l.eraseP p).countP p = l.countP p - 1 := by
  induction l with
  | nil => rfl
  | cons x l ih =>
    rw [List.eraseP_cons, List.countP_cons]
    cases hp : p x with
    | true => simp
    | false =>
      simp only [cond_false]
      rw [List.countP_cons, ih, hp]
      simp

theorem find?_isSome_countP {α : Type} {p : α → Bool} {l : List α} : l.find? p = none ↔ l.countP p = 0 := by
  rw [List.find?_eq_none, List.countP_eq_zero]

/-! ### removeEdgeIds -/

theorem removeEdgeIds_directed {m : EdgeMap L W} {a b : Nat} {ues : List (Edge L W)}
    (hu : HMap.get m a = some ues) (hown : ∀ e ∈ ues, e.u = a) :
    ∃ m', removeEdgeIds true m a b = some (m', ues.find? (fun e => e.v == b)) ∧
      ∀ i, HMap.get m' i = if i = a then some (ues.eraseP (fun e => e.v == b)) else HMap.get m i := by
  have hb : ∀ e ∈ ues, between a b e = (e.v == b) := fun e he => between_own (hown e he)
  unfold removeEdgeIds
  rw [hu]
  dsimp only
  rw [find?_congr' hb]
  cases hf : ues.find? (fun e => e.v == b) with
  | none =>
    refine ⟨m, rfl, ?_⟩
    intro i
    by_cases hi : i = a
    · rw [if_pos hi, hi, hu, List.eraseP_of_forall_not]
      rw [List.find?_eq_none] at hf
      exact hf
    · rw [if_neg hi]
  | some e =>
    refine ⟨_, rfl, ?_⟩
    intro i
    rw [HMap.get_adjustBy, hu]
    by_cases hi : i = a
    · rw [if_pos hi, if_pos hi, Option.map_some, eraseP_congr' hb]
    · rw [if_neg hi, if_neg hi]

theorem removeEdgeIds_undirected_none {m : EdgeMap L W} {a b : Nat} {ues : List (Edge L W)}
    (hu : HMap.get m a = some ues) (hown : ∀ e ∈ ues, e.u = a) (h0 : ∀ e ∈ ues, e.v ≠ b) (d : Bool) :
    removeEdgeIds d m a b = some (m, none) := by
  unfold removeEdgeIds
  rw [hu]
  dsimp only
  rw [List.find?_eq_none.2]
  intro e he
  rw [between_own (hown e he)]
  simpa using h0 e he

theorem removeEdgeIds_undirected {m : EdgeMap L W} {a b : Nat} {ues ves : List (Edge L W)} (hab : a ≠ b)
    (hu : HMap.get m a = some ues) (hv : HMap.get m b = some ves) (hown : ∀ e ∈ ues, e.u = a)
    (hown' : ∀ e ∈ ves, e.u = b) {e : Edge L W} (hf : ues.find? (fun e => e.v == b) = some e) :
    ∃ m', removeEdgeIds false m a b = some (m', some e) ∧
      ∀ i, HMap.get m' i = if i = a then some (ues.eraseP (fun e => e.v == b))
        else if i = b then some (ves.filter (fun e => !(e.v == a))) else HMap.get m i := by
  have hb : ∀ e ∈ ues, between a b e = (e.v == b) := fun e he => between_own (hown e he)
  have hb' : ∀ e ∈ ves, (!between a b e) = !(e.v == a) := fun e he => by rw [between_own' (hown' e he)]
  unfold removeEdgeIds
  rw [hu]
  dsimp only
  rw [find?_congr' hb, hf]
  simp only [Bool.false_eq_true, if_false]
  rw [hv]
  refine ⟨_, rfl, ?_⟩
  intro i
  rw [HMap.get_adjustBy, HMap.get_adjustBy, HMap.get_adjustBy, hu, hv]
  by_cases hi : i = a
  · subst hi
    rw [if_neg hab, if_pos rfl, if_pos rfl, Option.map_some, eraseP_congr' hb]
  · rw [if_neg hi]
    by_cases hib : i = b
    · rw [if_pos hib, if_pos hib, if_neg (Ne.symm hab), Option.map_some, List.filter_congr hb', if_neg hi]
    · rw [if_neg hib, if_neg hib, if_neg hi]

theorem removeEdgeIds_loop {m : EdgeMap L W} {a : Nat} {ues : List (Edge L W)}
    (hu : HMap.get m a = some ues) (hown : ∀ e ∈ ues, e.u = a)
    {e : Edge L W} (hf : ues.find? (fun e => e.v == a) = some e) :
    ∃ m', removeEdgeIds false m a a = some (m', some e) ∧
      ∀ i, HMap.get m' i = if i = a then some (ues.filter (fun e => !(e.v == a))) else HMap.get m i := by
  have hb : ∀ e ∈ ues, between a a e = (e.v == a) := fun e he => between_own (hown e he)
  unfold removeEdgeIds
  rw [hu]
  dsimp only
  rw [find?_congr' hb, hf]
  simp only [Bool.false_eq_true, if_false]
  refine ⟨_, rfl, ?_⟩
  intro i
  rw [HMap.get_adjustBy, HMap.get_adjustBy, HMap.get_adjustBy, hu]
  by_cases hi : i = a
  · rw [if_pos hi, if_pos hi, if_pos rfl, Option.map_some, Option.map_some]
    congr 1
    rw [eraseP_congr' hb, List.filter_congr (q := fun e => !(e.v == a))]
    · clear hu hown hf hb
      induction ues with
      | nil => rfl
      | cons x l ih =>
        rw [List.eraseP_cons, List.filter_cons]
        cases hx : (x.v == a) with
        | true => simp
        | false => simp only [cond_false, Bool.not_false, if_true, List.filter_cons, hx, ih]
    · intro x hx
      rw [hb x (List.mem_of_mem_eraseP hx)]
  · rw [if_neg hi, if_neg hi, if_neg hi]

/-! ### The loops of `remove_incoming_edges` and `remove_outgoing_edges` on ids -/

/-- The same loop on ids. -/
def removeLoop (d inc : Bool) (uid : Nat) : List Nat → EdgeMap L W → Option (EdgeMap L W × List (Edge L W))
  | [], m => some (m, [])
  | k :: ks, m =>
    if k = uid then removeLoop d inc uid ks m
    else
      match (if inc then removeEdgeIds d m k uid else removeEdgeIds d m uid k) with
      | none => none
      | some (m', r) => (removeLoop d inc uid ks m').map (fun x => (x.1, r.toList ++ x.2))

theorem foldl_removeStep_eq {ident : O → K} {inc : Bool} {uid : Nat} {u : O} {ns : HMap Nat O} (ks : List Nat) :
    ∀ (n : Net K O L W) (l : List (Edge L W)), HMap.get n.r.nodes2id (ident u) = some uid →
      (∀ k ∈ ks, k ≠ uid → ∃ o, HMap.get ns k = some o ∧ HMap.get n.r.nodes2id (ident o) = some k) →
      ks.foldl (removeStep ident inc ns uid u) (some (n, l)) =
        (removeLoop n.direct inc uid ks n.w.edges).map
          (fun x => ({ n with w := { n.w with edges := x.1 } }, l ++ x.2)) := by
  induction ks with
  | nil => intro n l _ _; simp [removeLoop]
  | cons k ks ih =>
    intro n l hu hks
    have hks' : ∀ k ∈ ks, k ≠ uid → ∃ o, HMap.get ns k = some o ∧ HMap.get n.r.nodes2id (ident o) = some k :=
      fun j hj => hks j (List.mem_cons_of_mem _ hj)
    rw [List.foldl_cons, removeLoop]
    by_cases hk : k = uid
    · rw [if_pos hk]
      have : removeStep ident inc ns uid u (some (n, l)) k = some (n, l) := by
        unfold removeStep; simp [hk]
      rw [this]
      exact ih n l hu hks'
    · rw [if_neg hk]
      obtain ⟨o, ho, hid⟩ := hks k (by simp) hk
      have hx : (if inc = true then removeEdge ident n o u else removeEdge ident n u o) =
          ((if inc = true then removeEdgeIds n.direct n.w.edges k uid else removeEdgeIds n.direct n.w.edges uid k).map
            (fun x => ({ n with w := { n.w with edges := x.1 } }, x.2))) := by
        cases inc with
        | true =>
          simp only [if_true]
          unfold removeEdge
          rw [hid, hu]
          dsimp only
          cases removeEdgeIds n.direct n.w.edges k uid <;> rfl
        | false =>
          simp only [Bool.false_eq_true, if_false]
          unfold removeEdge
          rw [hid, hu]
          dsimp only
          cases removeEdgeIds n.direct n.w.edges uid k <;> rfl
      have hstep : removeStep ident inc ns uid u (some (n, l)) k =
          ((if inc = true then removeEdgeIds n.direct n.w.edges k uid else removeEdgeIds n.direct n.w.edges uid k).map
            (fun x => ({ n with w := { n.w with edges := x.1 } }, l ++ x.2.toList))) := by
        unfold removeStep
        dsimp only
        rw [if_neg hk, ho]
        dsimp only
        rw [hx]
        cases (if inc = true then removeEdgeIds n.direct n.w.edges k uid else removeEdgeIds n.direct n.w.edges uid k) with
        | none => rfl
        | some x =>
          obtain ⟨m', r⟩ := x
          cases r <;> simp
      rw [hstep]
      cases hq : (if inc = true then removeEdgeIds n.direct n.w.edges k uid else removeEdgeIds n.direct n.w.edges uid k) with
      | none => simp [foldl_removeStep_none]
      | some x =>
        obtain ⟨m', r⟩ := x
        simp only [Option.map_some]
        rw [ih { n with w := { n.w with edges := m' } } (l ++ r.toList) hu hks']
        simp [Option.map_map, Function.comp_def]

end Verif.Network
