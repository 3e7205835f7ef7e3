import Verif.Spec.NetworkOrder
import Verif.Lemmas.ParNetwork3
import Verif.Lemmas.Network3

/-! Helper lemmas: calls about different pairs of nodes do not affect each other. -/

namespace Verif.Network

open Verif.ParNetwork (Good Gentle)

variable {K O L W : Type} [DecidableEq K] {ident : O → K}

theorem joins_eq (a b : Nat) : (joins a b : Edge L W → Bool) = between a b := by
  funext e
  unfold joins between
  rw [Bool.eq_iff_iff]
  simp

/-- The same unordered pair. -/
def SamePair (a b c d : Nat) : Prop := (c = a ∧ d = b) ∨ (c = b ∧ d = a)

instance (a b c d : Nat) : Decidable (SamePair a b c d) := by unfold SamePair; infer_instance

theorem between_pair {a b c d : Nat} (h : SamePair a b c d) : (between c d : Edge L W → Bool) = between a b := by
  rcases h with ⟨rfl, rfl⟩ | ⟨rfl, rfl⟩
  · rfl
  · funext e; exact between_comm _ _ e

theorem between_other {a b c d : Nat} (h : ¬ SamePair a b c d) (e : Edge L W) (he : between a b e = true) :
    between c d e = false := by
  unfold SamePair at h
  unfold between at *
  simp only [Bool.or_eq_true, Bool.and_eq_true, beq_iff_eq, Bool.or_eq_false_iff, Bool.and_eq_false_iff,
    beq_eq_false_iff_ne] at *
  omega

theorem between_new (a b c d : Nat) (o : EdgeOptions L W) :
    between a b (Edge.new c d o) = decide (SamePair a b c d) := by
  rw [Bool.eq_iff_iff, decide_eq_true_iff]
  unfold between SamePair
  rw [Edge.new_u, Edge.new_v]
  simp

theorem filter_eraseP_self {α : Type} (p : α → Bool) (l : List α) : (l.eraseP p).filter p = (l.filter p).eraseP p := by
  induction l with
  | nil => rfl
  | cons x l ih =>
    by_cases hx : p x = true
    · rw [List.eraseP_cons_of_pos hx, List.filter_cons_of_pos hx, List.eraseP_cons_of_pos hx]
    · rw [List.eraseP_cons_of_neg hx, List.filter_cons_of_neg hx, List.filter_cons_of_neg hx, ih]

theorem filter_eraseP_other {α : Type} {p q : α → Bool} (h : ∀ x, p x = true → q x = false) (l : List α) :
    (l.eraseP q).filter p = l.filter p := by
  induction l with
  | nil => rfl
  | cons x l ih =>
    by_cases hq : q x = true
    · have hp : ¬ p x = true := by intro hp; rw [h x hp] at hq; simp at hq
      rw [List.eraseP_cons_of_pos hq, List.filter_cons_of_neg hp]
    · rw [List.eraseP_cons_of_neg hq, List.filter_cons, List.filter_cons, ih]

theorem find?_filter_self {α : Type} (p : α → Bool) (l : List α) : (l.filter p).find? p = l.find? p := by
  induction l with
  | nil => rfl
  | cons x l ih =>
    by_cases hx : p x = true
    · rw [List.filter_cons_of_pos hx, List.find?_cons_of_pos hx, List.find?_cons_of_pos hx]
    · rw [List.filter_cons_of_neg hx, List.find?_cons_of_neg hx, ih]

/-- The edges between two ids, list by list. -/
def part (a b : Nat) (n : Net K O L W) (i : Nat) : List (Edge L W) := (n.w.adj i).filter (between a b)

/-- The ids the call is about are `a` and `b`. -/
def isFor (ident : O → K) (n : Net K O L W) (a b : Nat) (op : Op O L W) : Prop :=
  ∃ u v c d, ((∃ o, op = .addEdge u v o) ∨ op = .removeEdge u v) ∧ HMap.get n.w.nodes2id (ident u) = some c ∧
    HMap.get n.w.nodes2id (ident v) = some d ∧ SamePair a b c d

/-- Same nodes, ids and direction. -/
structure Same (n n' : Net K O L W) : Prop where
  r : n'.r = n.r
  direct : n'.direct = n.direct
  nodes2id : n'.w.nodes2id = n.w.nodes2id
  id2nodes : n'.w.id2nodes = n.w.id2nodes

omit [DecidableEq K] in
theorem Same.refl (n : Net K O L W) : Same n n := ⟨rfl, rfl, rfl, rfl⟩

omit [DecidableEq K] in
theorem Same.trans {n n' n'' : Net K O L W} (h : Same n n') (h' : Same n' n'') : Same n n'' :=
  ⟨h'.r.trans h.r, h'.direct.trans h.direct, h'.nodes2id.trans h.nodes2id, h'.id2nodes.trans h.id2nodes⟩

omit [DecidableEq K] in
theorem Same.symm {n n' : Net K O L W} (h : Same n n') : Same n' n :=
  ⟨h.r.symm, h.direct.symm, h.nodes2id.symm, h.id2nodes.symm⟩

/-- Published ids are the written ids. -/
def IdsShown (n : Net K O L W) : Prop := ∀ k, HMap.get n.r.nodes2id k = HMap.get n.w.nodes2id k

theorem addEdge_same (n : Net K O L W) (u v : O) (o : EdgeOptions L W) : Same n (addEdge ident n u v o).1 := by
  unfold addEdge
  cases HMap.get n.w.nodes2id (ident u) with
  | none => exact Same.refl _
  | some c =>
    cases HMap.get n.w.nodes2id (ident v) with
    | none => exact Same.refl _
    | some d => dsimp only; split <;> exact ⟨rfl, rfl, rfl, rfl⟩

/-- What `remove_edge` leaves of the lists. -/
def cut (dir : Bool) (f : Nat → List (Edge L W)) (c d i : Nat) : List (Edge L W) :=
  if ((f c).find? (between c d)).isSome then
    (if dir = false ∧ i = d then (if i = c then (f i).eraseP (between c d) else f i).filter (fun e => !between c d e)
    else (if i = c then (f i).eraseP (between c d) else f i))
  else f i

theorem removeEdge_adj {n n' : Net K O L W} {u v : O} {r : Option (Edge L W)} {c d : Nat}
    (h : removeEdge ident n u v = some (n', r)) (hu : HMap.get n.r.nodes2id (ident u) = some c)
    (hv : HMap.get n.r.nodes2id (ident v) = some d) (i : Nat) : n'.w.adj i = cut n.direct n.w.adj c d i := by
  unfold removeEdge at h
  rw [hu] at h
  dsimp only at h
  rw [hv] at h
  dsimp only at h
  cases hx : removeEdgeIds n.direct n.w.edges c d with
  | none => rw [hx] at h; simp at h
  | some x =>
    rw [hx] at h
    simp only [Option.some.injEq, Prod.mk.injEq] at h
    rw [← h.1]
    have hg := removeEdgeIds_get n.direct n.w.edges c d
    rw [hx] at hg
    unfold fRem at hg
    split at hg
    · simp only [Option.map_some, Option.some.injEq, Prod.mk.injEq] at hg
      have h1 : (found (HMap.get n.w.edges) c d).isSome = ((n.w.adj c).find? (between c d)).isSome := by
        unfold found Side.adj
        cases HMap.get n.w.edges c <;> simp
      show (HMap.get x.1 i).getD [] = _
      rw [hg.1, eff_eq, h1]
      unfold cut
      split
      · unfold upd Side.adj
        cases n.direct
        · cases hi : HMap.get n.w.edges i <;> by_cases h2 : i = d <;> by_cases h3 : i = c <;> simp_all
        · cases hi : HMap.get n.w.edges i <;> by_cases h3 : i = c <;> simp_all
      · rfl
    · simp at hg

theorem cut_other {dir : Bool} {f : Nat → List (Edge L W)} {a b c d : Nat} (h : ¬ SamePair a b c d) (i : Nat) :
    (cut dir f c d i).filter (between a b) = (f i).filter (between a b) := by
  have hd := between_other (L := L) (W := W) h
  have h2 : ∀ l : List (Edge L W), (l.filter (fun e => !between c d e)).filter (between a b) = l.filter (between a b) := by
    intro l
    rw [List.filter_filter]
    refine List.filter_congr (fun e _ => ?_)
    cases he : between a b e with
    | false => rfl
    | true => rw [hd e he]; rfl
  unfold cut
  split
  · split
    · rw [h2]
      split
      · exact filter_eraseP_other hd _
      · rfl
    · split
      · exact filter_eraseP_other hd _
      · rfl
  · rfl

theorem cut_same {dir : Bool} {f g : Nat → List (Edge L W)} {a b c d : Nat} (h : SamePair a b c d)
    (hfg : ∀ i, (f i).filter (between a b) = (g i).filter (between a b)) (i : Nat) :
    (cut dir f c d i).filter (between a b) = (cut dir g c d i).filter (between a b) := by
  have h1 : (f c).find? (between a b) = (g c).find? (between a b) := by
    rw [← find?_filter_self, hfg, find?_filter_self]
  have h2 : ∀ l : List (Edge L W), (l.filter (fun e => !between a b e)).filter (between a b) = [] := by
    intro l
    rw [List.filter_filter]
    refine List.filter_eq_nil_iff.2 (fun e _ => ?_)
    cases between a b e <;> simp
  unfold cut
  rw [between_pair h, h1]
  split
  · split
    · rw [h2, h2]
    · split
      · rw [filter_eraseP_self, filter_eraseP_self, hfg]
      · exact hfg i
  · exact hfg i

/-- One call about other ids leaves the edges between `a` and `b` as they are; every edge call goes through and keeps
the nodes. -/
theorem edge_exec {n : Net K O L W} (hg : Good ident n) (hs : IdsShown n) {op : Op O L W} (ho : op.isEdgeCall = true) :
    ∃ n', exec ident n op = some n' ∧ Same n n' ∧ Good ident n' ∧
      ∀ a b, ¬ isFor ident n a b op → ∀ i, part a b n' i = part a b n i := by
  cases op with
  | addEdge u v o =>
    refine ⟨_, rfl, addEdge_same n u v o, ParNetwork.exec_good hg (op := .addEdge u v o) trivial rfl, ?_⟩
    intro a b hn i
    cases hu : HMap.get n.w.nodes2id (ident u) with
    | none => rw [addEdge_absent (Or.inl hu)]
    | some c =>
      cases hv : HMap.get n.w.nodes2id (ident v) with
      | none => rw [addEdge_absent (Or.inr hv)]
      | some d =>
        have hp : ¬ SamePair a b c d := fun hp => hn ⟨u, v, c, d, Or.inl ⟨o, rfl⟩, hu, hv, hp⟩
        have hp' : ¬ SamePair a b d c := by unfold SamePair at *; tauto
        unfold part
        rw [(addEdge_ok hu hv).2.2.2.1 i, List.filter_append, List.filter_append]
        have e1 : (if i = c then [Edge.new c d o] else []).filter (between a b) = [] := by
          split
          · rw [List.filter_cons, between_new]; simp [hp]
          · rfl
        have e2 : (if n.direct = false ∧ i = d then [Edge.new d c o] else []).filter (between a b) = [] := by
          split
          · rw [List.filter_cons, between_new]; simp [hp']
          · rfl
        rw [e1, e2, List.append_nil, List.append_nil]
  | removeEdge u v =>
    obtain ⟨n', r, h⟩ := ParNetwork.removeEdge_some hg u v
    have hf := removeEdge_frame h
    refine ⟨n', by simp only [exec, h, Option.map_some], ⟨hf.r, hf.direct, hf.nodes2id, hf.id2nodes⟩,
      ParNetwork.exec_good hg (op := .removeEdge u v) ⟨hs _, hs _⟩ (by simp only [exec, h, Option.map_some]), ?_⟩
    intro a b hn i
    cases hu : HMap.get n.w.nodes2id (ident u) with
    | none =>
      unfold removeEdge at h
      rw [hs, hu] at h
      simp at h
      rw [h.1]
    | some c =>
      cases hv : HMap.get n.w.nodes2id (ident v) with
      | none =>
        unfold removeEdge at h
        rw [hs, hu] at h
        dsimp only at h
        rw [hs, hv] at h
        simp at h
        rw [h.1]
      | some d =>
        have hp : ¬ SamePair a b c d := fun hp => hn ⟨u, v, c, d, Or.inr rfl, hu, hv, hp⟩
        unfold part
        rw [removeEdge_adj h (by rw [hs, hu]) (by rw [hs, hv]) i]
        exact cut_other hp i
  | _ => simp [Op.isEdgeCall] at ho

/-- One call about the ids `a` and `b` changes the edges between them in a way that depends on nothing else. -/
theorem edge_exec_same {m n m' n' : Net K O L W} (hs : IdsShown n) (hmn : Same n m) {a b : Nat}
    (hp : ∀ i, part a b m i = part a b n i) {op : Op O L W} (hf : isFor ident n a b op)
    (hm' : exec ident m op = some m') (hn' : exec ident n op = some n') (i : Nat) : part a b m' i = part a b n' i := by
  obtain ⟨u, v, c, d, ho, hu, hv, hpair⟩ := hf
  have hum : HMap.get m.w.nodes2id (ident u) = some c := by rw [hmn.nodes2id, hu]
  have hvm : HMap.get m.w.nodes2id (ident v) = some d := by rw [hmn.nodes2id, hv]
  rcases ho with ⟨o, rfl⟩ | rfl
  · simp only [exec, Option.some.injEq] at hm' hn'
    rw [← hm', ← hn']
    unfold part at *
    rw [(addEdge_ok hu hv).2.2.2.1 i, (addEdge_ok hum hvm).2.2.2.1 i, hmn.direct]
    simp only [List.filter_append, hp]
  · simp only [exec] at hm' hn'
    cases h1 : removeEdge ident m u v with
    | none => rw [h1] at hm'; simp at hm'
    | some x =>
      cases h2 : removeEdge ident n u v with
      | none => rw [h2] at hn'; simp at hn'
      | some y =>
        rw [h1] at hm'
        rw [h2] at hn'
        simp only [Option.map_some, Option.some.injEq] at hm' hn'
        subst hm' hn'
        unfold part at *
        rw [removeEdge_adj (n' := x.1) (r := x.2) h1 (by rw [hmn.r, hs, hu]) (by rw [hmn.r, hs, hv]) i,
          removeEdge_adj (n' := y.1) (r := y.2) h2 (by rw [hs, hu]) (by rw [hs, hv]) i, hmn.direct]
        exact cut_same hpair hp i

theorem IdsShown.same {n n' : Net K O L W} (h : IdsShown n) (hs : Same n n') : IdsShown n' := by
  intro k; rw [hs.r, hs.nodes2id]; exact h k

theorem isFor_same {n n' : Net K O L W} (hs : Same n n') (a b : Nat) (op : Op O L W) :
    isFor ident n' a b op ↔ isFor ident n a b op := by
  unfold isFor; rw [hs.nodes2id]

/-- Every history of edge calls goes through. -/
theorem edge_run (ops : List (Op O L W)) : ∀ {n : Net K O L W}, Good ident n → IdsShown n →
    (∀ op ∈ ops, op.isEdgeCall = true) → ∃ n', run ident n ops = some n' ∧ Same n n' ∧ Good ident n' := by
  induction ops with
  | nil => intro n hg _ _; exact ⟨n, rfl, Same.refl n, hg⟩
  | cons op ops ih =>
    intro n hg hs ho
    obtain ⟨n1, h1, h2, h3, _⟩ := edge_exec hg hs (ho op List.mem_cons_self)
    obtain ⟨n', h4, h5, h6⟩ := ih h3 (hs.same h2) (fun x hx => ho x (List.mem_cons_of_mem _ hx))
    exact ⟨n', by rw [run, h1]; exact h4, h2.trans h5, h6⟩

/-- The edges between `a` and `b` after a history are those after the calls about `a` and `b` alone. -/
theorem part_run {a b : Nat} {n0 : Net K O L W} (q : Op O L W → Bool) (hq : ∀ op, q op = true ↔ isFor ident n0 a b op)
    (ops : List (Op O L W)) : ∀ {m n m' n' : Net K O L W}, Same n0 n → Same n m → Good ident n → Good ident m → IdsShown n →
    (∀ op ∈ ops, op.isEdgeCall = true) → (∀ i, part a b m i = part a b n i) →
    run ident n ops = some n' → run ident m (ops.filter q) = some m' → ∀ i, part a b m' i = part a b n' i := by
  induction ops with
  | nil =>
    intro m n m' n' _ _ _ _ _ _ hp h1 h2 i
    simp only [run, List.filter_nil, Option.some.injEq] at h1 h2
    rw [← h1, ← h2]; exact hp i
  | cons op ops ih =>
    intro m n m' n' h0 hmn hg hgm hs ho hp h1 h2
    obtain ⟨n1, e1, e2, e3, e4⟩ := edge_exec hg hs (ho op List.mem_cons_self)
    rw [run, e1] at h1
    have hrest : ∀ x ∈ ops, x.isEdgeCall = true := fun x hx => ho x (List.mem_cons_of_mem _ hx)
    by_cases hx : q op = true
    · rw [List.filter_cons_of_pos hx] at h2
      obtain ⟨m1, d1, d2, d3, _⟩ := edge_exec hgm (hs.same hmn) (ho op List.mem_cons_self)
      rw [run, d1] at h2
      refine ih (h0.trans e2) ((e2.symm.trans hmn).trans d2) e3 d3 (hs.same e2) hrest ?_ h1 h2
      exact edge_exec_same hs hmn hp ((isFor_same h0 a b op).2 ((hq op).1 hx)) d1 e1
    · rw [List.filter_cons_of_neg hx] at h2
      refine ih (h0.trans e2) (e2.symm.trans hmn) e3 hgm (hs.same e2) hrest ?_ h1 h2
      intro i
      rw [e4 a b (fun hf => hx ((hq op).2 ((isFor_same h0 a b op).1 hf))) i]
      exact hp i

/-- Lists with the same edges between every two ids, up to order, are the same up to order. -/
theorem perm_of_parts {l l' : List (Edge L W)} (h : ∀ a b, (l.filter (between a b)).Perm (l'.filter (between a b))) :
    l.Perm l' := by
  classical
  refine List.perm_iff_count.2 (fun e => ?_)
  have he : between e.u e.v e = true := by simp [between]
  rw [← List.count_filter (l := l) he, ← List.count_filter (l := l') he]
  exact List.perm_iff_count.1 (h _ _) e

/-! ### Additions -/

/-- What one addition appends to the list of `i`. -/
def entry (ident : O → K) (n : Net K O L W) (i : Nat) : Op O L W → List (Edge L W)
  | .addEdge u v o =>
    match HMap.get n.w.nodes2id (ident u), HMap.get n.w.nodes2id (ident v) with
    | some c, some d => (if i = c then [Edge.new c d o] else []) ++
        (if n.direct = false ∧ i = d then [Edge.new d c o] else [])
    | _, _ => []
  | _ => []

theorem entry_same {n n' : Net K O L W} (h : Same n n') (i : Nat) (op : Op O L W) :
    entry ident n' i op = entry ident n i op := by
  cases op <;> simp only [entry, h.nodes2id, h.direct]

theorem adds_run (ops : List (Op O L W)) : ∀ {n n' : Net K O L W}, (∀ op ∈ ops, op.isAddition = true) →
    run ident n ops = some n' → ∀ i, n'.w.adj i = n.w.adj i ++ ops.flatMap (entry ident n i) := by
  induction ops with
  | nil =>
    intro n n' _ h i
    simp only [run, Option.some.injEq] at h
    rw [← h]; simp
  | cons op ops ih =>
    intro n n' ho h i
    have h0 := ho op List.mem_cons_self
    cases op with
    | addEdge u v o =>
      rw [run, exec, Option.bind_some] at h
      have hs := addEdge_same (ident := ident) n u v o
      rw [ih (fun x hx => ho x (List.mem_cons_of_mem _ hx)) h i, List.flatMap_cons, ← List.append_assoc]
      congr 1
      · cases hu : HMap.get n.w.nodes2id (ident u) with
        | none => rw [addEdge_absent (Or.inl hu)]; simp [entry, hu]
        | some c =>
          cases hv : HMap.get n.w.nodes2id (ident v) with
          | none => rw [addEdge_absent (Or.inr hv)]; simp [entry, hu, hv]
          | some d => rw [(addEdge_ok hu hv).2.2.2.1 i]; simp only [entry, hu, hv, List.append_assoc]
      · congr 1
        funext x
        exact entry_same hs i x
    | _ => simp [Op.isAddition] at h0

/-! ### Two orders -/

/-- The calls about two ids, by the names of the nodes. -/
theorem isFor_iff {n : Net K O L W} (hg : Good ident n) {a b : Nat} {o o' : O}
    (ha : HMap.get n.w.id2nodes a = some o) (hb : HMap.get n.w.id2nodes b = some o') (op : Op O L W) :
    Op.isAbout ident (ident o) (ident o') op = true ↔ isFor ident n a b op := by
  have hids := hg.ids.1.1
  have h1 : ∀ (u : O) (c : Nat) (x : O), HMap.get n.w.id2nodes c = some x →
      (ident u = ident x ↔ HMap.get n.w.nodes2id (ident u) = some c) := by
    intro u c x hx
    constructor
    · intro h; rw [h]; exact hids.2 _ _ hx
    · intro h
      obtain ⟨y, hy, he⟩ := hids.1 _ _ h
      rw [hx] at hy
      rw [← he, Option.some.inj hy]
  have key : ∀ u v : O, ((ident u = ident o ∧ ident v = ident o') ∨ (ident u = ident o' ∧ ident v = ident o)) ↔
      ∃ c d, HMap.get n.w.nodes2id (ident u) = some c ∧ HMap.get n.w.nodes2id (ident v) = some d ∧ SamePair a b c d := by
    intro u v
    rw [h1 u a o ha, h1 v b o' hb, h1 u b o' hb, h1 v a o ha]
    constructor
    · rintro (⟨h, h'⟩ | ⟨h, h'⟩)
      · exact ⟨a, b, h, h', Or.inl ⟨rfl, rfl⟩⟩
      · exact ⟨b, a, h, h', Or.inr ⟨rfl, rfl⟩⟩
    · rintro ⟨c, d, h, h', ⟨rfl, rfl⟩ | ⟨rfl, rfl⟩⟩
      · exact Or.inl ⟨h, h'⟩
      · exact Or.inr ⟨h, h'⟩
  cases op with
  | addEdge u v x =>
    simp only [Op.isAbout, decide_eq_true_iff]
    rw [key u v]
    constructor
    · rintro ⟨c, d, h⟩; exact ⟨u, v, c, d, Or.inl ⟨x, rfl⟩, h⟩
    · rintro ⟨u', v', c, d, ⟨x', he⟩ | he, h⟩
      · cases he; exact ⟨c, d, h⟩
      · cases he
  | removeEdge u v =>
    simp only [Op.isAbout, decide_eq_true_iff]
    rw [key u v]
    constructor
    · rintro ⟨c, d, h⟩; exact ⟨u, v, c, d, Or.inr rfl, h⟩
    · rintro ⟨u', v', c, d, ⟨x', he⟩ | he, h⟩
      · cases he
      · cases he; exact ⟨c, d, h⟩
  | _ =>
    simp only [Op.isAbout, Bool.false_eq_true, false_iff]
    rintro ⟨u', v', c, d, ⟨x', he⟩ | he, h⟩ <;> cases he

theorem part_two {n n1 n2 : Net K O L W} (hg : Good ident n) (hs : IdsShown n) {ops ops' : List (Op O L W)}
    (ho : ∀ op ∈ ops, op.isEdgeCall = true) (ho' : ∀ op ∈ ops', op.isEdgeCall = true)
    (h1 : run ident n ops = some n1) (h2 : run ident n ops' = some n2) (a b : Nat) :
    (∃ k k', (ops.filter (Op.isAbout ident k k') = ops'.filter (Op.isAbout ident k k') →
        ∀ i, part a b n1 i = part a b n2 i) ∧
      ((ops.filter (Op.isAbout ident k k')).Perm (ops'.filter (Op.isAbout ident k k')) →
        (∀ op ∈ ops.filter (Op.isAbout ident k k'), op.isAddition = true) →
        ∀ i, (part a b n1 i).Perm (part a b n2 i))) ∨ ∀ i, part a b n1 i = part a b n2 i := by
  have step : ∀ q : Op O L W → Bool, (∀ op, q op = true ↔ isFor ident n a b op) →
      (ops.filter q = ops'.filter q → ∀ i, part a b n1 i = part a b n2 i) ∧
      ((ops.filter q).Perm (ops'.filter q) → (∀ op ∈ ops.filter q, op.isAddition = true) →
        ∀ i, (part a b n1 i).Perm (part a b n2 i)) := by
    intro q hq
    have hf : ∀ op ∈ ops.filter q, op.isEdgeCall = true := fun x hx => ho x (List.mem_of_mem_filter hx)
    have hf' : ∀ op ∈ ops'.filter q, op.isEdgeCall = true := fun x hx => ho' x (List.mem_of_mem_filter hx)
    obtain ⟨m, e1, _, _⟩ := edge_run (ops.filter q) hg hs hf
    obtain ⟨m', e2, _, _⟩ := edge_run (ops'.filter q) hg hs hf'
    have p1 := part_run q hq ops (Same.refl n) (Same.refl n) hg hg hs ho (fun _ => rfl) h1 e1
    have p2 := part_run q hq ops' (Same.refl n) (Same.refl n) hg hg hs ho' (fun _ => rfl) h2 e2
    constructor
    · intro he i
      rw [he] at e1
      rw [← p1, ← p2, Option.some.inj (e1.symm.trans e2)]
    · intro hp ha i
      rw [← p1, ← p2]
      unfold part
      rw [adds_run _ ha e1 i, adds_run _ (fun op h => ha op (hp.mem_iff.2 h)) e2 i]
      exact ((List.Perm.refl _).append (hp.flatMap_right _)).filter _
  cases ha : HMap.get n.w.id2nodes a with
  | none =>
    right
    have hno : ∀ op, (fun _ : Op O L W => false) op = true ↔ isFor ident n a b op := by
      intro op
      constructor
      · intro h; simp at h
      · rintro ⟨u, v, c, d, _, hu, hv, ⟨rfl, rfl⟩ | ⟨rfl, rfl⟩⟩
        · obtain ⟨o, h, _⟩ := hg.ids.1.1.1 _ _ hu; rw [ha] at h; cases h
        · obtain ⟨o, h, _⟩ := hg.ids.1.1.1 _ _ hv; rw [ha] at h; cases h
    exact (step _ hno).1 (by simp)
  | some o =>
    cases hb : HMap.get n.w.id2nodes b with
    | none =>
      right
      have hno : ∀ op, (fun _ : Op O L W => false) op = true ↔ isFor ident n a b op := by
        intro op
        constructor
        · intro h; simp at h
        · rintro ⟨u, v, c, d, _, hu, hv, ⟨rfl, rfl⟩ | ⟨rfl, rfl⟩⟩
          · obtain ⟨o, h, _⟩ := hg.ids.1.1.1 _ _ hv; rw [hb] at h; cases h
          · obtain ⟨o, h, _⟩ := hg.ids.1.1.1 _ _ hu; rw [hb] at h; cases h
      exact (step _ hno).1 (by simp)
    | some o' => exact Or.inl ⟨ident o, ident o', step _ (isFor_iff hg ha hb)⟩

theorem flatten_perm_alone {α : Type} {l l' : List (List α)} (h : l.Perm l') :
    l.Pairwise (fun x y => x = [] ∨ y = []) → l.flatten = l'.flatten := by
  induction h with
  | nil => intro _; rfl
  | cons x _ ih => intro hp; rw [List.flatten_cons, List.flatten_cons, ih (List.pairwise_cons.1 hp).2]
  | swap x y l =>
    intro hp
    have := (List.pairwise_cons.1 hp).1 x List.mem_cons_self
    rcases this with rfl | rfl <;> simp
  | trans h1 _ ih1 ih2 =>
    intro hp
    rw [ih1 hp]
    exact ih2 (h1.pairwise hp (fun {x y} h => h.symm))

end Verif.Network
