import Verif.Lemmas.ParNetwork4

/-!
Helper lemmas: `remove_node`, and the queries of a tidy network.
-/

namespace Verif.ParNetwork

open Verif.Network (Edge EdgeOptions EdgeMap Net Side Op between removeLoop)
open Verif.DBDashMap (DB Inv abs insert_sim remove_sim modifyWrite_sim update_sim)
open Verif.ParGrid (getRead_abs getWrite_abs)

set_option linter.unusedSectionVars false

variable {K O L W : Type} [DecidableEq K]

theorem removeEdgesOf_loop {ident : O → K} {inc : Bool} {n : Net K O L W} (ha : AllPublished ident n) {u : O}
    {uid : Nat} (hu : HMap.get n.w.nodes2id (ident u) = some uid) :
    Network.removeEdgesOf ident inc n u =
      (removeLoop n.direct inc uid (HMap.keys n.w.id2nodes) n.w.edges).map
        (fun x => ({ n with w := { n.w with edges := x.1 } }, some x.2)) := by
  have hru : HMap.get n.r.nodes2id (ident u) = some uid := by rw [ha.agree]; exact hu
  unfold Network.removeEdgesOf
  rw [hru]
  dsimp only
  rw [Network.foldl_removeStep_eq _ n [] hru]
  · cases removeLoop n.direct inc uid (HMap.keys n.w.id2nodes) n.w.edges with
    | none => rfl
    | some x => rfl
  · intro k hk _
    rw [HMap.mem_keys_iff, Option.isSome_iff_exists] at hk
    obtain ⟨o, ho⟩ := hk
    exact ⟨o, ho, by rw [ha.agree]; exact ha.wids _ _ ho⟩

theorem dropList_sim {p : PNet K O L W} {n : Net K O L W} (h : Sim p n) (uid : Nat) :
    ∃ p', dropList p uid = some p' ∧ Sim p' (Network.dropList n uid) ∧ p'.nodes2id = p.nodes2id ∧
      p'.id2nodes = p.id2nodes := by
  obtain ⟨p', h1, h2, h3, h4, h5⟩ := dropList_spec h.inv uid
  refine ⟨p', h1, ⟨⟨h2.inv.e, ?_⟩, ⟨h2.inv.i, ?_⟩, ?_, ?_, ?_, h2.inv.wf, h.wf', ?_⟩, h3, h4⟩
  · intro i
    rw [h5]
    simp only [Network.dropList, HMap.get_remove, DBDashMap.set, h.e.w]
  · intro i; rw [h4]; exact h.i.w i
  · intro i; rw [h2.e]; exact h.re i
  · intro i; rw [h4]; exact h.ri i
  · intro k; rw [h3]; exact h.n2 k
  · rw [h2.d]; exact h.d

theorem removeNode_sim {ident : O → K} {p : PNet K O L W} {n n' : Net K O L W} {b : Bool} (h : Sim p n)
    (ha : AllPublished ident n) {u : O} (hr : Network.removeNode ident n u = some (n', b)) :
    ∃ p', removeNode ident p u = some (p', b) ∧ Sim p' n' := by
  unfold Network.removeNode at hr
  unfold removeNode
  rw [h.n2]
  cases hu : HMap.get n.w.nodes2id (ident u) with
  | none =>
    rw [hu] at hr
    simp only [Option.some.injEq, Prod.mk.injEq] at hr
    obtain ⟨rfl, rfl⟩ := hr
    exact ⟨p, rfl, h⟩
  | some uid =>
    rw [hu] at hr
    dsimp only at hr ⊢
    rw [removeEdgesOf_loop ha hu] at hr
    cases hl : removeLoop n.direct false uid (HMap.keys n.w.id2nodes) n.w.edges with
    | none => rw [hl] at hr; simp at hr
    | some x =>
      obtain ⟨m1, l1⟩ := x
      rw [hl] at hr
      dsimp only [Option.map_some] at hr
      obtain ⟨p1, l1', h1, _, s1, _⟩ := removeEdgesOf_sim h ha hu hl
      rw [h1]
      dsimp only
      obtain ⟨p2, h2, s2, _⟩ := dropList_sim s1 uid
      rw [h2]
      dsimp only
      have ha2 : AllPublished ident (Network.dropList { n with w := { n.w with edges := m1 } } uid) :=
        ⟨ha.agree, ha.wfi, ha.wids, ha.rids, ha.ids, ha.keys⟩
      rw [removeEdgesOf_loop (uid := uid) ha2 hu] at hr
      cases hl2 : removeLoop (Network.dropList { n with w := { n.w with edges := m1 } } uid).direct true uid
          (HMap.keys (Network.dropList { n with w := { n.w with edges := m1 } } uid).w.id2nodes)
          (Network.dropList { n with w := { n.w with edges := m1 } } uid).w.edges with
      | none => rw [hl2] at hr; simp at hr
      | some y =>
        obtain ⟨m2, l2⟩ := y
        rw [hl2] at hr
        dsimp only [Option.map_some] at hr
        obtain ⟨p3, l2', h3, _, s3, _⟩ := removeEdgesOf_sim s2 ha2 hu hl2
        rw [h3]
        dsimp only
        obtain ⟨p4, h4, s4, _⟩ := dropList_sim s3 uid
        rw [h4]
        dsimp only
        obtain ⟨db, h5, h6, _, h7⟩ := remove_sim s4.i.inv uid
        rw [h5]
        dsimp only
        simp only [Option.some.injEq, Prod.mk.injEq] at hr
        obtain ⟨rfl, rfl⟩ := hr
        refine ⟨_, rfl, ⟨⟨s4.e.inv, ?_⟩, ⟨h6, ?_⟩, s4.re, ?_, ?_, HMap.WF_remove s4.wf _, HMap.WF_remove s4.wf' _, s4.d⟩⟩
        · intro i; exact s4.e.w i
        · intro i
          dsimp only
          rw [h7]
          simp only [DBDashMap.set, s4.i.w, HMap.get_remove]
          rfl
        · intro i
          dsimp only
          rw [h7]
          exact s4.ri i
        · intro k
          dsimp only
          simp only [HMap.get_remove, s4.n2]
          rfl

/-! ### Queries -/

theorem scanEdge_tidy {ident : O → K} {p : PNet K O L W} (h : Tidy ident p) {uid vid : Nat} (es : List (Edge L W))
    (hes : ∀ e ∈ es, e.u = uid ∧ ((abs p.id2nodes).read e.v).isSome = true) :
    scanEdge ident p uid vid es = some (es.find? (fun e => e.v == vid)) := by
  induction es with
  | nil => rfl
  | cons e es ih =>
    obtain ⟨hu, hv⟩ := hes e List.mem_cons_self
    rw [Option.isSome_iff_exists] at hv
    obtain ⟨o, ho⟩ := hv
    rw [scanEdge, getRead_abs h.inv.i, ho]
    dsimp only
    rw [h.rid _ _ ho]
    dsimp only
    rw [List.find?_cons, ih (fun e he => hes e (List.mem_cons_of_mem _ he))]
    by_cases hev : e.v = vid
    · simp [hev, hu]
    · have : ¬((e.u = uid ∧ e.v = vid) ∨ (p.direct = false ∧ e.v = uid ∧ e.u = vid)) := by
        rintro (⟨_, h⟩ | ⟨_, h1, h2⟩)
        · exact hev h
        · exact hev (by rw [h1, ← hu, h2])
      rw [if_neg this]
      have hb : (e.v == vid) = false := by simpa using hev
      rw [hb]

theorem getEdges_abs {ident : O → K} {p : PNet K O L W} (h : PInv p) (u : O) :
    getEdges ident p u = some ((HMap.get p.nodes2id (ident u)).bind (abs p.edges).read) := by
  unfold getEdges
  cases HMap.get p.nodes2id (ident u) with
  | none => rfl
  | some uid => exact getRead_abs h.e uid

theorem getObject_abs {p : PNet K O L W} (h : PInv p) (i : Nat) : getObject p i = some ((abs p.id2nodes).read i) :=
  getRead_abs h.i i

theorem getEdge_tidy {ident : O → K} {p : PNet K O L W} (h : Tidy ident p) (u v : O) :
    getEdge ident p u v = some (((HMap.get p.nodes2id (ident u)).bind (abs p.edges).read).bind (fun es =>
      (HMap.get p.nodes2id (ident v)).bind (fun vid => es.find? (fun e => e.v == vid)))) := by
  unfold getEdge
  cases hu : HMap.get p.nodes2id (ident u) with
  | none => rfl
  | some uid =>
    dsimp only [Option.bind_some]
    rw [getRead_abs h.inv.e]
    cases he : (abs p.edges).read uid with
    | none => rfl
    | some es =>
      dsimp only [Option.bind_some]
      cases hv : HMap.get p.nodes2id (ident v) with
      | none => rfl
      | some vid => exact scanEdge_tidy h es (h.rk uid es he).2

/-- A call that adds only new nodes and removes none leaves the queries alone, unless it publishes. -/
theorem exec_sameReads {ident : O → K} {p p' : PNet K O L W} {op : Op O L W} (h : Tidy ident p)
    (ho : NodesOnlyAdded ident p op) (hw : op.isWrite = true) (he : exec ident p op = some p') :
    SameReads ident p p' := by
  have h' := exec_tidy h ho he
  have hk := exec_kept h.inv hw he
  have hobj : ∀ i, getObject p i = getObject p' i := by
    intro i; rw [getObject_abs h.inv, getObject_abs h'.inv, hk.i]
  have main : (∀ k, HMap.get p'.nodes2id k = HMap.get p.nodes2id k) ∨
      ∃ u, HMap.get p.nodes2id (ident u) = none ∧ (abs p.id2nodes).read p.nodes2id.length = none ∧
        (abs p.edges).read p.nodes2id.length = none ∧
        ∀ k, HMap.get p'.nodes2id k = if k = ident u then some p.nodes2id.length else HMap.get p.nodes2id k := by
    cases op with
    | addNode u =>
      right
      obtain ⟨p1, h1, h2, h3, h4, h5⟩ := addNode_spec (ident := ident) h.inv u
      simp only [exec, h1, Option.some.injEq] at he
      subst he
      have hr : (abs p.id2nodes).read p.nodes2id.length = none := by
        cases hx : (abs p.id2nodes).read p.nodes2id.length with
        | none => rfl
        | some o =>
          obtain ⟨o', ho', _⟩ := h.ids1 _ _ (h.rid _ _ hx)
          have := (h.cont p.nodes2id.length).1 (by rw [ho']; rfl)
          omega
      refine ⟨u, ho, hr, ?_, fun k => by rw [h3, HMap.get_insert]⟩
      cases hx : (abs p.edges).read p.nodes2id.length with
      | none => rfl
      | some es => have := (h.rk _ _ hx).1; rw [hr] at this; simp at this
    | addEdge u v o =>
      obtain ⟨p1, h1, h2, h3, _⟩ := addEdge_kept (ident := ident) h.inv u v o
      simp only [exec, h1, Option.map_some, Option.some.injEq] at he
      left; intro k; rw [← he, h3]
    | removeEdge u v =>
      obtain ⟨⟨p1, b⟩, hr, rfl⟩ := Option.map_eq_some_iff.1 he
      left; intro k; rw [(removeEdge_lost h.inv hr).n2]
    | removeIncoming u =>
      obtain ⟨⟨p1, b⟩, hr, rfl⟩ := Option.map_eq_some_iff.1 he
      left; intro k; rw [(removeEdgesOf_lost h.inv hr).n2]
    | removeOutgoing u =>
      obtain ⟨⟨p1, b⟩, hr, rfl⟩ := Option.map_eq_some_iff.1 he
      left; intro k; rw [(removeEdgesOf_lost h.inv hr).n2]
    | removeNode u => exact absurd ho id
    | removeAllEdges =>
      simp only [exec, Option.some.injEq] at he
      left; intro k; rw [← he]; rfl
    | updateNode u =>
      obtain ⟨p1, h1, h2⟩ := updateNode_sim (ident := ident) (sim_view h.inv) u h.ids
      simp only [exec, h1, Option.some.injEq] at he
      subst he
      left; intro k; rw [h2.n2, (Network.updateNode_spec ident (view p) u).2.1]; rfl
    | update => simp [Op.isWrite] at hw
    | lazyUpdate => simp [Op.isWrite] at hw
  rcases main with hn | ⟨u0, h0, hi0, he0, hn⟩
  · refine ⟨?_, ?_, hobj⟩
    · intro u; rw [getEdges_abs h.inv, getEdges_abs h'.inv, hk.e, hn]
    · intro u v; rw [getEdge_tidy h, getEdge_tidy h', hk.e, hn, hn]
  · have hbind : ∀ k, (HMap.get p'.nodes2id k).bind (abs p'.edges).read = (HMap.get p.nodes2id k).bind (abs p.edges).read := by
      intro k
      rw [hk.e, hn]
      by_cases hku : k = ident u0
      · rw [if_pos hku, hku, h0]
        exact he0
      · rw [if_neg hku]
    refine ⟨?_, ?_, hobj⟩
    · intro u; rw [getEdges_abs h.inv, getEdges_abs h'.inv, hbind]
    · intro u v
      rw [getEdge_tidy h, getEdge_tidy h', hbind]
      congr 1
      cases hx : (HMap.get p.nodes2id (ident u)).bind (abs p.edges).read with
      | none => rfl
      | some es =>
        dsimp only [Option.bind_some]
        rw [hn]
        by_cases hv : ident v = ident u0
        · rw [if_pos hv, hv, h0]
          dsimp only [Option.bind_some, Option.bind_none]
          symm
          rw [List.find?_eq_none]
          intro e hm hev
          rw [beq_iff_eq] at hev
          rw [Option.bind_eq_some_iff] at hx
          obtain ⟨uid, _, hx⟩ := hx
          have := ((h.rk uid es hx).2 e hm).2
          rw [hev, hi0] at this
          simp at this
        · rw [if_neg hv]

theorem SameReads.trans {ident : O → K} {p p' p'' : PNet K O L W} (h : SameReads ident p p')
    (h' : SameReads ident p' p'') : SameReads ident p p'' :=
  ⟨fun u => (h.1 u).trans (h'.1 u), fun u v => (h.2.1 u v).trans (h'.2.1 u v), fun i => (h.2.2 i).trans (h'.2.2 i)⟩

theorem run_sameReads {ident : O → K} (ops : List (Op O L W)) : ∀ {p p' : PNet K O L W}, Tidy ident p →
    Careful ident (NodesOnlyAdded ident) p ops → (∀ op ∈ ops, op.isWrite = true) → run ident p ops = some p' →
    SameReads ident p p' := by
  induction ops with
  | nil =>
    intro p p' _ _ _ hr
    simp only [run, Option.some.injEq] at hr
    rw [← hr]
    exact ⟨fun _ => rfl, fun _ _ => rfl, fun _ => rfl⟩
  | cons op ops ih =>
    intro p p' h hc hw hr
    rw [run] at hr
    cases he : exec ident p op with
    | none => rw [he] at hr; simp at hr
    | some p1 =>
      rw [he] at hr
      exact (exec_sameReads h hc.1 (hw op List.mem_cons_self) he).trans
        (ih (exec_tidy h hc.1 he) (hc.2 p1 he) (fun op ho => hw op (List.mem_cons_of_mem _ ho)) hr)

theorem run_objects {ident : O → K} (ops : List (Op O L W)) : ∀ {p p' : PNet K O L W}, PInv p →
    (∀ op ∈ ops, op.isWrite = true) → run ident p ops = some p' → Kept p p' := by
  induction ops with
  | nil =>
    intro p p' h _ hr
    simp only [run, Option.some.injEq] at hr
    rw [← hr]
    exact Kept.refl h
  | cons op ops ih =>
    intro p p' h hw hr
    rw [run] at hr
    cases he : exec ident p op with
    | none => rw [he] at hr; simp at hr
    | some p1 =>
      rw [he] at hr
      have hk := exec_kept h (hw op List.mem_cons_self) he
      exact hk.trans (ih hk.inv (fun op ho => hw op (List.mem_cons_of_mem _ ho)) hr)

theorem exec_sticky {ident : O → K} {p p' : PNet K O L W} {op : Op O L W} (h : PInv p)
    (he : exec ident p op = some p') (i : Nat) (hi : ((abs p.id2nodes).read i).isSome = true) :
    ((abs p'.id2nodes).read i).isSome = true := by
  cases hw : op.isWrite with
  | true => rw [(exec_kept h hw he).i]; exact hi
  | false =>
    have : p' = update p := by
      cases op <;> simp [Op.isWrite] at hw <;> simp only [exec, Option.some.injEq] at he <;> exact he.symm
    rw [this]
    simp only [update, (update_sim h.i).2]
    simp [hi]

theorem run_sticky {ident : O → K} (ops : List (Op O L W)) : ∀ {p p' : PNet K O L W}, PInv p →
    run ident p ops = some p' → ∀ i, ((abs p.id2nodes).read i).isSome = true →
    ((abs p'.id2nodes).read i).isSome = true := by
  induction ops with
  | nil =>
    intro p p' _ hr i hi
    simp only [run, Option.some.injEq] at hr
    rw [← hr]; exact hi
  | cons op ops ih =>
    intro p p' h hr i hi
    rw [run] at hr
    cases he : exec ident p op with
    | none => rw [he] at hr; simp at hr
    | some p1 => rw [he] at hr; exact ih (exec_pinv h he) hr i (exec_sticky h he i hi)

theorem run_append {ident : O → K} (ops ops' : List (Op O L W)) : ∀ p : PNet K O L W,
    run ident p (ops ++ ops') = (run ident p ops).bind (fun p' => run ident p' ops') := by
  induction ops with
  | nil => intro p; rfl
  | cons op ops ih =>
    intro p
    rw [List.cons_append, run, run]
    cases exec ident p op with
    | none => rfl
    | some p1 => exact ih p1

end Verif.ParNetwork
