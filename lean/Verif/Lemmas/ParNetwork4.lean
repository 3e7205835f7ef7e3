import Verif.Lemmas.ParNetwork3

/-!
Helper lemmas: what each call leaves alone, and the invariants of histories that remove no node.
-/

namespace Verif.ParNetwork

open Verif.Network (Edge EdgeOptions EdgeMap Net Side Op between Frame Shrinks)
open Verif.DBDashMap (DB Inv abs insert_sim remove_sim modifyWrite_sim update_sim)
open Verif.ParGrid (getRead_abs getWrite_abs)

set_option linter.unusedSectionVars false

variable {K O L W : Type} [DecidableEq K]

/-- The published maps are left alone. -/
structure Kept (p p' : PNet K O L W) : Prop where
  inv : PInv p'
  e : (abs p'.edges).read = (abs p.edges).read
  i : (abs p'.id2nodes).read = (abs p.id2nodes).read
  d : p'.direct = p.direct

theorem Kept.refl {p : PNet K O L W} (h : PInv p) : Kept p p := ⟨h, rfl, rfl, rfl⟩
theorem Kept.trans {p p' p'' : PNet K O L W} (h : Kept p p') (h' : Kept p' p'') : Kept p p'' :=
  ⟨h'.inv, h'.e.trans h.e, h'.i.trans h.i, h'.d.trans h.d⟩

/-- Moreover the nodes are left alone and lists only lose edges. -/
structure Lost (p p' : PNet K O L W) : Prop where
  kept : Kept p p'
  n2 : p'.nodes2id = p.nodes2id
  i2 : p'.id2nodes = p.id2nodes
  wn : ∀ i, (abs p.edges).write i = none → (abs p'.edges).write i = none
  ws : ∀ i es, (abs p.edges).write i = some es → ∃ es', (abs p'.edges).write i = some es' ∧ es'.Sublist es

theorem sim_kept {p p' : PNet K O L W} {n : Net K O L W} (h : PInv p) (hs : Sim p' n) (hr : n.r = (view p).r)
    (hd : n.direct = p.direct) : Kept p p' := by
  have hv := sim_view h
  refine ⟨hs.inv, ?_, ?_, hs.d.trans hd⟩
  · funext i; rw [hs.re, hr, hv.re]
  · funext i; rw [hs.ri, hr, hv.ri]

theorem sim_lost {p p' : PNet K O L W} {n : Net K O L W} (h : PInv p) (hs : Sim p' n) (f : Frame (view p) n)
    (hn : p'.nodes2id = p.nodes2id) (hi : p'.id2nodes = p.id2nodes) : Lost p p' := by
  have hv := sim_view h
  refine ⟨sim_kept h hs f.r f.direct, hn, hi, ?_, ?_⟩
  · intro i hw; rw [hs.e.w]; rw [hv.e.w] at hw; exact (f.edges i).1 hw
  · intro i es hw; rw [hs.e.w]; rw [hv.e.w] at hw; exact (f.edges i).2 es hw

theorem removeEdge_lost {ident : O → K} {p p' : PNet K O L W} {u v : O} {r : Option (Edge L W)} (h : PInv p)
    (hr : removeEdge ident p u v = some (p', r)) : Lost p p' := by
  have h1 := removeEdge_sim (ident := ident) (sim_view h) u v rfl rfl
  cases hn : Network.removeEdge ident (view p) u v with
  | none => rw [hn] at h1; dsimp only at h1; rw [h1] at hr; simp at hr
  | some x =>
    obtain ⟨n', r'⟩ := x
    rw [hn] at h1
    obtain ⟨p1, h2, h3, h4, h5⟩ := h1
    rw [h2] at hr
    simp only [Option.some.injEq, Prod.mk.injEq] at hr
    obtain ⟨rfl, rfl⟩ := hr
    exact sim_lost h h3 (Network.removeEdge_frame hn) h4 h5

theorem removeEdgesOf_lost {ident : O → K} {inc : Bool} {p p' : PNet K O L W} {u : O} {r : Option (List (Edge L W))}
    (h : PInv p) (hr : removeEdgesOf ident inc p u = some (p', r)) : Lost p p' := by
  unfold removeEdgesOf at hr
  cases hu : HMap.get p.nodes2id (ident u) with
  | none =>
    rw [hu] at hr
    simp only [Option.some.injEq, Prod.mk.injEq] at hr
    obtain ⟨rfl, rfl⟩ := hr
    exact ⟨Kept.refl h, rfl, rfl, fun _ hi => hi, fun _ es hi => ⟨es, hi, List.Sublist.refl _⟩⟩
  | some uid =>
    rw [hu] at hr
    dsimp only at hr
    have h1 := foldl_removeStep_sim (ident := ident) (inc := inc) (uid := uid) (u := u) (view p).r.id2nodes
      (DBDashMap.keys p.edges) ([] : List (Edge L W)) (sim_view h) (fun _ => rfl) (fun _ => rfl)
    cases hf : (DBDashMap.keys p.edges).foldl (Network.removeStep ident inc (view p).r.id2nodes uid u)
        (some (view p, [])) with
    | none => rw [hf] at h1; dsimp only at h1; rw [h1] at hr; simp at hr
    | some x =>
      obtain ⟨n', l'⟩ := x
      rw [hf] at h1
      obtain ⟨p1, h2, h3, h4, h5⟩ := h1
      rw [h2] at hr
      simp only [Option.some.injEq, Prod.mk.injEq] at hr
      obtain ⟨rfl, _⟩ := hr
      exact sim_lost h h3 (Network.foldl_removeStep_frame _ hf) h4 h5

theorem addEdge_kept {ident : O → K} {p : PNet K O L W} (h : PInv p) (u v : O) (o : EdgeOptions L W) :
    ∃ p', addEdge ident p u v o = some (p', (Network.addEdge ident (view p) u v o).2) ∧ Kept p p' ∧
      p'.nodes2id = p.nodes2id ∧ p'.id2nodes = p.id2nodes ∧ Sim p' (Network.addEdge ident (view p) u v o).1 := by
  obtain ⟨p', h1, h2, h3, h4⟩ := addEdge_sim (ident := ident) (sim_view h) u v o
  have hr := Network.addEdge_r ident (view p) u v o
  exact ⟨p', h1, sim_kept h h2 hr.1 hr.2, h3, h4, h2⟩

theorem ensureList_spec {db : DB Nat (List (Edge L W))} (h : Inv db) (k : Nat) :
    ∃ db', ensureList db k = some db' ∧ Inv db' ∧ (abs db').read = (abs db).read ∧
      (abs db').write = if (abs db).read k = none then DBDashMap.set (abs db).write k (some []) else (abs db).write := by
  unfold ensureList
  rw [getRead_abs h]
  cases hr : (abs db).read k with
  | none =>
    obtain ⟨db', h1, h2, _, h3⟩ := insert_sim h k ([] : List (Edge L W))
    dsimp only
    rw [h1]
    exact ⟨db', rfl, h2, by rw [h3], by rw [h3, if_pos rfl]⟩
  | some es => exact ⟨db, rfl, h, rfl, by rw [if_neg (by simp)]⟩

theorem addNode_spec {ident : O → K} {p : PNet K O L W} (h : PInv p) (u : O) :
    ∃ p', addNode ident p u = some p' ∧ Kept p p' ∧
      p'.nodes2id = (HMap.insert p.nodes2id (ident u) p.nodes2id.length).1 ∧
      (abs p'.id2nodes).write = DBDashMap.set (abs p.id2nodes).write p.nodes2id.length (some u) ∧
      (abs p'.edges).write = (if (abs p.edges).read p.nodes2id.length = none then
        DBDashMap.set (abs p.edges).write p.nodes2id.length (some []) else (abs p.edges).write) := by
  unfold addNode
  obtain ⟨db, h1, h2, _, h3⟩ := insert_sim h.i p.nodes2id.length u
  obtain ⟨m, h4, h5, h6, h7⟩ := ensureList_spec h.e p.nodes2id.length
  rw [h1, h4]
  refine ⟨_, rfl, ⟨⟨h5, h2, HMap.WF_insert h.wf _ _⟩, h6, by rw [h3], rfl⟩, rfl, by rw [h3], h7⟩

theorem updateNode_kept {ident : O → K} {p p' : PNet K O L W} (h : PInv p) {u : O}
    (hr : updateNode ident p u = some p') : Kept p p' := by
  unfold updateNode at hr
  cases hu : HMap.get p.nodes2id (ident u) with
  | none => rw [hu] at hr; simp only [Option.some.injEq] at hr; rw [← hr]; exact Kept.refl h
  | some uid =>
    rw [hu] at hr
    dsimp only at hr
    rw [getWrite_abs h.i] at hr
    cases hw : (abs p.id2nodes).write uid with
    | none => rw [hw] at hr; simp only [Option.some.injEq] at hr; rw [← hr]; exact Kept.refl h
    | some value =>
      rw [hw] at hr
      dsimp only at hr
      obtain ⟨db, h1, h2, h3⟩ := modifyWrite_sim h.i uid (fun _ => u)
      rw [h1] at hr
      simp only [Option.some.injEq] at hr
      rw [← hr]
      refine ⟨⟨h.e, h2, ?_⟩, rfl, by rw [h3], rfl⟩
      dsimp only
      cases HMap.get p.nodes2id (ident value) with
      | none => exact h.wf
      | some _ => exact HMap.WF_insert (HMap.WF_remove h.wf _) _ _

theorem dropList_spec {p : PNet K O L W} (h : PInv p) (uid : Nat) :
    ∃ p', dropList p uid = some p' ∧ Kept p p' ∧ p'.nodes2id = p.nodes2id ∧ p'.id2nodes = p.id2nodes ∧
      (abs p'.edges).write = DBDashMap.set (abs p.edges).write uid none := by
  unfold dropList
  obtain ⟨m, h1, h2, _, h3⟩ := remove_sim h.e uid
  rw [h1]
  exact ⟨_, rfl, ⟨⟨h2, h.i, h.wf⟩, by rw [h3], rfl, rfl⟩, rfl, rfl, by rw [h3]⟩

theorem removeNode_kept {ident : O → K} {p p' : PNet K O L W} {u : O} {b : Bool} (h : PInv p)
    (hr : removeNode ident p u = some (p', b)) : Kept p p' := by
  unfold removeNode at hr
  cases hu : HMap.get p.nodes2id (ident u) with
  | none => rw [hu] at hr; simp only [Option.some.injEq, Prod.mk.injEq] at hr; rw [← hr.1]; exact Kept.refl h
  | some uid =>
    rw [hu] at hr
    dsimp only at hr
    cases h1 : removeEdgesOf ident false p u with
    | none => rw [h1] at hr; simp at hr
    | some x =>
      obtain ⟨p1, r1⟩ := x
      rw [h1] at hr
      have k1 := (removeEdgesOf_lost h h1).kept
      cases r1 with
      | none => simp only [Option.some.injEq, Prod.mk.injEq] at hr; rw [← hr.1]; exact k1
      | some l1 =>
        dsimp only at hr
        obtain ⟨p2, h2, k2, _⟩ := dropList_spec k1.inv uid
        rw [h2] at hr
        dsimp only at hr
        cases h3 : removeEdgesOf ident true p2 u with
        | none => rw [h3] at hr; simp at hr
        | some x =>
          obtain ⟨p3, r3⟩ := x
          rw [h3] at hr
          have k3 := (removeEdgesOf_lost k2.inv h3).kept
          cases r3 with
          | none =>
            simp only [Option.some.injEq, Prod.mk.injEq] at hr
            rw [← hr.1]
            exact k1.trans (k2.trans k3)
          | some l3 =>
            dsimp only at hr
            obtain ⟨p4, h4, k4, _⟩ := dropList_spec k3.inv uid
            rw [h4] at hr
            dsimp only at hr
            obtain ⟨db, h5, h6, _, h7⟩ := remove_sim k4.inv.i uid
            rw [h5] at hr
            simp only [Option.some.injEq, Prod.mk.injEq] at hr
            rw [← hr.1]
            refine (k1.trans (k2.trans (k3.trans k4))).trans
              ⟨⟨k4.inv.e, h6, HMap.WF_remove k4.inv.wf _⟩, rfl, by rw [h7], rfl⟩

theorem clear_sim {V : Type} {db : DB Nat V} (h : Inv db) :
    Inv (DBDashMap.clear db) ∧ abs (DBDashMap.clear db) = ⟨(abs db).read, fun _ => none⟩ := by
  refine ⟨⟨h.w.cleared rfl, h.r, by simp [DBDashMap.clear, h.len]⟩, ?_⟩
  unfold DBDashMap.abs DBDashMap.clear
  congr 1
  funext k
  exact DBDashMap.look_cleared _ _ _

theorem removeAllEdges_kept {p : PNet K O L W} (h : PInv p) : Kept p (removeAllEdges p) := by
  obtain ⟨h1, h2⟩ := clear_sim h.e
  exact ⟨⟨h1, h.i, h.wf⟩, by unfold removeAllEdges; rw [h2], rfl, rfl⟩

theorem update_pinv {p : PNet K O L W} (h : PInv p) : PInv (update p) :=
  ⟨(update_sim h.e).1, (update_sim h.i).1, h.wf⟩

/-- Every call but the publishing ones leaves the published maps alone. -/
theorem exec_kept {ident : O → K} {p p' : PNet K O L W} {op : Op O L W} (h : PInv p) (ho : op.isWrite = true)
    (he : exec ident p op = some p') : Kept p p' := by
  cases op with
  | addNode u =>
    obtain ⟨p1, h1, h2, _⟩ := addNode_spec (ident := ident) h u
    simp only [exec, h1, Option.some.injEq] at he
    rw [← he]; exact h2
  | addEdge u v o =>
    obtain ⟨p1, h1, h2, _⟩ := addEdge_kept (ident := ident) h u v o
    simp only [exec, h1, Option.map_some, Option.some.injEq] at he
    rw [← he]; exact h2
  | removeEdge u v =>
    obtain ⟨⟨p1, b⟩, hr, rfl⟩ := Option.map_eq_some_iff.1 he
    exact (removeEdge_lost h hr).kept
  | removeIncoming u =>
    obtain ⟨⟨p1, b⟩, hr, rfl⟩ := Option.map_eq_some_iff.1 he
    exact (removeEdgesOf_lost h hr).kept
  | removeOutgoing u =>
    obtain ⟨⟨p1, b⟩, hr, rfl⟩ := Option.map_eq_some_iff.1 he
    exact (removeEdgesOf_lost h hr).kept
  | removeNode u =>
    obtain ⟨⟨p1, b⟩, hr, rfl⟩ := Option.map_eq_some_iff.1 he
    exact removeNode_kept h hr
  | removeAllEdges =>
    simp only [exec, Option.some.injEq] at he
    rw [← he]; exact removeAllEdges_kept h
  | updateNode u => exact updateNode_kept h he
  | update => simp [Op.isWrite] at ho
  | lazyUpdate => simp [Op.isWrite] at ho

theorem exec_pinv {ident : O → K} {p p' : PNet K O L W} {op : Op O L W} (h : PInv p)
    (he : exec ident p op = some p') : PInv p' := by
  cases op with
  | update => simp only [exec, Option.some.injEq] at he; rw [← he]; exact update_pinv h
  | lazyUpdate => simp only [exec, Option.some.injEq] at he; rw [← he]; exact update_pinv h
  | _ => exact (exec_kept h rfl he).inv

theorem run_pinv {ident : O → K} (ops : List (Op O L W)) : ∀ {p p' : PNet K O L W}, PInv p →
    run ident p ops = some p' → PInv p' := by
  induction ops with
  | nil => intro p p' h hr; simp only [run, Option.some.injEq] at hr; rw [← hr]; exact h
  | cons op ops ih =>
    intro p p' h hr
    rw [run] at hr
    cases he : exec ident p op with
    | none => rw [he] at hr; simp at hr
    | some p1 => rw [he] at hr; exact ih (exec_pinv h he) hr

theorem pinv_new {cpus : Nat} (hc : DBDashMap.shardAmount cpus ≤ 2 ^ 64) (hash : Nat → Nat) (d : Bool) :
    PInv (new cpus hash d : PNet K O L W) := (sim_new hc hash d).inv

/-! ### Histories without removed nodes -/

/-- What a history that removes no node and adds each node once keeps. -/
structure Tidy (ident : O → K) (p : PNet K O L W) : Prop where
  inv : PInv p
  ids1 : ∀ k i, HMap.get p.nodes2id k = some i → ∃ o, (abs p.id2nodes).write i = some o ∧ ident o = k
  ids2 : ∀ i o, (abs p.id2nodes).write i = some o → HMap.get p.nodes2id (ident o) = some i
  cont : ∀ i, ((abs p.id2nodes).write i).isSome = true ↔ i < p.nodes2id.length
  rid : ∀ i o, (abs p.id2nodes).read i = some o → HMap.get p.nodes2id (ident o) = some i
  wk : ∀ i es, (abs p.edges).write i = some es →
    ((abs p.id2nodes).write i).isSome = true ∧ ∀ e ∈ es, e.u = i ∧ ((abs p.id2nodes).write e.v).isSome = true
  rk : ∀ i es, (abs p.edges).read i = some es →
    ((abs p.id2nodes).read i).isSome = true ∧ ∀ e ∈ es, e.u = i ∧ ((abs p.id2nodes).read e.v).isSome = true

theorem tidy_new (ident : O → K) {cpus : Nat} (hc : DBDashMap.shardAmount cpus ≤ 2 ^ 64) (hash : Nat → Nat) (d : Bool) :
    Tidy ident (new cpus hash d : PNet K O L W) := by
  refine ⟨pinv_new hc hash d, ?_, ?_, ?_, ?_, ?_, ?_⟩ <;>
    simp [new, DBDashMap.abs_new, DBDashMap.Pair.empty]

theorem tidy_lost {ident : O → K} {p p' : PNet K O L W} (h : Tidy ident p) (hl : Lost p p') : Tidy ident p' := by
  refine ⟨hl.kept.inv, ?_, ?_, ?_, ?_, ?_, ?_⟩
  · rw [hl.n2, hl.i2]; exact h.ids1
  · rw [hl.n2, hl.i2]; exact h.ids2
  · rw [hl.n2, hl.i2]; exact h.cont
  · rw [hl.n2, hl.i2]; exact h.rid
  · rw [hl.i2]
    intro i es hi
    cases hw : (abs p.edges).write i with
    | none => rw [hl.wn i hw] at hi; simp at hi
    | some es0 =>
      obtain ⟨es', h1, h2⟩ := hl.ws i es0 hw
      rw [hi] at h1
      simp only [Option.some.injEq] at h1
      subst h1
      obtain ⟨a1, a2⟩ := h.wk i es0 hw
      exact ⟨a1, fun e he => a2 e (h2.subset he)⟩
  · rw [hl.kept.e, hl.i2]; exact h.rk

theorem Tidy.known {ident : O → K} {p : PNet K O L W} (h : Tidy ident p) : (view p).w.EdgesKnown := by
  have hv := sim_view h.inv
  refine ⟨?_, ?_⟩
  · intro i e he
    unfold Side.adj at he
    rw [← hv.e.w] at he
    cases hw : (abs p.edges).write i with
    | none => rw [hw] at he; simp at he
    | some es =>
      rw [hw] at he
      obtain ⟨_, h2⟩ := h.wk i es hw
      rw [← hv.i.w]
      exact h2 e he
  · intro i es hi
    rw [← hv.e.w] at hi
    rw [← hv.i.w]
    exact (h.wk i es hi).1

theorem Tidy.ids {ident : O → K} {p : PNet K O L W} (h : Tidy ident p) : (view p).w.IdsUnique ident := by
  have hv := sim_view h.inv
  refine ⟨?_, ?_⟩
  · intro k i hk; rw [← hv.i.w]; exact h.ids1 k i hk
  · intro i o hi; rw [← hv.i.w] at hi; exact h.ids2 i o hi

theorem exec_tidy {ident : O → K} {p p' : PNet K O L W} {op : Op O L W} (h : Tidy ident p)
    (ho : NodesOnlyAdded ident p op) (he : exec ident p op = some p') : Tidy ident p' := by
  cases op with
  | addNode u =>
    obtain ⟨p1, h1, h2, h3, h4, h5⟩ := addNode_spec (ident := ident) h.inv u
    simp only [exec, h1, Option.some.injEq] at he
    subst he
    have hfree : (abs p.id2nodes).write p.nodes2id.length = none := by
      cases hx : (abs p.id2nodes).write p.nodes2id.length with
      | none => rfl
      | some o => have := (h.cont p.nodes2id.length).1 (by rw [hx]; rfl); omega
    have hi : ∀ i, ((abs p.id2nodes).write i).isSome = true → ((abs p1.id2nodes).write i).isSome = true := by
      intro i hi
      rw [h4]
      unfold DBDashMap.set
      split
      · rfl
      · exact hi
    refine ⟨h2.inv, ?_, ?_, ?_, ?_, ?_, ?_⟩
    · intro k i hk
      rw [h3, HMap.get_insert] at hk
      rw [h4]
      by_cases hku : k = ident u
      · rw [if_pos hku] at hk
        simp only [Option.some.injEq] at hk
        exact ⟨u, by simp [DBDashMap.set, hk], hku.symm⟩
      · rw [if_neg hku] at hk
        obtain ⟨o, h6, h7⟩ := h.ids1 k i hk
        refine ⟨o, ?_, h7⟩
        unfold DBDashMap.set
        rw [if_neg]
        · exact h6
        · intro hi; rw [hi, hfree] at h6; simp at h6
    · intro i o hi
      rw [h4] at hi
      rw [h3, HMap.get_insert]
      unfold DBDashMap.set at hi
      by_cases hil : i = p.nodes2id.length
      · rw [if_pos hil] at hi
        simp only [Option.some.injEq] at hi
        rw [hi, if_pos rfl, hil]
      · rw [if_neg hil] at hi
        have := h.ids2 i o hi
        rw [if_neg]
        · exact this
        · intro hu; rw [hu, ho] at this; simp at this
    · intro i
      rw [h4, h3, Network.length_insert_absent ho]
      unfold DBDashMap.set
      by_cases hil : i = p.nodes2id.length
      · simp [hil]
      · rw [if_neg hil, h.cont]; omega
    · intro i o hi
      rw [h2.i] at hi
      have := h.rid i o hi
      rw [h3, HMap.get_insert, if_neg]
      · exact this
      · intro hu; rw [hu, ho] at this; simp at this
    · intro i es hes
      rw [h5] at hes
      by_cases hr : (abs p.edges).read p.nodes2id.length = none
      · rw [if_pos hr] at hes
        unfold DBDashMap.set at hes
        by_cases hil : i = p.nodes2id.length
        · rw [if_pos hil] at hes
          simp only [Option.some.injEq] at hes
          subst hes
          exact ⟨by rw [h4]; simp [DBDashMap.set, hil], by simp⟩
        · rw [if_neg hil] at hes
          obtain ⟨a1, a2⟩ := h.wk i es hes
          exact ⟨hi i a1, fun e he => ⟨(a2 e he).1, hi _ (a2 e he).2⟩⟩
      · rw [if_neg hr] at hes
        obtain ⟨a1, a2⟩ := h.wk i es hes
        exact ⟨hi i a1, fun e he => ⟨(a2 e he).1, hi _ (a2 e he).2⟩⟩
    · rw [h2.e, h2.i]; exact h.rk
  | addEdge u v o =>
    obtain ⟨p1, h1, h2, h3, h4, h5⟩ := addEdge_kept (ident := ident) h.inv u v o
    simp only [exec, h1, Option.map_some, Option.some.injEq] at he
    subst he
    refine ⟨h2.inv, ?_, ?_, ?_, ?_, ?_, ?_⟩
    · rw [h3, h4]; exact h.ids1
    · rw [h3, h4]; exact h.ids2
    · rw [h3, h4]; exact h.cont
    · rw [h3, h4]; exact h.rid
    · have hk := Network.addEdge_known (u := u) (v := v) (o := o) h.ids h.known
      intro i es hes
      rw [h5.e.w] at hes
      rw [h5.i.w]
      refine ⟨hk.2 i es hes, fun e he => ?_⟩
      have := hk.1 i e (by rw [Network.adj_of_get hes]; exact he)
      rw [h5.i.w]
      exact this
    · rw [h2.e, h2.i]; exact h.rk
  | removeEdge u v =>
    obtain ⟨⟨p1, b⟩, hr, rfl⟩ := Option.map_eq_some_iff.1 he
    exact tidy_lost h (removeEdge_lost h.inv hr)
  | removeIncoming u =>
    obtain ⟨⟨p1, b⟩, hr, rfl⟩ := Option.map_eq_some_iff.1 he
    exact tidy_lost h (removeEdgesOf_lost h.inv hr)
  | removeOutgoing u =>
    obtain ⟨⟨p1, b⟩, hr, rfl⟩ := Option.map_eq_some_iff.1 he
    exact tidy_lost h (removeEdgesOf_lost h.inv hr)
  | removeNode u => exact absurd ho id
  | removeAllEdges =>
    simp only [exec, Option.some.injEq] at he
    subst he
    have hk := removeAllEdges_kept h.inv
    refine ⟨hk.inv, h.ids1, h.ids2, h.cont, h.rid, ?_, ?_⟩
    · intro i es hes
      simp only [removeAllEdges, (clear_sim h.inv.e).2] at hes
      simp at hes
    · rw [hk.e, hk.i]; exact h.rk
  | updateNode u =>
    obtain ⟨p1, h1, h2⟩ := updateNode_sim (ident := ident) (sim_view h.inv) u h.ids
    simp only [exec, h1, Option.some.injEq] at he
    subst he
    have hk := updateNode_kept h.inv h1
    obtain ⟨s1, s2, s3⟩ := Network.updateNode_spec ident (view p) u
    have hids := Network.updateNode_idsUnique (n := view p) u h.ids
    have hkn := Network.updateNode_known (ident := ident) (n := view p) u h.known
    have hn2 : ∀ k, HMap.get p1.nodes2id k = HMap.get p.nodes2id k := by
      intro k; rw [h2.n2, s2]; rfl
    have hlen : p1.nodes2id.length = p.nodes2id.length := by
      rw [h2.length, s2]; rfl
    have hsome : ∀ i, ((abs p1.id2nodes).write i).isSome = ((abs p.id2nodes).write i).isSome := by
      intro i
      rw [h2.i.w, s3, (sim_view h.inv).i.w]
      split <;> simp
    refine ⟨hk.inv, ?_, ?_, ?_, ?_, ?_, ?_⟩
    · intro k i hk'
      rw [h2.n2] at hk'
      rw [h2.i.w]
      exact hids.1 k i hk'
    · intro i o hi
      rw [h2.i.w] at hi
      rw [h2.n2]
      exact hids.2 i o hi
    · intro i; rw [hsome, hlen]; exact h.cont i
    · intro i o hi; rw [hk.i] at hi; rw [hn2]; exact h.rid i o hi
    · intro i es hes
      rw [h2.e.w] at hes
      refine ⟨by rw [h2.i.w]; exact hkn.2 i es hes, fun e he => ?_⟩
      rw [h2.i.w]
      exact hkn.1 i e (by rw [Network.adj_of_get hes]; exact he)
    · rw [hk.e, hk.i]; exact h.rk
  | update => simp only [exec, Option.some.injEq] at he; subst he; exact tidy_update h
  | lazyUpdate => simp only [exec, Option.some.injEq] at he; subst he; exact tidy_update h
where
  tidy_update {ident : O → K} {p : PNet K O L W} (h : Tidy ident p) : Tidy ident (update p) := by
    obtain ⟨a1, a2⟩ := update_sim h.inv.e
    obtain ⟨b1, b2⟩ := update_sim h.inv.i
    refine ⟨update_pinv h.inv, ?_, ?_, ?_, ?_, ?_, ?_⟩
    · simp only [update, b2]; exact h.ids1
    · simp only [update, b2]; exact h.ids2
    · simp only [update, b2]; exact h.cont
    · simp only [update, b2]
      intro i o hi
      rw [Option.or_eq_some_iff] at hi
      rcases hi with hi | ⟨_, hi⟩
      · exact h.ids2 i o hi
      · exact h.rid i o hi
    · simp only [update, a2, b2]; exact h.wk
    · simp only [update, a2, b2]
      intro i es hi
      rw [Option.or_eq_some_iff] at hi
      rcases hi with hi | ⟨_, hi⟩
      · obtain ⟨c1, c2⟩ := h.wk i es hi
        refine ⟨by simp [c1], fun e he => ⟨(c2 e he).1, by simp [(c2 e he).2]⟩⟩
      · obtain ⟨c1, c2⟩ := h.rk i es hi
        refine ⟨by simp [c1], fun e he => ⟨(c2 e he).1, by simp [(c2 e he).2]⟩⟩

theorem run_tidy {ident : O → K} (ops : List (Op O L W)) : ∀ {p p' : PNet K O L W}, Tidy ident p →
    Careful ident (NodesOnlyAdded ident) p ops → run ident p ops = some p' → Tidy ident p' := by
  induction ops with
  | nil => intro p p' h _ hr; simp only [run, Option.some.injEq] at hr; rw [← hr]; exact h
  | cons op ops ih =>
    intro p p' h hc hr
    rw [run] at hr
    cases he : exec ident p op with
    | none => rw [he] at hr; simp at hr
    | some p1 => rw [he] at hr; exact ih (exec_tidy h hc.1 he) (hc.2 p1 he) hr

end Verif.ParNetwork
