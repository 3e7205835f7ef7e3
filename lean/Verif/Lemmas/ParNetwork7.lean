import Verif.Lemmas.ParNetwork6

/-!
Helper lemmas: histories that remove nodes, but add none after that.
-/

namespace Verif.ParNetwork

open Verif.Network (Edge EdgeOptions EdgeMap Net Side Op)
open Verif.DBDashMap (DB Inv abs insert_sim remove_sim modifyWrite_sim update_sim)
open Verif.ParGrid (getRead_abs getWrite_abs)

set_option linter.unusedSectionVars false

variable {K O L W : Type} [DecidableEq K]

/-- What is left of `Tidy` when nodes are removed. -/
structure Settled (ident : O → K) (p : PNet K O L W) : Prop where
  inv : PInv p
  ids1 : ∀ k i, HMap.get p.nodes2id k = some i → ∃ o, (abs p.id2nodes).write i = some o ∧ ident o = k
  ids2 : ∀ i o, (abs p.id2nodes).write i = some o → HMap.get p.nodes2id (ident o) = some i
  rid : ∀ i o, (abs p.id2nodes).read i = some o →
    HMap.get p.nodes2id (ident o) = some i ∨ HMap.get p.nodes2id (ident o) = none
  wk : ∀ i es, (abs p.edges).write i = some es → ((abs p.id2nodes).write i).isSome = true
  rk : ∀ i es, (abs p.edges).read i = some es → ((abs p.id2nodes).read i).isSome = true

theorem Tidy.settled {ident : O → K} {p : PNet K O L W} (h : Tidy ident p) : Settled ident p :=
  ⟨h.inv, h.ids1, h.ids2, fun i o hi => Or.inl (h.rid i o hi), fun i es hi => (h.wk i es hi).1,
    fun i es hi => (h.rk i es hi).1⟩

theorem Settled.ids {ident : O → K} {p : PNet K O L W} (h : Settled ident p) : (view p).w.IdsUnique ident := by
  have hv := sim_view h.inv
  refine ⟨?_, ?_⟩
  · intro k i hk; rw [← hv.i.w]; exact h.ids1 k i hk
  · intro i o hi; rw [← hv.i.w] at hi; exact h.ids2 i o hi

theorem settled_lost {ident : O → K} {p p' : PNet K O L W} (h : Settled ident p) (hl : Lost p p') :
    Settled ident p' := by
  refine ⟨hl.kept.inv, ?_, ?_, ?_, ?_, ?_⟩
  · rw [hl.n2, hl.i2]; exact h.ids1
  · rw [hl.n2, hl.i2]; exact h.ids2
  · rw [hl.n2, hl.i2]; exact h.rid
  · rw [hl.i2]
    intro i es hi
    cases hw : (abs p.edges).write i with
    | none => rw [hl.wn i hw] at hi; simp at hi
    | some es0 => exact h.wk i es0 hw
  · rw [hl.kept.e, hl.i2]; exact h.rk

theorem settled_dropList {ident : O → K} {p : PNet K O L W} (h : Settled ident p) (uid : Nat) :
    ∃ p', dropList p uid = some p' ∧ Settled ident p' ∧ p'.nodes2id = p.nodes2id ∧ p'.id2nodes = p.id2nodes ∧
      (abs p'.edges).write uid = none := by
  obtain ⟨p', h1, h2, h3, h4, h5⟩ := dropList_spec h.inv uid
  refine ⟨p', h1, ⟨h2.inv, ?_, ?_, ?_, ?_, ?_⟩, h3, h4, by rw [h5]; simp [DBDashMap.set]⟩
  · rw [h3, h4]; exact h.ids1
  · rw [h3, h4]; exact h.ids2
  · rw [h3, h4]; exact h.rid
  · rw [h4, h5]
    intro i es hi
    unfold DBDashMap.set at hi
    split at hi
    · simp at hi
    · exact h.wk i es hi
  · rw [h2.e, h4]; exact h.rk

theorem settled_removeNode {ident : O → K} {p p' : PNet K O L W} {u : O} {b : Bool} (h : Settled ident p)
    (hr : removeNode ident p u = some (p', b)) : Settled ident p' := by
  unfold removeNode at hr
  cases hu : HMap.get p.nodes2id (ident u) with
  | none => rw [hu] at hr; simp only [Option.some.injEq, Prod.mk.injEq] at hr; rw [← hr.1]; exact h
  | some uid =>
    rw [hu] at hr
    dsimp only at hr
    cases h1 : removeEdgesOf ident false p u with
    | none => rw [h1] at hr; simp at hr
    | some x =>
      obtain ⟨p1, r1⟩ := x
      rw [h1] at hr
      have l1 := removeEdgesOf_lost h.inv h1
      have k1 := settled_lost h l1
      cases r1 with
      | none => simp only [Option.some.injEq, Prod.mk.injEq] at hr; rw [← hr.1]; exact k1
      | some l1 =>
        dsimp only at hr
        obtain ⟨p2, h2, k2, n2, _⟩ := settled_dropList k1 uid
        rw [h2] at hr
        dsimp only at hr
        cases h3 : removeEdgesOf ident true p2 u with
        | none => rw [h3] at hr; simp at hr
        | some x =>
          obtain ⟨p3, r3⟩ := x
          rw [h3] at hr
          have l3 := removeEdgesOf_lost k2.inv h3
          have k3 := settled_lost k2 l3
          cases r3 with
          | none =>
            simp only [Option.some.injEq, Prod.mk.injEq] at hr
            rw [← hr.1]
            exact k3
          | some _ =>
            dsimp only at hr
            obtain ⟨p4, h4, k4, n4, i4, w4⟩ := settled_dropList k3 uid
            rw [h4] at hr
            dsimp only at hr
            obtain ⟨db, h5, h6, _, h7⟩ := remove_sim k4.inv.i uid
            rw [h5] at hr
            simp only [Option.some.injEq, Prod.mk.injEq] at hr
            rw [← hr.1]
            have hu4 : HMap.get p4.nodes2id (ident u) = some uid := by
              rw [n4, l3.n2, n2, ‹Lost p p1›.n2]; exact hu
            refine ⟨⟨k4.inv.e, h6, HMap.WF_remove k4.inv.wf _⟩, ?_, ?_, ?_, ?_, ?_⟩
            · intro k i hk
              dsimp only at hk ⊢
              rw [HMap.get_remove] at hk
              by_cases hku : k = ident u
              · rw [if_pos hku] at hk; simp at hk
              · rw [if_neg hku] at hk
                obtain ⟨o, h8, h9⟩ := k4.ids1 k i hk
                refine ⟨o, ?_, h9⟩
                rw [h7]
                simp only [DBDashMap.set]
                rw [if_neg]
                · exact h8
                · intro hi
                  obtain ⟨o', h10, h11⟩ := k4.ids1 _ _ hu4
                  rw [hi, h10] at h8
                  simp only [Option.some.injEq] at h8
                  rw [← h9, ← h8, h11] at hku
                  exact hku rfl
            · intro i o hi
              dsimp only at hi ⊢
              rw [h7] at hi
              simp only [DBDashMap.set] at hi
              by_cases hiu : i = uid
              · rw [if_pos hiu] at hi; simp at hi
              · rw [if_neg hiu] at hi
                have h8 := k4.ids2 i o hi
                rw [HMap.get_remove, if_neg]
                · exact h8
                · intro ho
                  rw [ho, hu4] at h8
                  simp only [Option.some.injEq] at h8
                  exact hiu h8.symm
            · intro i o hi
              dsimp only at hi ⊢
              rw [h7] at hi
              rw [HMap.get_remove]
              by_cases ho : ident o = ident u
              · rw [if_pos ho]; exact Or.inr rfl
              · rw [if_neg ho]; exact k4.rid i o hi
            · intro i es hi
              dsimp only at hi ⊢
              rw [h7]
              simp only [DBDashMap.set]
              rw [if_neg]
              · exact k4.wk i es hi
              · intro hiu; rw [hiu, w4] at hi; simp at hi
            · intro i es hi
              dsimp only at hi ⊢
              rw [h7]
              exact k4.rk i es hi

theorem settled_update {ident : O → K} {p : PNet K O L W} (h : Settled ident p) : Settled ident (update p) := by
  obtain ⟨a1, a2⟩ := update_sim h.inv.e
  obtain ⟨b1, b2⟩ := update_sim h.inv.i
  refine ⟨update_pinv h.inv, ?_, ?_, ?_, ?_, ?_⟩
  · simp only [update, b2]; exact h.ids1
  · simp only [update, b2]; exact h.ids2
  · simp only [update, b2]
    intro i o hi
    rw [Option.or_eq_some_iff] at hi
    rcases hi with hi | ⟨_, hi⟩
    · exact Or.inl (h.ids2 i o hi)
    · exact h.rid i o hi
  · simp only [update, a2, b2]; exact h.wk
  · simp only [update, a2, b2]
    intro i es hi
    rw [Option.or_eq_some_iff] at hi
    rcases hi with hi | ⟨_, hi⟩
    · simp [h.wk i es hi]
    · simp [h.rk i es hi]

theorem settled_addEdge {ident : O → K} {p p' : PNet K O L W} {u v : O} {o : EdgeOptions L W} {b : Bool × Bool}
    (h : Settled ident p) (hr : addEdge ident p u v o = some (p', b)) : Settled ident p' := by
  obtain ⟨p1, h1, h2, h3, h4, h5⟩ := addEdge_kept (ident := ident) h.inv u v o
  rw [h1] at hr
  simp only [Option.some.injEq, Prod.mk.injEq] at hr
  obtain ⟨rfl, _⟩ := hr
  refine ⟨h2.inv, ?_, ?_, ?_, ?_, ?_⟩
  · rw [h3, h4]; exact h.ids1
  · rw [h3, h4]; exact h.ids2
  · rw [h3, h4]; exact h.rid
  · rw [h4]
    intro i es hes
    rw [h5.e.w] at hes
    cases hu : HMap.get p.nodes2id (ident u) with
    | none =>
      rw [Network.addEdge_absent (Or.inl hu)] at hes
      rw [← (sim_view h.inv).e.w] at hes
      exact h.wk i es hes
    | some uid =>
      cases hv : HMap.get p.nodes2id (ident v) with
      | none =>
        rw [Network.addEdge_absent (Or.inr hv)] at hes
        rw [← (sim_view h.inv).e.w] at hes
        exact h.wk i es hes
      | some vid =>
        obtain ⟨_, _, _, _, a4⟩ := Network.addEdge_ok (n := view p) (o := o) hu hv
        have hne : HMap.get (Network.addEdge ident (view p) u v o).1.w.edges i ≠ none := by rw [hes]; simp
        rw [Ne, a4, not_and_or, not_and_or] at hne
        rcases hne with hne | hne | hne
        · rw [← (sim_view h.inv).e.w] at hne
          cases hg : (abs p.edges).write i with
          | none => exact absurd hg hne
          | some es => exact h.wk i es hg
        · obtain ⟨o', ho', _⟩ := h.ids1 _ _ hu
          rw [not_not.1 hne, ho']; rfl
        · obtain ⟨o', ho', _⟩ := h.ids1 _ _ hv
          rw [show i = vid by simpa using (Classical.not_imp.1 hne).2, ho']; rfl
  · rw [h2.e, h4]; exact h.rk

theorem exec_settled {ident : O → K} {p p' : PNet K O L W} {op : Op O L W} (h : Settled ident p)
    (ho : ∀ u, op ≠ .addNode u) (he : exec ident p op = some p') : Settled ident p' := by
  cases op with
  | addNode u => exact absurd rfl (ho u)
  | addEdge u v o =>
    obtain ⟨⟨p1, b⟩, hr, rfl⟩ := Option.map_eq_some_iff.1 he
    exact settled_addEdge h hr
  | removeEdge u v =>
    obtain ⟨⟨p1, b⟩, hr, rfl⟩ := Option.map_eq_some_iff.1 he
    exact settled_lost h (removeEdge_lost h.inv hr)
  | removeIncoming u =>
    obtain ⟨⟨p1, b⟩, hr, rfl⟩ := Option.map_eq_some_iff.1 he
    exact settled_lost h (removeEdgesOf_lost h.inv hr)
  | removeOutgoing u =>
    obtain ⟨⟨p1, b⟩, hr, rfl⟩ := Option.map_eq_some_iff.1 he
    exact settled_lost h (removeEdgesOf_lost h.inv hr)
  | removeNode u =>
    obtain ⟨⟨p1, b⟩, hr, rfl⟩ := Option.map_eq_some_iff.1 he
    exact settled_removeNode h hr
  | removeAllEdges =>
    simp only [exec, Option.some.injEq] at he
    subst he
    have hk := removeAllEdges_kept h.inv
    refine ⟨hk.inv, h.ids1, h.ids2, h.rid, ?_, ?_⟩
    · intro i es hes
      simp only [removeAllEdges, (clear_sim h.inv.e).2] at hes
      simp at hes
    · rw [hk.e, hk.i]; exact h.rk
  | updateNode u =>
    obtain ⟨p1, h1, h2⟩ := updateNode_sim (ident := ident) (sim_view h.inv) u h.ids
    simp only [exec, h1, Option.some.injEq] at he
    subst he
    have hk := updateNode_kept h.inv h1
    obtain ⟨s1, s2, s3⟩ := Network.updateNode_spec ident (view p) u
    have hids := Network.updateNode_idsUnique (n := view p) u h.ids
    have hn2 : ∀ k, HMap.get p1.nodes2id k = HMap.get p.nodes2id k := by
      intro k; rw [h2.n2, s2]; rfl
    have hsome : ∀ i, ((abs p1.id2nodes).write i).isSome = ((abs p.id2nodes).write i).isSome := by
      intro i
      rw [h2.i.w, s3, (sim_view h.inv).i.w]
      split <;> simp
    refine ⟨hk.inv, ?_, ?_, ?_, ?_, ?_⟩
    · intro k i hk'
      rw [h2.n2] at hk'
      rw [h2.i.w]
      exact hids.1 k i hk'
    · intro i o hi
      rw [h2.i.w] at hi
      rw [h2.n2]
      exact hids.2 i o hi
    · intro i o hi; rw [hk.i] at hi; rw [hn2]; exact h.rid i o hi
    · intro i es hes
      rw [hsome]
      rw [h2.e.w, s1, ← (sim_view h.inv).e.w] at hes
      exact h.wk i es hes
    · rw [hk.e, hk.i]; exact h.rk
  | update => simp only [exec, Option.some.injEq] at he; subst he; exact settled_update h
  | lazyUpdate => simp only [exec, Option.some.injEq] at he; subst he; exact settled_update h

theorem run_settled {ident : O → K} (ops : List (Op O L W)) : ∀ {p p' : PNet K O L W}, Settled ident p →
    (∀ op ∈ ops, ∀ u, op ≠ .addNode u) → run ident p ops = some p' → Settled ident p' := by
  induction ops with
  | nil => intro p p' h _ hr; simp only [run, Option.some.injEq] at hr; rw [← hr]; exact h
  | cons op ops ih =>
    intro p p' h hc hr
    rw [run] at hr
    cases he : exec ident p op with
    | none => rw [he] at hr; simp at hr
    | some p1 =>
      rw [he] at hr
      exact ih (exec_settled h (hc op List.mem_cons_self) he) (fun op ho => hc op (List.mem_cons_of_mem _ ho)) hr

/-- The distribution, one entry for each id with a published list whose published node is still there. -/
theorem degrees_settled {ident : O → K} {p : PNet K O L W} (h : Settled ident p) (ks : List Nat)
    (hk : ∀ k ∈ ks, ((abs p.edges).read k).isSome = true) :
    ∃ dist, degrees ident p ks = some dist ∧
      List.Forall₂ (fun d k => HMap.get p.nodes2id (ident d.1) = some k ∧
        ∃ es, (abs p.edges).read k = some es ∧ d.2 = es.length) dist (ks.filter (stillThere ident p)) := by
  induction ks with
  | nil => exact ⟨[], rfl, List.Forall₂.nil⟩
  | cons k ks ih =>
    obtain ⟨dist, h1, h2⟩ := ih (fun j hj => hk j (List.mem_cons_of_mem _ hj))
    have h3 := hk k List.mem_cons_self
    rw [Option.isSome_iff_exists] at h3
    obtain ⟨es, hes⟩ := h3
    have h4 := h.rk k es hes
    rw [Option.isSome_iff_exists] at h4
    obtain ⟨o, ho⟩ := h4
    have hst : stillThere ident p k = (HMap.get p.nodes2id (ident o)).isSome := by
      unfold stillThere getObject
      rw [getRead_abs h.inv.i, ho]
    rcases h.rid k o ho with h5 | h5
    · refine ⟨(o, es.length) :: dist, ?_, ?_⟩
      · rw [degrees, getRead_abs h.inv.i, ho]
        dsimp only
        rw [getEdges_abs h.inv, h5, Option.bind_some, hes, h1]
        rfl
      · rw [List.filter_cons_of_pos (by rw [hst, h5]; rfl)]
        exact List.Forall₂.cons ⟨h5, es, hes, rfl⟩ h2
    · refine ⟨dist, ?_, ?_⟩
      · rw [degrees, getRead_abs h.inv.i, ho]
        dsimp only
        rw [getEdges_abs h.inv, h5]
        exact h1
      · rw [List.filter_cons_of_neg (by rw [hst, h5]; simp)]
        exact h2

end Verif.ParNetwork
