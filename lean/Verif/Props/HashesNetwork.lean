import Verif.Lemmas.HashesNetwork

/-!
C257 (networks): under the feature `parallel` the hash function, the number of processors and the names of the nodes do not influence
what a network answers; they do influence the order of the edges that are returned and, through it, `add_prob_edge`.
-/

namespace Verif.ParNetwork

open Verif.Network (Edge EdgeOptions Op between Lists found eff remOk fRem upd SameUpToOrder)
open Verif.DBDashMap (DB Inv abs insert_sim remove_sim modifyWrite_sim update_sim HasSize shardAmount)
open Verif.ParGrid (getRead_abs getWrite_abs Names Both MRel)

set_option linter.unusedSectionVars false
set_option linter.unusedSimpArgs false

variable {K K' O P L W : Type} [DecidableEq K] [DecidableEq K']

/-- Two networks that hold the same, up to the names. -/
structure NRel (ident : O → K) (ident' : P → K') (φ : O → P) (p : PNet K O L W) (p' : PNet K' P L W) : Prop where
  inv : PInv p
  inv' : PInv p'
  edges : abs p'.edges = abs p.edges
  ri : ∀ i, (abs p'.id2nodes).read i = ((abs p.id2nodes).read i).map φ
  wi : ∀ i, (abs p'.id2nodes).write i = ((abs p.id2nodes).write i).map φ
  n2 : MRel ident ident' φ (fun i : Nat => i) (HMap.get p.nodes2id) (HMap.get p'.nodes2id)
  d : p'.direct = p.direct

variable {ident : O → K} {ident' : P → K'} {φ : O → P}

theorem hasSize_get {V : Type} {m : HMap K V} (h : HMap.WF m) : HasSize (HMap.get m) m.length := by
  refine ⟨m.map Prod.fst, h, fun k => ?_, List.length_map ..⟩
  have := HMap.mem_keys_iff (m := m) (k := k)
  rw [Option.isSome_iff_ne_none] at this
  exact this

theorem NRel.length (hn : Names ident ident' φ) {p : PNet K O L W} {p' : PNet K' P L W} (h : NRel ident ident' φ p p') :
    p'.nodes2id.length = p.nodes2id.length :=
  (MRel.size hn h.n2 (hasSize_get h.inv.wf) (hasSize_get h.inv'.wf)).symm

theorem NRel.id {p : PNet K O L W} {p' : PNet K' P L W} (h : NRel ident ident' φ p p') (u : O) :
    HMap.get p'.nodes2id (ident' (φ u)) = HMap.get p.nodes2id (ident u) := by
  rw [h.n2.same]; cases HMap.get p.nodes2id (ident u) <;> rfl

theorem NRel.withEdges {p : PNet K O L W} {p' : PNet K' P L W} (h : NRel ident ident' φ p p') {m m' : DB Nat (List (Edge L W))}
    (i : Inv m) (i' : Inv m') (e : abs m' = abs m) :
    NRel ident ident' φ (⟨m, p.nodes2id, p.id2nodes, p.direct⟩ : PNet K O L W) ⟨m', p'.nodes2id, p'.id2nodes, p'.direct⟩ :=
  ⟨⟨i, h.inv.i, h.inv.wf⟩, ⟨i', h.inv'.i, h.inv'.wf⟩, e, h.ri, h.wi, h.n2, h.d⟩

/-! ### The calls -/

theorem nrel_addEdge {p : PNet K O L W} {p' : PNet K' P L W} (h : NRel ident ident' φ p p') (u v : O) (o : EdgeOptions L W) :
    ∃ q q' r, addEdge ident p u v o = some (q, r) ∧ addEdge ident' p' (φ u) (φ v) o = some (q', r) ∧ NRel ident ident' φ q q' ∧
      q.id2nodes = p.id2nodes ∧ q'.id2nodes = p'.id2nodes := by
  unfold addEdge
  rw [h.id, h.id]
  cases HMap.get p.nodes2id (ident u) with
  | none => exact ⟨p, p', _, rfl, rfl, h, rfl, rfl⟩
  | some uid =>
    cases HMap.get p.nodes2id (ident v) with
    | none => exact ⟨p, p', _, rfl, rfl, h, rfl, rfl⟩
    | some vid =>
      dsimp only
      obtain ⟨m, a1, a2, a3⟩ := pushEdge_fun h.inv.e uid (Edge.new uid vid o)
      obtain ⟨m', b1, b2, b3⟩ := pushEdge_fun h.inv'.e uid (Edge.new uid vid o)
      rw [a1, b1, h.d]
      have hm : abs m' = abs m := by rw [a3, b3, h.edges]
      cases hd : p.direct with
      | true =>
        refine ⟨_, _, _, rfl, rfl, ?_, rfl, rfl⟩
        have := h.withEdges a2 b2 hm
        rw [hd, h.d, hd] at this
        exact this
      | false =>
        simp only [Bool.false_eq_true, if_false]
        obtain ⟨k, c1, c2, c3⟩ := pushEdge_fun a2 vid (Edge.new vid uid o)
        obtain ⟨k', d1, d2, d3⟩ := pushEdge_fun b2 vid (Edge.new vid uid o)
        rw [c1, d1]
        refine ⟨_, _, _, rfl, rfl, ?_, rfl, rfl⟩
        have := h.withEdges c2 d2 (by rw [c3, d3, hm])
        rw [hd, h.d, hd] at this
        exact this

theorem nrel_addNode (hn : Names ident ident' φ) {p : PNet K O L W} {p' : PNet K' P L W} (h : NRel ident ident' φ p p') (u : O) :
    ∃ q q', addNode ident p u = some q ∧ addNode ident' p' (φ u) = some q' ∧ NRel ident ident' φ q q' := by
  unfold addNode
  rw [h.length hn]
  obtain ⟨m, a1, a2, _, a3⟩ := insert_sim h.inv.i p.nodes2id.length u
  obtain ⟨m', b1, b2, _, b3⟩ := insert_sim h.inv'.i p.nodes2id.length (φ u)
  obtain ⟨k, c1, c2, c3⟩ := ensureList_fun h.inv.e p.nodes2id.length
  obtain ⟨k', d1, d2, d3⟩ := ensureList_fun h.inv'.e p.nodes2id.length
  rw [a1, b1, c1, d1]
  refine ⟨_, _, rfl, rfl, ⟨c2, a2, HMap.WF_insert h.inv.wf _ _⟩, ⟨d2, b2, HMap.WF_insert h.inv'.wf _ _⟩, ?_, ?_, ?_, ?_, h.d⟩
  · dsimp only
    rw [c3, d3, h.edges]
  · intro i
    dsimp only
    rw [a3, b3]
    exact h.ri i
  · intro i
    dsimp only
    rw [a3, b3]
    simp only [DBDashMap.set, h.wi]
    by_cases hi : i = p.nodes2id.length
    · rw [if_pos hi, if_pos hi]; rfl
    · rw [if_neg hi, if_neg hi]
  · have e1 : HMap.get (HMap.insert p.nodes2id (ident u) p.nodes2id.length).1 =
        fun i => if i = ident u then some p.nodes2id.length else HMap.get p.nodes2id i := funext (fun i => HMap.get_insert _ _ _ _)
    have e2 : HMap.get (HMap.insert p'.nodes2id (ident' (φ u)) p.nodes2id.length).1 =
        fun i => if i = ident' (φ u) then some p.nodes2id.length else HMap.get p'.nodes2id i := funext (fun i => HMap.get_insert _ _ _ _)
    dsimp only
    rw [e1, e2]
    exact h.n2.set hn u (some p.nodes2id.length)

theorem nrel_removeEdge {p : PNet K O L W} {p' : PNet K' P L W} (h : NRel ident ident' φ p p') (u v : O) :
    Both (fun x y => x.2 = y.2 ∧ NRel ident ident' φ x.1 y.1) (removeEdge ident p u v) (removeEdge ident' p' (φ u) (φ v)) := by
  unfold removeEdge
  rw [h.id, h.id]
  cases HMap.get p.nodes2id (ident u) with
  | none => exact ⟨rfl, h⟩
  | some uid =>
    cases HMap.get p.nodes2id (ident v) with
    | none => exact ⟨rfl, h⟩
    | some vid =>
      dsimp only
      have h1 := removeEdgeIds_fun h.inv.e p.direct uid vid
      have h2 := removeEdgeIds_fun h.inv'.e p'.direct uid vid
      rw [h.edges, h.d] at h2
      cases hf : fRem p.direct (abs p.edges).write uid vid with
      | none =>
        rw [hf] at h1 h2
        rw [h1, h.d, h2]
        trivial
      | some x =>
        rw [hf] at h1 h2
        obtain ⟨m, a1, a2, a3⟩ := h1
        obtain ⟨m', b1, b2, b3⟩ := h2
        rw [a1, h.d, b1]
        refine ⟨rfl, ?_⟩
        have := h.withEdges a2 b2 (by rw [a3, b3])
        rw [h.d] at this
        exact this

/-- What the loops do for a published id. -/
def partner (ident : O → K) (p : PNet K O L W) (uid v : Nat) : Option (Option Nat) :=
  if v = uid then some none else ((abs p.id2nodes).read v).map (fun o => HMap.get p.nodes2id (ident o))

theorem nrel_partner {p : PNet K O L W} {p' : PNet K' P L W} (h : NRel ident ident' φ p p') (uid : Nat) :
    partner ident' p' uid = partner ident p uid := by
  funext v
  unfold partner
  by_cases hv : v = uid
  · rw [if_pos hv, if_pos hv]
  · rw [if_neg hv, if_neg hv, h.ri]
    cases (abs p.id2nodes).read v with
    | none => rfl
    | some o => simp only [Option.map_some, h.id]

theorem removeStep_none (inc : Bool) (uid : Nat) (u : O) (ks : List Nat) :
    ks.foldl (removeStep (L := L) (W := W) ident inc uid u) none = none := by
  induction ks with
  | nil => rfl
  | cons a ks ih => exact ih

/-- One iteration of the loop, with the lists alone. -/
theorem removeStep_fun {p : PNet K O L W} (hi : PInv p) {inc : Bool} {uid : Nat} {u : O} (hu : HMap.get p.nodes2id (ident u) = some uid)
    (v : Nat) {m : DB Nat (List (Edge L W))} (hm : Inv m) (l : List (Edge L W)) :
    match gStep p.direct inc uid (partner ident p uid) (some ((abs m).write, l)) v with
    | none => removeStep ident inc uid u (some (⟨m, p.nodes2id, p.id2nodes, p.direct⟩, l)) v = none
    | some x => ∃ m', removeStep ident inc uid u (some (⟨m, p.nodes2id, p.id2nodes, p.direct⟩, l)) v =
        some (⟨m', p.nodes2id, p.id2nodes, p.direct⟩, x.2) ∧ Inv m' ∧ abs m' = ⟨(abs m).read, x.1⟩ := by
  unfold removeStep gStep
  dsimp only [Option.bind_some]
  unfold partner
  by_cases hv : v = uid
  · rw [if_pos hv, if_pos hv]
    exact ⟨m, rfl, hm, rfl⟩
  · rw [if_neg hv, if_neg hv, getRead_abs hi.i]
    cases (abs p.id2nodes).read v with
    | none => rfl
    | some o =>
      dsimp only [Option.map_some, Option.bind_some]
      cases ho : HMap.get p.nodes2id (ident o) with
      | none =>
        have e1 : (if inc then removeEdge ident (⟨m, p.nodes2id, p.id2nodes, p.direct⟩ : PNet K O L W) o u
            else removeEdge ident ⟨m, p.nodes2id, p.id2nodes, p.direct⟩ u o) =
            some (⟨m, p.nodes2id, p.id2nodes, p.direct⟩, none) := by
          unfold removeEdge
          dsimp only
          rw [ho, hu]
          cases inc <;> rfl
        rw [e1]
        exact ⟨m, rfl, hm, rfl⟩
      | some k =>
        have e1 : (if inc then removeEdge ident (⟨m, p.nodes2id, p.id2nodes, p.direct⟩ : PNet K O L W) o u
            else removeEdge ident ⟨m, p.nodes2id, p.id2nodes, p.direct⟩ u o) =
            (removeEdgeIds p.direct m (fstId inc uid k) (sndId inc uid k)).map
              (fun x => (⟨x.1, p.nodes2id, p.id2nodes, p.direct⟩, x.2)) := by
          unfold removeEdge
          dsimp only
          rw [ho, hu]
          dsimp only
          cases inc
          · simp only [Bool.false_eq_true, if_false, fstId, sndId]
            cases removeEdgeIds p.direct m uid k <;> rfl
          · simp only [if_true, fstId, sndId]
            cases removeEdgeIds p.direct m k uid <;> rfl
        rw [e1]
        have h1 := removeEdgeIds_fun hm p.direct (fstId inc uid k) (sndId inc uid k)
        dsimp only
        cases hf : fRem p.direct (abs m).write (fstId inc uid k) (sndId inc uid k) with
        | none =>
          rw [hf] at h1
          rw [h1]
          rfl
        | some x =>
          rw [hf] at h1
          obtain ⟨m', a1, a2, a3⟩ := h1
          rw [a1]
          obtain ⟨f, r⟩ := x
          cases r with
          | none => exact ⟨m', by simp, a2, a3⟩
          | some e => exact ⟨m', rfl, a2, a3⟩

/-- The loop, with the lists alone. -/
theorem foldl_removeStep_fun {p : PNet K O L W} (hi : PInv p) {inc : Bool} {uid : Nat} {u : O}
    (hu : HMap.get p.nodes2id (ident u) = some uid) (ks : List Nat) : ∀ {m : DB Nat (List (Edge L W))} (_ : Inv m) (l : List (Edge L W)),
    match ks.foldl (gStep p.direct inc uid (partner ident p uid)) (some ((abs m).write, l)) with
    | none => ks.foldl (removeStep ident inc uid u) (some (⟨m, p.nodes2id, p.id2nodes, p.direct⟩, l)) = none
    | some x => ∃ m', ks.foldl (removeStep ident inc uid u) (some (⟨m, p.nodes2id, p.id2nodes, p.direct⟩, l)) =
        some (⟨m', p.nodes2id, p.id2nodes, p.direct⟩, x.2) ∧ Inv m' ∧ abs m' = ⟨(abs m).read, x.1⟩ := by
  induction ks with
  | nil => intro m hm l; exact ⟨m, rfl, hm, rfl⟩
  | cons v ks ih =>
    intro m hm l
    rw [List.foldl_cons, List.foldl_cons]
    have h1 := removeStep_fun (ident := ident) hi (inc := inc) hu v hm l
    cases hg : gStep p.direct inc uid (partner ident p uid) (some ((abs m).write, l)) v with
    | none =>
      rw [hg] at h1
      dsimp only at h1
      rw [h1, gStep_none]
      exact removeStep_none inc uid u ks
    | some x =>
      rw [hg] at h1
      obtain ⟨m', a1, a2, a3⟩ := h1
      rw [a1]
      have h2 := ih a2 x.2
      rw [a3] at h2
      exact h2

theorem nrel_removeEdgesOf {p : PNet K O L W} {p' : PNet K' P L W} (h : NRel ident ident' φ p p') (inc : Bool) (u : O) :
    Both (fun x y => SameEdges x.2 y.2 ∧ NRel ident ident' φ x.1 y.1) (removeEdgesOf ident inc p u)
      (removeEdgesOf ident' inc p' (φ u)) := by
  unfold removeEdgesOf
  have hid := h.id u
  rw [hid]
  cases hu : HMap.get p.nodes2id (ident u) with
  | none => exact ⟨trivial, h⟩
  | some uid =>
    dsimp only
    rw [hu] at hid
    have hk : (DBDashMap.keys p.edges).Perm (DBDashMap.keys p'.edges) := by
      have k1 := DBDashMap.keys_ok h.inv.e.r
      have k2 := DBDashMap.keys_ok h.inv'.e.r
      refine (List.perm_ext_iff_of_nodup k1.1 k2.1).2 (fun a => ?_)
      have hr : (abs p'.edges).read a = (abs p.edges).read a := by rw [h.edges]
      rw [k1.2, k2.2]
      exact not_congr (by rw [show DBDashMap.look p'.edges.idx p'.edges.rShards a = DBDashMap.look p.edges.idx p.edges.rShards a from hr])
    have h1 := foldl_removeStep_fun (ident := ident) h.inv (inc := inc) hu (DBDashMap.keys p.edges) h.inv.e []
    have h2 := foldl_removeStep_fun (ident := ident') h.inv' (inc := inc) hid (DBDashMap.keys p'.edges) h.inv'.e []
    rw [nrel_partner h, h.edges, h.d] at h2
    have h3 := gLoop_perm p.direct inc uid (partner ident p uid) hk (some ((abs p.edges).write, []))
    have eta : ∀ q : PNet K O L W, (⟨q.edges, q.nodes2id, q.id2nodes, q.direct⟩ : PNet K O L W) = q := fun q => rfl
    have eta' : (⟨p'.edges, p'.nodes2id, p'.id2nodes, p.direct⟩ : PNet K' P L W) = p' := by rw [← h.d]
    rw [eta] at h1
    rw [eta'] at h2
    cases g1 : (DBDashMap.keys p.edges).foldl (gStep p.direct inc uid (partner ident p uid)) (some ((abs p.edges).write, [])) with
    | none =>
      cases g2 : (DBDashMap.keys p'.edges).foldl (gStep p.direct inc uid (partner ident p uid)) (some ((abs p.edges).write, [])) with
      | none =>
        rw [g1] at h1
        rw [g2] at h2
        rw [h1, h2]
        trivial
      | some y => rw [g1, g2] at h3; exact absurd h3 (fun hc => hc)
    | some x =>
      cases g2 : (DBDashMap.keys p'.edges).foldl (gStep p.direct inc uid (partner ident p uid)) (some ((abs p.edges).write, [])) with
      | none => rw [g1, g2] at h3; exact absurd h3 (fun hc => hc)
      | some y =>
        rw [g1] at h1
        rw [g2] at h2
        rw [g1, g2] at h3
        obtain ⟨m, a1, a2, a3⟩ := h1
        obtain ⟨m', b1, b2, b3⟩ := h2
        rw [a1, b1]
        refine ⟨h3.2, ?_⟩
        have := h.withEdges a2 b2 (by rw [a3, b3, h3.1])
        rw [h.d] at this
        exact this

theorem nrel_dropList {p : PNet K O L W} {p' : PNet K' P L W} (h : NRel ident ident' φ p p') (uid : Nat) :
    ∃ q q', dropList p uid = some q ∧ dropList p' uid = some q' ∧ NRel ident ident' φ q q' := by
  unfold dropList
  obtain ⟨m, a1, a2, _, a3⟩ := remove_sim h.inv.e uid
  obtain ⟨m', b1, b2, _, b3⟩ := remove_sim h.inv'.e uid
  rw [a1, b1]
  exact ⟨_, _, rfl, rfl, h.withEdges a2 b2 (by rw [a3, b3, h.edges])⟩

theorem nrel_removeNode (hn : Names ident ident' φ) {p : PNet K O L W} {p' : PNet K' P L W} (h : NRel ident ident' φ p p') (u : O) :
    Both (fun x y => x.2 = y.2 ∧ NRel ident ident' φ x.1 y.1) (removeNode ident p u) (removeNode ident' p' (φ u)) := by
  unfold removeNode
  rw [h.id u]
  cases HMap.get p.nodes2id (ident u) with
  | none => exact ⟨rfl, h⟩
  | some uid =>
    dsimp only
    have h1 := nrel_removeEdgesOf h false u
    cases r1 : removeEdgesOf ident false p u with
    | none =>
      rw [r1] at h1
      cases r2 : removeEdgesOf ident' false p' (φ u) with
      | none => trivial
      | some y => rw [r2] at h1; exact absurd h1 (fun hc => hc)
    | some x =>
      rw [r1] at h1
      cases r2 : removeEdgesOf ident' false p' (φ u) with
      | none => rw [r2] at h1; exact absurd h1 (fun hc => hc)
      | some y =>
        rw [r2] at h1
        obtain ⟨n1, o1⟩ := x
        obtain ⟨n1', o1'⟩ := y
        obtain ⟨s1, h1⟩ := h1
        dsimp only at s1 h1
        cases o1 with
        | none => cases o1' with
          | none => exact ⟨rfl, h1⟩
          | some _ => exact absurd s1 (fun hc => hc)
        | some l => cases o1' with
          | none => exact absurd s1 (fun hc => hc)
          | some l' =>
            dsimp only
            obtain ⟨n2, n2', e2, e2', h2⟩ := nrel_dropList h1 uid
            rw [e2, e2']
            dsimp only
            have h3 := nrel_removeEdgesOf h2 true u
            cases r3 : removeEdgesOf ident true n2 u with
            | none =>
              rw [r3] at h3
              cases r4 : removeEdgesOf ident' true n2' (φ u) with
              | none => trivial
              | some y => rw [r4] at h3; exact absurd h3 (fun hc => hc)
            | some x =>
              rw [r3] at h3
              cases r4 : removeEdgesOf ident' true n2' (φ u) with
              | none => rw [r4] at h3; exact absurd h3 (fun hc => hc)
              | some y =>
                rw [r4] at h3
                obtain ⟨n3, o3⟩ := x
                obtain ⟨n3', o3'⟩ := y
                obtain ⟨s3, h3⟩ := h3
                dsimp only at s3 h3
                cases o3 with
                | none => cases o3' with
                  | none => exact ⟨rfl, h3⟩
                  | some _ => exact absurd s3 (fun hc => hc)
                | some l => cases o3' with
                  | none => exact absurd s3 (fun hc => hc)
                  | some l' =>
                    dsimp only
                    obtain ⟨n4, n4', e4, e4', h4⟩ := nrel_dropList h3 uid
                    rw [e4, e4']
                    dsimp only
                    obtain ⟨m, a1, a2, _, a3⟩ := remove_sim h4.inv.i uid
                    obtain ⟨m', b1, b2, _, b3⟩ := remove_sim h4.inv'.i uid
                    rw [a1, b1]
                    refine ⟨rfl, ⟨h4.inv.e, a2, HMap.WF_remove h4.inv.wf _⟩, ⟨h4.inv'.e, b2, HMap.WF_remove h4.inv'.wf _⟩, h4.edges, ?_, ?_, ?_,
                      h4.d⟩
                    · intro i
                      dsimp only
                      rw [a3, b3]
                      exact h4.ri i
                    · intro i
                      dsimp only
                      rw [a3, b3]
                      simp only [DBDashMap.set, h4.wi]
                      by_cases hi : i = uid
                      · rw [if_pos hi, if_pos hi]; rfl
                      · rw [if_neg hi, if_neg hi]
                    · have e1 : HMap.get (HMap.remove n4.nodes2id (ident u)).1 =
                          fun i => if i = ident u then none else HMap.get n4.nodes2id i := funext (fun i => HMap.get_remove _ _ _)
                      have e2 : HMap.get (HMap.remove n4'.nodes2id (ident' (φ u))).1 =
                          fun i => if i = ident' (φ u) then none else HMap.get n4'.nodes2id i := funext (fun i => HMap.get_remove _ _ _)
                      dsimp only
                      rw [e1, e2]
                      exact h4.n2.set hn u none

theorem nrel_updateNode (hn : Names ident ident' φ) {p : PNet K O L W} {p' : PNet K' P L W} (h : NRel ident ident' φ p p') (u : O) :
    ∃ q q', updateNode ident p u = some q ∧ updateNode ident' p' (φ u) = some q' ∧ NRel ident ident' φ q q' := by
  unfold updateNode
  rw [h.id u]
  cases HMap.get p.nodes2id (ident u) with
  | none => exact ⟨_, _, rfl, rfl, h⟩
  | some uid =>
    dsimp only
    rw [getWrite_abs h.inv.i, getWrite_abs h.inv'.i, h.wi]
    cases hw : (abs p.id2nodes).write uid with
    | none => exact ⟨_, _, rfl, rfl, h⟩
    | some value =>
      dsimp only [Option.map_some]
      obtain ⟨m, a1, a2, a3⟩ := modifyWrite_sim h.inv.i uid (fun _ => u)
      obtain ⟨m', b1, b2, b3⟩ := modifyWrite_sim h.inv'.i uid (fun _ => φ u)
      rw [a1, b1, h.id value]
      have ri : ∀ i, (abs m').read i = ((abs m).read i).map φ := by
        intro i
        rw [a3, b3]
        exact h.ri i
      have wi : ∀ i, (abs m').write i = ((abs m).write i).map φ := by
        intro i
        rw [a3, b3]
        simp only [DBDashMap.set, h.wi]
        by_cases hi : i = uid
        · rw [if_pos hi, if_pos hi, hw]; rfl
        · rw [if_neg hi, if_neg hi]
      cases HMap.get p.nodes2id (ident value) with
      | none => exact ⟨_, _, rfl, rfl, ⟨h.inv.e, a2, h.inv.wf⟩, ⟨h.inv'.e, b2, h.inv'.wf⟩, h.edges, ri, wi, h.n2, h.d⟩
      | some j =>
        refine ⟨_, _, rfl, rfl, ⟨h.inv.e, a2, HMap.WF_insert (HMap.WF_remove h.inv.wf _) _ _⟩,
          ⟨h.inv'.e, b2, HMap.WF_insert (HMap.WF_remove h.inv'.wf _) _ _⟩, h.edges, ri, wi, ?_, h.d⟩
        have e1 : HMap.get (HMap.insert (HMap.remove p.nodes2id (ident value)).1 (ident u) uid).1 =
            fun i => if i = ident u then some uid else (fun i => if i = ident value then none else HMap.get p.nodes2id i) i :=
          funext (fun i => by rw [HMap.get_insert, HMap.get_remove])
        have e2 : HMap.get (HMap.insert (HMap.remove p'.nodes2id (ident' (φ value))).1 (ident' (φ u)) uid).1 =
            fun i => if i = ident' (φ u) then some uid else (fun i => if i = ident' (φ value) then none else HMap.get p'.nodes2id i) i :=
          funext (fun i => by rw [HMap.get_insert, HMap.get_remove])
        dsimp only
        rw [e1, e2]
        exact (h.n2.set hn value none).set hn u (some uid)

theorem nrel_update {p : PNet K O L W} {p' : PNet K' P L W} (h : NRel ident ident' φ p p') :
    NRel ident ident' φ (update p) (update p') := by
  obtain ⟨a1, a2⟩ := update_sim h.inv.e
  obtain ⟨b1, b2⟩ := update_sim h.inv'.e
  obtain ⟨c1, c2⟩ := update_sim h.inv.i
  obtain ⟨d1, d2⟩ := update_sim h.inv'.i
  refine ⟨⟨a1, c1, h.inv.wf⟩, ⟨b1, d1, h.inv'.wf⟩, ?_, ?_, ?_, h.n2, h.d⟩
  · simp only [update]; rw [a2, b2, h.edges]
  · intro i
    simp only [update]
    rw [c2, d2]
    dsimp only
    rw [h.ri, h.wi]
    cases (abs p.id2nodes).write i <;> rfl
  · intro i
    simp only [update]
    rw [c2, d2]
    exact h.wi i

theorem nrel_removeAll {p : PNet K O L W} {p' : PNet K' P L W} (h : NRel ident ident' φ p p') :
    NRel ident ident' φ (removeAllEdges p) (removeAllEdges p') := by
  obtain ⟨a1, a2⟩ := clear_sim h.inv.e
  obtain ⟨b1, b2⟩ := clear_sim h.inv'.e
  exact h.withEdges a1 b1 (by rw [a2, b2, h.edges])

theorem both_map {α β γ δ : Type} {R : α → β → Prop} {S : γ → δ → Prop} {f : α → γ} {g : β → δ} {a : Option α} {b : Option β}
    (h : Both R a b) (hs : ∀ x y, R x y → S (f x) (g y)) : Both S (a.map f) (b.map g) := by
  cases a <;> cases b
  · trivial
  · exact absurd h (fun hc => hc)
  · exact absurd h (fun hc => hc)
  · exact hs _ _ h

theorem rename_id (o : EdgeOptions L W) : o.rename (fun l => l) (fun w => w) = o := by cases o <;> rfl

theorem nrel_exec (hn : Names ident ident' φ) {p : PNet K O L W} {p' : PNet K' P L W} (h : NRel ident ident' φ p p') (op : Op O L W) :
    Both (NRel ident ident' φ) (exec ident p op) (exec ident' p' (op.rename φ (fun l => l) (fun w => w))) := by
  cases op with
  | addNode u =>
    obtain ⟨q, q', e, e', h'⟩ := nrel_addNode hn h u
    simp only [exec, Op.rename, e, e']
    exact h'
  | addEdge u v o =>
    obtain ⟨q, q', r, e, e', h', _⟩ := nrel_addEdge h u v o
    simp only [exec, Op.rename, rename_id, e, e']
    exact h'
  | removeEdge u v => exact both_map (nrel_removeEdge h u v) (fun x y hxy => hxy.2)
  | removeIncoming u => exact both_map (nrel_removeEdgesOf h true u) (fun x y hxy => hxy.2)
  | removeOutgoing u => exact both_map (nrel_removeEdgesOf h false u) (fun x y hxy => hxy.2)
  | removeNode u => exact both_map (nrel_removeNode hn h u) (fun x y hxy => hxy.2)
  | removeAllEdges => exact nrel_removeAll h
  | updateNode u =>
    obtain ⟨q, q', e, e', h'⟩ := nrel_updateNode hn h u
    simp only [exec, Op.rename, e, e']
    exact h'
  | update => exact nrel_update h
  | lazyUpdate => exact nrel_update h

theorem nrel_run (hn : Names ident ident' φ) (ops : List (Op O L W)) : ∀ {p : PNet K O L W} {p' : PNet K' P L W},
    NRel ident ident' φ p p' →
      Both (NRel ident ident' φ) (run ident p ops) (run ident' p' (ops.map (Op.rename φ (fun l => l) (fun w => w)))) := by
  induction ops with
  | nil => intro p p' h; exact h
  | cons op ops ih =>
    intro p p' h
    have h1 := nrel_exec hn h op
    rw [List.map_cons, run, run]
    cases e : exec ident p op with
    | none =>
      rw [e] at h1
      cases e' : exec ident' p' (op.rename φ (fun l => l) (fun w => w)) with
      | none => trivial
      | some q' => rw [e'] at h1; exact absurd h1 (fun hc => hc)
    | some q =>
      rw [e] at h1
      cases e' : exec ident' p' (op.rename φ (fun l => l) (fun w => w)) with
      | none => rw [e'] at h1; exact absurd h1 (fun hc => hc)
      | some q' =>
        rw [e'] at h1
        exact ih h1

theorem nrel_new {cpus cpus' : Nat} (hc : shardAmount cpus ≤ 2 ^ 64) (hc' : shardAmount cpus' ≤ 2 ^ 64) (hash hash' : Nat → Nat) (d : Bool) :
    NRel ident ident' φ (new cpus hash d : PNet K O L W) (new cpus' hash' d) := by
  refine ⟨⟨DBDashMap.inv_new hc hash, DBDashMap.inv_new hc hash, HMap.WF_nil⟩,
    ⟨DBDashMap.inv_new hc' hash', DBDashMap.inv_new hc' hash', HMap.WF_nil⟩, ?_, ?_, ?_, MRel.none, rfl⟩
  · simp only [new]; rw [DBDashMap.abs_new, DBDashMap.abs_new]
  · intro i; simp only [new]; rw [DBDashMap.abs_new, DBDashMap.abs_new]; rfl
  · intro i; simp only [new]; rw [DBDashMap.abs_new, DBDashMap.abs_new]; rfl

/-! ### The queries -/

theorem nrel_getEdges {p : PNet K O L W} {p' : PNet K' P L W} (h : NRel ident ident' φ p p') (u : O) :
    getEdges ident' p' (φ u) = getEdges ident p u := by
  unfold getEdges
  rw [h.id]
  cases HMap.get p.nodes2id (ident u) with
  | none => rfl
  | some uid => dsimp only; rw [getRead_abs h.inv.e, getRead_abs h.inv'.e, h.edges]

theorem nrel_scanEdge {p : PNet K O L W} {p' : PNet K' P L W} (h : NRel ident ident' φ p p') (uid vid : Nat) (es : List (Edge L W)) :
    scanEdge ident' p' uid vid es = scanEdge ident p uid vid es := by
  induction es with
  | nil => rfl
  | cons e es ih =>
    rw [scanEdge, scanEdge, getRead_abs h.inv.i, getRead_abs h.inv'.i, h.ri]
    cases (abs p.id2nodes).read e.v with
    | none => rfl
    | some o =>
      dsimp only [Option.map_some]
      rw [h.id]
      cases HMap.get p.nodes2id (ident o) with
      | none => rfl
      | some ve => dsimp only; rw [h.d, ih]

theorem nrel_getEdge {p : PNet K O L W} {p' : PNet K' P L W} (h : NRel ident ident' φ p p') (u v : O) :
    getEdge ident' p' (φ u) (φ v) = getEdge ident p u v := by
  unfold getEdge
  rw [h.id, h.id]
  cases HMap.get p.nodes2id (ident u) with
  | none => rfl
  | some uid =>
    dsimp only
    rw [getRead_abs h.inv.e, getRead_abs h.inv'.e, h.edges]
    cases (abs p.edges).read uid with
    | none => rfl
    | some es =>
      dsimp only
      cases HMap.get p.nodes2id (ident v) with
      | none => rfl
      | some vid => exact nrel_scanEdge h uid vid es

theorem nrel_len {p : PNet K O L W} {p' : PNet K' P L W} (h : NRel ident ident' φ p p') :
    DBDashMap.len p'.id2nodes = DBDashMap.len p.id2nodes := by
  obtain ⟨l, l1, l2, l3⟩ := DBDashMap.hasSize_flatten h.inv.i.w
  obtain ⟨l', k1, k2, k3⟩ := DBDashMap.hasSize_flatten h.inv'.i.w
  have hp : l'.Perm l := by
    refine (List.perm_ext_iff_of_nodup k1 l1).2 (fun a => ?_)
    rw [l2, k2]
    have := h.wi a
    unfold DBDashMap.abs at this
    dsimp only at this
    rw [this]
    simp
  unfold DBDashMap.len
  rw [← l3, ← k3, hp.length_eq]

theorem nrel_alike (hn : Names ident ident' φ) {p : PNet K O L W} {p' : PNet K' P L W} (h : NRel ident ident' φ p p') :
    PNet.Alike ident ident' φ p p' := by
  refine ⟨nrel_getEdges h, nrel_getEdge h, ?_, ?_, ?_, ?_, ?_, nrel_len h⟩
  · intro i
    unfold getObject
    rw [getRead_abs h.inv.i, getRead_abs h.inv'.i, h.ri]
    rfl
  · intro u v o
    obtain ⟨q, q', r, e, e', _⟩ := nrel_addEdge h u v o
    rw [e, e']
    rfl
  · intro u v
    have := nrel_removeEdge h u v
    revert this
    cases removeEdge ident p u v <;> cases removeEdge ident' p' (φ u) (φ v)
    · intro _; rfl
    · intro hc; exact absurd hc (fun hc => hc)
    · intro hc; exact absurd hc (fun hc => hc)
    · intro hc; exact congrArg some hc.1.symm
  · intro inc u
    have := both_map (f := _root_.id) (g := _root_.id) (S := fun a b => SameEdges a.2 b.2) (nrel_removeEdgesOf h inc u) (fun x y hxy => hxy.1)
    rwa [Option.map_id, Option.map_id] at this
  · intro u
    have := nrel_removeNode hn h u
    revert this
    cases removeNode ident p u <;> cases removeNode ident' p' (φ u)
    · intro _; rfl
    · intro hc; exact absurd hc (fun hc => hc)
    · intro hc; exact absurd hc (fun hc => hc)
    · intro hc; exact congrArg some hc.1.symm

/-- **C257**, networks: after any program two networks with different hash functions, numbers of processors and names have panicked in
the same call or answer alike; the calls that remove the edges of a node return the same edges in some order. -/
theorem C257_networks_partial {cpus cpus' : Nat} (hc : shardAmount cpus ≤ 2 ^ 64) (hc' : shardAmount cpus' ≤ 2 ^ 64) (ident : O → K)
    (ident' : P → K') (φ : O → P) (hn : Names ident ident' φ) (hash hash' : Nat → Nat) (d : Bool) (ops : List (Op O L W)) :
    Both (PNet.Alike ident ident' φ) (run ident (new cpus hash d) ops)
      (run ident' (new cpus' hash' d) (ops.map (Op.rename φ (fun l => l) (fun w => w)))) := by
  have := nrel_run (L := L) (W := W) hn ops (nrel_new (ident := ident) (ident' := ident') (φ := φ) hc hc' hash hash' d)
  have h2 := both_map (f := _root_.id) (g := _root_.id) (S := PNet.Alike ident ident' φ) this (fun x y hxy => nrel_alike hn hxy)
  rwa [Option.map_id, Option.map_id] at h2

/-! ### Random attachment -/

theorem nrel_attach (u : O) (vs : List O) : ∀ {p : PNet K O L W} {p' : PNet K' P L W},
    NRel ident ident' φ p p' → ∃ q q', attach ident p u vs = some q ∧ attach ident' p' (φ u) (vs.map φ) = some q' ∧
      NRel ident ident' φ q q' := by
  induction vs with
  | nil => intro p p' h; exact ⟨p, p', rfl, rfl, h⟩
  | cons v vs ih =>
    intro p p' h
    obtain ⟨q, q', r, e, e', h', _⟩ := nrel_addEdge h u v .simple
    rw [List.map_cons, attach, attach, e, e']
    exact ih h'

/-- An entry of the distribution under the new names. -/
def named (φ : O → P) (c : O × Int × Nat) : P × Int × Nat := (φ c.1, c.2)

theorem bump_named (dist : List (O × Int × Nat)) (cs : List Nat) :
    Network.bump (dist.map (named φ)) cs = (Network.bump dist cs).map (named φ) := by
  unfold Network.bump
  induction cs generalizing dist with
  | nil => rfl
  | cons c cs ih =>
    rw [List.foldl_cons, List.foldl_cons, ← ih]
    congr 1
    apply List.ext_getElem?
    intro i
    simp only [List.getElem?_modify, List.getElem?_map]
    cases dist[i]? with
    | none => by_cases h : c = i <;> simp [h]
    | some x => by_cases h : c = i <;> simp [h, named]

theorem chosen_named {α : Type} (dist : List (O × Int × Nat)) (cs : List Nat) (f : P × Int × Nat → α) (g : O × Int × Nat → α)
    (h : ∀ c, f (named φ c) = g c) :
    (cs.filterMap (fun c => (dist.map (named φ))[c]?)).map f = (cs.filterMap (fun c => dist[c]?)).map g := by
  induction cs with
  | nil => rfl
  | cons c cs ih =>
    rw [List.filterMap_cons, List.filterMap_cons, List.getElem?_map]
    cases dist[c]? with
    | none => exact ih
    | some x => simp only [Option.map_some, List.map_cons, h, ih]

theorem nrel_attachLoop (pick : Nat → List (O × Int × Nat) → Nat → List Nat) (pick' : Nat → List (P × Int × Nat) → Nat → List Nat)
    (hp : ∀ i d k, pick' i (d.map (named φ)) k = pick i d k) (nodes : List O) (m k : Nat) :
    ∀ (i : Nat) {p : PNet K O L W} {p' : PNet K' P L W} (dist : List (O × Int × Nat)), NRel ident ident' φ p p' →
      Both (NRel ident ident' φ) (attachLoop ident pick nodes m k i p dist)
        (attachLoop ident' pick' (nodes.map φ) m k i p' (dist.map (named φ))) := by
  induction k with
  | zero => intro i p p' dist h; exact h
  | succ k ih =>
    intro i p p' dist h
    rw [attachLoop, attachLoop, List.getElem?_map]
    cases nodes[i]? with
    | none => trivial
    | some node =>
      dsimp only [Option.map_some]
      simp only [List.length_map, hp]
      have e1 := chosen_named (φ := φ) dist (pick i dist (if dist.length < m then dist.length else m)) (fun c => c.1) (fun c => φ c.1)
        (fun _ => rfl)
      have e2 := chosen_named (φ := φ) dist (pick i dist (if dist.length < m then dist.length else m)) (fun c => c.2.2) (fun c => c.2.2)
        (fun _ => rfl)
      rw [e1, e2]
      obtain ⟨q, q', a, a', hq⟩ := nrel_attach node
        (((pick i dist (if dist.length < m then dist.length else m)).filterMap (fun c => dist[c]?)).map (fun c => c.1)) h
      have a2 : attach ident' p' (φ node) (((pick i dist (if dist.length < m then dist.length else m)).filterMap
          (fun c => dist[c]?)).map (fun c => φ c.1)) = some q' := by rw [List.map_map] at a'; exact a'
      rw [a, a2]
      dsimp only
      rw [bump_named]
      have := ih (i + 1) (Network.bump dist (((pick i dist (if dist.length < m then dist.length else m)).filterMap
        (fun c => dist[c]?)).map (fun c => c.2.2)) ++ [(node, ((if dist.length < m then dist.length else m : Nat) : Int), i)]) hq
      rw [List.map_append] at this
      exact this

theorem nrel_preferential (pick : Nat → List (O × Int × Nat) → Nat → List Nat) (pick' : Nat → List (P × Int × Nat) → Nat → List Nat)
    (hp : ∀ i d k, pick' i (d.map (named φ)) k = pick i d k) {p : PNet K O L W} {p' : PNet K' P L W} (h : NRel ident ident' φ p p')
    (nodes : List O) (m : Nat) :
    Both (NRel ident ident' φ) (preferentialAttachment ident pick p nodes m) (preferentialAttachment ident' pick' p' (nodes.map φ) m) := by
  unfold preferentialAttachment
  match nodes with
  | [] => exact nrel_removeAll h
  | [a] => exact nrel_removeAll h
  | a :: b :: t =>
    rw [List.map_cons, List.map_cons]
    dsimp only
    obtain ⟨q, q', r, e, e', hq, _⟩ := nrel_addEdge (nrel_removeAll h) a b .simple
    rw [e, e', nrel_len h]
    dsimp only
    have := nrel_attachLoop pick pick' hp (a :: b :: t) m (DBDashMap.len p.id2nodes - 2) 2 [(a, 1, 0), (b, 1, 1)] hq
    rw [List.map_cons, List.map_cons] at this
    have e3 : [(a, (1 : Int), 0), (b, 1, 1)].map (named φ) = [(φ a, 1, 0), (φ b, 1, 1)] := rfl
    rw [e3] at this
    revert this
    cases attachLoop ident pick (a :: b :: t) m (DBDashMap.len p.id2nodes - 2) 2 q [(a, 1, 0), (b, 1, 1)] <;>
      cases attachLoop ident' pick' (φ a :: φ b :: t.map φ) m (DBDashMap.len p.id2nodes - 2) 2 q' [(φ a, 1, 0), (φ b, 1, 1)] <;> intro this
    · trivial
    · exact this
    · exact this
    · exact nrel_update this

/-- **C257**, preferential attachment after any program, from draws that look at positions only: the two networks have panicked in the
same call or answer alike. -/
theorem C257_attachment_partial {cpus cpus' : Nat} (hc : shardAmount cpus ≤ 2 ^ 64) (hc' : shardAmount cpus' ≤ 2 ^ 64) (ident : O → K)
    (ident' : P → K') (φ : O → P) (hn : Names ident ident' φ) (hash hash' : Nat → Nat) (d : Bool) (ops : List (Op O L W))
    (pick : Nat → List (O × Int × Nat) → Nat → List Nat) (pick' : Nat → List (P × Int × Nat) → Nat → List Nat)
    (hp : ∀ i dist k, pick' i (dist.map (fun c => (φ c.1, c.2))) k = pick i dist k) (nodes : List O) (m : Nat) :
    Both (PNet.Alike ident ident' φ)
      ((run ident (new cpus hash d) ops).bind (fun p => preferentialAttachment ident pick p nodes m))
      ((run ident' (new cpus' hash' d) (ops.map (Op.rename φ (fun l => l) (fun w => w)))).bind
        (fun p => preferentialAttachment ident' pick' p (nodes.map φ) m)) := by
  have h1 := nrel_run (L := L) (W := W) hn ops (nrel_new (ident := ident) (ident' := ident') (φ := φ) hc hc' hash hash' d)
  revert h1
  cases run ident (new cpus hash d : PNet K O L W) ops <;>
    cases run ident' (new cpus' hash' d : PNet K' P L W) (ops.map (Op.rename φ (fun l => l) (fun w => w))) <;> intro h1
  · trivial
  · exact absurd h1 (fun hc => hc)
  · exact absurd h1 (fun hc => hc)
  · rename_i p p'
    have h2 := nrel_preferential pick pick' hp h1 nodes m
    have h3 := both_map (f := _root_.id) (g := _root_.id) (S := PNet.Alike ident ident' φ) h2 (fun x y hxy => nrel_alike hn hxy)
    rwa [Option.map_id, Option.map_id] at h3

/-- Nodes 5, 6 and 7 with edges from 6 and 7 to 5. -/
def demoOrder : List (Op Nat Unit Unit) :=
  [.addNode 5, .addNode 6, .addNode 7, .addEdge 6 5 .simple, .addEdge 7 5 .simple, .update]

/-- **C257** is false of the order in which `remove_incoming_edges` returns the edges: it is that of the hashes. -/
theorem C257_order_negation_partial :
    ((run id (new 1 (fun i => i * 2 ^ 55) true) demoOrder).bind (fun p => removeEdgesOf id true p 5)).map
      (fun x => x.2.map (List.map (fun e => e.u))) = some (some [1, 2]) ∧
    ((run id (new 1 (fun i => (3 - i) * 2 ^ 55) true) demoOrder).bind (fun p => removeEdgesOf id true p 5)).map
      (fun x => x.2.map (List.map (fun e => e.u))) = some (some [2, 1]) := by
  constructor <;> decide +kernel

/-- The same program with nodes 15, 16 and 17, in a process with another hash function and more processors: the nodes have names with
the identities of the old ones, a node is removed and the calls do not panic. -/
example : Names (id : Nat → Nat) (id : Nat → Nat) (fun n => n + 10) ∧ shardAmount 1 ≤ 2 ^ 64 ∧ shardAmount 16 ≤ 2 ^ 64 ∧
    (run id (new 1 (fun i => i * 2 ^ 55) true) (demoOrder ++ [Op.removeNode 6, Op.update])).isSome = true ∧
    ((run id (new 16 (fun i => (3 - i) * 2 ^ 55) true)
      ((demoOrder ++ [Op.removeNode 6, Op.update]).map (Op.rename (fun n => n + 10) (fun l => l) (fun w => w)))).bind
        (fun p => getEdges id p 17)).map (Option.map (List.map (fun e => (e.u, e.v)))) = some (some [(2, 0)]) ∧
    ((run id (new 1 (fun i => i * 2 ^ 55) true) (demoOrder ++ [Op.removeNode 6, Op.update])).bind
        (fun p => getEdges id p 7)).map (Option.map (List.map (fun e => (e.u, e.v)))) = some (some [(2, 0)]) := by
  refine ⟨fun a b => by simp, by decide +kernel, by decide +kernel, by decide +kernel, by decide +kernel, by decide +kernel⟩

end Verif.ParNetwork
