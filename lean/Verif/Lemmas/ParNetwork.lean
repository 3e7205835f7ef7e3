import Verif.Model.ParNetwork
import Verif.Lemmas.ParGrid
import Verif.Lemmas.Network5

/-!
Helper lemmas about `Network` under the feature `parallel`: simulation of its calls by those of the sequential
network, whose maps are compared by their contents only.
-/

namespace Verif.ParNetwork

open Verif.Network (Edge EdgeOptions EdgeMap Net Side Op between Own removeLoop)
open Verif.DBDashMap (DB Inv abs insert_sim remove_sim modifyWrite_sim update_sim)
open Verif.ParGrid (getRead_abs getWrite_abs)

set_option linter.unusedSectionVars false

variable {K O L W : Type} [DecidableEq K]

/-- The written entries of `db` are those of `m`. -/
structure Reps {V : Type} (db : DB Nat V) (m : HMap Nat V) : Prop where
  inv : Inv db
  w : ∀ i, (abs db).write i = HMap.get m i

theorem pushEdge_sim {db : DB Nat (List (Edge L W))} {m : EdgeMap L W} (h : Reps db m) (k : Nat) (e : Edge L W) :
    ∃ db', pushEdge db k e = some db' ∧ Reps db' (Network.pushEdge m k e) ∧ (abs db').read = (abs db).read := by
  unfold pushEdge
  rw [getWrite_abs h.inv, h.w]
  cases hg : HMap.get m k with
  | none =>
    obtain ⟨db', h1, h2, _, h3⟩ := insert_sim h.inv k [e]
    refine ⟨db', by rw [h1]; rfl, ⟨h2, ?_⟩, by rw [h3]⟩
    intro i
    rw [h3, Network.get_pushEdge, hg]
    simp only [DBDashMap.set, h.w]
    rfl
  | some es =>
    obtain ⟨db', h1, h2, h3⟩ := modifyWrite_sim h.inv k (fun es => es ++ [e])
    refine ⟨db', h1, ⟨h2, ?_⟩, by rw [h3]⟩
    intro i
    rw [h3, Network.get_pushEdge, hg]
    simp only [DBDashMap.set, h.w, hg]
    rfl

theorem removeEdgeIds_sim {db : DB Nat (List (Edge L W))} {m : EdgeMap L W} (h : Reps db m) (d : Bool) (a b : Nat) :
    match Network.removeEdgeIds d m a b with
    | none => removeEdgeIds d db a b = none
    | some (m', r) => ∃ db', removeEdgeIds d db a b = some (db', r) ∧ Reps db' m' ∧ (abs db').read = (abs db).read := by
  unfold removeEdgeIds Network.removeEdgeIds
  rw [getWrite_abs h.inv, h.w]
  cases hg : HMap.get m a with
  | none => rfl
  | some ues =>
    dsimp only
    cases hf : ues.find? (between a b) with
    | none => exact ⟨db, rfl, h, rfl⟩
    | some e =>
      dsimp only
      obtain ⟨db', h1, h2, h3⟩ := modifyWrite_sim h.inv a (fun es => es.eraseP (between a b))
      rw [h1]
      dsimp only
      have hw : ∀ i, (abs db').write i = HMap.get (HMap.adjust m a (fun es => es.eraseP (between a b))) i := by
        intro i
        rw [h3, HMap.get_adjustBy]
        simp only [DBDashMap.set, h.w]
      cases d with
      | true => exact ⟨db', rfl, ⟨h2, hw⟩, by rw [h3]⟩
      | false =>
        simp only [Bool.false_eq_true, if_false]
        rw [getWrite_abs h2, hw]
        have hx : HMap.get (HMap.adjust m a (fun es => es.eraseP (between a b))) b =
            if b = a then (HMap.get m b).map (fun es => es.eraseP (between a b)) else HMap.get m b := by
          rw [HMap.get_adjustBy]
          by_cases hba : b = a
          · rw [if_pos hba, if_pos hba, hba]
          · rw [if_neg hba, if_neg hba]
        cases hb : HMap.get m b with
        | none =>
          rw [hx, hb]
          by_cases hba : b = a <;> simp [hba]
        | some ves =>
          rw [hx, hb]
          have : ∃ vs, (if b = a then (some ves).map (fun es => es.eraseP (between a b)) else some ves) = some vs := by
            by_cases hba : b = a
            · exact ⟨_, by rw [if_pos hba]; rfl⟩
            · exact ⟨_, by rw [if_neg hba]⟩
          obtain ⟨vs, hvs⟩ := this
          rw [hvs]
          dsimp only
          obtain ⟨db'', h4, h5, h6⟩ := modifyWrite_sim h2 b (fun es => es.filter (fun e => !between a b e))
          refine ⟨db'', by rw [h4]; rfl, ⟨h5, ?_⟩, by rw [h6, h3]⟩
          intro i
          rw [h6, HMap.get_adjustBy]
          simp only [DBDashMap.set, hw]

/-! ### Networks -/

/-- The parallel network `p` holds what the sequential network `n` holds; the published map from nodes to ids, which
`p` does not have, excepted. -/
structure Sim (p : PNet K O L W) (n : Net K O L W) : Prop where
  e : Reps p.edges n.w.edges
  i : Reps p.id2nodes n.w.id2nodes
  re : ∀ i, (abs p.edges).read i = HMap.get n.r.edges i
  ri : ∀ i, (abs p.id2nodes).read i = HMap.get n.r.id2nodes i
  n2 : ∀ k, HMap.get p.nodes2id k = HMap.get n.w.nodes2id k
  wf : HMap.WF p.nodes2id
  wf' : HMap.WF n.w.nodes2id
  d : p.direct = n.direct

theorem Sim.length {p : PNet K O L W} {n : Net K O L W} (h : Sim p n) :
    p.nodes2id.length = n.w.nodes2id.length := (HMap.perm_of_get h.wf h.wf' h.n2).length_eq

theorem sim_new {cpus : Nat} (hc : DBDashMap.shardAmount cpus ≤ 2 ^ 64) (hash : Nat → Nat) (d : Bool) :
    Sim (new cpus hash d : PNet K O L W) (Net.new d) := by
  refine ⟨⟨DBDashMap.inv_new hc hash, ?_⟩, ⟨DBDashMap.inv_new hc hash, ?_⟩, ?_, ?_, fun _ => rfl, by simp [new],
    by simp [Net.new], rfl⟩ <;>
  · intro i
    simp only [new, DBDashMap.abs_new]
    rfl

/-- What the network holds, as a sequential network; ids are never published separately. -/
def view (p : PNet K O L W) : Net K O L W :=
  ⟨⟨p.edges.rShards.flatten, p.nodes2id, p.id2nodes.rShards.flatten⟩,
   ⟨p.edges.shards.flatten, p.nodes2id, p.id2nodes.shards.flatten⟩, p.direct⟩

/-- The well-formedness that every reachable network has. -/
structure PInv (p : PNet K O L W) : Prop where
  e : Inv p.edges
  i : Inv p.id2nodes
  wf : HMap.WF p.nodes2id

theorem Sim.inv {p : PNet K O L W} {n : Net K O L W} (h : Sim p n) : PInv p := ⟨h.e.inv, h.i.inv, h.wf⟩

theorem sim_view {p : PNet K O L W} (h : PInv p) : Sim p (view p) := by
  refine ⟨⟨h.e, ?_⟩, ⟨h.i, ?_⟩, ?_, ?_, fun _ => rfl, h.wf, h.wf, rfl⟩
  · intro i; exact (h.e.w.get_flatten i).symm
  · intro i; exact (h.i.w.get_flatten i).symm
  · intro i; exact (h.e.r.get_flatten i).symm
  · intro i; exact (h.i.r.get_flatten i).symm

theorem addEdge_sim {ident : O → K} {p : PNet K O L W} {n : Net K O L W} (h : Sim p n) (u v : O)
    (o : EdgeOptions L W) :
    ∃ p', addEdge ident p u v o = some (p', (Network.addEdge ident n u v o).2) ∧
      Sim p' (Network.addEdge ident n u v o).1 ∧ p'.nodes2id = p.nodes2id ∧ p'.id2nodes = p.id2nodes := by
  unfold addEdge Network.addEdge
  rw [h.n2]
  cases hu : HMap.get n.w.nodes2id (ident u) with
  | none => exact ⟨p, rfl, h, rfl, rfl⟩
  | some uid =>
    dsimp only
    rw [h.n2]
    cases hv : HMap.get n.w.nodes2id (ident v) with
    | none => exact ⟨p, rfl, h, rfl, rfl⟩
    | some vid =>
      dsimp only
      obtain ⟨m, h1, h2, h3⟩ := pushEdge_sim h.e uid (Edge.new uid vid o)
      rw [h1, h.d]
      dsimp only
      cases hd : n.direct with
      | true =>
        refine ⟨_, rfl, ⟨h2, h.i, ?_, h.ri, h.n2, h.wf, h.wf', rfl⟩, rfl, rfl⟩
        intro i
        dsimp only
        rw [h3]
        exact h.re i
      | false =>
        obtain ⟨m', h4, h5, h6⟩ := pushEdge_sim h2 vid (Edge.new vid uid o)
        simp only [Bool.false_eq_true, if_false]
        rw [h4]
        refine ⟨_, rfl, ⟨h5, h.i, ?_, h.ri, h.n2, h.wf, h.wf', rfl⟩, rfl, rfl⟩
        intro i
        dsimp only
        rw [h6, h3]
        exact h.re i

theorem removeEdge_sim {ident : O → K} {p : PNet K O L W} {n : Net K O L W} (h : Sim p n) (u v : O)
    (hu : HMap.get n.r.nodes2id (ident u) = HMap.get n.w.nodes2id (ident u))
    (hv : HMap.get n.r.nodes2id (ident v) = HMap.get n.w.nodes2id (ident v)) :
    match Network.removeEdge ident n u v with
    | none => removeEdge ident p u v = none
    | some (n', r) => ∃ p', removeEdge ident p u v = some (p', r) ∧ Sim p' n' ∧
        p'.nodes2id = p.nodes2id ∧ p'.id2nodes = p.id2nodes := by
  unfold removeEdge Network.removeEdge
  rw [h.n2, hu, hv, h.n2]
  cases HMap.get n.w.nodes2id (ident u) with
  | none => exact ⟨p, rfl, h, rfl, rfl⟩
  | some uid =>
    dsimp only
    cases HMap.get n.w.nodes2id (ident v) with
    | none => exact ⟨p, rfl, h, rfl, rfl⟩
    | some vid =>
      dsimp only
      have hs := removeEdgeIds_sim h.e n.direct uid vid
      rw [h.d]
      cases hr : Network.removeEdgeIds n.direct n.w.edges uid vid with
      | none =>
        rw [hr] at hs
        dsimp only at hs ⊢
        rw [hs]
      | some x =>
        rw [hr] at hs
        dsimp only at hs ⊢
        obtain ⟨m, h1, h2, h3⟩ := hs
        rw [h1]
        refine ⟨_, rfl, ⟨h2, h.i, ?_, h.ri, h.n2, h.wf, h.wf', rfl⟩, rfl, rfl⟩
        intro i
        dsimp only
        rw [h3]
        exact h.re i

theorem update_sim' {p : PNet K O L W} {n : Net K O L W} (h : Sim p n)
    (he : ∀ i, HMap.get n.w.edges i = none → HMap.get n.r.edges i = none)
    (hi : ∀ i, HMap.get n.w.id2nodes i = none → HMap.get n.r.id2nodes i = none) :
    Sim (update p) (Network.update n) := by
  obtain ⟨a1, a2⟩ := update_sim h.e.inv
  obtain ⟨b1, b2⟩ := update_sim h.i.inv
  refine ⟨⟨a1, ?_⟩, ⟨b1, ?_⟩, ?_, ?_, h.n2, h.wf, h.wf', h.d⟩
  · intro i; simp only [update, a2]; exact h.e.w i
  · intro i; simp only [update, b2]; exact h.i.w i
  · intro i
    simp only [update, a2, Network.update]
    rw [h.e.w i, h.re i]
    cases hg : HMap.get n.w.edges i with
    | none => rw [he i hg]; rfl
    | some es => rfl
  · intro i
    simp only [update, b2, Network.update]
    rw [h.i.w i, h.ri i]
    cases hg : HMap.get n.w.id2nodes i with
    | none => rw [hi i hg]; rfl
    | some es => rfl

theorem addNode_sim {ident : O → K} {p : PNet K O L W} {n : Net K O L W} (h : Sim p n) (u : O)
    (he : HMap.get n.w.edges n.w.nodes2id.length = none) (hr : HMap.get n.r.edges n.w.nodes2id.length = none) :
    ∃ p', addNode ident p u = some p' ∧ Sim p' (Network.addNode ident n u) := by
  unfold addNode ensureList
  rw [h.length]
  obtain ⟨db, h1, h2, _, h3⟩ := insert_sim h.i.inv n.w.nodes2id.length u
  obtain ⟨m, h4, h5, _, h6⟩ := insert_sim h.e.inv n.w.nodes2id.length ([] : List (Edge L W))
  rw [h1, getRead_abs h.e.inv, h.re, hr]
  dsimp only
  rw [h4]
  refine ⟨_, rfl, ⟨⟨h5, ?_⟩, ⟨h2, ?_⟩, ?_, ?_, ?_, HMap.WF_insert h.wf _ _, HMap.WF_insert h.wf' _ _, h.d⟩⟩
  · intro i
    dsimp only
    rw [h6]
    simp only [Network.addNode, Network.get_ensureList, DBDashMap.set, he, h.e.w]
    rfl
  · intro i
    dsimp only
    rw [h3]
    simp only [Network.addNode, HMap.get_insert, DBDashMap.set, h.i.w]
  · intro i
    dsimp only
    rw [h6]
    exact h.re i
  · intro i
    dsimp only
    rw [h3]
    exact h.ri i
  · intro k
    dsimp only
    simp only [Network.addNode, HMap.get_insert, h.n2]

theorem updateNode_sim {ident : O → K} {p : PNet K O L W} {n : Net K O L W} (h : Sim p n) (u : O)
    (hids : n.w.IdsUnique ident) :
    ∃ p', updateNode ident p u = some p' ∧ Sim p' (Network.updateNode ident n u) := by
  unfold updateNode Network.updateNode
  rw [h.n2]
  cases hu : HMap.get n.w.nodes2id (ident u) with
  | none => exact ⟨p, rfl, h⟩
  | some uid =>
    dsimp only
    obtain ⟨o, ho, hid⟩ := hids.1 _ _ hu
    rw [getWrite_abs h.i.inv, h.i.w, ho]
    dsimp only
    obtain ⟨db, h1, h2, h3⟩ := modifyWrite_sim h.i.inv uid (fun _ => u)
    rw [h1, hid, h.n2, hu]
    dsimp only
    refine ⟨_, rfl, ⟨h.e, ⟨h2, ?_⟩, h.re, ?_, ?_, HMap.WF_insert (HMap.WF_remove h.wf _) _ _, h.wf', h.d⟩⟩
    · intro i
      dsimp only
      rw [h3]
      simp only [HMap.get_adjustBy, DBDashMap.set, h.i.w]
    · intro i
      dsimp only
      rw [h3]
      exact h.ri i
    · intro k
      dsimp only
      rw [HMap.get_insert, HMap.get_remove]
      by_cases hk : k = ident u
      · rw [if_pos hk, hk, hu]
      · rw [if_neg hk, if_neg hk, h.n2]

/-- The loop over the ids: as the sequential one, with the published map from ids to nodes. -/
theorem foldl_removeStep_sim {ident : O → K} {inc : Bool} {uid : Nat} {u : O} (ns : HMap Nat O) (ks : List Nat) :
    ∀ {p : PNet K O L W} {n : Net K O L W} (l : List (Edge L W)), Sim p n →
      (∀ i, HMap.get n.r.id2nodes i = HMap.get ns i) →
      (∀ k, HMap.get n.r.nodes2id k = HMap.get n.w.nodes2id k) →
      match ks.foldl (Network.removeStep ident inc ns uid u) (some (n, l)) with
      | none => ks.foldl (removeStep ident inc uid u) (some (p, l)) = none
      | some (n', l') => ∃ p', ks.foldl (removeStep ident inc uid u) (some (p, l)) = some (p', l') ∧ Sim p' n' ∧
          p'.nodes2id = p.nodes2id ∧ p'.id2nodes = p.id2nodes := by
  induction ks with
  | nil => intro p n l h _ _; exact ⟨p, rfl, h, rfl, rfl⟩
  | cons k ks ih =>
    intro p n l h hns hn2
    rw [List.foldl_cons, List.foldl_cons]
    have hstep : match Network.removeStep ident inc ns uid u (some (n, l)) k with
        | none => removeStep ident inc uid u (some (p, l)) k = none
        | some (n', l') => ∃ p', removeStep ident inc uid u (some (p, l)) k = some (p', l') ∧ Sim p' n' ∧
            p'.nodes2id = p.nodes2id ∧ p'.id2nodes = p.id2nodes ∧ n'.r = n.r ∧ n'.w.nodes2id = n.w.nodes2id := by
      unfold Network.removeStep removeStep
      dsimp only
      by_cases hk : k = uid
      · rw [if_pos hk, if_pos hk]
        exact ⟨p, rfl, h, rfl, rfl, rfl, rfl⟩
      · rw [if_neg hk, if_neg hk, getRead_abs h.i.inv, h.ri, hns]
        cases hg : HMap.get ns k with
        | none => rfl
        | some o =>
          dsimp only
          have key : ∀ a b : O, match Network.removeEdge ident n a b with
              | none => removeEdge ident p a b = none
              | some (n', r) => ∃ p', removeEdge ident p a b = some (p', r) ∧ Sim p' n' ∧
                p'.nodes2id = p.nodes2id ∧ p'.id2nodes = p.id2nodes ∧ n'.r = n.r ∧ n'.w.nodes2id = n.w.nodes2id := by
            intro a b
            have h1 := removeEdge_sim (ident := ident) h a b (hn2 _) (hn2 _)
            cases hr : Network.removeEdge ident n a b with
            | none => rw [hr] at h1; exact h1
            | some x =>
              rw [hr] at h1
              obtain ⟨n', r⟩ := x
              dsimp only at h1 ⊢
              obtain ⟨p', h2, h3, h4, h5⟩ := h1
              have hf := Network.removeEdge_frame hr
              exact ⟨p', h2, h3, h4, h5, hf.r, hf.nodes2id⟩
          have key2 : match (if inc then Network.removeEdge ident n o u else Network.removeEdge ident n u o) with
              | none => (if inc then removeEdge ident p o u else removeEdge ident p u o) = none
              | some (n', r) => ∃ p', (if inc then removeEdge ident p o u else removeEdge ident p u o) = some (p', r) ∧
                Sim p' n' ∧ p'.nodes2id = p.nodes2id ∧ p'.id2nodes = p.id2nodes ∧ n'.r = n.r ∧
                n'.w.nodes2id = n.w.nodes2id := by
            cases inc
            · exact key u o
            · exact key o u
          cases hr : (if inc then Network.removeEdge ident n o u else Network.removeEdge ident n u o) with
          | none => rw [hr] at key2; dsimp only at key2 ⊢; rw [key2]
          | some x =>
            rw [hr] at key2
            obtain ⟨n', r⟩ := x
            dsimp only at key2
            obtain ⟨p', h2, h3⟩ := key2
            rw [h2]
            cases r with
            | none => exact ⟨p', rfl, h3⟩
            | some e => exact ⟨p', rfl, h3⟩
    cases hr : Network.removeStep ident inc ns uid u (some (n, l)) k with
    | none =>
      rw [hr] at hstep
      dsimp only at hstep
      rw [hstep]
      have e1 : ∀ ks : List Nat, ks.foldl (Network.removeStep (L := L) (W := W) ident inc ns uid u) none = none := by
        intro ks; induction ks with
        | nil => rfl
        | cons a b ih => exact ih
      have e2 : ∀ ks : List Nat, ks.foldl (removeStep (L := L) (W := W) ident inc uid u) none = none := by
        intro ks; induction ks with
        | nil => rfl
        | cons a b ih => exact ih
      rw [e1, e2]
    | some x =>
      rw [hr] at hstep
      obtain ⟨n', l'⟩ := x
      dsimp only at hstep
      obtain ⟨p', h2, h3, h4, h5, h6, h7⟩ := hstep
      rw [h2]
      have := ih l' h3 (by rw [h6]; exact hns) (by rw [h6, h7]; exact hn2)
      cases hf : ks.foldl (Network.removeStep ident inc ns uid u) (some (n', l')) with
      | none => rw [hf] at this; exact this
      | some y =>
        rw [hf] at this
        obtain ⟨n'', l''⟩ := y
        dsimp only at this ⊢
        obtain ⟨p'', a1, a2, a3, a4⟩ := this
        exact ⟨p'', a1, a2, a3.trans h4, a4.trans h5⟩

end Verif.ParNetwork
