import Verif.Lemmas.ParNetwork2
import Verif.Spec.ParNetwork

/-!
Helper lemmas: a gentle history keeps the parallel network and the sequential one alike.
-/

namespace Verif.ParNetwork

open Verif.Network (Edge EdgeOptions EdgeMap Net Side Op between Own removeLoop IdsInv Published fLoop removeLoop_get
  SameUpToOrder fLoop_perm Frame Lists)
open Verif.DBDashMap (DB Inv abs insert_sim remove_sim modifyWrite_sim update_sim)
open Verif.ParGrid (getRead_abs getWrite_abs)

set_option linter.unusedSectionVars false

variable {K O L W : Type} [DecidableEq K]

/-- What a sequential network satisfies after a gentle history. -/
structure Good (ident : O → K) (n : Net K O L W) : Prop where
  ids : IdsInv ident n
  lw : n.w.Listed
  lr : n.r.Listed
  sub : ∀ k i, HMap.get n.r.nodes2id k = some i → HMap.get n.w.nodes2id k = some i
  wfi : HMap.WF n.w.id2nodes

theorem good_new (ident : O → K) (d : Bool) : Good ident (Net.new d : Net K O L W) :=
  ⟨Network.idsInv_new ident d, by intro i o h; simp [Net.new] at h, by intro i o h; simp [Net.new] at h,
    by intro k i h; simp [Net.new] at h, by simp [Net.new]⟩

theorem Good.id_sub {ident : O → K} {n : Net K O L W} (h : Good ident n) {i : Nat} {o : O}
    (hi : HMap.get n.r.id2nodes i = some o) : ∃ o', HMap.get n.w.id2nodes i = some o' ∧ ident o' = ident o :=
  h.ids.1.1.1 _ _ (h.sub _ _ (h.ids.1.2.2.1.2 _ _ hi))

theorem Good.r_lt {ident : O → K} {n : Net K O L W} (h : Good ident n) {i : Nat} {es : List (Edge L W)}
    (hi : HMap.get n.r.edges i = some es) : i < n.w.nodes2id.length := by
  have h1 := h.ids.1.2.2.2.2 _ _ hi
  rw [Option.isSome_iff_exists] at h1
  obtain ⟨o, ho⟩ := h1
  obtain ⟨o', ho', _⟩ := h.id_sub ho
  exact (h.ids.2.1 i).1 (by rw [ho']; rfl)

theorem Good.r_free {ident : O → K} {n : Net K O L W} (h : Good ident n) :
    HMap.get n.r.edges n.w.nodes2id.length = none := by
  cases hg : HMap.get n.r.edges n.w.nodes2id.length with
  | none => rfl
  | some es => have := h.r_lt hg; omega

theorem Good.w_free {ident : O → K} {n : Net K O L W} (h : Good ident n) :
    HMap.get n.w.edges n.w.nodes2id.length = none := by
  cases hg : HMap.get n.w.edges n.w.nodes2id.length with
  | none => rfl
  | some es =>
    have := (h.ids.2.1 _).1 (h.ids.1.2.1.2 _ _ hg)
    omega

theorem Good.e_none {ident : O → K} {n : Net K O L W} (h : Good ident n) (i : Nat)
    (hi : HMap.get n.w.edges i = none) : HMap.get n.r.edges i = none := by
  cases hg : HMap.get n.r.edges i with
  | none => rfl
  | some es =>
    have h1 := h.ids.1.2.2.2.2 _ _ hg
    rw [Option.isSome_iff_exists] at h1
    obtain ⟨o, ho⟩ := h1
    obtain ⟨o', ho', _⟩ := h.id_sub ho
    obtain ⟨es', hes'⟩ := h.lw _ _ ho'
    rw [hi] at hes'
    simp at hes'

theorem Good.i_none {ident : O → K} {n : Net K O L W} (h : Good ident n) (i : Nat)
    (hi : HMap.get n.w.id2nodes i = none) : HMap.get n.r.id2nodes i = none := by
  cases hg : HMap.get n.r.id2nodes i with
  | none => rfl
  | some o =>
    obtain ⟨o', ho', _⟩ := h.id_sub hg
    rw [hi] at ho'
    simp at ho'

theorem listed_frame {n n' : Net K O L W} (h : n.w.Listed) (f : Frame n n') : n'.w.Listed := by
  intro i o hi
  rw [f.id2nodes] at hi
  obtain ⟨es, hes⟩ := h i o hi
  obtain ⟨es', h1, _⟩ := (f.edges i).2 es hes
  exact ⟨es', h1⟩

theorem listed_addEdge {ident : O → K} {n : Net K O L W} (h : n.w.Listed) (u v : O) (o : EdgeOptions L W) :
    (Network.addEdge ident n u v o).1.w.Listed := by
  cases hu : HMap.get n.w.nodes2id (ident u) with
  | none => rw [Network.addEdge_absent (Or.inl hu)]; exact h
  | some uid =>
    cases hv : HMap.get n.w.nodes2id (ident v) with
    | none => rw [Network.addEdge_absent (Or.inr hv)]; exact h
    | some vid =>
      intro i x hi
      rw [(Network.addEdge_nodes ident n u v o).2] at hi
      obtain ⟨es, hes⟩ := h i x hi
      unfold Network.addEdge
      rw [hu, hv]
      dsimp only
      cases n.direct
      · simp only [Bool.false_eq_true, if_false, Network.get_pushEdge]
        split
        · exact ⟨_, rfl⟩
        · split
          · exact ⟨_, rfl⟩
          · exact ⟨es, hes⟩
      · simp only [if_true, Network.get_pushEdge]
        split
        · exact ⟨_, rfl⟩
        · exact ⟨es, hes⟩

theorem wf_updateNode (ident : O → K) {n : Net K O L W} (h : HMap.WF n.w.id2nodes) (u : O) :
    HMap.WF (Network.updateNode ident n u).w.id2nodes := by
  unfold Network.updateNode
  cases HMap.get n.w.nodes2id (ident u) with
  | none => exact h
  | some uid => exact HMap.WF_adjust h uid (fun _ => u)

theorem Gentle.only {ident : O → K} {n : Net K O L W} {op : Op O L W} (h : Gentle ident n op) :
    Network.NodesOnlyAdded ident n op := by
  cases op <;> first | exact h | trivial

theorem exec_good {ident : O → K} {n n' : Net K O L W} {op : Op O L W} (h : Good ident n) (hg : Gentle ident n op)
    (he : Network.exec ident n op = some n') : Good ident n' := by
  have hids := Network.exec_ids h.ids hg.only he
  cases op with
  | addNode u =>
    simp only [Network.exec, Option.some.injEq] at he
    rw [← he] at hids ⊢
    refine ⟨hids, ?_, h.lr, ?_, HMap.WF_insert h.wfi _ _⟩
    · intro i o hi
      simp only [Network.addNode, HMap.get_insert] at hi
      simp only [Network.addNode, Network.get_ensureList]
      by_cases hl : i = n.w.nodes2id.length
      · rw [if_pos hl]; exact ⟨_, rfl⟩
      · rw [if_neg hl] at hi ⊢
        exact h.lw i o hi
    · intro k i hk
      simp only [Network.addNode, HMap.get_insert] at hk ⊢
      rw [if_neg]
      · exact h.sub k i hk
      · intro hku
        have := h.sub k i hk
        rw [hku, hg] at this
        simp at this
  | addEdge u v o =>
    simp only [Network.exec, Option.some.injEq] at he
    have h1 := listed_addEdge (ident := ident) h.lw u v o
    have h2 := Network.addEdge_r ident n u v o
    have h3 := Network.addEdge_nodes ident n u v o
    rw [← he] at hids ⊢
    exact ⟨hids, h1, by rw [h2.1]; exact h.lr, by rw [h2.1, h3.1]; exact h.sub, by rw [h3.2]; exact h.wfi⟩
  | removeEdge u v =>
    obtain ⟨⟨n1, b⟩, hr, rfl⟩ := Option.map_eq_some_iff.1 he
    have f := Network.removeEdge_frame hr
    exact ⟨hids, listed_frame h.lw f, by rw [f.r]; exact h.lr, by rw [f.r, f.nodes2id]; exact h.sub,
      by rw [f.id2nodes]; exact h.wfi⟩
  | removeIncoming u =>
    obtain ⟨⟨n1, b⟩, hr, rfl⟩ := Option.map_eq_some_iff.1 he
    have f := Network.removeEdgesOf_frame hr
    exact ⟨hids, listed_frame h.lw f, by rw [f.r]; exact h.lr, by rw [f.r, f.nodes2id]; exact h.sub,
      by rw [f.id2nodes]; exact h.wfi⟩
  | removeOutgoing u =>
    obtain ⟨⟨n1, b⟩, hr, rfl⟩ := Option.map_eq_some_iff.1 he
    have f := Network.removeEdgesOf_frame hr
    exact ⟨hids, listed_frame h.lw f, by rw [f.r]; exact h.lr, by rw [f.r, f.nodes2id]; exact h.sub,
      by rw [f.id2nodes]; exact h.wfi⟩
  | removeNode u => exact absurd hg id
  | removeAllEdges => exact absurd hg id
  | updateNode u =>
    simp only [Network.exec, Option.some.injEq] at he
    have h2 := Network.updateNode_r ident n u
    have h3 := Network.updateNode_spec ident n u
    rw [← he] at hids ⊢
    refine ⟨hids, ?_, by rw [h2.1]; exact h.lr, by rw [h2.1, h3.2.1]; exact h.sub, wf_updateNode ident h.wfi u⟩
    intro i o hi
    rw [h3.1]
    rw [h3.2.2] at hi
    cases hx : HMap.get n.w.id2nodes i with
    | none => rw [hx] at hi; simp at hi
    | some o' => exact h.lw i o' hx
  | update =>
    simp only [Network.exec, Option.some.injEq] at he
    rw [← he] at hids ⊢
    exact ⟨hids, h.lw, h.lw, fun _ _ hk => hk, h.wfi⟩
  | lazyUpdate =>
    simp only [Network.exec, Option.some.injEq] at he
    rw [← he] at hids ⊢
    exact ⟨hids, h.lw, h.lw, fun _ _ hk => hk, h.wfi⟩

/-! ### No panics -/

theorem removeEdgeIds_some {d : Bool} {m : EdgeMap L W} {a b : Nat} (ha : ∃ es, HMap.get m a = some es)
    (hb : ∃ es, HMap.get m b = some es) : ∃ x, Network.removeEdgeIds d m a b = some x := by
  obtain ⟨es, hes⟩ := ha
  obtain ⟨fs, hfs⟩ := hb
  unfold Network.removeEdgeIds
  rw [hes]
  dsimp only
  cases es.find? (between a b) with
  | none => exact ⟨_, rfl⟩
  | some e =>
    dsimp only
    cases d
    · simp only [Bool.false_eq_true, if_false, hfs]; exact ⟨_, rfl⟩
    · exact ⟨_, rfl⟩

theorem Good.list {ident : O → K} {n : Net K O L W} (h : Good ident n) {u : O} {uid : Nat}
    (hu : HMap.get n.w.nodes2id (ident u) = some uid) : ∃ es, HMap.get n.w.edges uid = some es := by
  obtain ⟨o, ho, _⟩ := h.ids.1.1.1 _ _ hu
  exact h.lw _ _ ho

theorem removeEdge_some {ident : O → K} {n : Net K O L W} (h : Good ident n) (u v : O) :
    ∃ n' r, Network.removeEdge ident n u v = some (n', r) := by
  unfold Network.removeEdge
  cases hu : HMap.get n.r.nodes2id (ident u) with
  | none => exact ⟨_, _, rfl⟩
  | some uid =>
    dsimp only
    cases hv : HMap.get n.r.nodes2id (ident v) with
    | none => exact ⟨_, _, rfl⟩
    | some vid =>
      dsimp only
      obtain ⟨x, hx⟩ := removeEdgeIds_some (d := n.direct) (h.list (h.sub _ _ hu)) (h.list (h.sub _ _ hv))
      rw [hx]
      exact ⟨_, _, rfl⟩

theorem fLoop_some {d inc : Bool} {uid : Nat} (ks : List Nat) : ∀ {f : Lists L W},
    (f uid).isSome = true → (∀ k ∈ ks, k ≠ uid → (f k).isSome = true) → ∃ x, fLoop d inc uid ks f = some x := by
  induction ks with
  | nil => intro f _ _; exact ⟨_, rfl⟩
  | cons k ks ih =>
    intro f hu hk
    unfold Network.fLoop
    by_cases hku : k = uid
    · rw [if_pos hku]; exact ih hu (fun j hj => hk j (List.mem_cons_of_mem _ hj))
    · rw [if_neg hku, Network.fStep_eq]
      have hkk := hk k List.mem_cons_self hku
      have ho : Network.stepOk d inc uid f k = true := by
        unfold Network.stepOk Network.remOk
        cases inc <;> simp [hu, hkk]
      rw [if_pos ho]
      dsimp only [Option.bind_some]
      have hs : ∀ i, (Network.stepEff d inc uid f k i).isSome = (f i).isSome := by
        intro i
        unfold Network.stepEff
        cases inc <;> simp only [Bool.false_eq_true, if_false, if_true, Network.eff_isSome]
      obtain ⟨x, hx⟩ := ih (f := Network.stepEff d inc uid f k) (by rw [hs]; exact hu)
        (fun j hj hju => by rw [hs]; exact hk j (List.mem_cons_of_mem _ hj) hju)
      rw [hx]
      exact ⟨_, rfl⟩

/-! ### The loops -/

theorem keys_perm {V V' : Type} {db : DB Nat V} (h : Inv db) {m : HMap Nat V'} (hw : HMap.WF m)
    (hk : ∀ i, ((abs db).read i).isSome = (HMap.get m i).isSome) :
    (DBDashMap.keys db).Nodup ∧ (DBDashMap.keys db).Perm (HMap.keys m) := by
  have h1 := DBDashMap.keys_ok h.r
  refine ⟨h1.1, ?_⟩
  refine (List.perm_ext_iff_of_nodup h1.1 hw).2 ?_
  intro a
  have h3 : a ∈ m.map Prod.fst ↔ a ∈ HMap.keys m := Iff.rfl
  rw [h1.2 a, h3, HMap.mem_keys_iff, ← hk, Option.isSome_iff_ne_none]
  rfl

/-- All nodes have been published, with their lists, and nothing else has. -/
structure AllPublished (ident : O → K) (n : Net K O L W) : Prop where
  agree : ∀ k, HMap.get n.r.nodes2id k = HMap.get n.w.nodes2id k
  wfi : HMap.WF n.w.id2nodes
  wids : ∀ i o, HMap.get n.w.id2nodes i = some o → HMap.get n.w.nodes2id (ident o) = some i
  rids : ∀ i o, HMap.get n.r.id2nodes i = some o → HMap.get n.r.nodes2id (ident o) = some i
  ids : ∀ i, (HMap.get n.r.id2nodes i).isSome = (HMap.get n.w.id2nodes i).isSome
  keys : ∀ i, (HMap.get n.r.edges i).isSome = (HMap.get n.w.id2nodes i).isSome

theorem Good.allPublished {ident : O → K} {n : Net K O L W} (h : Good ident n) (hp : Published n) :
    AllPublished ident n := by
  have hid : ∀ i, (HMap.get n.r.id2nodes i).isSome = (HMap.get n.w.id2nodes i).isSome := by
    intro i
    cases hr : HMap.get n.r.id2nodes i with
    | some o => obtain ⟨o', ho', _⟩ := h.id_sub hr; rw [ho']; rfl
    | none =>
      cases hw : HMap.get n.w.id2nodes i with
      | none => rfl
      | some o =>
        obtain ⟨o', ho', _⟩ := h.ids.1.2.2.1.1 _ _ (hp _ _ (h.ids.1.1.2 _ _ hw))
        rw [hr] at ho'; simp at ho'
  refine ⟨?_, h.wfi, h.ids.1.1.2, h.ids.1.2.2.1.2, hid, ?_⟩
  · intro k
    cases hr : HMap.get n.r.nodes2id k with
    | some i => rw [h.sub _ _ hr]
    | none =>
      cases hw : HMap.get n.w.nodes2id k with
      | none => rfl
      | some i => have := hp _ _ hw; rw [hr] at this; simp at this
  · intro i
    rw [← hid]
    cases hr : HMap.get n.r.edges i with
    | some es => rw [h.ids.1.2.2.2.2 _ _ hr]; rfl
    | none =>
      cases hw : HMap.get n.r.id2nodes i with
      | none => rfl
      | some o => obtain ⟨es, hes⟩ := h.lr _ _ hw; rw [hr] at hes; simp at hes

theorem Sim.edges_congr {p : PNet K O L W} {n : Net K O L W} {m m' : EdgeMap L W}
    (h : Sim p { n with w := { n.w with edges := m } }) (hm : ∀ i, HMap.get m i = HMap.get m' i) :
    Sim p { n with w := { n.w with edges := m' } } :=
  ⟨⟨h.e.inv, fun i => (h.e.w i).trans (hm i)⟩, h.i, h.re, h.ri, h.n2, h.wf, h.wf', h.d⟩

theorem removeEdgesOf_sim {ident : O → K} {inc : Bool} {p : PNet K O L W} {n : Net K O L W} (h : Sim p n)
    (ha : AllPublished ident n) {u : O} {uid : Nat} (hu : HMap.get n.w.nodes2id (ident u) = some uid)
    {m : EdgeMap L W} {l : List (Edge L W)}
    (hl : removeLoop n.direct inc uid (HMap.keys n.w.id2nodes) n.w.edges = some (m, l)) :
    ∃ p' l', removeEdgesOf ident inc p u = some (p', some l') ∧ l'.Perm l ∧
      Sim p' { n with w := { n.w with edges := m } } ∧ p'.nodes2id = p.nodes2id ∧ p'.id2nodes = p.id2nodes := by
  obtain ⟨hnd, hperm⟩ := keys_perm h.e.inv ha.wfi (fun i => by rw [h.re]; exact ha.keys i)
  have hru : HMap.get n.r.nodes2id (ident u) = some uid := by rw [ha.agree]; exact hu
  have hks : ∀ k ∈ DBDashMap.keys p.edges, k ≠ uid →
      ∃ o, HMap.get n.r.id2nodes k = some o ∧ HMap.get n.r.nodes2id (ident o) = some k := by
    intro k hk _
    have h1 : k ∈ HMap.keys n.w.id2nodes := hperm.mem_iff.1 hk
    rw [HMap.mem_keys_iff, ← ha.ids, Option.isSome_iff_exists] at h1
    obtain ⟨o, ho⟩ := h1
    exact ⟨o, ho, ha.rids _ _ ho⟩
  have h1 := fLoop_perm n.direct inc uid hperm hnd (HMap.get n.w.edges)
  rw [← removeLoop_get, ← removeLoop_get, hl] at h1
  cases hq : removeLoop n.direct inc uid (DBDashMap.keys p.edges) n.w.edges with
  | none => rw [hq] at h1; exact absurd h1 id
  | some x =>
    obtain ⟨m1, l1⟩ := x
    rw [hq] at h1
    obtain ⟨h2, h3⟩ := h1
    dsimp only at h2 h3
    have h4 := foldl_removeStep_sim (ident := ident) (inc := inc) (uid := uid) (u := u) n.r.id2nodes
      (DBDashMap.keys p.edges) ([] : List (Edge L W)) h (fun _ => rfl) ha.agree
    rw [Network.foldl_removeStep_eq _ n [] hru hks, hq] at h4
    dsimp only [Option.map_some] at h4
    obtain ⟨p', h5, h6, h7, h8⟩ := h4
    refine ⟨p', l1, ?_, h3, h6.edges_congr (fun i => congrFun h2 i), h7, h8⟩
    unfold removeEdgesOf
    rw [h.n2, hu]
    dsimp only
    rw [h5]
    rfl

/-! ### Histories -/

theorem removeEdgesOf_both {ident : O → K} {inc : Bool} {p : PNet K O L W} {n : Net K O L W} (h : Sim p n)
    (hg : Good ident n) (hp : Published n) (u : O) :
    ∃ n' p' r r', Network.removeEdgesOf ident inc n u = some (n', r) ∧ removeEdgesOf ident inc p u = some (p', r') ∧
      Sim p' n' ∧ (match r, r' with | none, none => True | some l, some l' => l'.Perm l | _, _ => False) := by
  have ha := hg.allPublished hp
  cases hu : HMap.get n.w.nodes2id (ident u) with
  | none =>
    refine ⟨n, p, none, none, ?_, ?_, h, trivial⟩
    · unfold Network.removeEdgesOf; rw [ha.agree, hu]
    · unfold removeEdgesOf; rw [h.n2, hu]
  | some uid =>
    obtain ⟨x, hx⟩ := fLoop_some (d := n.direct) (inc := inc) (uid := uid) (HMap.keys n.w.id2nodes)
      (f := HMap.get n.w.edges)
      (by rw [Option.isSome_iff_exists]; exact hg.list hu)
      (by
        intro k hk _
        rw [HMap.mem_keys_iff, Option.isSome_iff_exists] at hk
        obtain ⟨o, ho⟩ := hk
        rw [Option.isSome_iff_exists]
        exact hg.lw _ _ ho)
    rw [← removeLoop_get, Option.map_eq_some_iff] at hx
    obtain ⟨⟨m, l⟩, hml, _⟩ := hx
    obtain ⟨p', l', h1, h2, h3, _⟩ := removeEdgesOf_sim h ha hu hml
    exact ⟨_, p', some l, some l', Network.removeEdgesOf_eq hu hg.ids.1.1 hp hml, h1, h3, h2⟩

theorem exec_both {ident : O → K} {p : PNet K O L W} {n : Net K O L W} (h : Sim p n) (hg : Good ident n)
    {op : Op O L W} (ho : Gentle ident n op) :
    ∃ n' p', Network.exec ident n op = some n' ∧ exec ident p op = some p' ∧ Sim p' n' ∧ Good ident n' := by
  have key : ∃ n' p', Network.exec ident n op = some n' ∧ exec ident p op = some p' ∧ Sim p' n' := by
    cases op with
    | addNode u =>
      obtain ⟨p', h1, h2⟩ := addNode_sim (ident := ident) h u hg.w_free hg.r_free
      exact ⟨_, p', rfl, h1, h2⟩
    | addEdge u v o =>
      obtain ⟨p', h1, h2, _⟩ := addEdge_sim (ident := ident) h u v o
      refine ⟨_, p', rfl, ?_, h2⟩
      simp only [exec, h1, Option.map_some]
    | removeEdge u v =>
      obtain ⟨n', r, hr⟩ := removeEdge_some hg u v
      have h1 := removeEdge_sim (ident := ident) h u v ho.1 ho.2
      rw [hr] at h1
      obtain ⟨p', h2, h3, _⟩ := h1
      refine ⟨n', p', ?_, ?_, h3⟩
      · simp only [Network.exec, hr, Option.map_some]
      · simp only [exec, h2, Option.map_some]
    | removeIncoming u =>
      obtain ⟨n', p', r, r', h1, h2, h3, _⟩ := removeEdgesOf_both (inc := true) h hg ho u
      refine ⟨n', p', ?_, ?_, h3⟩
      · simp only [Network.exec, h1, Option.map_some]
      · simp only [exec, h2, Option.map_some]
    | removeOutgoing u =>
      obtain ⟨n', p', r, r', h1, h2, h3, _⟩ := removeEdgesOf_both (inc := false) h hg ho u
      refine ⟨n', p', ?_, ?_, h3⟩
      · simp only [Network.exec, h1, Option.map_some]
      · simp only [exec, h2, Option.map_some]
    | removeNode u => exact absurd ho id
    | removeAllEdges => exact absurd ho id
    | updateNode u =>
      obtain ⟨p', h1, h2⟩ := updateNode_sim (ident := ident) h u hg.ids.1.1
      exact ⟨_, p', rfl, h1, h2⟩
    | update => exact ⟨_, _, rfl, rfl, update_sim' h hg.e_none hg.i_none⟩
    | lazyUpdate => exact ⟨_, _, rfl, rfl, update_sim' h hg.e_none hg.i_none⟩
  obtain ⟨n', p', h1, h2, h3⟩ := key
  exact ⟨n', p', h1, h2, h3, exec_good hg ho h1⟩

theorem run_both {ident : O → K} (ops : List (Op O L W)) : ∀ {p : PNet K O L W} {n : Net K O L W}, Sim p n →
    Good ident n → Network.Careful ident (Gentle ident) n ops →
    ∃ n' p', Network.run ident n ops = some n' ∧ run ident p ops = some p' ∧ Sim p' n' ∧ Good ident n' := by
  induction ops with
  | nil => intro p n h hg _; exact ⟨n, p, rfl, rfl, h, hg⟩
  | cons op ops ih =>
    intro p n h hg hc
    obtain ⟨n1, p1, h1, h2, h3, h4⟩ := exec_both h hg hc.1
    obtain ⟨n', p', a1, a2, a3⟩ := ih h3 h4 (hc.2 n1 h1)
    exact ⟨n', p', by rw [Network.run, h1]; exact a1, by rw [run, h2]; exact a2, a3⟩

/-! ### Queries -/

theorem scanEdge_sim {ident : O → K} {p : PNet K O L W} {n : Net K O L W} (h : Sim p n) (hg : Good ident n)
    {uid vid : Nat} (es : List (Edge L W)) (hes : ∀ e ∈ es, (HMap.get n.r.id2nodes e.v).isSome = true) :
    scanEdge ident p uid vid es = Network.scanEdge ident n.r n.direct uid vid es := by
  induction es with
  | nil => rfl
  | cons e es ih =>
    have h1 := hes e List.mem_cons_self
    rw [Option.isSome_iff_exists] at h1
    obtain ⟨o, ho⟩ := h1
    have h2 := hg.ids.1.2.2.1.2 _ _ ho
    rw [scanEdge, Network.scanEdge, getRead_abs h.i.inv, h.ri, ho]
    dsimp only
    rw [h.n2, hg.sub _ _ h2, h2, h.d, ih (fun e he => hes e (List.mem_cons_of_mem _ he))]

theorem sameAnswers {ident : O → K} {p : PNet K O L W} {n : Net K O L W} (h : Sim p n) (hg : Good ident n) :
    SameAnswers ident p n := by
  have hnew : ∀ u uid, HMap.get n.w.nodes2id (ident u) = some uid → HMap.get n.r.nodes2id (ident u) = none →
      HMap.get n.r.edges uid = none ∧ HMap.get n.r.id2nodes uid = none := by
    intro u uid hw hr
    have hi : HMap.get n.r.id2nodes uid = none := by
      cases hx : HMap.get n.r.id2nodes uid with
      | none => rfl
      | some o =>
        obtain ⟨o', ho', hid⟩ := hg.id_sub hx
        obtain ⟨o2, ho2, hid2⟩ := hg.ids.1.1.1 _ _ hw
        rw [ho'] at ho2
        simp only [Option.some.injEq] at ho2
        subst ho2
        have := hg.ids.1.2.2.1.2 _ _ hx
        rw [← hid, hid2, hr] at this
        simp at this
    refine ⟨?_, hi⟩
    cases hx : HMap.get n.r.edges uid with
    | none => rfl
    | some es =>
      have := hg.ids.1.2.2.2.2 _ _ hx
      rw [hi] at this; simp at this
  refine ⟨?_, ?_, ?_⟩
  · intro u
    unfold getEdges Network.getEdges
    rw [h.n2]
    cases hr : HMap.get n.r.nodes2id (ident u) with
    | some uid =>
      rw [hg.sub _ _ hr]
      dsimp only
      rw [getRead_abs h.e.inv, h.re]
    | none =>
      cases hw : HMap.get n.w.nodes2id (ident u) with
      | none => rfl
      | some uid =>
        dsimp only
        rw [getRead_abs h.e.inv, h.re, (hnew u uid hw hr).1]
  · intro u v
    unfold getEdge Network.getEdge
    rw [h.n2]
    cases hr : HMap.get n.r.nodes2id (ident u) with
    | some uid =>
      rw [hg.sub _ _ hr]
      dsimp only
      rw [getRead_abs h.e.inv, h.re]
      cases he : HMap.get n.r.edges uid with
      | none => rfl
      | some es =>
        dsimp only
        have hk : ∀ e ∈ es, e.u = uid ∧ (HMap.get n.r.id2nodes e.v).isSome = true := by
          intro e hm
          exact hg.ids.1.2.2.2.1 uid e (by rw [Network.adj_of_get he]; exact hm)
        rw [h.n2]
        cases hv : HMap.get n.r.nodes2id (ident v) with
        | some vid =>
          rw [hg.sub _ _ hv]
          exact scanEdge_sim h hg es (fun e hm => (hk e hm).2)
        | none =>
          cases hw : HMap.get n.w.nodes2id (ident v) with
          | none => rfl
          | some vid =>
            dsimp only
            rw [scanEdge_sim h hg es (fun e hm => (hk e hm).2), Network.scanEdge_eq hg.ids.1.2.2.1 es hk]
            have : es.find? (fun e => e.v == vid) = none := by
              rw [List.find?_eq_none]
              intro e hm
              have := (hk e hm).2
              intro hev
              rw [beq_iff_eq] at hev
              rw [hev, (hnew v vid hw hv).2] at this
              simp at this
            rw [this]
    | none =>
      cases hw : HMap.get n.w.nodes2id (ident u) with
      | none => rfl
      | some uid =>
        dsimp only
        rw [getRead_abs h.e.inv, h.re, (hnew u uid hw hr).1]
  · intro i
    unfold getObject Network.getObject
    rw [getRead_abs h.i.inv, h.ri]

end Verif.ParNetwork
