import Verif.Lemmas.ParNetwork5
import Verif.Props.NetworkPA
import Mathlib.Data.List.Forall2

/-!
Helper lemmas: the random attachments.
-/

namespace Verif.ParNetwork

open Verif.Network (Edge EdgeOptions EdgeMap Net Side Op between bump)
open Verif.DBDashMap (DB Inv abs insert_sim remove_sim modifyWrite_sim update_sim)
open Verif.ParGrid (getRead_abs getWrite_abs)

set_option linter.unusedSectionVars false

variable {K O L W : Type} [DecidableEq K]

theorem writtenList_abs {p : PNet K O L W} (h : PInv p) (i : Nat) :
    writtenList p i = ((abs p.edges).write i).getD [] := by
  unfold writtenList; rw [getWrite_abs h.e]; rfl

theorem listOf_abs {ident : O → K} {p : PNet K O L W} (h : PInv p) (u : O) :
    listOf ident p u = ((HMap.get p.nodes2id (ident u)).bind (abs p.edges).read).getD [] := by
  unfold listOf; rw [getEdges_abs h]; rfl

theorem attach_sim {ident : O → K} (node : O) (chosen : List (O × Int × Nat)) :
    ∀ {p : PNet K O L W} {n : Net K O L W}, Sim p n →
    ∃ p', attach ident p node (chosen.map (fun c => c.1)) = some p' ∧ Sim p' (Network.attach ident n node chosen) ∧
      p'.nodes2id = p.nodes2id ∧ p'.id2nodes = p.id2nodes := by
  induction chosen with
  | nil => intro p n h; exact ⟨p, rfl, h, rfl, rfl⟩
  | cons c cs ih =>
    intro p n h
    obtain ⟨p1, h1, h2, h3, h4⟩ := addEdge_sim (ident := ident) h node c.1 .simple
    obtain ⟨p', h5, h6, h7, h8⟩ := ih h2
    refine ⟨p', ?_, h6, h7.trans h3, h8.trans h4⟩
    rw [List.map_cons, attach, h1]
    exact h5

theorem attachLoop_sim {ident : O → K} {pick : Nat → List (O × Int × Nat) → Nat → List Nat} {nodes : List O} {m : Nat}
    (k : Nat) : ∀ (i : Nat) {p : PNet K O L W} {n n' : Net K O L W} (dist : List (O × Int × Nat)), Sim p n →
    Network.attachLoop ident pick nodes m k i n dist = some n' →
    ∃ p', attachLoop ident pick nodes m k i p dist = some p' ∧ Sim p' n' ∧ p'.nodes2id = p.nodes2id ∧
      p'.id2nodes = p.id2nodes := by
  induction k with
  | zero =>
    intro i p n n' dist h hn
    simp only [Network.attachLoop, Option.some.injEq] at hn
    subst hn
    exact ⟨p, rfl, h, rfl, rfl⟩
  | succ k ih =>
    intro i p n n' dist h hn
    rw [Network.attachLoop] at hn
    rw [attachLoop]
    cases hx : nodes[i]? with
    | none => rw [hx] at hn; simp at hn
    | some node =>
      rw [hx] at hn
      dsimp only at hn ⊢
      obtain ⟨p1, h1, h2, h3, h4⟩ := attach_sim (ident := ident) node
        ((pick i dist (if dist.length < m then dist.length else m)).filterMap (fun c => dist[c]?)) h
      rw [h1]
      dsimp only
      obtain ⟨p', h5, h6, h7, h8⟩ := ih (i + 1) _ h2 hn
      exact ⟨p', h5, h6, h7.trans h3, h8.trans h4⟩

theorem removeAllEdges_sim {p : PNet K O L W} {n : Net K O L W} (h : Sim p n) :
    Sim (removeAllEdges p) (Network.removeAllEdges n) := by
  obtain ⟨h1, h2⟩ := clear_sim h.e.inv
  refine ⟨⟨h1, ?_⟩, h.i, ?_, h.ri, h.n2, h.wf, h.wf', h.d⟩
  · intro i; unfold removeAllEdges; rw [h2]; rfl
  · intro i; unfold removeAllEdges; rw [h2]; exact h.re i

theorem len_view {p : PNet K O L W} : (view p).w.id2nodes.length = DBDashMap.len p.id2nodes := by
  unfold view DBDashMap.len
  rw [List.length_flatten]

/-- The network before its publication, beside the sequential one. -/
theorem preferential_sim {ident : O → K} {pick : Nat → List (O × Int × Nat) → Nat → List Nat} {p : PNet K O L W}
    (h : PInv p) {a b : O} {t : List O} {m : Nat} {n' : Net K O L W}
    (hn : Network.preferentialAttachment ident pick (view p) (a :: b :: t) m = some n') :
    ∃ p1, preferentialAttachment ident pick p (a :: b :: t) m = some (update p1) ∧ PInv p1 ∧
      (∀ i, (abs p1.edges).write i = HMap.get n'.w.edges i) ∧ (abs p1.edges).read = (abs p.edges).read ∧
      p1.nodes2id = p.nodes2id ∧ p1.id2nodes = p.id2nodes ∧ p1.direct = p.direct := by
  unfold Network.preferentialAttachment at hn
  unfold preferentialAttachment
  dsimp only at hn ⊢
  cases hl : Network.attachLoop ident pick (a :: b :: t) m ((view p).w.id2nodes.length - 2) 2
      (Network.addEdge ident (Network.removeAllEdges (view p)) a b .simple).1 [(a, 1, 0), (b, 1, 1)] with
  | none => rw [hl] at hn; simp at hn
  | some n1 =>
    rw [hl] at hn
    simp only [Option.some.injEq] at hn
    obtain ⟨p0, h1, h2, h3, h4⟩ := addEdge_sim (ident := ident) (removeAllEdges_sim (sim_view h)) a b .simple
    rw [h1]
    dsimp only
    rw [← len_view]
    obtain ⟨p1, h5, h6, h7, h8⟩ := attachLoop_sim _ _ _ h2 hl
    rw [h5]
    have hr : ∀ (k i : Nat) (n n' : Net K O L W) (dist : List (O × Int × Nat)),
        Network.attachLoop ident pick (a :: b :: t) m k i n dist = some n' → n'.r = n.r ∧ n'.direct = n.direct := by
      intro k
      induction k with
      | zero => intro i n n' dist hx; simp only [Network.attachLoop, Option.some.injEq] at hx; rw [hx]; exact ⟨rfl, rfl⟩
      | succ k ih =>
        intro i n n' dist hx
        rw [Network.attachLoop] at hx
        cases hy : (a :: b :: t)[i]? with
        | none => rw [hy] at hx; simp at hx
        | some node =>
          rw [hy] at hx
          have h9 := ih _ _ _ _ hx
          have h10 : ∀ (cs : List (O × Int × Nat)) (n : Net K O L W), (Network.attach ident n node cs).r = n.r ∧
              (Network.attach ident n node cs).direct = n.direct := by
            intro cs
            induction cs with
            | nil => intro n; exact ⟨rfl, rfl⟩
            | cons c cs ih2 =>
              intro n
              have h11 := ih2 (Network.addEdge ident n node c.1 .simple).1
              have h12 := Network.addEdge_r ident n node c.1 .simple
              exact ⟨h11.1.trans h12.1, h11.2.trans h12.2⟩
          exact ⟨h9.1.trans (h10 _ _).1, h9.2.trans (h10 _ _).2⟩
    have hrr := hr _ _ _ _ _ hl
    have har := Network.addEdge_r (L := L) (W := W) ident (Network.removeAllEdges (view p)) a b .simple
    refine ⟨p1, rfl, h6.inv, ?_, ?_, h7.trans h3, h8.trans h4, ?_⟩
    · intro i; rw [h6.e.w, ← hn]; rfl
    · funext i
      rw [h6.re, hrr.1, har.1, (sim_view h).re]
      rfl
    · rw [h6.d, hrr.2, har.2]; rfl

/-! ### `add_prob_edge` -/

/-- One more edge. -/
theorem addEdge_written {ident : O → K} {p : PNet K O L W} (h : PInv p) {u v : O} {o : EdgeOptions L W} {uid vid : Nat}
    (hu : HMap.get p.nodes2id (ident u) = some uid) (hv : HMap.get p.nodes2id (ident v) = some vid) :
    ∃ p', addEdge ident p u v o = some (p', true, !p.direct) ∧ Kept p p' ∧ p'.nodes2id = p.nodes2id ∧
      p'.id2nodes = p.id2nodes ∧
      ∀ i, writtenList p' i = writtenList p i ++ (if i = uid then [Edge.new uid vid o] else []) ++
        (if p.direct = false ∧ i = vid then [Edge.new vid uid o] else []) := by
  obtain ⟨p', h1, h2, h3, h4, h5⟩ := addEdge_kept (ident := ident) h u v o
  obtain ⟨a1, _, _, a4, _⟩ := Network.addEdge_ok (n := view p) (o := o) hu hv
  refine ⟨p', by rw [h1, a1]; rfl, h2, h3, h4, ?_⟩
  intro i
  rw [writtenList_abs h2.inv, writtenList_abs h, h5.e.w, (sim_view h).e.w]
  exact a4 i

theorem attach_written {ident : O → K} {u : O} {uid : Nat} {vs : List O} {T : List Nat} :
    ∀ {p : PNet K O L W}, PInv p → HMap.get p.nodes2id (ident u) = some uid →
    List.Forall₂ (fun v t => HMap.get p.nodes2id (ident v) = some t) vs T →
    ∃ p', attach ident p u vs = some p' ∧ Kept p p' ∧ p'.nodes2id = p.nodes2id ∧ p'.id2nodes = p.id2nodes ∧
      (∀ a b, (writtenList p' a).countP (fun e => e.v == b) = (writtenList p a).countP (fun e => e.v == b) +
        (if a = uid then T.count b else 0) + (if p.direct = false ∧ b = uid then T.count a else 0)) ∧
      ∀ a e, e ∈ writtenList p' a → e ∈ writtenList p a ∨ (e.u = a ∧ e.label = none ∧ e.weight = none) := by
  induction vs generalizing T with
  | nil =>
    intro p h hu hf
    cases hf
    exact ⟨p, rfl, Kept.refl h, rfl, rfl, by intro a b; simp, fun a e he => Or.inl he⟩
  | cons v vs ih =>
    intro p h hu hf
    cases hf with
    | cons hv hf =>
      rename_i t T
      obtain ⟨p1, h1, h2, h3, h4, h5⟩ := addEdge_written (o := .simple) h hu hv
      obtain ⟨p', h6, h7, h8, h9, h10, h11⟩ := ih (p := p1) h2.inv (by rw [h3]; exact hu)
        (by rw [h3]; exact hf)
      refine ⟨p', by rw [attach, h1]; exact h6, h2.trans h7, h8.trans h3, h9.trans h4, ?_, ?_⟩
      · intro a b
        rw [h10, h5, List.countP_append, List.countP_append, List.count_cons, List.count_cons, h2.d]
        have e1 : (if a = uid then [Edge.new (L := L) (W := W) uid t .simple] else []).countP (fun e => e.v == b) =
            if a = uid ∧ t = b then 1 else 0 := by
          by_cases ha : a = uid
          · by_cases hb : t = b
            · simp [ha, hb, Network.Edge.new_v]
            · simp [ha, hb, Network.Edge.new_v]
          · simp [ha]
        have e2 : (if p.direct = false ∧ a = t then [Edge.new (L := L) (W := W) t uid .simple] else []).countP
            (fun e => e.v == b) = if p.direct = false ∧ a = t ∧ b = uid then 1 else 0 := by
          by_cases ha : p.direct = false ∧ a = t
          · by_cases hb : b = uid
            · simp [ha, hb, Network.Edge.new_v]
            · simp [ha, hb, Ne.symm hb, Network.Edge.new_v]
          · rw [if_neg ha, if_neg (by tauto)]; rfl
        rw [e1, e2]
        by_cases ha : a = uid <;> by_cases hb : t = b <;> by_cases hd : p.direct = false <;>
          by_cases hbu : b = uid <;> by_cases hat : t = a <;> simp_all <;> omega
      · intro a e he
        rcases h11 a e he with he | he
        · rw [h5, List.mem_append, List.mem_append] at he
          rcases he with (he | he) | he
          · exact Or.inl he
          · right
            by_cases ha : a = uid
            · rw [if_pos ha, List.mem_singleton] at he
              subst he
              exact ⟨ha.symm, rfl, rfl⟩
            · rw [if_neg ha] at he; simp at he
          · right
            by_cases ha : p.direct = false ∧ a = t
            · rw [if_pos ha, List.mem_singleton] at he
              subst he
              exact ⟨ha.2.symm, rfl, rfl⟩
            · rw [if_neg ha] at he; simp at he
        · exact Or.inr he

/-- The distribution, one entry for each id with a published list. -/
theorem degrees_tidy {ident : O → K} {p : PNet K O L W} (h : Tidy ident p) (ks : List Nat)
    (hk : ∀ k ∈ ks, ((abs p.edges).read k).isSome = true) :
    ∃ dist, degrees ident p ks = some dist ∧
      List.Forall₂ (fun d k => HMap.get p.nodes2id (ident d.1) = some k ∧
        ∃ es, (abs p.edges).read k = some es ∧ d.2 = es.length) dist ks := by
  induction ks with
  | nil => exact ⟨[], rfl, List.Forall₂.nil⟩
  | cons k ks ih =>
    obtain ⟨dist, h1, h2⟩ := ih (fun j hj => hk j (List.mem_cons_of_mem _ hj))
    have h3 := hk k List.mem_cons_self
    rw [Option.isSome_iff_exists] at h3
    obtain ⟨es, hes⟩ := h3
    have h4 := (h.rk k es hes).1
    rw [Option.isSome_iff_exists] at h4
    obtain ⟨o, ho⟩ := h4
    have h5 := h.rid k o ho
    refine ⟨(o, es.length) :: dist, ?_, List.Forall₂.cons ⟨h5, es, hes, rfl⟩ h2⟩
    rw [degrees, getRead_abs h.inv.i, ho]
    dsimp only
    rw [getEdges_abs h.inv, h5, Option.bind_some, hes, h1]
    rfl

theorem filterMap_positions {α β : Type} {R : α → β → Prop} {dist : List α} {ks : List β}
    (hd : List.Forall₂ R dist ks) (cs : List Nat) (hc : ∀ c ∈ cs, c < dist.length) :
    List.Forall₂ R (cs.filterMap (fun c => dist[c]?)) (cs.filterMap (fun c => ks[c]?)) ∧
      (cs.filterMap (fun c => ks[c]?)).length = cs.length := by
  induction cs with
  | nil => exact ⟨List.Forall₂.nil, rfl⟩
  | cons c cs ih =>
    have h1 := hc c List.mem_cons_self
    have h2 : c < ks.length := by rw [← hd.length_eq]; exact h1
    obtain ⟨h3, h4⟩ := ih (fun c hc' => hc c (List.mem_cons_of_mem _ hc'))
    have e1 : dist[c]? = some dist[c] := List.getElem?_eq_getElem h1
    have e2 : ks[c]? = some ks[c] := List.getElem?_eq_getElem h2
    rw [List.filterMap_cons_some e1, List.filterMap_cons_some e2]
    exact ⟨List.Forall₂.cons (hd.get h1 h2) h3, by simp [h4]⟩

theorem nodup_positions {β : Type} {ks : List β} (hk : ks.Nodup) (cs : List Nat) (hn : cs.Nodup) :
    (cs.filterMap (fun c => ks[c]?)).Nodup := by
  refine List.Nodup.filterMap ?_ hn
  intro c c' x hx hx'
  rw [Option.mem_def] at hx hx'
  obtain ⟨h1, h2⟩ := List.getElem?_eq_some_iff.1 hx
  obtain ⟨h3, h4⟩ := List.getElem?_eq_some_iff.1 hx'
  exact (List.Nodup.getElem_inj_iff hk).1 (h2.trans h4.symm)

end Verif.ParNetwork
