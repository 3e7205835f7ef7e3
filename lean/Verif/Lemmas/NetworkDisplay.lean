import Verif.Model.NetworkDisplay
import Verif.Spec.NetworkDisplay
import Verif.Lemmas.Network5
import Mathlib.Data.List.Perm.Basic
import Mathlib.Data.List.Perm.Subperm
import Mathlib.Data.List.Nodup
import Mathlib.Data.List.Range

/-!
Lemmas about printing a network.
-/

namespace Verif.Network

variable {K O L W : Type} [DecidableEq K]


theorem removeNode_wf {ident : O → K} {n n' : Net K O L W} {u : O} {b : Bool} (h : removeNode ident n u = some (n', b))
    (hw : HMap.WF n.w.id2nodes) : HMap.WF n'.w.id2nodes ∧ n'.r = n.r := by
  unfold removeNode at h
  split at h
  · obtain ⟨rfl, rfl⟩ := Prod.mk.inj (Option.some.inj h); exact ⟨hw, rfl⟩
  · rename_i uid huid
    cases h1 : removeEdgesOf ident false n u with
    | none => rw [h1] at h; exact (nomatch h)
    | some p =>
      obtain ⟨n1, r1⟩ := p
      have f1 := removeEdgesOf_frame h1
      rw [h1] at h
      cases r1 with
      | none =>
        obtain ⟨rfl, rfl⟩ := Prod.mk.inj (Option.some.inj h)
        exact ⟨by rw [f1.id2nodes]; exact hw, f1.r⟩
      | some l1 =>
        dsimp only at h
        cases h2 : removeEdgesOf ident true (dropList n1 uid) u with
        | none => rw [h2] at h; exact (nomatch h)
        | some p =>
          obtain ⟨n2, r2⟩ := p
          have f2 := removeEdgesOf_frame h2
          have e2 : n2.w.id2nodes = n.w.id2nodes := f2.id2nodes.trans f1.id2nodes
          rw [h2] at h
          cases r2 with
          | none =>
            obtain ⟨rfl, rfl⟩ := Prod.mk.inj (Option.some.inj h)
            exact ⟨by rw [e2]; exact hw, f2.r.trans f1.r⟩
          | some l2 =>
            obtain ⟨rfl, rfl⟩ := Prod.mk.inj (Option.some.inj h)
            refine ⟨HMap.WF_remove ?_ _, f2.r.trans f1.r⟩
            rw [e2]; exact hw

/-- The keys of the two maps of nodes are distinct. -/
def IdsWF (n : Net K O L W) : Prop := HMap.WF n.w.id2nodes ∧ HMap.WF n.r.id2nodes

theorem exec_wf {ident : O → K} {n n' : Net K O L W} {op : Op O L W} (h : IdsWF n) (he : exec ident n op = some n') :
    IdsWF n' := by
  cases op with
  | addNode u => simp [exec] at he; rw [← he]; exact ⟨HMap.WF_insert h.1 _ _, h.2⟩
  | addEdge u v o =>
    simp [exec] at he
    rw [← he]
    have hn := addEdge_nodes ident n u v o
    have hr := addEdge_r ident n u v o
    exact ⟨by rw [hn.2]; exact h.1, by rw [hr.1]; exact h.2⟩
  | removeEdge u v =>
    obtain ⟨⟨n1, b⟩, hr, rfl⟩ := Option.map_eq_some_iff.1 he
    have f := removeEdge_frame hr
    exact ⟨by rw [f.id2nodes]; exact h.1, by rw [f.r]; exact h.2⟩
  | removeIncoming u =>
    obtain ⟨⟨n1, b⟩, hr, rfl⟩ := Option.map_eq_some_iff.1 he
    have f := removeEdgesOf_frame hr
    exact ⟨by rw [f.id2nodes]; exact h.1, by rw [f.r]; exact h.2⟩
  | removeOutgoing u =>
    obtain ⟨⟨n1, b⟩, hr, rfl⟩ := Option.map_eq_some_iff.1 he
    have f := removeEdgesOf_frame hr
    exact ⟨by rw [f.id2nodes]; exact h.1, by rw [f.r]; exact h.2⟩
  | removeNode u =>
    obtain ⟨⟨n1, b⟩, hr, rfl⟩ := Option.map_eq_some_iff.1 he
    have f := removeNode_wf hr h.1
    exact ⟨f.1, by rw [f.2]; exact h.2⟩
  | removeAllEdges => simp [exec] at he; rw [← he]; exact h
  | updateNode u =>
    simp [exec] at he
    rw [← he]
    unfold updateNode
    split
    · exact h
    · rename_i uid _
      exact ⟨(HMap.WF_adjust h.1 uid (fun _ => u) : HMap.WF (HMap.adjust n.w.id2nodes uid (fun _ => u))), h.2⟩
  | update => simp [exec] at he; rw [← he]; exact ⟨h.1, h.1⟩
  | lazyUpdate => simp [exec] at he; rw [← he]; exact ⟨h.1, h.1⟩

theorem run_wf {ident : O → K} (ops : List (Op O L W)) : ∀ {n n' : Net K O L W}, IdsWF n → run ident n ops = some n' → IdsWF n' := by
  induction ops with
  | nil => intro n n' h he; obtain rfl := Option.some.inj he; exact h
  | cons op ops ih =>
    intro n n' h he
    obtain ⟨n1, h1, h2⟩ := Option.bind_eq_some_iff.1 he
    exact ih (exec_wf h h1) h2

theorem displayCell_eq {ident : O → K} {n : Net K O L W} (hids : n.r.IdsUnique ident) (hk : n.r.EdgesKnown) {i j : Nat}
    (hi : (getObject n i).isSome = true) (hj : (getObject n j).isSome = true) :
    displayCell ident n i j = some (if edgeShown ident n i j then '1' else '0') := by
  obtain ⟨o1, h1⟩ := Option.isSome_iff_exists.1 hi
  obtain ⟨o2, h2⟩ := Option.isSome_iff_exists.1 hj
  have k1 : getId ident n o1 = some i := hids.2 i o1 h1
  have k2 : getId ident n o2 = some j := hids.2 j o2 h2
  have hes : edgeShown ident n i j = (n.r.adj i).any (fun e => e.v == j) := by
    unfold edgeShown
    rw [h1]
    have : getEdges ident n o1 = HMap.get n.r.edges i := by
      unfold getEdges; unfold getId at k1; rw [k1]
    dsimp only
    rw [this]; rfl
  have he := getEdge_eq hids hk o1 o2
  rw [k1, k2] at he
  dsimp only at he
  unfold displayCell
  unfold getObject at h1 h2
  rw [h1, h2]
  dsimp only
  rw [he, hes]
  cases hf : (n.r.adj i).find? (fun e => e.v == j) with
  | none =>
    have : (n.r.adj i).any (fun e => e.v == j) = false := by
      rw [List.find?_eq_none] at hf
      rw [List.any_eq_false]; exact hf
    rw [this]; rfl
  | some e =>
    have : (n.r.adj i).any (fun e => e.v == j) = true := by
      rw [List.any_eq_true]; exact ⟨e, List.mem_of_find?_eq_some hf, (List.find?_eq_some_iff_append.1 hf).1⟩
    rw [this]; rfl

theorem displayCell_none {ident : O → K} {n : Net K O L W} {i j : Nat} (h : getObject n i = none ∨ getObject n j = none) :
    displayCell ident n i j = none := by
  unfold displayCell
  unfold getObject at h
  rcases h with h | h
  · rw [h]
  · rw [h]; cases HMap.get n.r.id2nodes i <;> rfl

theorem displayRow_eq {ident : O → K} {n : Net K O L W} (f : Nat → Char) (i : Nat) : ∀ (k j : Nat),
    (∀ l, j ≤ l → l < j + k → displayCell ident n i l = some (f l)) →
    displayRow ident n i k j = some ((List.range' j k).map f)
  | 0, _, _ => rfl
  | k + 1, j, h => by
    unfold displayRow
    rw [h j (Nat.le_refl j) (by omega)]
    dsimp only
    rw [displayRow_eq f i k (j + 1) (fun l h1 h2 => h l (by omega) (by omega)), List.range'_succ]
    rfl

theorem displayRow_none {ident : O → K} {n : Net K O L W} (i : Nat) : ∀ (k j l : Nat), j ≤ l → l < j + k →
    displayCell ident n i l = none → displayRow ident n i k j = none
  | 0, _, _, h1, h2, _ => by omega
  | k + 1, j, l, h1, h2, h => by
    unfold displayRow
    by_cases hl : l = j
    · rw [← hl, h]
    · rw [displayRow_none i k (j + 1) l (by omega) (by omega) h]
      cases displayCell ident n i j <;> rfl

theorem displayRows_eq {ident : O → K} {n : Net K O L W} (f : Nat → List Char) : ∀ (k i : Nat),
    (∀ l, i ≤ l → l < i + k → displayRow ident n l n.r.id2nodes.length 0 = some (f l)) →
    displayRows ident n k i = some ((List.range' i k).flatMap (fun l => f l ++ ['-']))
  | 0, _, _ => rfl
  | k + 1, i, h => by
    unfold displayRows
    rw [h i (Nat.le_refl i) (by omega)]
    dsimp only
    rw [displayRows_eq f k (i + 1) (fun l h1 h2 => h l (by omega) (by omega)), List.range'_succ]
    simp

theorem displayRows_none {ident : O → K} {n : Net K O L W} : ∀ (k i l : Nat), i ≤ l → l < i + k →
    displayRow ident n l n.r.id2nodes.length 0 = none → displayRows ident n k i = none
  | 0, _, _, h1, h2, _ => by omega
  | k + 1, i, l, h1, h2, h => by
    unfold displayRows
    by_cases hl : l = i
    · rw [← hl, h]
    · rw [displayRows_none k (i + 1) l (by omega) (by omega) h]
      cases displayRow ident n i n.r.id2nodes.length 0 <;> rfl

omit [DecidableEq K] in
theorem ids_length {n : Net K O L W} (hw : HMap.WF n.r.id2nodes) {ids : List Nat} (hn : ids.Nodup)
    (hm : ∀ i, i ∈ ids ↔ (getObject n i).isSome = true) : n.r.id2nodes.length = ids.length := by
  have hp : (n.r.id2nodes.map Prod.fst).Perm ids := by
    rw [List.perm_ext_iff_of_nodup hw hn]
    intro i
    rw [hm i]
    unfold getObject
    cases hg : HMap.get n.r.id2nodes i with
    | none =>
      have := HMap.get_eq_none_iff.1 hg
      simpa [HMap.keys] using this
    | some o =>
      have : (i, o) ∈ n.r.id2nodes := (HMap.get_eq_some_iff hw).1 hg
      simp only [Option.isSome_some, iff_true, List.mem_map]
      exact ⟨_, this, rfl⟩
  simpa using hp.length_eq

/-- What is printed in all careful histories. -/
theorem display_eq {ident : O → K} {n : Net K O L W} (hids : n.r.IdsUnique ident) (hk : n.r.EdgesKnown)
    (hw : HMap.WF n.r.id2nodes) {ids : List Nat} (hn : ids.Nodup) (hm : ∀ i, i ∈ ids ↔ (getObject n i).isSome = true) :
    display ident n =
      if ∀ i < ids.length, i ∈ ids then some (matrixTitle (matrixText ids.length (edgeShown ident n))) else none := by
  have hl := ids_length hw hn hm
  unfold display
  split
  · rename_i hall
    have hrow : ∀ l, 0 ≤ l → l < 0 + n.r.id2nodes.length → displayRow ident n l n.r.id2nodes.length 0 =
        some ((List.range' 0 ids.length).map (fun j => if edgeShown ident n l j then '1' else '0')) := by
      intro l _ h2
      rw [hl] at h2 ⊢
      refine displayRow_eq _ l _ _ (fun j _ hj => ?_)
      exact displayCell_eq hids hk ((hm l).1 (hall l (by omega))) ((hm j).1 (hall j (by omega)))
    rw [displayRows_eq _ _ _ hrow, hl, ← List.range_eq_range']
    rfl
  · rename_i hall
    obtain ⟨i, hi, hni⟩ : ∃ i, i < ids.length ∧ i ∉ ids := by
      by_contra hno
      exact hall (fun i hi => by_contra (fun hn => hno ⟨i, hi, hn⟩))
    have hg : getObject n i = none := by
      cases hg : getObject n i with
      | none => rfl
      | some o => exact absurd ((hm i).2 (by rw [hg]; rfl)) hni
    rw [displayRows_none (n.r.id2nodes.length) 0 i (by omega) (by omega)
      (displayRow_none i _ 0 i (by omega) (by omega) (displayCell_none (Or.inl hg)))]
    rfl

end Verif.Network
