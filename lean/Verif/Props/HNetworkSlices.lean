import Verif.Props.HNetwork

/-!
The effect of `HNetwork::add_edge` for every slice of nodes, with repetitions, in every network (C53, C55).
-/

namespace Verif.HNetwork

open Verif.Network (EdgeOptions)

variable {K O L W : Type} [DecidableEq K]

/-- The loop handles the longest beginning of the ids without repetition in which no id lists the hyperedge already. -/
theorem addLoop_prefix (e : HEdge L W) (ids : List Nat) : ∀ (m : HEdgeMap L W),
    ∃ pre rest, ids = pre ++ rest ∧ pre.Nodup ∧ (∀ i ∈ pre, ∀ x ∈ listOf m i, ¬ SameNodes x e) ∧
      (∀ i, listOf (addLoop e ids m).1 i = listOf m i ++ (if i ∈ pre then [e] else [])) ∧
      ((addLoop e ids m).2 = true ↔ rest = []) ∧
      ∀ i rest', rest = i :: rest' → i ∈ pre ∨ ∃ x ∈ listOf m i, SameNodes x e := by
  induction ids with
  | nil =>
    intro m
    exact ⟨[], [], rfl, List.nodup_nil, by simp, fun i => by simp [addLoop], by simp [addLoop], by simp⟩
  | cons id ids ih =>
    intro m
    by_cases hl : ∃ x ∈ listOf m id, SameNodes x e
    · refine ⟨[], id :: ids, rfl, List.nodup_nil, by simp, fun i => ?_, ?_, ?_⟩
      · rw [addLoop_false e id ids m hl]; simp
      · rw [addLoop_false e id ids m hl]; simp
      · intro i rest' h
        cases h
        exact .inr hl
    · have hgo : ∀ m' : HEdgeMap L W, (∀ i, listOf m' i = if i = id then listOf m id ++ [e] else listOf m i) →
          addLoop e (id :: ids) m = addLoop e ids m' →
          ∃ pre rest, id :: ids = pre ++ rest ∧ pre.Nodup ∧ (∀ i ∈ pre, ∀ x ∈ listOf m i, ¬ SameNodes x e) ∧
            (∀ i, listOf (addLoop e (id :: ids) m).1 i = listOf m i ++ (if i ∈ pre then [e] else [])) ∧
            ((addLoop e (id :: ids) m).2 = true ↔ rest = []) ∧
            ∀ i rest', rest = i :: rest' → i ∈ pre ∨ ∃ x ∈ listOf m i, SameNodes x e := by
        intro m' hm' heq
        have hid : ∃ x ∈ listOf m' id, SameNodes x e :=
          ⟨e, by rw [hm', if_pos rfl]; exact List.mem_append_right _ (List.mem_singleton.2 rfl), fun _ => Iff.rfl⟩
        obtain ⟨pre, rest, h1, h2, h3, h4, h5, h6⟩ := ih m'
        have hnot : id ∉ pre := by
          intro hp
          obtain ⟨x, hx, hs⟩ := hid
          exact h3 id hp x hx hs
        refine ⟨id :: pre, rest, by rw [h1]; rfl, List.nodup_cons.2 ⟨hnot, h2⟩, ?_, ?_, by rw [heq]; exact h5, ?_⟩
        · intro i hi x hx hs
          rcases List.mem_cons.1 hi with rfl | hi
          · exact hl ⟨x, hx, hs⟩
          · have hne : i ≠ id := fun h => hnot (h ▸ hi)
            exact h3 i hi x (by rw [hm', if_neg hne]; exact hx) hs
        · intro i
          rw [heq, h4, hm']
          by_cases hi : i = id
          · subst hi
            rw [if_pos rfl, if_neg hnot, if_pos List.mem_cons_self, List.append_nil]
          · rw [if_neg hi]
            simp only [List.mem_cons, hi, false_or]
        · intro i rest' hr
          rcases h6 i rest' hr with h | ⟨x, hx, hs⟩
          · exact .inl (List.mem_cons_of_mem _ h)
          · by_cases hi : i = id
            · exact .inl (hi ▸ List.mem_cons_self)
            · rw [hm', if_neg hi] at hx
              exact .inr ⟨x, hx, hs⟩
      cases hg : HMap.get m id with
      | none =>
        refine hgo (HMap.insert m id [e]).1 ?_ ?_
        · intro i
          unfold listOf
          rw [HMap.get_insert]
          by_cases hi : i = id
          · rw [if_pos hi, if_pos hi, hg]; rfl
          · rw [if_neg hi, if_neg hi]
        · rw [addLoop, hg]
      | some es =>
        refine hgo (HMap.adjust m id (fun es => es ++ [e])) ?_ ?_
        · intro i
          simp only [listOf, HMap.get_adjustBy]
          by_cases hi : i = id
          · rw [if_pos hi, if_pos hi, hg]; rfl
          · rw [if_neg hi, if_neg hi]
        · rw [addLoop, hg]
          dsimp only
          rw [if_neg]
          intro hany
          obtain ⟨x, hx, hs⟩ := List.any_eq_true.1 hany
          exact hl ⟨x, by rw [listOf_of_get hg]; exact hx, eq_iff.1 hs⟩

/-- **C55, every slice of present nodes in every network**: the ids are walked up to the first one that was seen before or
lists a hyperedge with the same nodes already. Exactly the ids before it get the hyperedge, with its label and weight,
appended to their lists, also if the answer is false; the answer is true iff the walk reaches the end. -/
theorem C55_any_slice_partial (ident : O → K) (n : HNet K O L W) (us : List O) (o : EdgeOptions L W) (ids : List Nat)
    (hids : idsOf ident n us = some ids) (hne : us ≠ []) :
    ∃ (e : HEdge L W) (pre rest : List Nat), (∀ j, j ∈ e.nodes ↔ j ∈ ids) ∧ e.label = o.label? ∧ e.weight = o.weight? ∧
      ids = pre ++ rest ∧ pre.Nodup ∧ (∀ i ∈ pre, ∀ x ∈ listOf n.edges i, ¬ ∀ j, j ∈ x.nodes ↔ j ∈ ids) ∧
      (∀ i rest', rest = i :: rest' → i ∈ pre ∨ ∃ x ∈ listOf n.edges i, ∀ j, j ∈ x.nodes ↔ j ∈ ids) ∧
      (∀ i, listOf (addEdge ident n us o).1.edges i = listOf n.edges i ++ (if i ∈ pre then [e] else [])) ∧
      ((addEdge ident n us o).2 = true ↔ rest = []) ∧
      (addEdge ident n us o).1.redges = n.redges ∧ (addEdge ident n us o).1.nodes2id = n.nodes2id ∧
      (addEdge ident n us o).1.id2nodes = n.id2nodes ∧ (addEdge ident n us o).1.rid2nodes = n.rid2nodes := by
  have heq : addEdge ident n us o = ({ n with edges := (addLoop (HEdge.new ids o) ids n.edges).1 },
      (addLoop (HEdge.new ids o) ids n.edges).2) := by
    unfold addEdge
    cases us with
    | nil => exact absurd rfl hne
    | cons u us' => dsimp only; rw [hids]
  have hmem : ∀ j, j ∈ (HEdge.new ids o).nodes ↔ j ∈ ids := fun j => mem_new
  have hsame : ∀ x : HEdge L W, SameNodes x (HEdge.new ids o) ↔ ∀ j, j ∈ x.nodes ↔ j ∈ ids := by
    intro x
    unfold SameNodes
    simp only [hmem]
  obtain ⟨pre, rest, h1, h2, h3, h4, h5, h6⟩ := addLoop_prefix (HEdge.new ids o) ids n.edges
  simp only [hsame] at h3 h6
  rw [heq]
  exact ⟨HEdge.new ids o, pre, rest, hmem, by cases o <;> rfl, by cases o <;> rfl, h1, h2, h3, h6, h4, h5,
    rfl, rfl, rfl, rfl⟩

/-- **C55, false with a repeated node, in general**: the answer is false for every slice in which a node appears twice, and
the first node gets the hyperedge unless it lists it already. -/
theorem C55_repeated_partial (ident : O → K) (n : HNet K O L W) (us : List O) (o : EdgeOptions L W) (i : Nat)
    (ids : List Nat) (hids : idsOf ident n us = some (i :: ids)) (hdup : ¬ (i :: ids).Nodup) :
    (addEdge ident n us o).2 = false ∧
      ((∀ x ∈ listOf n.edges i, ¬ ∀ j, j ∈ x.nodes ↔ j ∈ i :: ids) →
        ∃ e : HEdge L W, (∀ j, j ∈ e.nodes ↔ j ∈ i :: ids) ∧
          listOf (addEdge ident n us o).1.edges i = listOf n.edges i ++ [e]) := by
  have hne : us ≠ [] := by
    rintro rfl
    simp [idsOf] at hids
  obtain ⟨e, pre, rest, he, -, -, h1, h2, h3, h6, h4, h5, -⟩ := C55_any_slice_partial ident n us o (i :: ids) hids hne
  constructor
  · cases hb : (addEdge ident n us o).2 with
    | false => rfl
    | true =>
      have hr := h5.1 hb
      rw [hr, List.append_nil] at h1
      exact absurd (h1 ▸ h2) hdup
  · intro hno
    refine ⟨e, he, ?_⟩
    have hi : i ∈ pre := by
      cases pre with
      | cons a pre' =>
        rw [List.cons_append] at h1
        rw [(List.cons.inj h1).1]
        exact List.mem_cons_self
      | nil =>
        exfalso
        rcases h6 i ids (by rw [h1]; rfl) with h | ⟨x, hx, hs⟩
        · exact absurd h (by simp)
        · exact hno x hx hs
    rw [h4, if_pos hi]

example : ∃ n : Demo, run id HNet.new [.addNode 5, .addNode 6, .addNode 7, .addEdge [5, 6] .simple] = some n ∧
    idsOf id n [7, 5, 7, 6] = some [2, 0, 2, 1] ∧ (addEdge id n [7, 5, 7, 6] .simple).2 = false ∧
    listOf (addEdge id n [7, 5, 7, 6] .simple).1.edges 2 = [⟨[2, 0, 1], none, none⟩] ∧
    listOf (addEdge id n [7, 5, 7, 6] .simple).1.edges 0 = [⟨[0, 1], none, none⟩, ⟨[2, 0, 1], none, none⟩] ∧
    listOf (addEdge id n [7, 5, 7, 6] .simple).1.edges 1 = [⟨[0, 1], none, none⟩] := by
  refine ⟨_, rfl, ?_, ?_, ?_, ?_, ?_⟩ <;> decide

end Verif.HNetwork
