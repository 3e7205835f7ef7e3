import Verif.Spec.Part
import Verif.Props.Split
import Mathlib.Data.List.Flatten
import Mathlib.Data.List.Nodup

/-!
C282: an exploration of more configurations has the outcomes of an exploration of fewer; a matched exploration is part of the exhaustive one.
-/

namespace Verif.Explore

variable {V S : Type}

theorem flatMap_subperm {C R : Type} (g : C → List R) {a b : List C} (h : a.Subperm b) : (a.flatMap g).Subperm (b.flatMap g) := by
  obtain ⟨l, hl, hs⟩ := h
  refine ⟨l.flatMap g, hl.flatMap_right g, ?_⟩
  clear hl
  induction hs with
  | slnil => exact List.Sublist.refl _
  | cons c _ ih =>
    rw [List.flatMap_cons]
    exact ih.trans (List.sublist_append_right _ _)
  | cons_cons c _ ih =>
    rw [List.flatMap_cons, List.flatMap_cons]
    exact (List.Sublist.refl _).append ih

/-- Explorations, in any modes, whose configurations are among those of another. -/
theorem part_of_configs {mode mode' : Mode} {inputs inputs' cs cs' : List (List V)} (h : ConfigsOf mode inputs cs) (h' : ConfigsOf mode' inputs' cs') (hc : cs.Subperm cs') (hcs : cs ≠ [])
    (new : List V → S) (sim : S → S) (rep : Nat) {p q : Nat} (hp : 0 < p) (hq : 0 < q) :
    PartOf (exploreSequential new sim rep mode inputs) (exploreSequential new sim rep mode' inputs') ∧
    PartOf (exploreParallel new sim rep mode inputs) (exploreParallel new sim rep mode' inputs') ∧
    (rep ≠ 0 → PartOf (exploreMpi new sim rep mode inputs p) (exploreMpi new sim rep mode' inputs' q)) := by
  obtain ⟨tab, ht⟩ := h.table
  obtain ⟨tab', ht'⟩ := h'.table
  have hcs' : cs' ≠ [] := by
    rintro rfl
    exact hcs (List.subperm_nil.1 hc)
  refine ⟨⟨_, _, sequential_rows ht new sim rep, sequential_rows ht' new sim rep, ?_⟩, ⟨_, _, parallel_rows ht new sim rep, parallel_rows ht' new sim rep, ?_⟩, fun hrep => ?_⟩
  · rw [outcomes_major _ (fun j => j + 1) (fun j vs => sim^[j + 1] (new vs)), outcomes_major _ (fun j => j + 1) (fun j vs => sim^[j + 1] (new vs))]
    exact flatMap_subperm _ hc
  · rw [outcomes_major _ (fun j => j) (fun _ vs => sim (new vs)), outcomes_major _ (fun j => j) (fun _ vs => sim (new vs))]
    exact flatMap_subperm _ hc
  · obtain ⟨r, hr, er⟩ := outcomes_mpi h hcs new sim hrep hp
    obtain ⟨r', hr', er'⟩ := outcomes_mpi h' hcs' new sim hrep hq
    exact ⟨r, r', hr, hr', er.subperm.trans ((flatMap_subperm _ hc).trans er'.symm.subperm)⟩

theorem combinations_fewer {inputs inputs' : List (List V)} (h : FewerValues inputs inputs') : (combinations inputs).Sublist (combinations inputs') := by
  unfold FewerValues at h
  induction h with
  | nil => exact List.Sublist.refl _
  | @cons l l' ls ls' hl _ ih =>
    show (l.flatMap _).Sublist (l'.flatMap _)
    induction hl with
    | slnil => exact List.Sublist.refl _
    | cons v _ ih2 =>
      refine ih2.trans ?_
      rw [List.flatMap_cons]
      exact List.sublist_append_right _ _
    | cons_cons v _ ih2 =>
      rw [List.flatMap_cons, List.flatMap_cons]
      exact (ih.map _).append ih2

/-- **C282, more values.** Exploring more values of the parameters loses no outcome, whichever exploration. -/
theorem C282_more_values {inputs inputs' : List (List V)} (hs : FewerValues inputs inputs') (h : ∀ l ∈ inputs, l ≠ []) (new : List V → S) (sim : S → S) (rep : Nat) {p q : Nat} (hp : 0 < p)
    (hq : 0 < q) :
    PartOf (exploreSequential new sim rep .exaustive inputs) (exploreSequential new sim rep .exaustive inputs') ∧
    PartOf (exploreParallel new sim rep .exaustive inputs) (exploreParallel new sim rep .exaustive inputs') ∧
    (rep ≠ 0 → PartOf (exploreMpi new sim rep .exaustive inputs p) (exploreMpi new sim rep .exaustive inputs' q)) := by
  have h' : ∀ l ∈ inputs', l ≠ [] := by
    unfold FewerValues at hs
    induction hs with
    | nil => simp
    | cons hl _ ih =>
      intro l hm
      rcases List.mem_cons.1 hm with rfl | hm
      · rintro rfl
        exact h _ List.mem_cons_self (List.sublist_nil.1 hl)
      · exact ih (fun l hl => h l (List.mem_cons_of_mem _ hl)) l hm
  exact part_of_configs (mode := .exaustive) (mode' := .exaustive) ⟨h, rfl⟩ ⟨h', rfl⟩ (combinations_fewer hs).subperm (combinations_ne_nil h) new sim rep hp hq

theorem combinations_map {W : Type} (f : W → V) : ∀ ls : List (List W), combinations (ls.map (List.map f)) = (combinations ls).map (List.map f)
  | [] => rfl
  | l :: ls => by
    show (l.map f).flatMap _ = (l.flatMap _).map _
    rw [List.flatMap_map, List.map_flatMap]
    refine List.flatMap_congr (fun v _ => ?_)
    rw [combinations_map f ls, List.map_map, List.map_map]
    rfl

theorem matched_map {W : Type} (f : W → V) (ls : List (List W)) (n : Nat) : matchedConfigs (ls.map (List.map f)) n = (matchedConfigs ls n).map (List.map f) := by
  unfold matchedConfigs
  rw [List.map_map]
  refine List.map_congr_left (fun i _ => ?_)
  simp only [Function.comp]
  rw [List.filterMap_map, List.map_filterMap]
  refine List.filterMap_congr (fun l _ => ?_)
  simp

/-- The matched configurations of lists without repeated values are different from each other. -/
theorem matched_nodup {W : Type} {l : List W} {ls : List (List W)} {n : Nat} (hl : l.length = n) (hn : l.Nodup) : (matchedConfigs (l :: ls) n).Nodup := by
  unfold matchedConfigs
  refine List.Nodup.map_on ?_ List.nodup_range
  intro i hi j hj he
  have hi' : i < l.length := by rw [hl]; exact List.mem_range.1 hi
  have hj' : j < l.length := by rw [hl]; exact List.mem_range.1 hj
  rw [List.filterMap_cons, List.filterMap_cons, List.getElem?_eq_getElem hi', List.getElem?_eq_getElem hj'] at he
  exact (List.Nodup.getElem_inj_iff hn).1 (List.cons.inj he).1

theorem matched_subset {W : Type} {ls : List (List W)} {n : Nat} (h : ∀ l ∈ ls, l.length = n) : matchedConfigs ls n ⊆ combinations ls := by
  intro c hc
  obtain ⟨i, hi, e⟩ := List.getElem_of_mem hc
  have hlen := (C90_configurations h).1
  have := (C90_configurations h).2 i (by rw [hlen] at hi; exact hi) c (by rw [List.getElem?_eq_getElem hi, e])
  refine ((C59_combinations ls).1 c).2 (this.imp (fun v l hv => ?_))
  exact List.mem_of_getElem? hv

theorem matched_subperm {inputs : List (List V)} {n : Nat} (hne : inputs ≠ []) (h : ∀ l ∈ inputs, l.length = n) : (matchedConfigs inputs n).Subperm (combinations inputs) := by
  have e : inputs = (inputs.map (fun l => l.zipIdx)).map (List.map Prod.fst) := by
    rw [List.map_map]
    conv_lhs => rw [← List.map_id inputs]
    refine List.map_congr_left (fun l _ => ?_)
    simp
  rw [e, matched_map, combinations_map]
  have hl : ∀ l ∈ inputs.map (fun l => l.zipIdx), l.length = n := by
    intro l hl
    obtain ⟨x, hx, rfl⟩ := List.mem_map.1 hl
    rw [List.length_zipIdx, h x hx]
  have hd : (matchedConfigs (inputs.map (fun l => l.zipIdx)) n).Nodup := by
    obtain ⟨l, ls, rfl⟩ := List.exists_cons_of_ne_nil hne
    refine matched_nodup (hl _ (by simp)) ?_
    refine List.Nodup.of_map Prod.snd ?_
    rw [List.zipIdx_map_snd]
    exact List.nodup_range'
  obtain ⟨l, hp, hs⟩ := List.subperm_of_subset hd (matched_subset hl)
  exact ⟨l.map _, hp.map _, hs.map _⟩

/-- **C282, matched.** A matched exploration finds nothing that the exhaustive exploration of the same lists does not find. -/
theorem C282_matched {inputs : List (List V)} {n : Nat} (hne : inputs ≠ []) (h : ∀ l ∈ inputs, l.length = n) (hn : n ≠ 0) (new : List V → S) (sim : S → S) (rep : Nat) {p q : Nat} (hp : 0 < p)
    (hq : 0 < q) :
    PartOf (exploreSequential new sim rep .matched inputs) (exploreSequential new sim rep .exaustive inputs) ∧
    PartOf (exploreParallel new sim rep .matched inputs) (exploreParallel new sim rep .exaustive inputs) ∧
    (rep ≠ 0 → PartOf (exploreMpi new sim rep .matched inputs p) (exploreMpi new sim rep .exaustive inputs q)) := by
  have hl : ∀ l ∈ inputs, l ≠ [] := by
    rintro l hl rfl
    exact hn (h [] hl).symm
  refine part_of_configs (mode := .matched) (mode' := .exaustive) ⟨hne, n, h, rfl⟩ ⟨hl, rfl⟩ (matched_subperm hne h) ?_ new sim rep hp hq
  unfold matchedConfigs
  simpa using hn

/-- **C282, the converse is false**: the exhaustive exploration has outcomes that the matched one does not have. -/
theorem C282_not_all : ∃ inputs : List (List Nat), ¬ PartOf (exploreParallel (fun vs : List Nat => vs) (fun s => s) 1 .exaustive inputs) (exploreParallel (fun vs : List Nat => vs) (fun s => s) 1 .matched inputs) := by
  refine ⟨[[1, 2], [3, 4]], ?_⟩
  rintro ⟨r, r', h, h', hs⟩
  have e : exploreParallel (fun vs : List Nat => vs) (fun s => s) 1 .exaustive [[1, 2], [3, 4]] = some [⟨0, 0, [1, 3]⟩, ⟨1, 0, [1, 4]⟩, ⟨2, 0, [2, 3]⟩, ⟨3, 0, [2, 4]⟩] := by decide
  have e' : exploreParallel (fun vs : List Nat => vs) (fun s => s) 1 .matched [[1, 2], [3, 4]] = some [⟨0, 0, [1, 3]⟩, ⟨1, 0, [2, 4]⟩] := by decide
  rw [e] at h
  rw [e'] at h'
  cases h
  cases h'
  exact absurd hs.length_le (by decide)

/-- Values listed twice are simulated twice in either mode. -/
example : exploreParallel (fun vs : List Nat => vs) (fun s => s) 1 .matched [[1, 1], [3, 4]] = some [⟨0, 0, [1, 3]⟩, ⟨1, 0, [1, 4]⟩] ∧
    exploreParallel (fun vs : List Nat => vs) (fun s => s) 1 .exaustive [[1, 1], [3, 4]] = some [⟨0, 0, [1, 3]⟩, ⟨1, 0, [1, 4]⟩, ⟨2, 0, [1, 3]⟩, ⟨3, 0, [1, 4]⟩] := by decide

example : FewerValues [[1], [3, 5]] [[0, 1], [3, 4, 5]] ∧ (∀ l ∈ [[1], [3, 5]], l ≠ ([] : List Nat)) ∧ (∀ l ∈ [[1, 1], [3, 4]], (l : List Nat).length = 2) :=
  ⟨List.Forall₂.cons (by decide) (List.Forall₂.cons (by decide) List.Forall₂.nil), by decide, by decide⟩

end Verif.Explore
