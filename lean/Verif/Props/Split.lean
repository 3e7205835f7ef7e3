import Verif.Spec.Split
import Verif.Props.Explore
import Mathlib.Data.List.Perm.Basic

/-!
C278: an exploration may be split into several, and the order of the values does not matter.
-/

namespace Verif.Explore

variable {V S : Type}

theorem flatMap_zipIdx_fst {C R : Type} (g : C → List R) : ∀ (cs : List C) (k : Nat), (cs.zipIdx k).flatMap (fun c => g c.1) = cs.flatMap g
  | [], _ => rfl
  | c :: cs, k => by rw [List.zipIdx_cons, List.flatMap_cons, List.flatMap_cons, flatMap_zipIdx_fst g cs (k + 1)]

theorem outcomes_major (rep : Nat) (l : Nat → Nat) (s : Nat → List V → S) (cs : List (List V)) :
    outcomes (majorRows rep (fun i j vs => ⟨i, l j, s j vs⟩) cs) = cs.flatMap (fun vs => (List.range rep).map (fun j => (l j, s j vs))) := by
  unfold outcomes majorRows
  rw [List.map_flatMap, ← flatMap_zipIdx_fst _ cs 0]
  refine List.flatMap_congr (fun c _ => ?_)
  rw [List.map_map]
  rfl

theorem finals_major (rep : Nat) (l : Nat → Nat) (s : Nat → List V → S) (cs : List (List V)) :
    finals (majorRows rep (fun i j vs => ⟨i, l j, s j vs⟩) cs) = cs.flatMap (fun vs => (List.range rep).map (fun j => s j vs)) := by
  unfold finals majorRows
  rw [List.map_flatMap, ← flatMap_zipIdx_fst _ cs 0]
  refine List.flatMap_congr (fun c _ => ?_)
  rw [List.map_map]
  rfl

theorem combinations_split (a b : List V) (post : List (List V)) :
    ∀ pre : List (List V), (combinations (pre ++ (a ++ b) :: post)).Perm (combinations (pre ++ a :: post) ++ combinations (pre ++ b :: post))
  | [] => by
    show ((a ++ b).flatMap _).Perm (a.flatMap _ ++ b.flatMap _)
    rw [List.flatMap_append]
  | l :: pre => by
    show (l.flatMap _).Perm (l.flatMap _ ++ l.flatMap _)
    refine List.Perm.trans ?_ (List.flatMap_append_perm l _ _).symm
    refine List.Perm.flatMap_left l (fun v _ => ?_)
    rw [← List.map_append]
    exact (combinations_split a b post pre).map _

theorem combinations_perm {inputs inputs' : List (List V)} (h : SameValues inputs inputs') : (combinations inputs).Perm (combinations inputs') := by
  unfold SameValues at h
  induction h with
  | nil => exact List.Perm.refl _
  | cons h _ ih => exact List.Perm.flatMap h (fun v _ => ih.map _)

theorem ne_nil_split {pre post : List (List V)} {a b : List V} (h : ∀ l ∈ pre ++ post, l ≠ []) (ha : a ≠ []) : (∀ l ∈ pre ++ (a ++ b) :: post, l ≠ []) ∧ (∀ l ∈ pre ++ a :: post, l ≠ []) := by
  have key : ∀ x : List V, x ≠ [] → ∀ l ∈ pre ++ x :: post, l ≠ [] := by
    intro x hx l hl
    rcases List.mem_append.1 hl with hl | hl
    · exact h l (List.mem_append.2 (Or.inl hl))
    · rcases List.mem_cons.1 hl with rfl | hl
      · exact hx
      · exact h l (List.mem_append.2 (Or.inr hl))
  exact ⟨key _ (by simp [ha]), key a ha⟩

/-- **C278, exhaustive exploration.** Full statement: an exploration gives what the explorations of two parts give together, also when it is split by repetitions (false of `explore_sequential!`, below).
The values of one parameter divided between two explorations: together they have the outcomes of the whole. -/
theorem C278_values_partial {pre post : List (List V)} {a b : List V} (h : ∀ l ∈ pre ++ post, l ≠ []) (ha : a ≠ []) (hb : b ≠ []) (new : List V → S) (sim : S → S) (rep : Nat) :
    (∃ r ra rb, exploreSequential new sim rep .exaustive (pre ++ (a ++ b) :: post) = some r ∧ exploreSequential new sim rep .exaustive (pre ++ a :: post) = some ra ∧
      exploreSequential new sim rep .exaustive (pre ++ b :: post) = some rb ∧ (outcomes r).Perm (outcomes ra ++ outcomes rb)) ∧
    (∃ r ra rb, exploreParallel new sim rep .exaustive (pre ++ (a ++ b) :: post) = some r ∧ exploreParallel new sim rep .exaustive (pre ++ a :: post) = some ra ∧
      exploreParallel new sim rep .exaustive (pre ++ b :: post) = some rb ∧ (outcomes r).Perm (outcomes ra ++ outcomes rb)) := by
  obtain ⟨h1, h2⟩ := ne_nil_split (b := b) h ha
  have h3 := (ne_nil_split (b := a) h hb).2
  have hp := combinations_split a b post pre
  constructor
  · refine ⟨_, _, _, C59_sequential_partial h1 new sim rep, C59_sequential_partial h2 new sim rep, C59_sequential_partial h3 new sim rep, ?_⟩
    rw [outcomes_major _ (fun j => j + 1) (fun j vs => sim^[j + 1] (new vs)), outcomes_major _ (fun j => j + 1) (fun j vs => sim^[j + 1] (new vs)),
      outcomes_major _ (fun j => j + 1) (fun j vs => sim^[j + 1] (new vs)), ← List.flatMap_append]
    exact hp.flatMap_right _
  · refine ⟨_, _, _, C59_parallel_partial h1 new sim rep, C59_parallel_partial h2 new sim rep, C59_parallel_partial h3 new sim rep, ?_⟩
    rw [outcomes_major _ (fun j => j) (fun _ vs => sim (new vs)), outcomes_major _ (fun j => j) (fun _ vs => sim (new vs)), outcomes_major _ (fun j => j) (fun _ vs => sim (new vs)),
      ← List.flatMap_append]
    exact hp.flatMap_right _

/-- **C278, order.** The values of the parameters listed in another order give the same outcomes in another order. -/
theorem C278_order_partial {inputs inputs' : List (List V)} (hs : SameValues inputs inputs') (h : ∀ l ∈ inputs, l ≠ []) (new : List V → S) (sim : S → S) (rep : Nat) :
    (∃ r r', exploreSequential new sim rep .exaustive inputs = some r ∧ exploreSequential new sim rep .exaustive inputs' = some r' ∧ (outcomes r).Perm (outcomes r')) ∧
    (∃ r r', exploreParallel new sim rep .exaustive inputs = some r ∧ exploreParallel new sim rep .exaustive inputs' = some r' ∧ (outcomes r).Perm (outcomes r')) := by
  have h' : ∀ l ∈ inputs', l ≠ [] := by
    unfold SameValues at hs
    induction hs with
    | nil => simp
    | cons hp _ ih =>
      intro l hl
      rcases List.mem_cons.1 hl with rfl | hl
      · intro e
        subst e
        exact h _ List.mem_cons_self (List.perm_nil.1 hp)
      · exact ih (fun l hl => h l (List.mem_cons_of_mem _ hl)) l hl
  have hp := combinations_perm hs
  constructor
  · refine ⟨_, _, C59_sequential_partial h new sim rep, C59_sequential_partial h' new sim rep, ?_⟩
    rw [outcomes_major _ (fun j => j + 1) (fun j vs => sim^[j + 1] (new vs)), outcomes_major _ (fun j => j + 1) (fun j vs => sim^[j + 1] (new vs))]
    exact hp.flatMap_right _
  · refine ⟨_, _, C59_parallel_partial h new sim rep, C59_parallel_partial h' new sim rep, ?_⟩
    rw [outcomes_major _ (fun j => j) (fun _ vs => sim (new vs)), outcomes_major _ (fun j => j) (fun _ vs => sim (new vs))]
    exact hp.flatMap_right _

theorem matched_split (inputs : List (List V)) (k m : Nat) :
    matchedConfigs inputs (k + m) = matchedConfigs (inputs.map (List.take k)) k ++ matchedConfigs (inputs.map (List.drop k)) m := by
  unfold matchedConfigs
  rw [List.range_add, List.map_append, List.map_map]
  congr 1
  · refine List.map_congr_left (fun i hi => ?_)
    rw [List.filterMap_map]
    refine List.filterMap_congr (fun l _ => ?_)
    simp only [Function.comp]
    rw [List.getElem?_take_of_lt (List.mem_range.1 hi)]
  · refine List.map_congr_left (fun i _ => ?_)
    simp only [Function.comp]
    rw [List.filterMap_map]
    refine List.filterMap_congr (fun l _ => ?_)
    simp only [Function.comp]
    rw [List.getElem?_drop]

/-- **C278, matched exploration.** The lists cut after `k` values: the outcomes are those of the first parts followed by those of the second. -/
theorem C278_matched_partial {inputs : List (List V)} {k m : Nat} (hne : inputs ≠ []) (h : ∀ l ∈ inputs, l.length = k + m) (new : List V → S) (sim : S → S) (rep : Nat) :
    (∃ r ra rb, exploreSequential new sim rep .matched inputs = some r ∧ exploreSequential new sim rep .matched (inputs.map (List.take k)) = some ra ∧
      exploreSequential new sim rep .matched (inputs.map (List.drop k)) = some rb ∧ outcomes r = outcomes ra ++ outcomes rb) ∧
    (∃ r ra rb, exploreParallel new sim rep .matched inputs = some r ∧ exploreParallel new sim rep .matched (inputs.map (List.take k)) = some ra ∧
      exploreParallel new sim rep .matched (inputs.map (List.drop k)) = some rb ∧ outcomes r = outcomes ra ++ outcomes rb) := by
  have ht : ∀ l ∈ inputs.map (List.take k), l.length = k := by
    intro l hl
    obtain ⟨x, hx, rfl⟩ := List.mem_map.1 hl
    rw [List.length_take, h x hx]
    omega
  have hd : ∀ l ∈ inputs.map (List.drop k), l.length = m := by
    intro l hl
    obtain ⟨x, hx, rfl⟩ := List.mem_map.1 hl
    rw [List.length_drop, h x hx]
    omega
  have e1 : inputs.map (List.take k) ≠ [] := by simpa using hne
  have e2 : inputs.map (List.drop k) ≠ [] := by simpa using hne
  constructor
  · refine ⟨_, _, _, C90_sequential_partial hne h new sim rep, C90_sequential_partial e1 ht new sim rep, C90_sequential_partial e2 hd new sim rep, ?_⟩
    rw [outcomes_major _ (fun j => j + 1) (fun j vs => sim^[j + 1] (new vs)), outcomes_major _ (fun j => j + 1) (fun j vs => sim^[j + 1] (new vs)),
      outcomes_major _ (fun j => j + 1) (fun j vs => sim^[j + 1] (new vs)), ← List.flatMap_append, ← matched_split inputs k m]
  · refine ⟨_, _, _, C90_parallel_partial hne h new sim rep, C90_parallel_partial e1 ht new sim rep, C90_parallel_partial e2 hd new sim rep, ?_⟩
    rw [outcomes_major _ (fun j => j) (fun _ vs => sim (new vs)), outcomes_major _ (fun j => j) (fun _ vs => sim (new vs)), outcomes_major _ (fun j => j) (fun _ vs => sim (new vs)),
      ← List.flatMap_append, ← matched_split inputs k m]

theorem repeat_perm (g : List V → S) (m n : Nat) (cs : List (List V)) :
    (cs.flatMap (fun vs => (List.range (m + n)).map (fun _ => g vs))).Perm
      (cs.flatMap (fun vs => (List.range m).map (fun _ => g vs)) ++ cs.flatMap (fun vs => (List.range n).map (fun _ => g vs))) := by
  refine List.Perm.trans ?_ (List.flatMap_append_perm cs _ _).symm
  refine List.Perm.flatMap_left cs (fun vs _ => ?_)
  rw [List.range_add, List.map_append, List.map_map]
  rfl

theorem outcomes_process {C : Type} (rep : Nat) (s : Nat → C → S) (cs : List C) :
    outcomes (majorRows rep (fun i j c => ⟨i, j, s j c⟩) cs) = cs.flatMap (fun c => (List.range rep).map (fun j => (j, s j c))) := by
  unfold outcomes majorRows
  rw [List.map_flatMap, ← flatMap_zipIdx_fst _ cs 0]
  refine List.flatMap_congr (fun c _ => ?_)
  rw [List.map_map]
  rfl

theorem map_getD_range (cs : List (List V)) : (List.range cs.length).map (fun k => cs.getD k []) = cs := by
  apply List.ext_getElem
  · simp
  · intro i h1 h2
    simp [h2]

/-- The outcomes of a distributed exploration, in an order that depends on the number of processes. -/
theorem outcomes_mpi {mode : Mode} {inputs cs : List (List V)} (h : ConfigsOf mode inputs cs) (hcs : cs ≠ []) (new : List V → S) (sim : S → S) {rep p : Nat} (hrep : rep ≠ 0) (hp : 0 < p) :
    ∃ r, exploreMpi new sim rep mode inputs p = some r ∧ (outcomes r).Perm (cs.flatMap (fun vs => (List.range rep).map (fun j => (j, sim^[j + 1] (new vs))))) := by
  obtain ⟨shares, _, hperm, _, he⟩ := C61_partial h hcs new sim hrep hp
  refine ⟨_, he, ?_⟩
  have e1 : outcomes (shares.flatMap (fun ks => majorRows rep (fun i j k => (⟨i, j, sim^[j + 1] (new (cs.getD k []))⟩ : Row S)) ks)) =
      shares.flatten.flatMap (fun k => (List.range rep).map (fun j => (j, sim^[j + 1] (new (cs.getD k []))))) := by
    unfold outcomes
    rw [List.map_flatMap, List.flatten_eq_flatMap, List.flatMap_assoc]
    refine List.flatMap_congr (fun ks _ => ?_)
    exact outcomes_process rep (fun j k => sim^[j + 1] (new (cs.getD k []))) ks
  rw [e1]
  refine (hperm.flatMap_right _).trans ?_
  conv_rhs => rw [← map_getD_range cs, List.flatMap_map]

theorem combinations_ne_nil : ∀ {inputs : List (List V)}, (∀ l ∈ inputs, l ≠ []) → combinations inputs ≠ []
  | [], _ => by simp [combinations]
  | l :: inputs, h => by
    obtain ⟨v, l', rfl⟩ := List.exists_cons_of_ne_nil (h l List.mem_cons_self)
    have ih := combinations_ne_nil (fun l hl => h l (List.mem_cons_of_mem _ hl))
    obtain ⟨c, cs, e⟩ := List.exists_cons_of_ne_nil ih
    simp [combinations, e]

/-- **C278, processes.** `explore_distributed_mpi!`, in either mode: the number of processes does not change the outcomes, and but for the counting of repetitions from 0 they are
those of `explore_sequential!`. -/
theorem C278_processes_partial {mode : Mode} {inputs cs : List (List V)} (h : ConfigsOf mode inputs cs) (hcs : cs ≠ []) (new : List V → S) (sim : S → S) {rep p q : Nat} (hrep : rep ≠ 0)
    (hp : 0 < p) (hq : 0 < q) :
    ∃ r r' t, exploreMpi new sim rep mode inputs p = some r ∧ exploreMpi new sim rep mode inputs q = some r' ∧ exploreSequential new sim rep mode inputs = some t ∧
      (outcomes r).Perm (outcomes r') ∧ ((outcomes r).map (fun o => (o.1 + 1, o.2))).Perm (outcomes t) := by
  obtain ⟨r, hr, er⟩ := outcomes_mpi h hcs new sim hrep hp
  obtain ⟨r', hr', er'⟩ := outcomes_mpi h hcs new sim hrep hq
  obtain ⟨tab, ht⟩ := h.table
  refine ⟨r, r', _, hr, hr', sequential_rows ht new sim rep, er.trans er'.symm, ?_⟩
  rw [outcomes_major _ (fun j => j + 1) (fun j vs => sim^[j + 1] (new vs))]
  refine (er.map _).trans ?_
  rw [List.map_flatMap]
  simp only [List.map_map, Function.comp_def]
  exact List.Perm.refl _

/-- **C278, distributed.** The values of one parameter divided between two distributed explorations, each with any number of processes. -/
theorem C278_distributed_partial {pre post : List (List V)} {a b : List V} (h : ∀ l ∈ pre ++ post, l ≠ []) (ha : a ≠ []) (hb : b ≠ []) (new : List V → S) (sim : S → S) {rep p q s : Nat}
    (hrep : rep ≠ 0) (hp : 0 < p) (hq : 0 < q) (hs : 0 < s) :
    ∃ r ra rb, exploreMpi new sim rep .exaustive (pre ++ (a ++ b) :: post) p = some r ∧ exploreMpi new sim rep .exaustive (pre ++ a :: post) q = some ra ∧
      exploreMpi new sim rep .exaustive (pre ++ b :: post) s = some rb ∧ (outcomes r).Perm (outcomes ra ++ outcomes rb) := by
  obtain ⟨h1, h2⟩ := ne_nil_split (b := b) h ha
  have h3 := (ne_nil_split (b := a) h hb).2
  obtain ⟨r, hr, er⟩ := outcomes_mpi (mode := .exaustive) ⟨h1, rfl⟩ (combinations_ne_nil h1) new sim hrep hp
  obtain ⟨ra, hra, era⟩ := outcomes_mpi (mode := .exaustive) ⟨h2, rfl⟩ (combinations_ne_nil h2) new sim hrep hq
  obtain ⟨rb, hrb, erb⟩ := outcomes_mpi (mode := .exaustive) ⟨h3, rfl⟩ (combinations_ne_nil h3) new sim hrep hs
  refine ⟨r, ra, rb, hr, hra, hrb, er.trans (List.Perm.trans ?_ (era.append erb).symm)⟩
  rw [← List.flatMap_append]
  exact (combinations_split a b post pre).flatMap_right _

/-- **C278, repetitions.** `explore_parallel!`, in either mode: `m + n` repetitions end in the states in which `m` repetitions and `n` repetitions end. -/
theorem C278_repetitions_partial {mode : Mode} {inputs cs : List (List V)} (h : ConfigsOf mode inputs cs) (new : List V → S) (sim : S → S) (m n : Nat) :
    ∃ r ra rb, exploreParallel new sim (m + n) mode inputs = some r ∧ exploreParallel new sim m mode inputs = some ra ∧ exploreParallel new sim n mode inputs = some rb ∧
      (finals r).Perm (finals ra ++ finals rb) := by
  refine ⟨_, _, _, (C60_fresh_partial h new sim (m + n)).1, (C60_fresh_partial h new sim m).1, (C60_fresh_partial h new sim n).1, ?_⟩
  rw [finals_major _ (fun j => j) (fun _ vs => sim (new vs)), finals_major _ (fun j => j) (fun _ vs => sim (new vs)), finals_major _ (fun j => j) (fun _ vs => sim (new vs))]
  exact repeat_perm (fun vs => sim (new vs)) m n cs

/-- **C278, repetitions, sequential.** The same of `explore_sequential!` if a simulation leaves nothing behind for the next. -/
theorem C278_sequential_repetitions_partial {mode : Mode} {inputs cs : List (List V)} (h : ConfigsOf mode inputs cs) (new : List V → S) {sim : S → S} (hs : ∀ s, sim (sim s) = sim s) (m n : Nat) :
    ∃ r ra rb, exploreSequential new sim (m + n) mode inputs = some r ∧ exploreSequential new sim m mode inputs = some ra ∧ exploreSequential new sim n mode inputs = some rb ∧
      (finals r).Perm (finals ra ++ finals rb) := by
  obtain ⟨r, ra, rb, h1, h2, h3, h4⟩ := C278_repetitions_partial h new sim m n
  have key : ∀ k x, exploreParallel new sim k mode inputs = some x → ∃ y, exploreSequential new sim k mode inputs = some y ∧ finals y = finals x := by
    intro k x hx
    have e := (C60_fresh_partial h new sim k).2 hs
    rw [hx] at e
    cases hy : exploreSequential new sim k mode inputs with
    | none => rw [hy] at e; cases e
    | some y =>
      rw [hy] at e
      exact ⟨y, rfl, Option.some.inj e⟩
  obtain ⟨y, y1, y2⟩ := key _ _ h1
  obtain ⟨ya, a1, a2⟩ := key _ _ h2
  obtain ⟨yb, b1, b2⟩ := key _ _ h3
  exact ⟨y, ya, yb, y1, a1, b1, by rw [y2, a2, b2]; exact h4⟩

/-- **C278 is false of repetitions of `explore_sequential!`**: the second repetition starts from the state in which the first ended, so two repetitions are not one and one more. -/
theorem C278_repetitions_negation_partial :
    ∃ r ra : List (Row Nat), exploreSequential (fun vs : List Nat => vs.sum) (fun s => s + 10) 2 .exaustive [[1]] = some r ∧
      exploreSequential (fun vs : List Nat => vs.sum) (fun s => s + 10) 1 .exaustive [[1]] = some ra ∧ ¬ (finals r).Perm (finals ra ++ finals ra) :=
  ⟨[⟨0, 1, 11⟩, ⟨0, 2, 21⟩], [⟨0, 1, 11⟩], by decide, by decide, by decide⟩

/-- **C278 is false of empty parts**: the exploration of no values fails. -/
theorem C278_empty_negation_partial :
    (exploreParallel (fun vs : List Nat => vs.sum) (fun s => s + 10) 1 .exaustive [[1, 2]]).isSome = true ∧
      exploreParallel (fun vs : List Nat => vs.sum) (fun s => s + 10) 1 .exaustive [([] : List Nat)] = none := by decide

/-- The values of the second of three parameters divided: 12 outcomes are 4 and 8. -/
example : (exploreParallel (fun vs : List Nat => vs.sum) (fun s => s + 10) 1 .exaustive [[1, 2], [3, 4, 5], [6, 7]]).map (fun r => (outcomes r).length) = some 12 ∧
    (exploreParallel (fun vs : List Nat => vs.sum) (fun s => s + 10) 1 .exaustive [[1, 2], [3], [6, 7]]).map (fun r => (outcomes r).length) = some 4 ∧
    (exploreParallel (fun vs : List Nat => vs.sum) (fun s => s + 10) 1 .exaustive [[1, 2], [4, 5], [6, 7]]).map (fun r => (outcomes r).length) = some 8 := by decide

example : (∀ l ∈ [[1, 2]] ++ [[6, 7]], l ≠ ([] : List Nat)) ∧ SameValues [[1, 2], [3]] [[2, 1], [3]] ∧ ConfigsOf .exaustive [[1, 2], [3]] [[1, 3], [2, 3]] ∧
    (∀ s : Nat, min (min s 3) 3 = min s 3) := by
  refine ⟨by decide, ?_, ⟨by decide, by decide⟩, by omega⟩
  exact List.Forall₂.cons (List.Perm.swap _ _ _) (List.Forall₂.cons (List.Perm.refl _) List.Forall₂.nil)

/-- Three configurations on two processes: the rows come in another order than on one, with the same outcomes. -/
example : exploreMpi (fun vs : List Nat => vs.sum) (fun s => s + 10) 1 .exaustive [[5, 6, 7]] 2 = some [⟨0, 0, 15⟩, ⟨1, 0, 17⟩, ⟨0, 0, 16⟩] ∧
    exploreMpi (fun vs : List Nat => vs.sum) (fun s => s + 10) 1 .exaustive [[5, 6, 7]] 1 = some [⟨0, 0, 15⟩, ⟨1, 0, 16⟩, ⟨2, 0, 17⟩] ∧
    exploreMpi (fun vs : List Nat => vs.sum) (fun s => s + 10) 1 .exaustive [[5]] 3 = some [⟨0, 0, 15⟩] := by decide

end Verif.Explore
