import Verif.Lemmas.Explore

/-!
Properties of the parameter exploration: C59, C60, C61, C90.
-/

namespace Verif.Explore

variable {V S : Type}

/-! ### C59 exhaustive exploration -/

/-- C59. Full statement: the configurations of an exhaustive exploration are all combinations of one value per list, each
once, the last list fastest, also when a list is empty. Proved for lists that are not empty: the rows of `explore_sequential!`
are those of `combinations inputs`, in that order. Missing: the empty list, see `C59_empty_negation_partial`. -/
theorem C59_sequential_partial {inputs : List (List V)} (h : ∀ l ∈ inputs, l ≠ []) (new : List V → S) (sim : S → S)
    (rep : Nat) : exploreSequential new sim rep .exaustive inputs =
      some (majorRows rep (fun i j vs => ⟨i, j + 1, sim^[j + 1] (new vs)⟩) (combinations inputs)) := by
  obtain ⟨tab, ht⟩ := configs_exaustive h
  exact sequential_rows ht new sim rep

/-- C59, for `explore_parallel!`. -/
theorem C59_parallel_partial {inputs : List (List V)} (h : ∀ l ∈ inputs, l ≠ []) (new : List V → S) (sim : S → S)
    (rep : Nat) : exploreParallel new sim rep .exaustive inputs =
      some (majorRows rep (fun i j vs => ⟨i, j, sim (new vs)⟩) (combinations inputs)) := by
  obtain ⟨tab, ht⟩ := configs_exaustive h
  exact parallel_rows ht new sim rep

/-- C59: what `combinations` is. A list is in it exactly when it has one value of each list, and it is in it once when no list
repeats a value; there are as many as the product of the lengths. -/
theorem C59_combinations (inputs : List (List V)) :
    (∀ c, c ∈ combinations inputs ↔ List.Forall₂ (fun v l => v ∈ l) c inputs) ∧
    ((∀ l ∈ inputs, l.Nodup) → (combinations inputs).Nodup) ∧
    (combinations inputs).length = (inputs.map List.length).prod := by
  refine ⟨fun c => mem_combinations, nodup_combinations, ?_⟩
  induction inputs with
  | nil => rfl
  | cons l ls ih =>
    rw [combinations, List.length_flatMap, List.map_cons, List.prod_cons, ← ih]
    simp

/-- C59, the case that fails: with an empty list there is no combination, and both explorations panic. -/
theorem C59_empty_negation_partial {inputs : List (List V)} (h : [] ∈ inputs) (new : List V → S) (sim : S → S) (rep : Nat) :
    combinations inputs = [] ∧ exploreSequential new sim rep .exaustive inputs = none ∧
    exploreParallel new sim rep .exaustive inputs = none := by
  have ht : table .exaustive (inputs.map List.length) = none := by
    apply build_empty
    exact List.mem_map.2 ⟨[], h, rfl⟩
  refine ⟨combinations_empty h, ?_, ?_⟩
  · unfold exploreSequential; rw [ht]
  · unfold exploreParallel; rw [ht]

/-- Two parameters with three and two values, two repetitions. -/
example : exploreSequential (fun vs => vs) (fun s => s ++ [0]) 2 .exaustive [[1, 2, 3], [7, 8]] =
    some [⟨0, 1, [1, 7, 0]⟩, ⟨0, 2, [1, 7, 0, 0]⟩, ⟨1, 1, [1, 8, 0]⟩, ⟨1, 2, [1, 8, 0, 0]⟩, ⟨2, 1, [2, 7, 0]⟩, ⟨2, 2, [2, 7, 0, 0]⟩,
      ⟨3, 1, [2, 8, 0]⟩, ⟨3, 2, [2, 8, 0, 0]⟩, ⟨4, 1, [3, 7, 0]⟩, ⟨4, 2, [3, 7, 0, 0]⟩, ⟨5, 1, [3, 8, 0]⟩, ⟨5, 2, [3, 8, 0, 0]⟩] := by
  decide

example : (∀ l ∈ [[1, 2, 3], [7, 8]], l ≠ []) ∧ combinations [[1, 2, 3], [7, 8]] =
    [[1, 7], [1, 8], [2, 7], [2, 8], [3, 7], [3, 8]] := by decide

/-! ### C90 matched exploration -/

/-- C90. Full statement: a matched exploration simulates configuration `i` with the `i`-th value of every list, and refuses or
reports lists of different lengths. Proved for lists of one length. Missing: lists of different lengths, see
`C90_shorter_negation_partial` and `C90_longer_negation_partial`. -/
theorem C90_sequential_partial {inputs : List (List V)} {n : Nat} (hne : inputs ≠ []) (h : ∀ l ∈ inputs, l.length = n)
    (new : List V → S) (sim : S → S) (rep : Nat) : exploreSequential new sim rep .matched inputs =
      some (majorRows rep (fun i j vs => ⟨i, j + 1, sim^[j + 1] (new vs)⟩) (matchedConfigs inputs n)) :=
  sequential_rows (configs_matched hne h) new sim rep

/-- C90, for `explore_parallel!`. -/
theorem C90_parallel_partial {inputs : List (List V)} {n : Nat} (hne : inputs ≠ []) (h : ∀ l ∈ inputs, l.length = n)
    (new : List V → S) (sim : S → S) (rep : Nat) : exploreParallel new sim rep .matched inputs =
      some (majorRows rep (fun i j vs => ⟨i, j, sim (new vs)⟩) (matchedConfigs inputs n)) :=
  parallel_rows (configs_matched hne h) new sim rep

/-- C90: what the configurations are: there are `n`, and the value `k` of configuration `i` is the `i`-th value of list `k`. -/
theorem C90_configurations {inputs : List (List V)} {n : Nat} (h : ∀ l ∈ inputs, l.length = n) :
    (matchedConfigs inputs n).length = n ∧ ∀ i < n, ∀ c, (matchedConfigs inputs n)[i]? = some c →
      List.Forall₂ (fun v l => l[i]? = some v) c inputs := by
  unfold matchedConfigs
  refine ⟨by simp, ?_⟩
  intro i hi c hc
  rw [List.getElem?_map, List.getElem?_range hi] at hc
  injection hc with hc
  subst hc
  induction inputs with
  | nil => exact List.Forall₂.nil
  | cons l ls ih =>
    have hl : i < l.length := by rw [h l List.mem_cons_self]; exact hi
    have ihh := ih (fun l hl => h l (List.mem_cons_of_mem _ hl))
    simp only [List.filterMap_cons, List.getElem?_eq_getElem hl]
    exact List.Forall₂.cons (List.getElem?_eq_getElem hl) ihh

/-- C90, the first case that fails: a list shorter than the last one makes the exploration panic (when there is something to
simulate). -/
theorem C90_shorter_negation_partial {inputs : List (List V)} {last l : List V} (hl : l ∈ inputs)
    (hlen : l.length < last.length) (new : List V → S) (sim : S → S) (rep : Nat) :
    exploreSequential new sim rep .matched (inputs ++ [last]) = none := by
  have hn : nConf .matched ((inputs ++ [last]).map List.length) = last.length := by
    unfold nConf
    dsimp only
    rw [List.map_append, List.foldl_append]
    rfl
  unfold exploreSequential
  show joinAll _ _ = none
  rw [hn]
  refine joinAll_none _ _ (i := l.length) (List.mem_range.2 hlen) ?_
  unfold rowsOf
  show Option.map _ (pickMatched _ _) = none
  rw [pickMatched_none ⟨l, List.mem_append_left _ hl, Nat.le_refl _⟩]
  rfl

/-- C90, the second case that fails: the surplus values of a list longer than the last one are dropped without a word: the
exploration of two values for three gives two configurations. -/
theorem C90_longer_negation_partial :
    exploreSequential (fun vs => vs) (fun s => s) 1 .matched [[1, 2, 3], [7, 8]] =
      some [⟨0, 1, [1, 7]⟩, ⟨1, 1, [2, 8]⟩] := by
  decide

/-- C90, lists of different lengths: the last list decides. When no list is shorter, both explorations simulate as many
configurations as the last list has values, with the first values of every list, whatever else the lists hold. -/
theorem C90_truncates_partial {inputs : List (List V)} {last : List V} (h : ∀ l ∈ inputs, last.length ≤ l.length)
    (new : List V → S) (sim : S → S) (rep : Nat) :
    exploreSequential new sim rep .matched (inputs ++ [last]) =
        some (majorRows rep (fun i j vs => ⟨i, j + 1, sim^[j + 1] (new vs)⟩)
          (matchedConfigs (inputs.map (·.take last.length) ++ [last]) last.length)) ∧
      exploreParallel new sim rep .matched (inputs ++ [last]) =
        some (majorRows rep (fun i j vs => ⟨i, j, sim (new vs)⟩)
          (matchedConfigs (inputs.map (·.take last.length) ++ [last]) last.length)) := by
  have hc : Configs .matched (inputs ++ [last]) []
      (matchedConfigs (inputs.map (·.take last.length) ++ [last]) last.length) := by
    have hn : nConf .matched ((inputs ++ [last]).map List.length) = last.length := by
      unfold nConf
      dsimp only
      rw [List.map_append, List.foldl_append]
      rfl
    refine ⟨rfl, ?_, ?_⟩
    · unfold matchedConfigs
      rw [List.length_map, List.length_range, hn]
    · intro i hi
      unfold matchedConfigs at hi ⊢
      rw [List.length_map, List.length_range] at hi
      show pickMatched i (inputs ++ [last]) = _
      rw [pickMatched_some (fun l hl => ?_), List.getElem?_map, List.getElem?_range hi]
      · rw [Option.map_some, List.filterMap_append, List.filterMap_append, List.filterMap_map]
        congr 2
        apply List.filterMap_congr
        intro l _
        simp only [Function.comp_apply, List.getElem?_take, if_pos hi]
      · rcases List.mem_append.1 hl with hl | hl
        · exact Nat.lt_of_lt_of_le hi (h l hl)
        · rw [List.mem_singleton.1 hl]
          exact hi
  exact ⟨sequential_rows hc new sim rep, parallel_rows hc new sim rep⟩

/-- C90, when an exploration panics: exactly when a list is shorter than the last one. -/
theorem C90_panics_exactly_partial (inputs : List (List V)) (last : List V) (new : List V → S) (sim : S → S) (rep : Nat) :
    exploreSequential new sim rep .matched (inputs ++ [last]) = none ↔ ∃ l ∈ inputs, l.length < last.length := by
  constructor
  · intro hno
    by_contra hc
    push Not at hc
    rw [(C90_truncates_partial hc new sim rep).1] at hno
    cases hno
  · rintro ⟨l, hl, hlen⟩
    exact C90_shorter_negation_partial hl hlen new sim rep

/-- The surplus 3 is dropped. -/
example : matchedConfigs ([[1, 2, 3], [4, 5, 6, 7]].map (·.take [8, 9].length) ++ [[8, 9]]) [8, 9].length =
    [[1, 4, 8], [2, 5, 9]] := by decide

example : exploreParallel (fun vs => vs) (fun s => s ++ [0]) 2 .matched [[1, 2], [7, 8]] =
    some [⟨0, 0, [1, 7, 0]⟩, ⟨0, 1, [1, 7, 0]⟩, ⟨1, 0, [2, 8, 0]⟩, ⟨1, 1, [2, 8, 0]⟩] := by decide

/-- One list is shorter than the last. -/
example : exploreSequential (fun vs => vs) (fun s => s) 1 .matched ([[1]] ++ [[7, 8]]) = none := by decide

/-! ### C60 labels and fresh states -/

/-- C60. Full statement: both explorations return the same number of rows, configuration by configuration, with the same labels,
and each repetition starts from a fresh state. Proved: the same number of rows, and row `i * rep + j` of both belongs to
configuration `i` and is labelled so (this is for any list of configurations `cs` that an exploration has, see `ConfigsOf`).
Missing: the labels of the repetitions and the fresh states, see `C60_label_negation_partial` and `C60_state_negation_partial`. -/
theorem C60_rows_partial {mode : Mode} {inputs : List (List V)} {cs : List (List V)}
    (h : ConfigsOf mode inputs cs) (new : List V → S) (sim : S → S) (rep : Nat) :
    ∃ a b, exploreSequential new sim rep mode inputs = some a ∧ exploreParallel new sim rep mode inputs = some b ∧
      a.length = cs.length * rep ∧ b.length = cs.length * rep ∧
      a.map (·.confNum) = b.map (·.confNum) ∧
      a.map (·.confNum) = (List.range cs.length).flatMap (fun i => List.replicate rep i) ∧
      a.map (·.confRep) = b.map (fun r => r.confRep + 1) := by
  obtain ⟨tab, h⟩ := h.table
  refine ⟨_, _, sequential_rows h new sim rep, parallel_rows h new sim rep, majorRows_length .., majorRows_length .., ?_, ?_, ?_⟩
  · unfold majorRows
    simp only [List.map_flatMap, List.map_map]
    rfl
  · unfold majorRows
    rw [zipIdx_flatMap]
    simp only [List.map_flatMap]
    apply List.flatMap_congr
    intro i hi
    rw [List.getElem?_eq_getElem (List.mem_range.1 hi), Option.map_some, Option.getD_some, List.map_map]
    exact List.eq_replicate_iff.2 ⟨by simp, by simp⟩
  · unfold majorRows
    simp only [List.map_flatMap, List.map_map]
    rfl

/-- C60, where it holds: `explore_parallel!` starts every repetition from a fresh state, so all its rows of a configuration have
the same outcome; and if a second run of a finished simulation changes nothing, `explore_sequential!` has the same states. -/
theorem C60_fresh_partial {mode : Mode} {inputs : List (List V)} {cs : List (List V)}
    (h : ConfigsOf mode inputs cs) (new : List V → S) (sim : S → S) (rep : Nat) :
    exploreParallel new sim rep mode inputs = some (majorRows rep (fun i j vs => ⟨i, j, sim (new vs)⟩) cs) ∧
    ((∀ s, sim (sim s) = sim s) → (exploreSequential new sim rep mode inputs).map (List.map (·.state)) =
      (exploreParallel new sim rep mode inputs).map (List.map (·.state))) := by
  obtain ⟨tab, h⟩ := h.table
  refine ⟨parallel_rows h new sim rep, ?_⟩
  intro hs
  have hit : ∀ j s, sim^[j + 1] s = sim s := by
    intro j
    induction j with
    | zero => intro s; rfl
    | succ j ih => intro s; rw [Function.iterate_succ_apply, ih, hs]
  rw [sequential_rows h, parallel_rows h]
  simp only [Option.map_some, hit]
  unfold majorRows
  simp only [List.map_flatMap, List.map_map]
  rfl

/-- C60, the first part that fails: for every exploration with at least one row the labels of the repetitions differ: they start
at 1 in the one and at 0 in the other. -/
theorem C60_label_negation_partial {mode : Mode} {inputs : List (List V)} {cs : List (List V)}
    (h : ConfigsOf mode inputs cs) (hcs : cs ≠ []) (new : List V → S) (sim : S → S) {rep : Nat} (hrep : rep ≠ 0) :
    (exploreSequential new sim rep mode inputs).map (fun a => a.head?.map (·.confRep)) = some (some 1) ∧
    (exploreParallel new sim rep mode inputs).map (fun a => a.head?.map (·.confRep)) = some (some 0) := by
  obtain ⟨tab, h⟩ := h.table
  obtain ⟨c, cs', rfl⟩ := List.exists_cons_of_ne_nil hcs
  obtain ⟨n, rfl⟩ := Nat.exists_eq_succ_of_ne_zero hrep
  rw [sequential_rows h, parallel_rows h]
  unfold majorRows
  rw [List.zipIdx_cons]
  simp [List.flatMap_cons, List.range_succ_eq_map]

/-- C60, the second part that fails: `explore_sequential!` runs the repetitions of a configuration one after the other on one
state: the second starts where the first ended. -/
theorem C60_state_negation_partial :
    (exploreSequential (fun vs : List Nat => vs.sum) (fun s => s + 10) 2 .exaustive [[1, 2]]).map (List.map (·.state)) =
      some [11, 21, 12, 22] ∧
    (exploreParallel (fun vs : List Nat => vs.sum) (fun s => s + 10) 2 .exaustive [[1, 2]]).map (List.map (·.state)) =
      some [11, 11, 12, 12] := by
  decide

/-- The hypothesis of the theorems above holds for the explorations of C59 and C90. -/
example : ConfigsOf .exaustive [[1, 2], [7, 8]] [[1, 7], [1, 8], [2, 7], [2, 8]] ∧
    ConfigsOf .matched [[1, 2], [7, 8]] [[1, 7], [2, 8]] :=
  ⟨⟨by decide, by decide⟩, by decide, 2, by decide, by decide⟩

/-! ### C61 distributed exploration -/

/-- C61. Full statement: every configuration is simulated by exactly one process, the counts and displacements of the root match
what is sent and tile the result, and the label identifies the configuration. Proved, for at least one process, one
configuration and one repetition: the configurations `0 … n - 1` are shared out among the processes, each in exactly one share,
the shares differing by at most one; the exploration succeeds (so counts and places match, see `gather`) and the result is the
rows of the processes one after the other, `rep` for each of their configurations. Missing: the label, which is the index in the
share and not the configuration (`C61_label_negation_partial`), no repetitions (`C61_no_repetition_negation_partial`) and no
configuration (`C61_no_configuration_negation_partial`). -/
theorem C61_partial {mode : Mode} {inputs : List (List V)} {cs : List (List V)}
    (h : ConfigsOf mode inputs cs) (hcs : cs ≠ []) (new : List V → S) (sim : S → S) {rep p : Nat} (hrep : rep ≠ 0)
    (hp : 0 < p) :
    ∃ shares : List (List Nat), shares.length = p ∧ shares.flatten.Perm (List.range cs.length) ∧
      (∀ ks ∈ shares, ks.length = cs.length / p ∨ ks.length = cs.length / p + 1) ∧
      exploreMpi new sim rep mode inputs p = some (shares.flatMap (fun ks =>
        majorRows rep (fun i j k => ⟨i, j, sim^[j + 1] (new (cs.getD k []))⟩) ks)) := by
  obtain ⟨tab, h⟩ := h.table
  refine ⟨(List.range p).map (fun r => (List.range (localSize cs.length p r)).map (fun i => i * p + r)), ?_, ?_, ?_, ?_⟩
  · simp
  · have := assigned_perm (n := cs.length) hp
    unfold assigned at this
    rwa [List.flatMap_def] at this
  · intro ks hks
    obtain ⟨r, _, rfl⟩ := List.mem_map.1 hks
    rw [List.length_map, List.length_range]
    unfold localSize
    split <;> simp
  · rw [mpi_rows h new sim hrep hp hcs, List.flatMap_map]
    congr 1
    apply List.flatMap_congr
    intro r _
    rw [majorRows_process]

/-- C61, the label: with two processes two different configurations are labelled 0. -/
theorem C61_label_negation_partial :
    exploreMpi (fun vs => vs) (fun s => s) 1 .exaustive [[5, 6, 7]] 2 =
      some [⟨0, 0, [5]⟩, ⟨1, 0, [7]⟩, ⟨0, 0, [6]⟩] := by
  decide

/-- C61: with one process the label is the configuration. -/
theorem C61_single_partial {mode : Mode} {inputs : List (List V)} {cs : List (List V)}
    (h : ConfigsOf mode inputs cs) (hcs : cs ≠ []) (new : List V → S) (sim : S → S) {rep : Nat} (hrep : rep ≠ 0) :
    exploreMpi new sim rep mode inputs 1 = some (majorRows rep (fun i j vs => ⟨i, j, sim^[j + 1] (new vs)⟩) cs) := by
  obtain ⟨tab, h⟩ := h.table
  rw [mpi_rows h new sim hrep Nat.one_pos hcs, List.range_one, List.flatMap_cons, List.flatMap_nil, List.append_nil]
  unfold majorRows processRows
  rw [zipIdx_flatMap]
  have : localSize cs.length 1 0 = cs.length := by unfold localSize; simp [Nat.mod_one]
  rw [this]
  congr 1
  apply List.flatMap_congr
  intro i hi
  rw [List.getElem?_eq_getElem (List.mem_range.1 hi)]
  simp [List.getD, List.getElem?_eq_getElem (List.mem_range.1 hi)]

/-- C61, no repetitions: the code runs one, but makes room for none, and panics. -/
theorem C61_no_repetition_negation_partial {mode : Mode} {inputs : List (List V)} {cs : List (List V)}
    (h : ConfigsOf mode inputs cs) (hcs : cs ≠ []) (new : List V → S) (sim : S → S) {p : Nat} (hp : 0 < p) :
    exploreMpi new sim 0 mode inputs p = none := by
  obtain ⟨tab, h⟩ := h.table
  have hloc : ∀ r, localRows new sim 0 mode inputs tab p r = localRows new sim 1 mode inputs tab p r := fun _ => rfl
  unfold exploreMpi
  rw [h.table]
  dsimp only
  rw [allLocal_some _ (processRows new sim 1 cs p) _ (fun r hr => by
      rw [hloc]; exact localRows_eq h new sim Nat.one_ne_zero (List.mem_range.1 hr)), ← h.length]
  dsimp only
  obtain ⟨q, rfl⟩ : ∃ q, p = q + 1 := ⟨p - 1, by omega⟩
  rw [List.range_succ_eq_map, List.map_cons]
  unfold collectRoot
  have hpos : 0 < localSize cs.length (q + 1) 0 := by
    have := (lt_localSize (n := cs.length) (x := 0) hp).2 (List.length_pos_of_ne_nil hcs)
    simpa using this
  split
  · next first rest locals heq =>
    rw [samplesCount_eq]
    dsimp only
    rw [List.range_succ_eq_map, List.map_cons, displs, List.zip_cons_cons, Nat.mul_zero, List.replicate_zero, gather, if_neg]
    rintro ⟨_, h2⟩
    simp [repMpi] at h2
    omega
  · rfl

/-- C61, no configuration: the root has no row to fill the buffer with, and panics. -/
theorem C61_no_configuration_negation_partial (new : List V → S) (sim : S → S) (rep : Nat) :
    exploreMpi new sim rep .matched [([] : List V)] 1 = none := by
  simp [exploreMpi, table, nConf, allLocal, localRows, localSize, joinAll, collectRoot]

/-- Five configurations, two processes, two repetitions. -/
example : (exploreMpi (fun vs => vs) (fun s => s ++ [0]) 2 .exaustive [[5, 6, 7, 8, 9]] 2).map (List.map (fun r => (r.confNum, r.state))) =
    some [(0, [5, 0]), (0, [5, 0, 0]), (1, [7, 0]), (1, [7, 0, 0]), (2, [9, 0]), (2, [9, 0, 0]), (0, [6, 0]), (0, [6, 0, 0]),
      (1, [8, 0]), (1, [8, 0, 0])] := by decide

/-! ### C227 the size of the table -/

/-- The lengths of the rows. -/
theorem buildRows_lengths (n : Nat) : ∀ sizes : List Nat, (∀ k ∈ sizes, 0 < k) →
    ∃ tab, buildRows n (prod sizes) sizes = some tab ∧
      tab.map List.length = (List.range sizes.length).map (fun j => n * prod (sizes.drop (j + 1))) := by
  intro sizes
  induction sizes with
  | nil => intro _; exact ⟨[], rfl, rfl⟩
  | cons k ks ih =>
    intro h
    have hk := h k (by simp)
    obtain ⟨tab, h1, h2⟩ := ih (fun x hx => h x (by simp [hx]))
    refine ⟨fillRow (prod ks) k n 0 :: tab, ?_, ?_⟩
    · rw [buildRows, if_neg (by omega), prod, Nat.mul_div_cancel_left _ hk, h1]; rfl
    · rw [List.map_cons, h2, fillRow_length, List.length_cons, List.range_succ_eq_map, List.map_cons, List.map_map]
      rfl

/-- **C227, exactly**: with lists that are not empty, the row of the table of an exhaustive exploration for list `j` has as many
entries as there are configurations times the product of the lengths of the lists after `j`. -/
theorem C227_table_exactly_partial (sizes : List Nat) (h : ∀ k ∈ sizes, 0 < k) :
    ∃ tab, table .exaustive sizes = some tab ∧
      tab.map List.length = (List.range sizes.length).map
        (fun j => nConf .exaustive sizes * (sizes.drop (j + 1)).foldr (fun a b => a * b) 1) := by
  obtain ⟨tab, h1, h2⟩ := buildRows_lengths (prod sizes) sizes h
  have hp : ∀ l : List Nat, prod l = l.foldr (fun a b => a * b) 1 := by
    intro l
    induction l with
    | nil => rfl
    | cons a l ih => rw [prod, List.foldr_cons, ih]
  refine ⟨tab, ?_, ?_⟩
  · unfold table buildConfigurations
    rw [nConf_exaustive]
    exact h1
  · rw [h2, nConf_exaustive]
    apply List.map_congr_left
    intro j _
    rw [hp (sizes.drop (j + 1))]

/-- A product is 1 exactly if all its factors are. -/
theorem foldr_mul_eq_one (l : List Nat) : l.foldr (fun a b => a * b) 1 = 1 ↔ ∀ k ∈ l, k = 1 := by
  induction l with
  | nil => simp
  | cons a l ih =>
    rw [List.foldr_cons, List.forall_mem_cons, ← ih]
    constructor
    · intro h; exact ⟨Nat.eq_one_of_mul_eq_one_right h, Nat.eq_one_of_mul_eq_one_left h⟩
    · rintro ⟨h1, h2⟩; rw [h1, h2]

/-- **C227, false as stated**: the table has one entry per list and configuration only if all lists but the first have one
element. -/
theorem C227_one_entry_only_if_partial (sizes : List Nat) (h : ∀ k ∈ sizes, 0 < k) :
    ∃ tab, table .exaustive sizes = some tab ∧
      ((∀ row ∈ tab, row.length = nConf .exaustive sizes) ↔ ∀ k ∈ sizes.drop 1, k = 1) := by
  obtain ⟨tab, h1, h2⟩ := C227_table_exactly_partial sizes h
  refine ⟨tab, h1, ?_⟩
  have hpos : 0 < nConf .exaustive sizes := by
    rw [nConf_exaustive]
    clear h1 h2
    induction sizes with
    | nil => exact Nat.one_pos
    | cons a l ih => exact Nat.mul_pos (h a (by simp)) (ih (fun k hk => h k (by simp [hk])))
  have hall : (∀ row ∈ tab, row.length = nConf .exaustive sizes) ↔ ∀ x ∈ tab.map List.length, x = nConf .exaustive sizes := by
    simp
  rw [hall, h2]
  constructor
  · intro hx k hk
    have hne : 0 < sizes.length := by
      cases sizes with
      | nil => simp at hk
      | cons a l => simp
    have := hx _ (List.mem_map.2 ⟨0, List.mem_range.2 hne, rfl⟩)
    have h1 := Nat.eq_of_mul_eq_mul_left hpos (this.trans (Nat.mul_one _).symm)
    exact (foldr_mul_eq_one _).1 h1 k hk
  · intro hk x hx
    obtain ⟨j, _, rfl⟩ := List.mem_map.1 hx
    rw [(foldr_mul_eq_one _).2, Nat.mul_one]
    intro k hk'
    refine hk k ?_
    rw [Nat.add_comm, ← List.drop_drop] at hk'
    exact List.mem_of_mem_drop hk'

/-- **C227, the size for two lists**: with two lists of `a` and `b` values the table has `a * b * (b + 1)` entries; with
1000 values each, a million configurations, more than 10⁹ entries of 8 bytes. -/
theorem C227_two_lists_partial (a b : Nat) (ha : 0 < a) (hb : 0 < b) :
    ∃ tab, table .exaustive [a, b] = some tab ∧ (tab.map List.length).sum = a * b * (b + 1) := by
  obtain ⟨tab, h1, h2⟩ := C227_table_exactly_partial [a, b] (by simp [ha, hb])
  refine ⟨tab, h1, ?_⟩
  rw [h2, nConf_exaustive]
  simp [prod, List.range_succ]
  ring

example : table .exaustive [2, 3] =
    some [[0,0,0,1,1,1,0,0,0,1,1,1,0,0,0,1,1,1], [0,1,2,0,1,2]] ∧ nConf .exaustive [2, 3] = 6 ∧
    1000 * 1000 * (1000 + 1) = 1001000000 := by
  refine ⟨?_, ?_, ?_⟩ <;> decide +kernel

end Verif.Explore
