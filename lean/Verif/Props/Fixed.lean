import Verif.Spec.Fixed
import Verif.Props.Split

/-!
C281: a parameter with one value may as well be fixed in the model, and the parameters may be listed in another order.
-/

namespace Verif.Explore

variable {V S : Type}

theorem majorRows_map {C D R : Type} (rep : Nat) (row : Nat → Nat → C → R) (f : D → C) (ds : List D) :
    majorRows rep row (ds.map f) = majorRows rep (fun i j d => row i j (f d)) ds := by
  unfold majorRows
  rw [List.zipIdx_map, List.flatMap_map]
  rfl

theorem process_map (new : List V → S) (sim : S → S) (rep : Nat) (f : List V → List V) (cs : List (List V)) {p : Nat} (hp : 0 < p) :
    (List.range p).flatMap (processRows new sim rep (cs.map f) p) = (List.range p).flatMap (processRows (fun vs => new (f vs)) sim rep cs p) := by
  refine List.flatMap_congr (fun r hr => ?_)
  unfold processRows
  rw [List.length_map]
  refine List.flatMap_congr (fun i hi => ?_)
  have hlt : i * p + r < cs.length := by
    have hmem : i * p + r ∈ (List.range p).flatMap (fun r => (List.range (localSize cs.length p r)).map (fun i => i * p + r)) :=
      List.mem_flatMap.2 ⟨r, hr, List.mem_map.2 ⟨i, hi, rfl⟩⟩
    exact List.mem_range.1 ((assigned_perm (n := cs.length) hp).subset hmem)
  refine List.map_congr_left (fun j _ => ?_)
  congr 3
  simp [List.getD_eq_getElem?_getD, hlt]

/-- Explorations whose configurations correspond one to one, in order, have the same rows. -/
theorem rows_of_map {mode : Mode} {inputs inputs' cs : List (List V)} {f : List V → List V} (h : ConfigsOf mode inputs (cs.map f)) (h' : ConfigsOf mode inputs' cs) (hcs : cs ≠ [])
    (new : List V → S) (sim : S → S) (rep : Nat) {p : Nat} (hp : 0 < p) :
    exploreSequential new sim rep mode inputs = exploreSequential (fun vs => new (f vs)) sim rep mode inputs' ∧
    exploreParallel new sim rep mode inputs = exploreParallel (fun vs => new (f vs)) sim rep mode inputs' ∧
    exploreMpi new sim rep mode inputs p = exploreMpi (fun vs => new (f vs)) sim rep mode inputs' p := by
  have hcs' : cs.map f ≠ [] := by simpa using hcs
  obtain ⟨tab, ht⟩ := h.table
  obtain ⟨tab', ht'⟩ := h'.table
  refine ⟨?_, ?_, ?_⟩
  · rw [sequential_rows ht, sequential_rows ht', majorRows_map]
  · rw [parallel_rows ht, parallel_rows ht', majorRows_map]
  · by_cases hrep : rep = 0
    · subst hrep
      rw [C61_no_repetition_negation_partial h hcs' new sim hp, C61_no_repetition_negation_partial h' hcs _ sim hp]
    · rw [mpi_rows ht new sim hrep hp hcs', mpi_rows ht' _ sim hrep hp hcs, process_map new sim rep f cs hp]

theorem combinations_fixed (v : V) (post : List (List V)) : ∀ pre : List (List V),
    combinations (pre ++ [v] :: post) = (combinations (pre ++ post)).map (fun vs => vs.take pre.length ++ v :: vs.drop pre.length)
  | [] => by simp [combinations]
  | l :: pre => by
    show l.flatMap _ = (l.flatMap _).map _
    rw [List.map_flatMap]
    refine List.flatMap_congr (fun x _ => ?_)
    have ih := congrArg (List.map (fun c => x :: c)) (combinations_fixed v post pre)
    refine ih.trans ?_
    rw [List.map_map, List.map_map]
    rfl

theorem ne_nil_fixed {pre post : List (List V)} (h : ∀ l ∈ pre ++ post, l ≠ []) (v : V) : ∀ l ∈ pre ++ [v] :: post, l ≠ [] :=
  (ne_nil_split (a := [v]) (b := []) h (by simp)).2

/-- **C281, exhaustive.** A parameter that has one value may as well be fixed in the model: all three explorations have the same rows, in the same order and with the same numbers. -/
theorem C281_fixed {pre post : List (List V)} (h : ∀ l ∈ pre ++ post, l ≠ []) (v : V) (new : List V → S) (sim : S → S) (rep : Nat) {p : Nat} (hp : 0 < p) :
    exploreSequential new sim rep .exaustive (pre ++ [v] :: post) = exploreSequential (fixedAt pre.length v new) sim rep .exaustive (pre ++ post) ∧
    exploreParallel new sim rep .exaustive (pre ++ [v] :: post) = exploreParallel (fixedAt pre.length v new) sim rep .exaustive (pre ++ post) ∧
    exploreMpi new sim rep .exaustive (pre ++ [v] :: post) p = exploreMpi (fixedAt pre.length v new) sim rep .exaustive (pre ++ post) p :=
  rows_of_map (mode := .exaustive) (f := fun vs => vs.take pre.length ++ v :: vs.drop pre.length) ⟨ne_nil_fixed h v, (combinations_fixed v post pre).symm⟩ ⟨h, rfl⟩ (combinations_ne_nil h) new sim rep hp

theorem filterMap_length {n i : Nat} (hi : i < n) : ∀ {ls : List (List V)}, (∀ l ∈ ls, l.length = n) → (ls.filterMap (fun l => l[i]?)).length = ls.length
  | [], _ => rfl
  | l :: ls, h => by
    have hl : i < l.length := by rw [h l List.mem_cons_self]; exact hi
    rw [List.filterMap_cons, List.getElem?_eq_getElem hl]
    simp [filterMap_length hi (fun l hl => h l (List.mem_cons_of_mem _ hl))]

theorem matched_fixed {pre post : List (List V)} {n : Nat} (h : ∀ l ∈ pre ++ post, l.length = n) (v : V) :
    matchedConfigs (pre ++ List.replicate n v :: post) n = (matchedConfigs (pre ++ post) n).map (fun vs => vs.take pre.length ++ v :: vs.drop pre.length) := by
  unfold matchedConfigs
  rw [List.map_map]
  refine List.map_congr_left (fun i hi => ?_)
  have hi := List.mem_range.1 hi
  have hlen := filterMap_length hi (fun l hl => h l (List.mem_append.2 (Or.inl hl)))
  have hv : (List.replicate n v)[i]? = some v := by simp [hi]
  simp only [Function.comp]
  rw [List.filterMap_append, List.filterMap_append, List.filterMap_cons, hv, ← hlen, List.take_left, List.drop_left]

/-- **C281, matched.** A parameter that has the same value throughout may as well be fixed in the model. -/
theorem C281_fixed_matched {pre post : List (List V)} {n : Nat} (h : ∀ l ∈ pre ++ post, l.length = n) (hne : pre ++ post ≠ []) (hn : n ≠ 0) (v : V) (new : List V → S) (sim : S → S)
    (rep : Nat) {p : Nat} (hp : 0 < p) :
    exploreSequential new sim rep .matched (pre ++ List.replicate n v :: post) = exploreSequential (fixedAt pre.length v new) sim rep .matched (pre ++ post) ∧
    exploreParallel new sim rep .matched (pre ++ List.replicate n v :: post) = exploreParallel (fixedAt pre.length v new) sim rep .matched (pre ++ post) ∧
    exploreMpi new sim rep .matched (pre ++ List.replicate n v :: post) p = exploreMpi (fixedAt pre.length v new) sim rep .matched (pre ++ post) p := by
  refine rows_of_map (mode := .matched) (cs := matchedConfigs (pre ++ post) n) (f := fun vs => vs.take pre.length ++ v :: vs.drop pre.length)
    ⟨by simp, n, ?_, (matched_fixed h v).symm⟩ ⟨hne, n, h, rfl⟩ ?_ new sim rep hp
  · intro l hl
    rcases List.mem_append.1 hl with hl | hl
    · exact h l (List.mem_append.2 (Or.inl hl))
    · rcases List.mem_cons.1 hl with rfl | hl
      · simp
      · exact h l (List.mem_append.2 (Or.inr hl))
  · unfold matchedConfigs
    simpa using hn

/-- The lists of parameter values in the other order. -/
def swapList : Nat → List V → List V
  | 0, x :: y :: rest => y :: x :: rest
  | 0, rest => rest
  | _ + 1, [] => []
  | k + 1, x :: rest => x :: swapList k rest

theorem swapped_eq : ∀ (k : Nat) (make : List V → S) (vs : List V), swappedAt make k vs = make (swapList k vs)
  | 0, _, [] => rfl
  | 0, _, [_] => rfl
  | 0, _, _ :: _ :: _ => rfl
  | _ + 1, _, [] => rfl
  | k + 1, make, x :: rest => swapped_eq k (fun vs => make (x :: vs)) rest

theorem flatMap_exchange {A B R : Type} (g : A → B → List R) (b : List B) : ∀ a : List A, (a.flatMap (fun x => b.flatMap (fun y => g x y))).Perm (b.flatMap (fun y => a.flatMap (fun x => g x y)))
  | [] => by simp
  | x :: a => by
    simp only [List.flatMap_cons]
    exact ((List.Perm.refl _).append (flatMap_exchange g b a)).trans (List.flatMap_append_perm b _ _)

theorem combinations_swap (a b : List V) (post : List (List V)) : ∀ pre : List (List V),
    (combinations (pre ++ a :: b :: post)).Perm ((combinations (pre ++ b :: a :: post)).map (swapList pre.length))
  | [] => by
    show (a.flatMap (fun x => (b.flatMap (fun y => (combinations post).map _)).map _)).Perm ((b.flatMap (fun y => (a.flatMap (fun x => (combinations post).map _)).map _)).map _)
    simp only [List.map_flatMap, List.map_map]
    exact flatMap_exchange (fun x y => (combinations post).map (fun c => x :: y :: c)) b a
  | l :: pre => by
    show (l.flatMap _).Perm ((l.flatMap _).map _)
    rw [List.map_flatMap]
    refine List.Perm.flatMap_left l (fun x _ => ?_)
    rw [List.map_map]
    have := (combinations_swap a b post pre).map (fun c => x :: c)
    rw [List.map_map] at this
    exact this

/-- **C281, order of the parameters.** Two neighbouring parameters listed in the other order give the same outcomes in another order, whichever exploration. -/
theorem C281_order {pre post : List (List V)} {a b : List V} (h : ∀ l ∈ pre ++ a :: b :: post, l ≠ []) (new : List V → S) (sim : S → S) {rep p q : Nat} (hrep : rep ≠ 0) (hp : 0 < p)
    (hq : 0 < q) :
    (∃ r r', exploreSequential new sim rep .exaustive (pre ++ a :: b :: post) = some r ∧
      exploreSequential (swappedAt new pre.length) sim rep .exaustive (pre ++ b :: a :: post) = some r' ∧ (outcomes r).Perm (outcomes r')) ∧
    (∃ r r', exploreParallel new sim rep .exaustive (pre ++ a :: b :: post) = some r ∧
      exploreParallel (swappedAt new pre.length) sim rep .exaustive (pre ++ b :: a :: post) = some r' ∧ (outcomes r).Perm (outcomes r')) ∧
    (∃ r r', exploreMpi new sim rep .exaustive (pre ++ a :: b :: post) p = some r ∧
      exploreMpi (swappedAt new pre.length) sim rep .exaustive (pre ++ b :: a :: post) q = some r' ∧ (outcomes r).Perm (outcomes r')) := by
  have h' : ∀ l ∈ pre ++ b :: a :: post, l ≠ [] := by
    intro l hl
    refine h l ?_
    simp only [List.mem_append, List.mem_cons] at hl ⊢
    tauto
  have hperm := combinations_swap a b post pre
  refine ⟨⟨_, _, C59_sequential_partial h new sim rep, C59_sequential_partial h' _ sim rep, ?_⟩, ⟨_, _, C59_parallel_partial h new sim rep, C59_parallel_partial h' _ sim rep, ?_⟩, ?_⟩
  · rw [outcomes_major _ (fun j => j + 1) (fun j vs => sim^[j + 1] (new vs)), outcomes_major _ (fun j => j + 1) (fun j vs => sim^[j + 1] (swappedAt new pre.length vs))]
    refine (hperm.flatMap_right _).trans ?_
    simp only [swapped_eq, List.flatMap_map]
    exact List.Perm.refl _
  · rw [outcomes_major _ (fun j => j) (fun _ vs => sim (new vs)), outcomes_major _ (fun j => j) (fun _ vs => sim (swappedAt new pre.length vs))]
    refine (hperm.flatMap_right _).trans ?_
    simp only [swapped_eq, List.flatMap_map]
    exact List.Perm.refl _
  · obtain ⟨r, hr, er⟩ := outcomes_mpi (mode := .exaustive) ⟨h, rfl⟩ (combinations_ne_nil h) new sim hrep hp
    obtain ⟨r', hr', er'⟩ := outcomes_mpi (mode := .exaustive) ⟨h', rfl⟩ (combinations_ne_nil h') (swappedAt new pre.length) sim hrep hq
    refine ⟨r, r', hr, hr', er.trans (List.Perm.trans ?_ er'.symm)⟩
    refine (hperm.flatMap_right _).trans ?_
    simp only [swapped_eq, List.flatMap_map]
    exact List.Perm.refl _

theorem matched_swap {pre post : List (List V)} {a b : List V} {n : Nat} (h : ∀ l ∈ pre ++ b :: a :: post, l.length = n) :
    matchedConfigs (pre ++ a :: b :: post) n = (matchedConfigs (pre ++ b :: a :: post) n).map (swapList pre.length) := by
  unfold matchedConfigs
  rw [List.map_map]
  refine List.map_congr_left (fun i hi => ?_)
  have hi' := List.mem_range.1 hi
  simp only [Function.comp]
  induction pre with
  | nil =>
    have ha : i < a.length := by rw [h a (by simp)]; exact hi'
    have hb : i < b.length := by rw [h b (by simp)]; exact hi'
    simp [List.getElem?_eq_getElem ha, List.getElem?_eq_getElem hb, swapList]
  | cons l pre ih =>
    have hl : i < l.length := by rw [h l (by simp)]; exact hi'
    have := ih (fun l hl => h l (by simp only [List.cons_append]; exact List.mem_cons_of_mem _ hl))
    simp only [List.cons_append, List.filterMap_cons, List.getElem?_eq_getElem hl, List.length_cons, swapList]
    rw [this]

/-- **C281, order of matched parameters.** The rows are the same. -/
theorem C281_order_matched {pre post : List (List V)} {a b : List V} {n : Nat} (h : ∀ l ∈ pre ++ a :: b :: post, l.length = n) (hn : n ≠ 0) (new : List V → S) (sim : S → S) (rep : Nat)
    {p : Nat} (hp : 0 < p) :
    exploreSequential new sim rep .matched (pre ++ a :: b :: post) = exploreSequential (swappedAt new pre.length) sim rep .matched (pre ++ b :: a :: post) ∧
    exploreParallel new sim rep .matched (pre ++ a :: b :: post) = exploreParallel (swappedAt new pre.length) sim rep .matched (pre ++ b :: a :: post) ∧
    exploreMpi new sim rep .matched (pre ++ a :: b :: post) p = exploreMpi (swappedAt new pre.length) sim rep .matched (pre ++ b :: a :: post) p := by
  have h' : ∀ l ∈ pre ++ b :: a :: post, l.length = n := by
    intro l hl
    refine h l ?_
    simp only [List.mem_append, List.mem_cons] at hl ⊢
    tauto
  have e : swappedAt new pre.length = fun vs => new (swapList pre.length vs) := funext (swapped_eq pre.length new)
  rw [e]
  refine rows_of_map (mode := .matched) (cs := matchedConfigs (pre ++ b :: a :: post) n) (f := swapList pre.length) ⟨by simp, n, h, (matched_swap h').symm⟩ ⟨by simp, n, h', rfl⟩ ?_ new sim rep hp
  unfold matchedConfigs
  simpa using hn

/-- The second of three parameters fixed to 7, and the first two in the other order: the configurations are numbered differently. -/
example : exploreParallel (fun vs : List Nat => vs) (fun s => s) 1 .exaustive [[1, 2], [7], [3, 4]] =
      some [⟨0, 0, [1, 7, 3]⟩, ⟨1, 0, [1, 7, 4]⟩, ⟨2, 0, [2, 7, 3]⟩, ⟨3, 0, [2, 7, 4]⟩] ∧
    exploreParallel (fixedAt 1 7 (fun vs : List Nat => vs)) (fun s => s) 1 .exaustive [[1, 2], [3, 4]] =
      some [⟨0, 0, [1, 7, 3]⟩, ⟨1, 0, [1, 7, 4]⟩, ⟨2, 0, [2, 7, 3]⟩, ⟨3, 0, [2, 7, 4]⟩] ∧
    exploreParallel (swappedAt (fun vs : List Nat => vs) 0) (fun s => s) 1 .exaustive [[3, 4], [1, 2]] =
      some [⟨0, 0, [1, 3]⟩, ⟨1, 0, [2, 3]⟩, ⟨2, 0, [1, 4]⟩, ⟨3, 0, [2, 4]⟩] ∧
    exploreParallel (fixedAt 1 7 (fun vs : List Nat => vs)) (fun s => s) 1 .matched [[1, 2], [3, 4]] = some [⟨0, 0, [1, 7, 3]⟩, ⟨1, 0, [2, 7, 4]⟩] := by decide

example : (∀ l ∈ [[1, 2]] ++ [[3, 4]], l ≠ ([] : List Nat)) ∧ (∀ l ∈ [[1, 2]] ++ [[3, 4]], (l : List Nat).length = 2) ∧ (∀ l ∈ [[9]] ++ [1, 2] :: [3] :: [[5]], l ≠ ([] : List Nat)) := by decide

end Verif.Explore
