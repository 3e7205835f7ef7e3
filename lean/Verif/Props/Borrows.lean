import Verif.Lemmas.Borrows
import Verif.Spec.BorrowRules

/-!
# Borrow errors (C167, C168)
-/

namespace Verif.Borrows

/-- **C167**. A program that calls functions of grids, fields and networks in any order, with closures nested to any
depth, never panics on a `RefCell` and leaves nothing borrowed, as long as no closure uses the field it runs over. -/
theorem C167_no_borrow_error (p : Prog) (h : p.Apart) : RunsClean p.trace :=
  clean_prog p [] h fun _ _ _ _ => List.not_mem_nil

/-- The agents of field 0 are visited; for each of them a dense grid is changed by a closure that sets a value of another
grid and removes a node of a network; then both are updated. -/
example : RunsClean (Prog.trace (.within 0 (.iterField false)
    (.within 1 (.apply .denseNumber .readWrite) (.grid 2 .set (.net 3 (.nRemoveNode true true [true, false] []) .done))
      (.grid 1 (.get 4) .done)) (.update 0 .fieldLater (.net 3 .nUpdate .done)))) :=
  C167_no_borrow_error _ (by simp [Prog.Apart, Prog.uses])

/-- A step of the distributed field: an agent is inserted, one received is inserted on the reading side, a search looks at nine
cells, an agent is removed, the buffers are swapped for the first time and later. -/
example : RunsClean (Prog.trace (.update 0 (.treeInsert true) (.update 0 (.treeInsertRead true) (.grid 0 (.get 9)
    (.grid 0 (.fieldRemove true true) (.update 0 .fieldFirst (.update 0 .fieldLater .done))))))) :=
  C167_no_borrow_error _ (by simp [Prog.Apart])

theorem panics_times {out : List (Cell × Bool)} {p : Trace} (n : Nat) (h : run out p = none) :
    run out (times (n + 1) p) = none := by
  show run out (p ++ times n p) = none
  rw [run_append, h]
  rfl

theorem run_scope (out : List (Cell × Bool)) (p : Trace) (c : Cell) :
    run out (p ++ [.release c]) = none ↔ run out p = none := by
  rw [run_append]
  cases run out p <;> simp [run]

theorem run_shared {out : List (Cell × Bool)} {f : Nat} {c : Part} {p : Trace} (h : (⟨f, c⟩, true) ∉ out) :
    run out (shared f c p) = none ↔ run ((⟨f, c⟩, false) :: out) p = none := by
  rw [shared, run, if_neg h, run_scope]

theorem run_excl {out : List (Cell × Bool)} {f : Nat} {c : Part} {p : Trace}
    (h : ¬ ((⟨f, c⟩, true) ∈ out ∨ (⟨f, c⟩, false) ∈ out)) :
    run out (excl f c p) = none ↔ run ((⟨f, c⟩, true) :: out) p = none := by
  rw [excl, run, if_neg h, run_scope]

/-- When a call panics, by what is borrowed. -/
theorem call_panics {out : List (Cell × Bool)} {f : Nat} (hn : ∀ b, (⟨f, .nagents⟩, b) ∉ out) (c : GridCall) :
    run out (c.trace f) = none ↔
      (Looks c ∧ (⟨f, .locsR⟩, true) ∈ out) ∨
      (Relaxes c ∧ ((⟨f, .locsR⟩, true) ∈ out ∨ (⟨f, .locsR⟩, false) ∈ out)) ∨
      (LooksNew c ∧ (⟨f, .locsW⟩, true) ∈ out) ∨
      (Changes c ∧ ((⟨f, .locsW⟩, true) ∈ out ∨ (⟨f, .locsW⟩, false) ∈ out)) := by
  have one : ∀ (p : Part) (body : Trace), (Clean ((⟨f, p⟩, true) :: out) body) →
      (run out (excl f p body) = none ↔ ((⟨f, p⟩, true) ∈ out ∨ (⟨f, p⟩, false) ∈ out)) := by
    intro p body hb
    by_cases h : (⟨f, p⟩, true) ∈ out ∨ (⟨f, p⟩, false) ∈ out
    · simp only [h, iff_true]
      rw [excl, run, if_pos h]
    · rw [run_excl h, hb]
      simp [h]
  have inner : ∀ (b : Bool), Clean ((⟨f, .locsW⟩, true) :: out) (if b then excl f .nagents [] else []) :=
    fun b => clean_if (clean_excl (by simp [hn]) clean_nil) clean_nil
  cases c with
  | get n =>
    cases n with
    | zero => simp [GridCall.trace, times, run, Looks, Relaxes, LooksNew, Changes]
    | succ n =>
      simp only [GridCall.trace, Looks, Relaxes, LooksNew, Changes, GridCall.get.injEq, Nat.add_right_cancel_iff,
        exists_eq', true_and, reduceCtorEq, exists_false, false_and, or_false]
      by_cases h : (⟨f, .locsR⟩, true) ∈ out
      · simp only [h, iff_true]
        refine panics_times n ?_
        rw [shared, run, if_pos h]
      · simp only [h, iff_false]
        rw [show run out (times (n + 1) (shared f .locsR [])) = some out from clean_times (clean_shared h clean_nil)]
        simp
  | relaxed n =>
    cases n with
    | zero => simp [GridCall.trace, times, run, Looks, Relaxes, LooksNew, Changes]
    | succ n =>
      simp only [GridCall.trace, Looks, Relaxes, LooksNew, Changes, GridCall.relaxed.injEq, Nat.add_right_cancel_iff,
        exists_eq', true_and, reduceCtorEq, exists_false, false_and, or_false, false_or]
      by_cases h : (⟨f, .locsR⟩, true) ∈ out ∨ (⟨f, .locsR⟩, false) ∈ out
      · simp only [h, iff_true]
        exact panics_times n ((one .locsR [] clean_nil).mpr h)
      · simp only [h, iff_false]
        rw [show run out (times (n + 1) (excl f .locsR [])) = some out from clean_times (clean_excl (by
          intro b; cases b <;> simp_all) clean_nil)]
        simp
  | getUnbuffered =>
    simp only [GridCall.trace, Looks, Relaxes, LooksNew, Changes, reduceCtorEq, exists_false, false_and, or_false,
      false_or, true_and]
    by_cases h : (⟨f, .locsW⟩, true) ∈ out
    · simp only [h, iff_true]
      rw [shared, run, if_pos h]
    · simp only [h, iff_false]
      rw [show run out (shared f .locsW []) = some out from clean_shared h clean_nil]
      simp
  | set =>
    simp only [GridCall.trace, Looks, Relaxes, LooksNew, Changes, reduceCtorEq, exists_false, false_and,
      false_or, true_and]
    exact one _ _ clean_nil
  | fieldSet counting =>
    simp only [GridCall.trace, Looks, Relaxes, LooksNew, Changes, reduceCtorEq, exists_false, false_and,
      false_or, true_and]
    exact one _ _ (inner counting)
  | fieldRemove occupied counting =>
    simp only [GridCall.trace, Looks, Relaxes, LooksNew, Changes, reduceCtorEq, exists_false, false_and,
      false_or, true_and]
    exact one _ _ (clean_if (inner counting) clean_nil)

/-- **C168**, the negation and exactly how far it holds. A function of a grid called in a closure over the same grid
panics in the cases of the table `Clash` and in no others. -/
theorem C168_nested_call_panics_iff_partial (f : Nat) (o : Over) (c : GridCall) :
    Panics (o.trace f (c.trace f)) ↔ Clash o c := by
  unfold Panics
  cases o with
  | iterSparse u =>
    rw [Over.trace, run_shared (by simp), call_panics (by cases u <;> simp [side])]
    cases u <;> simp [side, Clash]
  | iterDenseObjects u =>
    rw [Over.trace, run_shared (by simp), call_panics (by cases u <;> simp [side])]
    cases u <;> simp [side, Clash]
  | iterField u =>
    rw [Over.trace, run_shared (by simp), call_panics (by cases u <;> simp [side])]
    cases u <;> simp [side, Clash]
  | iterDenseValues u =>
    rw [Over.trace, run_append, show run [] (shared f (side u) []) = some [] from clean_shared (by simp) clean_nil]
    simp [call_panics, Clash]
  | apply g o =>
    cases o with
    | read =>
      rw [Over.trace, run_excl (by simp), call_panics (by simp)]
      simp [Clash]
    | write =>
      cases g <;> rw [Over.trace, run_excl (by simp)] <;> try rw [run_shared (by simp)]
      all_goals
        rw [call_panics (by simp)]
        simp [Clash]
    | readWrite =>
      cases g
      · rw [Over.trace, run_excl (by simp), run_excl (by simp), call_panics (by simp)]
        simp [Clash]
      · rw [Over.trace, run_shared (by simp), run_excl (by simp), call_panics (by simp)]
        simp [Clash]
      · rw [Over.trace, run_excl (by simp), run_shared (by simp), call_panics (by simp)]
        simp [Clash]
      · rw [Over.trace, run_shared (by simp), run_excl (by simp), call_panics (by simp)]
        simp [Clash]

/-- Asking for the neighbours of an agent while the agents are visited is fine with `get_neighbors_within_distance` and
panics with `get_neighbors_within_relax_distance`; moving the agents is fine. -/
theorem C168_neighbours_while_visiting_partial (f n : Nat) (counting : Bool) :
    ¬ Panics ((Over.iterField false).trace f ((GridCall.get n).trace f)) ∧
    Panics ((Over.iterField false).trace f ((GridCall.relaxed (n + 1)).trace f)) ∧
    ¬ Panics ((Over.iterField false).trace f ((GridCall.fieldSet counting).trace f)) ∧
    Panics ((Over.iterField true).trace f ((GridCall.fieldSet counting).trace f)) := by
  simp only [C168_nested_call_panics_iff_partial]
  simp [Clash, Relaxes, Changes]

/-- `apply_to_all_values` with READWRITE on a dense number grid: the closure may not call any function of the grid, on
a sparse one it may look at published values. -/
example (f : Nat) : Panics ((Over.apply .denseNumber .readWrite).trace f ((GridCall.get 1).trace f)) ∧
    ¬ Panics ((Over.apply .sparseNumber .readWrite).trace f ((GridCall.get 1).trace f)) := by
  simp only [C168_nested_call_panics_iff_partial]
  simp [Clash, Relaxes, Looks, LooksNew, Changes]

end Verif.Borrows
