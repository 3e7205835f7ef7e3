import Verif.Lemmas.Terminal
import Verif.Model.Gauges
import Mathlib.Data.List.Induction
import Mathlib.Algebra.Order.Field.Basic
import Mathlib.Data.Rat.Cast.Order

/-!
Property C203: the gauges of the terminal.
-/

namespace Verif.Terminal

theorem gauges_snoc (n : Nat) (l : List Shown) (x : Shown) : gauges n (l ++ [x]) = (gauges n l).show n x := by
  simp [gauges]

/-- What the gauges say of the repetition. -/
theorem gauges_rep (n : Nat) (l : List Shown) : (gauges n l).rep = ((shownReps l).getLast?).getD 0 := by
  induction l using List.reverseRecOn with
  | nil => rfl
  | append_singleton l x ih =>
    rw [gauges_snoc, shownReps, List.filterMap_append]
    cases x with
    | tick i => simpa [Gauges.show, shownReps] using ih
    | cleared => simpa [Gauges.show, shownReps] using ih
    | rep r => simp [Gauges.show]

/-- What the gauges say of the step. -/
theorem gauges_step (n : Nat) (l : List Shown) :
    (gauges n l).step = ((shownTicks l).getLast?).getD 0 ∧
    (gauges n l).progress = ((shownTicks l).getLast?.map (fun i => ((i + 1 : Nat) : Rat) / (n : Rat))).getD 0 := by
  induction l using List.reverseRecOn with
  | nil => exact ⟨rfl, rfl⟩
  | append_singleton l x ih =>
    rw [gauges_snoc, shownTicks, List.filterMap_append]
    cases x with
    | rep i => simpa [Gauges.show, shownTicks] using ih
    | cleared => simpa [Gauges.show, shownTicks] using ih
    | tick r => simp [Gauges.show]

/-- The number of repetitions finished so far, counted from the slot the simulation writes when it ends one. -/
def finished (s : St) : Nat := s.reps.length

theorem reps_so_far (runs : List (Nat × Bool)) (as : List Actor) :
    (run (start (script 0 runs)) as).reps = List.range (finished (run (start (script 0 runs)) as)) ∧
    (shownReps (run (start (script 0 runs)) as).shown).Sublist (run (start (script 0 runs)) as).reps := by
  have h1 : Reps (run (start (script 0 runs)) as) :=
    run_inv (P := Reps) (fun _ => reps_sim) (fun _ => reps_ui) as (reps_start _)
  have h2 : Scripted (script 0 runs) (run (start (script 0 runs)) as) :=
    run_inv (P := Scripted (script 0 runs)) (fun _ => scripted_sim) (fun _ => scripted_ui) as (scripted_start _)
  refine ⟨?_, h1.all⟩
  have h3 := (List.prefix_append _ _).trans h2.2
  rw [reps_script, ← List.range_eq_range'] at h3
  have h4 := List.prefix_iff_eq_take.1 h3
  have h5 := h3.length_le
  rw [List.length_range] at h5
  rw [List.take_range, Nat.min_eq_left h5] at h4
  exact h4

/-- **C203**. Full statement: while repetition number `k + 1` runs the terminal says `k + 1`. It is false for every repetition but
the first: whatever the interleaving, once a repetition has been finished the terminal says at most the number of finished ones. -/
theorem C203_behind_negation_partial (runs : List (Nat × Bool)) (as : List Actor) (n : Nat)
    (h : 1 ≤ finished (run (start (script 0 runs)) as)) :
    (gauges n (run (start (script 0 runs)) as).shown).repetition < finished (run (start (script 0 runs)) as) + 1 := by
  obtain ⟨h1, h2⟩ := reps_so_far runs as
  rw [Gauges.repetition, gauges_rep]
  cases hl : (shownReps (run (start (script 0 runs)) as).shown).getLast? with
  | none => simpa using Nat.lt_succ_of_le h
  | some r =>
    have hm := h2.subset (List.mem_of_getLast? hl)
    rw [h1, List.mem_range] at hm
    simpa using hm

/-- C203 for the first repetition: the terminal says 1. -/
theorem C203_first_partial (runs : List (Nat × Bool)) (as : List Actor) (n : Nat)
    (h : finished (run (start (script 0 runs)) as) = 0) :
    (gauges n (run (start (script 0 runs)) as).shown).repetition = 1 := by
  obtain ⟨h1, h2⟩ := reps_so_far runs as
  rw [h, List.range_zero] at h1
  rw [h1, List.sublist_nil] at h2
  rw [Gauges.repetition, gauges_rep, h2]
  rfl

/-- C203, the progress: after a step has been shown the gauge says its number, which the simulation has reached, and a progress that is
that part of all steps, more than nothing and at most everything, so that the gauge can be drawn. -/
theorem C203_progress_partial (runs : List (Nat × Bool)) (as : List Actor) {n : Nat} (hn : ∀ x ∈ runs, x.1 ≤ n)
    (h : shownTicks (run (start (script 0 runs)) as).shown ≠ []) :
    ∃ i, (shownTicks (run (start (script 0 runs)) as).shown).getLast? = some i ∧
      i ∈ (run (start (script 0 runs)) as).ops.filterMap tickOf ∧
      (gauges n (run (start (script 0 runs)) as).shown).stepNumber = i + 1 ∧ i + 1 ≤ n ∧
      (gauges n (run (start (script 0 runs)) as).shown).progress * n = ((i + 1 : Nat) : Rat) ∧
      0 < (gauges n (run (start (script 0 runs)) as).shown).progress ∧
      (gauges n (run (start (script 0 runs)) as).shown).progress ≤ 1 := by
  have h1 : Ticks (run (start (script 0 runs)) as) :=
    run_inv (P := Ticks) (fun _ => ticks_sim) (fun _ => ticks_ui) as (ticks_start _)
  have h2 : Scripted (script 0 runs) (run (start (script 0 runs)) as) :=
    run_inv (P := Scripted (script 0 runs)) (fun _ => scripted_sim) (fun _ => scripted_ui) as (scripted_start _)
  have h3 := ((List.prefix_append _ _).trans h2.1).sublist.filterMap tickOf
  rw [ticks_script] at h3
  obtain ⟨i, hi⟩ : ∃ i, (shownTicks (run (start (script 0 runs)) as).shown).getLast? = some i := by
    cases hl : (shownTicks (run (start (script 0 runs)) as).shown).getLast? with
    | none => exact absurd (List.getLast?_eq_none_iff.1 hl) h
    | some i => exact ⟨i, rfl⟩
  obtain ⟨g1, g2⟩ := gauges_step n (run (start (script 0 runs)) as).shown
  rw [hi] at g1 g2
  have hmem := h1.all.subset (List.mem_of_getLast? hi)
  have hle : i + 1 ≤ n := by
    obtain ⟨x, hx, hxi⟩ := List.mem_flatMap.1 (h3.subset hmem)
    have := hn x hx
    rw [List.mem_range] at hxi
    omega
  have hn0 : (0 : Rat) < n := by exact_mod_cast (by omega : 0 < n)
  refine ⟨i, hi, hmem, ?_, hle, ?_, ?_, ?_⟩
  · rw [Gauges.stepNumber, g1]; rfl
  · rw [g2]
    simp only [Option.map_some, Option.getD_some]
    exact div_mul_cancel₀ _ (ne_of_gt hn0)
  · rw [g2]
    simp only [Option.map_some, Option.getD_some]
    exact div_pos (by exact_mod_cast Nat.succ_pos i) hn0
  · rw [g2]
    simp only [Option.map_some, Option.getD_some]
    rw [div_le_one hn0]
    exact_mod_cast hle

/-- Two repetitions of three steps. -/
def twice : List (Nat × Bool) := [(3, false), (3, false)]

/-- C203 is false: the second repetition has made its first step, the terminal has shown everything it was told, and it says repetition 1
of 2. -/
theorem C203_witness_negation_partial : ∃ as,
    finished (run (start (script 0 twice)) as) = 1 ∧ (run (start (script 0 twice)) as).pending = 0 ∧
    shownTicks (run (start (script 0 twice)) as).shown = [0, 1, 2, 0] ∧
    gauges 3 (run (start (script 0 twice)) as).shown = ⟨0, 0, 1 / 3⟩ :=
  ⟨List.flatten (List.replicate 7 (List.replicate 2 Actor.sim ++ List.replicate 7 Actor.ui)), by decide +kernel⟩

/-- Before the first step the terminal says it is done, `1/n`, and so it does with the last of a repetition until the next has made a step. -/
theorem C203_before_negation_partial (n : Nat) : (gauges n []).stepNumber = 1 ∧ ∃ as,
    (run (start (script 0 twice)) as).shown.getLast? = some .cleared ∧ finished (run (start (script 0 twice)) as) = 1 ∧
    gauges 3 (run (start (script 0 twice)) as).shown = ⟨0, 2, 1⟩ :=
  ⟨rfl, List.flatten (List.replicate 6 (List.replicate 2 Actor.sim ++ List.replicate 7 Actor.ui)), by decide +kernel⟩

end Verif.Terminal
