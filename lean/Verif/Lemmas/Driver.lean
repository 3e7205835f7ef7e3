import Verif.Spec.Driver
import Verif.Lemmas.Schedule3

namespace Verif.Driver

open Schedule

set_option linter.unusedSectionVars false

variable {T A S : Type} [LinearOrder T]

theorem check_snd (d : Sim T A S) (w : World T A S) : (check d (step d.model w)).2 = turn d w := rfl

theorem check_fst (d : Sim T A S) (w : World T A S) : (check d (step d.model w)).1 = true ↔ Ends d w := Iff.rfl

theorem loop_succ (d : Sim T A S) (n : Nat) (w : World T A S) :
    loop d (n + 1) w = if Ends d w then turn d w else loop d n (turn d w) := by
  rw [loop]
  rfl

theorem takes_succ (d : Sim T A S) (n : Nat) (w : World T A S) (k : Nat) (h : ¬ Ends d w)
    (ht : Takes d n (turn d w) k) : Takes d (n + 1) w (k + 1) := by
  rcases ht with ⟨j, rfl, hj, h1, h2⟩ | ⟨rfl, h2⟩
  · left
    refine ⟨j + 1, rfl, by omega, ?_, ?_⟩
    · rw [Function.iterate_succ_apply]; exact h1
    · intro i hi
      cases i with
      | zero => exact h
      | succ i => rw [Function.iterate_succ_apply]; exact h2 i (by omega)
  · right
    refine ⟨rfl, ?_⟩
    intro i hi
    cases i with
    | zero => exact h
    | succ i => rw [Function.iterate_succ_apply]; exact h2 i (by omega)

theorem loop_takes (d : Sim T A S) (n : Nat) : ∀ w, ∃ k, Takes d n w k ∧ loop d n w = (turn d)^[k] w := by
  induction n with
  | zero => intro w; exact ⟨0, Or.inr ⟨rfl, by intro i hi; omega⟩, rfl⟩
  | succ n ih =>
    intro w
    rw [loop_succ]
    by_cases h : Ends d w
    · rw [if_pos h]
      exact ⟨1, Or.inl ⟨0, rfl, by omega, h, by intro i hi; omega⟩, rfl⟩
    · rw [if_neg h]
      obtain ⟨k, h1, h2⟩ := ih (turn d w)
      exact ⟨k + 1, takes_succ d n w k h h1, by rw [h2, Function.iterate_succ_apply]⟩

theorem takes_unique (d : Sim T A S) (n : Nat) (w : World T A S) {k k' : Nat} (h : Takes d n w k) (h' : Takes d n w k') :
    k = k' := by
  rcases h with ⟨j, rfl, hj, h1, h2⟩ | ⟨rfl, h2⟩ <;> rcases h' with ⟨j', rfl, hj', h1', h2'⟩ | ⟨rfl, h2'⟩
  · rcases Nat.lt_trichotomy j j' with h | h | h
    · exact absurd h1 (h2' j h)
    · omega
    · exact absurd h1' (h2 j' h)
  · exact absurd h1 (h2' j hj)
  · exact absurd h1' (h2 j' hj')
  · rfl

theorem takes_le (d : Sim T A S) (n : Nat) (w : World T A S) {k : Nat} (h : Takes d n w k) : k ≤ n := by
  rcases h with ⟨j, rfl, hj, _⟩ | ⟨rfl, _⟩ <;> omega

/-! ### Step counter -/

theorem popDue_step (tb : TieBreak T A) (fuel : Nat) : ∀ s : Sched T A, (popDue tb fuel s).2.step = s.step := by
  induction fuel with
  | zero => intro s; rfl
  | succ fuel ih =>
    intro s
    rw [popDue]
    cases s.events.peek tb s.pops with
    | none => rfl
    | some top =>
      dsimp only
      by_cases h : s.time < top.2.time
      · rw [if_pos h]
      · rw [if_neg h]
        cases s.events.pop tb s.pops with
        | none => rfl
        | some e => exact ih _

theorem step_counter (m : Model T A S) (w : World T A S) : (step m w).sched.step = w.sched.step + 1 := by
  unfold step
  rw [(postStep_step m _).1]
  congr 1
  rw [← (preStep_step m w).1]
  unfold midStep
  dsimp only
  by_cases h : (preStep m w).sched.events.isEmpty = true
  · rw [if_pos h]
  · rw [if_neg h]
    unfold runDue
    cases (preStep m w).sched.events.peek m.tb (preStep m w).sched.pops with
    | none => rfl
    | some top =>
      dsimp only
      rw [(foldl_runOne_fields m _ _).1]
      exact popDue_step _ _ _

theorem turn_counter (d : Sim T A S) (w : World T A S) : (turn d w).sched.step = w.sched.step + 1 := by
  unfold turn
  rw [(execAll_sched_step _ _).1]
  exact step_counter d.model w

theorem start_counter (d : Sim T A S) (s : S) : (start d s).sched.step = 0 := by
  unfold start
  rw [(execAll_sched_step _ _).1]
  rfl

theorem iterate_counter (d : Sim T A S) (k : Nat) (w : World T A S) :
    ((turn d)^[k] w).sched.step = w.sched.step + k := by
  induction k generalizing w with
  | zero => rfl
  | succ k ih => rw [Function.iterate_succ_apply, ih, turn_counter]; omega

end Verif.Driver
