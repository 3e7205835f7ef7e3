import Verif.Lemmas.Driver

/-!
The simulation macros (C68, C87-C89) and the reproducibility check (C73).
-/

set_option linter.unusedSectionVars false

namespace Verif.Driver

open Schedule

variable {T A S : Type} [LinearOrder T]

/-! ### C68 -/

/-- **C68.** A repetition runs on a new schedule for exactly `k` steps, `k` being the first step after which `end_condition`
holds, or the limit if it never does. -/
theorem C68_repetition (d : Sim T A S) (n : Nat) (s : S) :
    ∃ k, Takes d n (start d s) k ∧ (∀ k', Takes d n (start d s) k' → k' = k) ∧
      runRep d n s = (turn d)^[k] (start d s) ∧ (runRep d n s).sched.step = k := by
  obtain ⟨k, h1, h2⟩ := loop_takes d n (start d s)
  refine ⟨k, h1, fun k' h' => takes_unique d n _ h' h1, h2, ?_⟩
  unfold runRep
  rw [h2, iterate_counter, start_counter, Nat.zero_add]

/-- **C68.** All repetitions are made, whether or not earlier ones ended early, each with the same limit, beginning with the
state the previous one left. -/
theorem C68_repetitions (d : Sim T A S) (n reps : Nat) (s : S) :
    (runReps d n reps s).length = reps ∧ Chain d n s (runReps d n reps s) := by
  induction reps generalizing s with
  | zero => exact ⟨rfl, trivial⟩
  | succ r ih =>
    obtain ⟨k, h1, _, h3, _⟩ := C68_repetition d n s
    obtain ⟨h4, h5⟩ := ih (runRep d n s).state
    exact ⟨by rw [runReps, List.length_cons, h4], ⟨k, h1, h3⟩, h5⟩

/-- A model without agents that counts its steps and ends when the count is a multiple of 3. -/
def counting : Sim Nat Unit Nat where
  model := { update := fun _ s => s, beforeStep := fun s _ => (s + 1, []), afterStep := fun s _ => (s, []),
             aBefore := fun a s => (a, s), aStep := fun a s => (a, s), aAfter := fun a s => (a, s),
             isStopped := fun a s => (false, a, s), adv := fun t => t + 1, tb := fun _ _ => 0 }
  zero := 0
  init := fun s => (s, [])
  endCondition := fun w => (w.state % 3 == 0, w.state, [])

example : (runReps counting 5 3 1).map (fun w => (w.state, w.sched.step)) = [(3, 2), (6, 3), (9, 3)] ∧
    (runReps counting 2 3 0).map (fun w => (w.state, w.sched.step)) = [(2, 2), (3, 1), (5, 2)] := by
  constructor <;> decide

/-! ### C87 -/

/-- The terminal is there and not told to quit. -/
def Safe (t : Term) : Prop := t.alive = true ∧ t.op ≠ .quit

theorem safe_round {t : Term} (h : Safe t) : Safe (uiRound t) := by
  unfold uiRound
  by_cases hc : t.alive = false ∨ t.pending = 0
  · rw [if_pos hc]; exact h
  · rw [if_neg hc]
    obtain ⟨h1, h2⟩ := h
    cases ho : t.op <;> simp_all [Safe]

theorem safe_rounds (n : Nat) : ∀ {t : Term}, Safe t → Safe (uiRounds n t) := by
  induction n with
  | zero => intro t h; exact h
  | succ n ih => intro t h; exact ih (safe_round h)

theorem safe_post (ui : Nat → Nat) {op : Option Msg} (ho : op ≠ some .quit) {t : Term} (h : Safe t) :
    (post ui op t).2 = true ∧ Safe (post ui op t).1 := by
  unfold post
  dsimp only
  have h1 : Safe (uiRounds (ui (2 * t.sends)) { t with op := op.getD t.op }) := by
    apply safe_rounds
    refine ⟨h.1, ?_⟩
    cases op with
    | none => exact h.2
    | some o => exact fun hc => ho (congrArg some hc)
  rw [if_pos h1.1]
  exact ⟨rfl, safe_rounds _ ⟨h1.1, h1.2⟩⟩

theorem loopT_fst (d : Sim T A S) (ui : Nat → Nat) (n : Nat) : ∀ (w : World T A S) (t : Term), Safe t →
    (loopT d ui n w t).1 = loop d n w := by
  induction n with
  | zero => intro w t _; rfl
  | succ n ih =>
    intro w t h
    obtain ⟨h1, h2⟩ := safe_post ui (op := some .afterStep) (by decide) h
    rw [loopT, if_pos h1, loop]
    by_cases hc : (check d (step d.model w)).1 = true
    · rw [if_pos hc, if_pos hc]
    · rw [if_neg hc, if_neg hc]
      exact ih _ _ h2

theorem loopT_safe (d : Sim T A S) (ui : Nat → Nat) (n : Nat) : ∀ (w : World T A S) (t : Term), Safe t →
    NeverEnds d n w → Safe (loopT d ui n w t).2 := by
  induction n with
  | zero => intro w t h _; exact h
  | succ n ih =>
    intro w t h hn
    obtain ⟨h1, h2⟩ := safe_post ui (op := some .afterStep) (by decide) h
    rw [loopT, if_pos h1, if_neg (show ¬ (check d (step d.model w)).1 = true from hn 0 (by omega))]
    refine ih _ _ h2 ?_
    intro i hi
    have := hn (i + 1) (by omega)
    rwa [Function.iterate_succ_apply] at this

theorem safe_new : Safe Term.new := ⟨rfl, by decide⟩

/-- **C87, what holds**: if `end_condition` never holds, the repetitions with the terminal are those without it, whatever the
speed of the terminal. Full statement: the same for every model, false below. -/
theorem C87_terminal_no_end_partial (d : Sim T A S) (ui : Nat → Nat) (n reps : Nat) (s : S)
    (hn : ∀ s, NeverEnds d n (start d s)) : runRepsT d ui n reps s Term.new = runReps d n reps s := by
  suffices h : ∀ (reps : Nat) (s : S) (t : Term), Safe t → runRepsT d ui n reps s t = runReps d n reps s from
    h reps s _ safe_new
  intro reps
  induction reps with
  | zero => intro s t _; rfl
  | succ r ih =>
    intro s t h
    obtain ⟨h1, h2⟩ := safe_post ui (op := some .clear) (by decide) h
    have h3 := loopT_safe d ui n _ _ h2 (hn s)
    obtain ⟨h4, h5⟩ := safe_post ui (op := none) (by decide) h3
    rw [runRepsT, if_pos h1, if_pos h4, runReps, ih _ _ h5, loopT_fst d ui n _ _ h2]
    rfl

/-- **C87, what holds**: a single repetition with the terminal is the one without it, for every model. -/
theorem C87_terminal_single_partial (d : Sim T A S) (ui : Nat → Nat) (n : Nat) (s : S) :
    runRepsT d ui n 1 s Term.new = runReps d n 1 s := by
  obtain ⟨h1, h2⟩ := safe_post ui (op := some .clear) (by decide) safe_new
  rw [runRepsT, if_pos h1, loopT_fst d ui n _ _ h2]
  show _ = [runRep d n s]
  rw [runRepsT]
  split <;> rfl

/-- **C87, false as stated**: a repetition that ends by `end_condition` tells the terminal to quit. If the terminal does so
before the simulation thread goes on, the remaining repetitions are not made; if it is slow, they are. -/
theorem C87_early_end_negation_partial :
    (runRepsT counting (fun _ => 1) 5 3 1 Term.new).map (fun w => w.sched.step) = [2] ∧
    (runRepsT counting (fun _ => 0) 5 3 1 Term.new).map (fun w => w.sched.step) = [2, 3, 3] ∧
    (runReps counting 5 3 1).map (fun w => w.sched.step) = [2, 3, 3] := by
  refine ⟨?_, ?_, ?_⟩ <;> decide

/-! ### C88 -/

theorem loopMpi_fst (d : Sim T A S) (n : Nat) : ∀ w : World T A S, (loopMpi d n w).1 = loop d n w := by
  induction n with
  | zero => intro w; rfl
  | succ n ih =>
    intro w
    rw [loopMpi, loop]
    split
    · rfl
    · exact ih _

theorem loopMpi_never (d : Sim T A S) (n : Nat) : ∀ w : World T A S, NeverEnds d n w → (loopMpi d n w).2 = n := by
  induction n with
  | zero => intro w _; rfl
  | succ n ih =>
    intro w h
    rw [loopMpi, if_neg (show ¬ (check d (step d.model w)).1 = true from h 0 (by omega))]
    show (loopMpi d n (turn d w)).2 + 1 = n + 1
    rw [ih]
    intro i hi
    have := h (i + 1) (by omega)
    rwa [Function.iterate_succ_apply] at this

theorem loopMpi_ends (d : Sim T A S) (n : Nat) : ∀ (w : World T A S) (j : Nat), j < n → Ends d ((turn d)^[j] w) →
    (∀ i, i < j → ¬ Ends d ((turn d)^[i] w)) → (loopMpi d n w).2 = j := by
  induction n with
  | zero => intro w j hj; omega
  | succ n ih =>
    intro w j hj he hi
    rw [loopMpi]
    cases j with
    | zero => rw [if_pos (show (check d (step d.model w)).1 = true from he)]
    | succ j =>
      rw [if_neg (show ¬ (check d (step d.model w)).1 = true from hi 0 (by omega))]
      show (loopMpi d n (turn d w)).2 + 1 = j + 1
      rw [ih (turn d w) j (by omega)]
      · rwa [Function.iterate_succ_apply] at he
      · intro i h
        have := hi (i + 1) (by omega)
        rwa [Function.iterate_succ_apply] at this

/-- **C88, what holds**: one repetition of `simulate_mpi!` is completed by all processes, each making the steps of a
sequential repetition, if their end conditions agree: they hold first after the same step `j + 1` at every process, or never.
Full statement: any number of repetitions and any end conditions, false below. -/
theorem C88_mpi_single_partial (ps : List (Sim T A S × S)) (n : Nat)
    (h : (∀ p ∈ ps, NeverEnds p.1 n (start p.1 p.2)) ∨ ∃ j, j < n ∧ ∀ p ∈ ps,
      Ends p.1 ((turn p.1)^[j] (start p.1 p.2)) ∧ ∀ i, i < j → ¬ Ends p.1 ((turn p.1)^[i] (start p.1 p.2))) :
    simulateMpi ps n 1 = some (ps.map (fun p => runRep p.1 n p.2)) := by
  have hk : ∃ k, ∀ p ∈ ps, (loopMpi p.1 n (start p.1 p.2)).2 = k := by
    rcases h with h | ⟨j, hj, h⟩
    · exact ⟨n, fun p hp => loopMpi_never _ _ _ (h p hp)⟩
    · exact ⟨j, fun p hp => loopMpi_ends _ _ _ j hj (h p hp).1 (h p hp).2⟩
  obtain ⟨k, hk⟩ := hk
  rw [simulateMpi, if_pos]
  · congr 1
    apply List.map_congr_left
    intro p _
    exact loopMpi_fst _ _ _
  · rw [List.all_eq_true]
    intro x hx
    obtain ⟨p, hp, rfl⟩ := List.mem_map.1 hx
    rw [decide_eq_true_eq, List.head?_map]
    cases ps with
    | nil => simp at hp
    | cons q ps => simp only [List.head?_cons, Option.map_some]; rw [hk p hp, hk q List.mem_cons_self]

example : (simulateMpi [(counting, 1), (counting, 4)] 5 1).map (List.map (fun w => w.sched.step)) = some [2, 2] := by
  decide

/-- **C88, false as stated**: MPI is finalized after the first repetition, so a second one fails, for every model. -/
theorem C88_second_repetition_negation_partial (ps : List (Sim T A S × S)) (n r : Nat) :
    simulateMpi ps n (r + 2) = none := rfl

/-- **C88, false as stated**: if one process ends at an earlier step than another, they wait for each other for ever. -/
theorem C88_uneven_end_negation_partial : (simulateMpi [(counting, 1), (counting, 2)] 5 1).isNone = true := by decide

/-! ### C89 -/

theorem digits_le {n k : Nat} (hk : 1 ≤ k) : digits n ≤ k ↔ n < 10 ^ k := by
  induction k generalizing n with
  | zero => omega
  | succ k ih =>
    rw [digits]
    by_cases h : n < 10
    · rw [if_pos h]
      have : 10 ^ 1 ≤ 10 ^ (k + 1) := Nat.pow_le_pow_right (by omega) (by omega)
      constructor
      · intro _; omega
      · intro _; omega
    · rw [if_neg h]
      cases k with
      | zero =>
        rw [digits]
        constructor
        · intro hc; split at hc <;> omega
        · intro hc; omega
      | succ k =>
        have := ih (n := n / 10) (by omega)
        rw [Nat.add_le_add_iff_right, this, Nat.pow_succ 10 (k + 1), Nat.div_lt_iff_lt_mul (by omega)]

theorem usub_isSome {a b : Nat} : (usub a b).isSome ↔ b ≤ a := by
  unfold usub; split <;> simp_all

/-- **C89, what holds**: the report of a repetition is printed exactly if the number of repetitions and steps have at most 15
digits together, less than 10^13 steps are made per second, and the (average) time is below 10000 seconds. Full statement:
always, false beyond these bounds. -/
theorem C89_report_partial (nStep reps rate secs : Nat) : (reportWidths nStep reps rate secs).isSome ↔
    digits nStep + digits reps ≤ 15 ∧ rate < 10 ^ 13 ∧ secs < 10 ^ 4 := by
  have hpos : ∀ n, 1 ≤ digits n := by intro n; rw [digits]; split <;> omega
  have h1 := hpos nStep
  have h2 := hpos reps
  rw [← digits_le (n := rate) (k := 13) (by omega), ← digits_le (n := secs) (k := 4) (by omega)]
  unfold reportWidths usub
  constructor
  · intro h
    by_cases a : digits nStep + digits reps ≤ 15
    · by_cases b : digits rate ≤ 13
      · by_cases c : digits secs ≤ 4
        · exact ⟨a, b, c⟩
        · rw [if_neg (show ¬ digits secs + 5 ≤ 9 by omega)] at h
          simp at h
      · rw [if_neg b] at h
        simp at h
    · by_cases e : digits nStep ≤ 15
      · rw [if_pos e, Option.bind_some, if_neg (show ¬ digits reps ≤ 15 - digits nStep by omega)] at h
        simp at h
      · rw [if_neg e] at h
        simp at h
  · rintro ⟨a, b, c⟩
    rw [if_pos (show digits reps ≤ 14 by omega), if_pos (show digits nStep ≤ 15 by omega), Option.bind_some,
      if_pos (show digits reps ≤ 15 - digits nStep by omega), if_pos b, if_pos (show digits secs + 5 ≤ 9 by omega)]
    rfl

/-- **C89, false as stated**: a repetition of three hours makes the report panic, and so does the step limit `u64::MAX`. -/
theorem C89_long_run_negation_partial : reportWidths 1000 1 50 10800 = none ∧
    reportWidths 18446744073709551615 1 50 1 = none := by
  constructor
  · have := C89_report_partial 1000 1 50 10800
    rw [← Option.not_isSome_iff_eq_none, this]
    omega
  · have := C89_report_partial 18446744073709551615 1 50 1
    rw [← Option.not_isSome_iff_eq_none, this]
    rintro ⟨h, _⟩
    have h1 := (digits_le (n := 18446744073709551615) (k := 15) (by omega)).1 (by omega)
    omega

/-! ### C73 -/

/-- What the comparison really tests: agents of the same listed type are equal. -/
def Compared (kind : A → Nat) (equals : A → A → Bool) (listed : List Nat) (a b : A) : Prop :=
  kind a = kind b → kind a ∈ listed → equals a b = true

theorem sameAgent_iff (kind : A → Nat) (equals : A → A → Bool) (listed : List Nat) (a b : A) :
    sameAgent kind equals listed a b = true ↔ Compared kind equals listed a b := by
  unfold sameAgent Compared
  rw [List.all_eq_true]
  constructor
  · intro h hk hl
    have := h _ hl
    simp [← hk] at this
    exact this
  · intro h k hk
    by_cases h1 : kind a = k
    · by_cases h2 : kind b = k
      · simp [h1, h2, h (h1.trans h2.symm) (h1 ▸ hk)]
      · simp [h2]
    · simp [h1]

theorem compareStep_iff (kind : A → Nat) (equals : A → A → Bool) (listed : List Nat) (e1 e2 : List A) :
    compareStep kind equals listed e1 e2 = true ↔ List.Forall₂ (Compared kind equals listed) e1 e2 := by
  unfold compareStep
  induction e1 generalizing e2 with
  | nil =>
    cases e2 with
    | nil => simp
    | cons b e2 => simp
  | cons a e1 ih =>
    cases e2 with
    | nil => simp
    | cons b e2 =>
      have := ih e2
      rw [List.forall₂_cons, ← this, ← sameAgent_iff]
      by_cases h : e1.length = e2.length
      · simp [h]
      · simp [h]

/-- **C73, what holds**: the executions are reported equal exactly if the second has at least as many records as the first
and, at each record of the first, both have as many agents and those of the same listed type are pairwise equal. Full
statement: exactly if they agree (`Agree`), and no panic; false below. -/
theorem C73_reported_equal_partial (kind : A → Nat) (equals : A → A → Bool) (listed : List Nat) (e1 e2 : List (List A)) :
    compareAll kind equals listed e1 e2 = some true ↔ e1.length ≤ e2.length ∧
      List.Forall₂ (List.Forall₂ (Compared kind equals listed)) e1 (e2.take e1.length) := by
  induction e1 generalizing e2 with
  | nil => simp [compareAll]
  | cons a e1 ih =>
    cases e2 with
    | nil => simp [compareAll]
    | cons b e2 =>
      rw [compareAll]
      by_cases h : compareStep kind equals listed a b = true
      · rw [if_pos h, ih, List.length_cons, List.length_cons, List.take_succ_cons, List.forall₂_cons]
        have := (compareStep_iff kind equals listed a b).1 h
        constructor
        · rintro ⟨h1, h2⟩; exact ⟨by omega, this, h2⟩
        · rintro ⟨h1, _, h2⟩; exact ⟨by omega, h2⟩
      · rw [if_neg h, List.length_cons, List.length_cons, List.take_succ_cons, List.forall₂_cons]
        constructor
        · intro hc; simp at hc
        · rintro ⟨_, h2, _⟩
          exact absurd ((compareStep_iff kind equals listed a b).2 h2) h

/-- **C73, what holds**: for executions with as many records, whose agents have pairwise the same types, all of them listed,
the report is right and there is no panic. -/
theorem C73_same_shape_partial (kind : A → Nat) (equals : A → A → Bool) (listed : List Nat) (e1 e2 : List (List A))
    (hlen : e1.length = e2.length) (hlisted : ∀ e ∈ e1, ∀ a ∈ e, kind a ∈ listed)
    (hkind : List.Forall₂ (fun x y => List.length x = List.length y → List.Forall₂ (fun a b => kind a = kind b) x y) e1 e2) :
    (Agree kind equals e1 e2 → compareAll kind equals listed e1 e2 = some true) ∧
    (¬ Agree kind equals e1 e2 → compareAll kind equals listed e1 e2 = some false) := by
  have key : compareAll kind equals listed e1 e2 = some true ↔ Agree kind equals e1 e2 := by
    rw [C73_reported_equal_partial, hlen, List.take_length]
    unfold Agree
    constructor
    · intro h0
      have h := h0.2
      clear hlen h0
      induction h with
      | nil => exact List.Forall₂.nil
      | cons hab _ ih =>
        rw [List.forall₂_cons] at hkind
        refine List.Forall₂.cons ?_ (ih (fun e he => hlisted e (List.mem_cons_of_mem _ he)) hkind.2)
        have hk := hkind.1 hab.length_eq
        have hl := hlisted _ List.mem_cons_self
        clear ih hkind hlisted
        induction hab with
        | nil => exact List.Forall₂.nil
        | cons h1 _ ih' =>
          rw [List.forall₂_cons] at hk
          exact List.Forall₂.cons ⟨hk.1, h1 hk.1 (hl _ List.mem_cons_self)⟩
            (ih' hk.2 (fun a ha => hl a (List.mem_cons_of_mem _ ha)))
    · intro h
      exact ⟨le_refl _, h.imp (fun _ _ h => h.imp (fun _ _ h _ _ => h.2))⟩
  refine ⟨key.2, ?_⟩
  intro h
  have h1 : compareAll kind equals listed e1 e2 ≠ some true := fun hc => h (key.1 hc)
  have h2 : compareAll kind equals listed e1 e2 ≠ none := by
    clear h1 h key hlisted hkind
    induction e1 generalizing e2 with
    | nil => simp [compareAll]
    | cons a e1 ih =>
      cases e2 with
      | nil => simp at hlen
      | cons b e2 =>
        rw [compareAll]
        split
        · exact ih e2 (by simpa using hlen)
        · simp
  cases hc : compareAll kind equals listed e1 e2 with
  | none => exact absurd hc h2
  | some b => cases b with
    | true => exact absurd hc h1
    | false => rfl

/-- **C73.** A model whose `reset` restores the initial state is always reported reproducible, if `equals` is reflexive. -/
theorem C73_deterministic (d : Sim T A S) (reset : S → S) (kind : A → Nat) (equals : A → A → Bool) (listed : List Nat)
    (n : Nat) (s : S) (hrefl : ∀ a, equals a a = true) (hreset : reset (record d n s).2.state = s) :
    checkReproducibility d reset kind equals listed n s = some true := by
  unfold checkReproducibility
  rw [hreset, C73_reported_equal_partial, List.take_length]
  refine ⟨le_refl _, ?_⟩
  rw [List.forall₂_same]
  intro e _
  rw [List.forall₂_same]
  intro a _ _ _
  exact hrefl a

/-- The records are what `get_all_events` returns at the start and after each step made. -/
theorem record_length (d : Sim T A S) (n : Nat) (s : S) : (record d n s).1.length = (runRep d n s).sched.step + 1 := by
  have key : ∀ w : World T A S, (recordLoop d n w).1.length + w.sched.step = (loop d n w).sched.step := by
    induction n with
    | zero => intro w; exact Nat.zero_add _
    | succ n ih =>
      intro w
      rw [recordLoop, loop]
      by_cases h : (check d (step d.model w)).1 = true
      · rw [if_pos h, if_pos h]
        show 1 + w.sched.step = (turn d w).sched.step
        rw [turn_counter]; omega
      · rw [if_neg h, if_neg h]
        have := ih (turn d w)
        rw [turn_counter] at this
        show (recordLoop d n (turn d w)).1.length + 1 + w.sched.step = (loop d n (turn d w)).sched.step
        omega
  have := key (start d s)
  rw [start_counter] at this
  unfold record runRep
  rw [List.length_cons]
  omega

/-- A model whose state after `reset` differs: it ends at another step. -/
def driftReset (k : Nat) (_ : Nat) : Nat := k

/-- **C73, false as stated**: a second execution that ends earlier makes the macro panic; one that ends later is reported equal;
agents of different types are not compared. -/
theorem C73_negation_partial :
    checkReproducibility counting (driftReset 2) (fun _ => 0) (fun _ _ => true) [0] 5 1 = none ∧
    ((record counting 5 1).1.length = 3 ∧ (record counting 5 0).1.length = 4 ∧
      checkReproducibility counting (driftReset 0) (fun _ => 0) (fun _ _ => true) [0] 5 1 = some true) ∧
    compareAll (fun a : Nat => a % 2) (fun a b => a == b) [0, 1] [[3, 4]] [[4, 5]] = some true := by
  refine ⟨?_, ⟨?_, ?_, ?_⟩, ?_⟩ <;> decide

end Verif.Driver
