import Verif.Lemmas.Terminal

/-!
Properties of the terminal of `simulate!` (src/lib.rs:830-940, 1011-1120): C125, C126, C127. The interleaving of the two
threads is a parameter of every theorem.
-/

namespace Verif.Terminal

/-! ### C125: what is shown is shown in order and once -/

/-- C125 (steps). Whatever the interleaving, the steps shown are some of the steps made, in the order they were made, each
at most once. -/
theorem C125_steps_in_order (runs : List (Nat × Bool)) (as : List Actor) :
    (shownTicks (run (start (script 0 runs)) as).shown).Sublist (stepsOf runs) := by
  have h1 : Ticks (run (start (script 0 runs)) as) :=
    run_inv (P := Ticks) (fun _ => ticks_sim) (fun _ => ticks_ui) as (ticks_start _)
  have h2 : Scripted (script 0 runs) (run (start (script 0 runs)) as) :=
    run_inv (P := Scripted (script 0 runs)) (fun _ => scripted_sim) (fun _ => scripted_ui) as (scripted_start _)
  have h3 := ((List.prefix_append _ _).trans h2.1).sublist.filterMap tickOf
  rw [ticks_script] at h3
  exact h1.all.trans h3

/-- C125 (repetitions). Whatever the interleaving, the repetitions shown are in increasing order, each at most once, and
among those made. -/
theorem C125_repetitions_in_order (runs : List (Nat × Bool)) (as : List Actor) :
    (shownReps (run (start (script 0 runs)) as).shown).Sublist (List.range runs.length) := by
  have h1 : Reps (run (start (script 0 runs)) as) :=
    run_inv (P := Reps) (fun _ => reps_sim) (fun _ => reps_ui) as (reps_start _)
  have h2 : Scripted (script 0 runs) (run (start (script 0 runs)) as) :=
    run_inv (P := Scripted (script 0 runs)) (fun _ => scripted_sim) (fun _ => scripted_ui) as (scripted_start _)
  have h3 := ((List.prefix_append _ _).trans h2.2).sublist
  rw [reps_script, ← List.range_eq_range'] at h3
  exact h1.all.trans h3

/-- C125 (messages). No message is lost and none is made up: those sent are those received and those in the channel. -/
theorem C125_messages (runs : List (Nat × Bool)) (as : List Actor) :
    (run (start (script 0 runs)) as).sent =
      (run (start (script 0 runs)) as).got + (run (start (script 0 runs)) as).pending :=
  run_inv (P := fun s => s.sent = s.got + s.pending) (fun _ => sent_simStep) (fun _ => sent_uiStep) as rfl

/-- Steps of the simulation thread. -/
def m (n : Nat) : List Actor := List.replicate n .sim

/-- Steps of the terminal thread. -/
def u (n : Nat) : List Actor := List.replicate n .ui

/-- How many steps the terminal thread is from its next `try_recv`, that one included. -/
def toReceive : Pc → Nat
  | .dead => 0
  | .idle => 1
  | .repShown => 2
  | .doRep _ => 3
  | .ticked _ => 4
  | .both _ _ => 5
  | .readOp _ => 6
  | .received => 7

theorem got_uis (n : Nat) : ∀ s : St, s.got ≤ (run s (u n)).got := by
  induction n with
  | zero => exact fun s => Nat.le_refl _
  | succ n ih =>
    intro s
    refine Nat.le_trans ?_ (ih (uiStep s))
    unfold uiStep
    split <;> first | exact Nat.le_refl _ | skip
    split
    · exact Nat.le_succ _
    · split <;> exact Nat.le_refl _

theorem receives (n : Nat) : ∀ s : St, 0 < s.pending → toReceive s.pc ≤ n →
    (run s (u n)).pc = .dead ∨ s.got < (run s (u n)).got := by
  induction n with
  | zero =>
    intro s _ h
    cases hpc : s.pc <;> rw [hpc] at h <;> first | exact Or.inl hpc | exact absurd h (by simp [toReceive])
  | succ n ih =>
    intro s hp h
    show (run (uiStep s) (u n)).pc = .dead ∨ s.got < (run (uiStep s) (u n)).got
    by_cases hi : s.pc = .idle
    · refine Or.inr (Nat.lt_of_lt_of_le ?_ (got_uis n (uiStep s)))
      unfold uiStep
      rw [hi]
      dsimp only
      rw [if_pos hp]
      exact Nat.lt_succ_self _
    · have key : (uiStep s).pending = s.pending ∧ (uiStep s).got = s.got ∧ toReceive (uiStep s).pc ≤ n := by
        unfold uiStep
        split <;> rename_i hpc <;> rw [hpc] at h <;>
          first
          | exact absurd hpc hi
          | exact ⟨rfl, rfl, by simp only [toReceive] at h ⊢; omega⟩
          | exact ⟨rfl, rfl, by rw [hpc]; exact Nat.zero_le _⟩
      have := ih (uiStep s) (by rw [key.1]; exact hp) key.2.2
      rw [key.2.1] at this
      exact this

/-- C125 (messages are received). Whatever has happened: if there is a message in the channel, the terminal has closed or
received one seven of its steps later. -/
theorem C125_received (runs : List (Nat × Bool)) (as : List Actor)
    (hp : 0 < (run (start (script 0 runs)) as).pending) :
    (run (start (script 0 runs)) (as ++ u 7)).pc = .dead ∨
      (run (start (script 0 runs)) as).got < (run (start (script 0 runs)) (as ++ u 7)).got := by
  rw [run_append]
  refine receives 7 _ hp ?_
  generalize (run (start (script 0 runs)) as).pc = p
  cases p <;> simp [toReceive]

example : 0 < (run (start (script 0 [(3, false)])) (m 4 ++ u 1)).pending ∧
    (run (start (script 0 [(3, false)])) (m 4 ++ u 1)).pc = .received ∧
    (run (start (script 0 [(3, false)])) (m 4 ++ u 1)).got = 1 ∧
    (run (start (script 0 [(3, false)])) (m 4 ++ u 1 ++ u 7)).got = 2 := by decide +kernel

/-- Two repetitions, three steps and two: the terminal, slower, shows some of them. -/
example : (run (start (script 0 [(3, false), (2, false)])) (m 4 ++ u 7 ++ m 4 ++ u 7 ++ m 20 ++ u 40)).shown =
    [.tick 0, .tick 2, .rep 1, .tick 1] := by decide +kernel

/-- A terminal that keeps up shows all of them. -/
example : (run (start (script 0 [(2, false), (1, false)]))
      (m 2 ++ u 9 ++ m 2 ++ u 9 ++ m 2 ++ u 9 ++ m 2 ++ u 9 ++ m 2 ++ u 9 ++ m 2 ++ u 9 ++ m 2 ++ u 9)).shown =
    [.cleared, .tick 0, .tick 1, .rep 0, .cleared, .tick 0, .rep 1] := by decide +kernel

/-! ### C126: the last step and the last repetition are shown -/

/-- The terminal has nothing to show and nothing to read. -/
def Quiet (s : St) : Prop :=
  s.script = [] ∧ s.op = .consumed ∧ s.rep = none ∧
    (s.pc = .idle ∨ s.pc = .received ∨ s.pc = .readOp .consumed ∨ s.pc = .both .consumed none ∨ s.pc = .doRep none)

theorem quiet_step {s : St} (h : Quiet s) (a : Actor) : Quiet (step s a) ∧ (step s a).shown = s.shown := by
  obtain ⟨h1, h2, h3, h4⟩ := h
  cases a with
  | sim =>
    have : simStep s = s := by unfold simStep; rw [h1]
    show Quiet (simStep s) ∧ _
    rw [this]
    exact ⟨⟨h1, h2, h3, h4⟩, by show (simStep s).shown = _; rw [this]⟩
  | ui =>
    show Quiet (uiStep s) ∧ (uiStep s).shown = s.shown
    unfold uiStep
    rcases h4 with h4 | h4 | h4 | h4 | h4
    · rw [h4]
      dsimp only
      split
      · exact ⟨⟨h1, h2, h3, Or.inr (Or.inl rfl)⟩, rfl⟩
      · exact ⟨⟨h1, h2, h3, Or.inr (Or.inl rfl)⟩, rfl⟩
    · rw [h4]; exact ⟨⟨h1, h2, h3, by simp [h2]⟩, rfl⟩
    · rw [h4]; exact ⟨⟨h1, h2, h3, by simp [h3]⟩, rfl⟩
    · rw [h4]; exact ⟨⟨h1, h2, h3, by simp⟩, rfl⟩
    · rw [h4]; exact ⟨⟨h1, h2, h3, by simp⟩, rfl⟩

theorem quiet_run (as : List Actor) : ∀ {s : St}, Quiet s → Quiet (run s as) ∧ (run s as).shown = s.shown := by
  induction as with
  | nil => intro s h; exact ⟨h, rfl⟩
  | cons a as ih =>
    intro s h
    obtain ⟨h1, h2⟩ := quiet_step h a
    obtain ⟨h3, h4⟩ := ih h1
    exact ⟨h3, h4.trans h2⟩

theorem quiet_alive {s : St} (h : Quiet s) : s.pc ≠ .dead := by
  rcases h.2.2.2 with h | h | h | h | h <;> rw [h] <;> simp

/-- C126, the negation. One repetition of two steps. The terminal reads step 0 from the slot, the simulation thread puts
step 1 in it and ends, the terminal shows step 0 and marks the slot consumed: however long the terminal then runs, step 1,
the last, is never shown. -/
theorem C126_last_step_lost_partial :
    ∃ as : List Actor, (run (start (script 0 [(2, false)])) as).script = [] ∧
      ∀ bs : List Actor, (run (start (script 0 [(2, false)])) (as ++ bs)).pc ≠ .dead ∧
        shownTicks (run (start (script 0 [(2, false)])) (as ++ bs)).shown = [0] := by
  refine ⟨m 4 ++ u 3 ++ m 4 ++ u 40, by decide +kernel, ?_⟩
  intro bs
  have hq : Quiet (run (start (script 0 [(2, false)])) (m 4 ++ u 3 ++ m 4 ++ u 40)) := by unfold Quiet; decide +kernel
  rw [run_append]
  obtain ⟨h1, h2⟩ := quiet_run bs hq
  refine ⟨quiet_alive h1, ?_⟩
  rw [h2]
  decide +kernel

/-- C126, the negation for the repetitions. Two repetitions: the terminal reads the first, the second is put in the slot,
the terminal marks the slot consumed; the second, the last, is never shown. -/
theorem C126_last_repetition_lost_partial :
    ∃ as : List Actor, (run (start (script 0 [(0, false), (1, false)])) as).script = [] ∧
      ∀ bs : List Actor, (run (start (script 0 [(0, false), (1, false)])) (as ++ bs)).pc ≠ .dead ∧
        shownReps (run (start (script 0 [(0, false), (1, false)])) (as ++ bs)).shown = [0] := by
  refine ⟨m 4 ++ u 4 ++ m 8 ++ u 40, by decide +kernel, ?_⟩
  intro bs
  have hq : Quiet (run (start (script 0 [(0, false), (1, false)])) (m 4 ++ u 4 ++ m 8 ++ u 40)) := by
    unfold Quiet; decide +kernel
  rw [run_append]
  obtain ⟨h1, h2⟩ := quiet_run bs hq
  refine ⟨quiet_alive h1, ?_⟩
  rw [h2]
  decide +kernel

theorem ended_of_calm {runs : List (Nat × Bool)} {as : List Actor} (hc : Calm (start (script 0 runs)) as)
    (hs : (run (start (script 0 runs)) as).script = []) :
    Ended (run (start (script 0 runs)) as).ops (run (start (script 0 runs)) as).reps (run (start (script 0 runs)) as) := by
  obtain ⟨h1, h2⟩ := calm_run as (calmOp_start _) (calmRep_start _) hc
  exact ⟨h1, h2, hs, rfl, rfl⟩

theorem whole_run (runs : List (Nat × Bool)) (as : List Actor) :
    Whole (script 0 runs) (run (start (script 0 runs)) as) :=
  run_inv (P := Whole (script 0 runs)) (fun _ => whole_sim) (fun _ => whole_ui) as (fun _ => ⟨rfl, rfl⟩)

/-- C126 (calm interleavings). If the simulation thread never writes a slot between the terminal's reading it and marking
it consumed, and no repetition meets its end condition, then the terminal stays open and, thirteen steps after the end of
the simulation at the latest and from then on, the last step and the last repetition are the last it has shown. -/
theorem C126_calm_partial (rs : List (Nat × Bool)) (k : Nat) (hall : ∀ x ∈ rs, x.2 = false) (as : List Actor)
    (hc : Calm (start (script 0 (rs ++ [(k + 1, false)]))) as)
    (hs : (run (start (script 0 (rs ++ [(k + 1, false)]))) as).script = []) (n : Nat) (hn : 13 ≤ n) :
    (run (start (script 0 (rs ++ [(k + 1, false)]))) (as ++ u n)).pc ≠ .dead ∧
    (shownTicks (run (start (script 0 (rs ++ [(k + 1, false)]))) (as ++ u n)).shown).getLast? = some k ∧
    (shownReps (run (start (script 0 (rs ++ [(k + 1, false)]))) (as ++ u n)).shown).getLast? = some rs.length := by
  have hno : Op.quit ∉ opsOf (script 0 (rs ++ [(k + 1, false)])) := by
    apply quit_of_runs
    intro x hx
    rw [List.mem_append, List.mem_singleton] at hx
    rcases hx with hx | hx
    · exact hall x hx
    · rw [hx]
  have alive : ∀ cs : List Actor, (run (start (script 0 (rs ++ [(k + 1, false)]))) cs).pc ≠ .dead := by
    intro cs hd
    have ht : Told (run (start (script 0 (rs ++ [(k + 1, false)]))) cs) :=
      run_inv (P := Told) (fun _ => told_sim) (fun _ => told_ui) cs (told_start _)
    have h2 : Scripted (script 0 (rs ++ [(k + 1, false)])) (run (start (script 0 (rs ++ [(k + 1, false)]))) cs) :=
      run_inv (P := Scripted (script 0 (rs ++ [(k + 1, false)]))) (fun _ => scripted_sim) (fun _ => scripted_ui) cs
        (scripted_start _)
    exact hno (((List.prefix_append _ _).trans h2.1).subset (ht.dead hd))
  have he := ended_of_calm hc hs
  have hd := ended_done he hn
  have hen := ended_uis n he
  have hw := whole_run (rs ++ [(k + 1, false)]) as (alive as)
  rw [hs] at hw
  have hops : (run (start (script 0 (rs ++ [(k + 1, false)]))) as).ops.getLast? = some (.afterStep k) := by
    have e2 : opsOf (script 0 (rs ++ [(k + 1, false)])) =
        opsOf (script 0 rs) ++ (.clear :: (List.range k).map .afterStep) ++ [.afterStep k] := by
      have e3 : opsOf (script (0 + rs.length) [(k + 1, false)]) = opsOf (repScript (0 + rs.length) (k + 1) false) ++ [] :=
        opsOf_append _ _
      rw [script_append, opsOf_append, e3, opsOf_rep, List.range_succ]
      simp
    have e := (List.append_nil _).symm.trans (hw.1.trans e2)
    rw [e]
    exact lastOf _ _
  have hreps : (run (start (script 0 (rs ++ [(k + 1, false)]))) as).reps.getLast? = some rs.length := by
    have e2 : repsOf (script 0 (rs ++ [(k + 1, false)])) = List.range rs.length ++ [rs.length] := by
      rw [reps_script, ← List.range_eq_range', List.length_append, List.length_singleton, List.range_succ]
    have e := (List.append_nil _).symm.trans (hw.2.trans e2)
    rw [e]
    exact lastOf _ _
  have ha := alive (as ++ u n)
  refine ⟨ha, ?_⟩
  rw [run_append] at ha ⊢
  rcases hd with hd | ⟨h1, h2⟩
  · exact absurd hd ha
  · exact ⟨h1 k (by rw [hen.ops_eq]; exact hops), h2 rs.length (by rw [hen.reps_eq]; exact hreps)⟩

instance (s : St) (a : Actor) : Decidable (CalmStep s a) := by
  unfold CalmStep
  cases a with
  | ui => exact inferInstanceAs (Decidable True)
  | sim =>
    dsimp only
    split
    · exact inferInstance
    · exact inferInstance
    · exact inferInstanceAs (Decidable True)

instance decCalm : (s : St) → (as : List Actor) → Decidable (Calm s as)
  | _, [] => inferInstanceAs (Decidable True)
  | s, a :: as => @instDecidableAnd _ _ inferInstance (decCalm (step s a) as)

/-- A calm interleaving of two repetitions: the terminal makes a round now and then. -/
example : Calm (start (script 0 ([(2, false)] ++ [(2 + 1, false)]))) (m 3 ++ u 7 ++ m 5 ++ u 7 ++ m 30) ∧
    (run (start (script 0 ([(2, false)] ++ [(2 + 1, false)]))) (m 3 ++ u 7 ++ m 5 ++ u 7 ++ m 30)).script = [] ∧
    (run (start (script 0 ([(2, false)] ++ [(2 + 1, false)]))) (m 3 ++ u 7 ++ m 5 ++ u 7 ++ m 30 ++ u 13)).shown =
      [.tick 0, .tick 1, .rep 0, .tick 2, .rep 1] := by decide +kernel

/-! ### C127: the terminal closes at the end condition -/

/-- C127, the negation. One repetition whose end condition holds after its first step. The terminal reads the step from the
slot, `Quit` is put in it, the terminal marks the slot consumed: it never closes, and `simulate!`, which waits for it, does
not return unless a key is pressed. -/
theorem C127_quit_lost_partial :
    ∃ as : List Actor, (run (start (script 0 [(1, true)])) as).script = [] ∧
      ∀ bs : List Actor, (run (start (script 0 [(1, true)])) (as ++ bs)).pc ≠ .dead := by
  refine ⟨m 4 ++ u 3 ++ m 4 ++ u 40, by decide +kernel, ?_⟩
  intro bs
  have hq : Quiet (run (start (script 0 [(1, true)])) (m 4 ++ u 3 ++ m 4 ++ u 40)) := by unfold Quiet; decide +kernel
  rw [run_append]
  exact quiet_alive (quiet_run bs hq).1

/-- C127 (calm interleavings). If the simulation thread never writes a slot between the terminal's reading it and marking
it consumed, and the last repetition meets its end condition, the terminal is closed thirteen steps after the end of the
simulation at the latest. -/
theorem C127_calm_partial (rs : List (Nat × Bool)) (k : Nat) (as : List Actor)
    (hc : Calm (start (script 0 (rs ++ [(k, true)]))) as)
    (hs : (run (start (script 0 (rs ++ [(k, true)]))) as).script = []) (n : Nat) (hn : 13 ≤ n) :
    (run (start (script 0 (rs ++ [(k, true)]))) (as ++ u n)).pc = .dead := by
  rw [run_append]
  by_cases hd : (run (start (script 0 (rs ++ [(k, true)]))) as).pc = .dead
  · exact dead_uis n hd
  · have he := ended_of_calm hc hs
    have hw := whole_run (rs ++ [(k, true)]) as hd
    rw [hs] at hw
    refine ended_quit he ?_ hn
    have e2 : opsOf (script 0 (rs ++ [(k, true)])) =
        opsOf (script 0 rs) ++ (.clear :: (List.range k).map .afterStep) ++ [.quit] := by
      have e3 : opsOf (script (0 + rs.length) [(k, true)]) = opsOf (repScript (0 + rs.length) k true) ++ [] :=
        opsOf_append _ _
      rw [script_append, opsOf_append, e3, opsOf_rep]
      simp
    have e := (List.append_nil _).symm.trans (hw.1.trans e2)
    rw [e]
    exact lastOf _ _

/-- C127 (only then). The terminal closes by itself only if some repetition met its end condition. -/
theorem C127_only_then_partial (runs : List (Nat × Bool)) (as : List Actor)
    (hd : (run (start (script 0 runs)) as).pc = .dead) : ∃ x ∈ runs, x.2 = true := by
  by_contra hno
  have hall : ∀ x ∈ runs, x.2 = false := by
    intro x hx
    cases h : x.2 with
    | false => rfl
    | true => exact absurd ⟨x, hx, h⟩ hno
  have ht : Told (run (start (script 0 runs)) as) :=
    run_inv (P := Told) (fun _ => told_sim) (fun _ => told_ui) as (told_start _)
  have h2 : Scripted (script 0 runs) (run (start (script 0 runs)) as) :=
    run_inv (P := Scripted (script 0 runs)) (fun _ => scripted_sim) (fun _ => scripted_ui) as (scripted_start _)
  exact quit_of_runs hall 0 (((List.prefix_append _ _).trans h2.1).subset (ht.dead hd))

/-- A calm interleaving in which the second repetition meets its end condition. -/
example : Calm (start (script 0 ([(1, false)] ++ [(2, true)]))) (m 3 ++ u 7 ++ m 30) ∧
    (run (start (script 0 ([(1, false)] ++ [(2, true)]))) (m 3 ++ u 7 ++ m 30)).script = [] ∧
    (run (start (script 0 ([(1, false)] ++ [(2, true)]))) (m 3 ++ u 7 ++ m 30 ++ u 13)).pc = .dead := by decide +kernel

end Verif.Terminal
