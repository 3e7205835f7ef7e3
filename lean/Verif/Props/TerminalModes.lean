import Verif.Model.TerminalModes

/-! The terminal is left as it was found: C177. -/

namespace Verif.TerminalModes

open Verif.Spec.TerminalModes

/-- What holds in every run: the later the terminal thread is in leaving, the more has been restored. -/
structure Inv (s : St) : Prop where
  leaving : s.ui = .leaving → s.modes.raw = false
  showing : s.ui = .showing → s.modes.raw = false ∧ s.modes.alternate = false ∧ s.modes.mouse = false
  ended : s.ui = .ended → Usual s.modes
  returned : s.main = .returned → s.ui = .ended ∧ s.sim = .ended ∧ s.csv = .ended
  joinUi : s.main = .joinUi ∨ s.main = .logs → s.sim = .ended ∧ s.csv = .ended
  joinCsv : s.main = .joinCsv → s.sim = .ended

theorem inv_start (m : Modes) : Inv (start m) := by
  constructor <;> simp [start]

theorem inv_ui {s : St} (h : Inv s) (e : UiEvent) : Inv (uiStep s e) := by
  obtain ⟨h1, h2, h3, h4, h5, h6⟩ := h
  cases e <;> cases hu : s.ui <;> simp only [uiStep, uiPanic, hu] <;> constructor <;>
    simp_all [Usual]

theorem inv_main {s : St} (h : Inv s) (ok : Bool) : Inv (mainStep ok s) := by
  obtain ⟨h1, h2, h3, h4, h5, h6⟩ := h
  cases hm : s.main with
  | joinSim => cases hs : s.sim <;> simp only [mainStep, hm, hs] <;> constructor <;> simp_all
  | joinCsv => cases hc : s.csv <;> simp only [mainStep, hm, hc] <;> constructor <;> simp_all
  | logs => cases ok <;> simp only [mainStep, hm] <;> constructor <;> simp_all
  | joinUi => cases hu : s.ui <;> simp only [mainStep, hm, hu] <;> constructor <;> simp_all
  | returned => simp only [mainStep, hm]; constructor <;> simp_all
  | panicked => simp only [mainStep, hm]; constructor <;> simp_all

theorem inv_step {s : St} (h : Inv s) (e : Event) : Inv (step s e) := by
  unfold step
  split
  · exact h
  · cases e with
    | ui e => exact inv_ui h e
    | main ok => exact inv_main h ok
    | sim p =>
      obtain ⟨h1, h2, h3, h4, h5, h6⟩ := h
      refine ⟨h1, h2, h3, fun g => ?_, fun g => ?_, fun g => ?_⟩
      · obtain ⟨a, b, c⟩ := h4 g; exact ⟨a, by simp [b, Worker.stop], c⟩
      · obtain ⟨b, c⟩ := h5 g; exact ⟨by simp [b, Worker.stop], c⟩
      · simp [h6 g, Worker.stop]
    | csv p =>
      obtain ⟨h1, h2, h3, h4, h5, h6⟩ := h
      refine ⟨h1, h2, h3, fun g => ?_, fun g => ?_, h6⟩
      · obtain ⟨a, b, c⟩ := h4 g; exact ⟨a, b, by simp [c, Worker.stop]⟩
      · obtain ⟨b, c⟩ := h5 g; exact ⟨b, by simp [c, Worker.stop]⟩

theorem inv_run (es : List Event) : ∀ {s : St}, Inv s → Inv (run s es) := by
  induction es with
  | nil => intro s h; exact h
  | cons e es ih => intro s h; exact ih (inv_step h e)

/-- **C177, for calls of `simulate!` that return.** Whatever the threads do and in whatever order, whatever the modes of
the terminal were: if `simulate!` returns, no thread of it has panicked and the terminal works as usual. Full statement:
whenever the program is over; false by `C177_simulation_panics_partial` and `C177_drawing_fails_partial`. -/
theorem C177_returned_partial (m : Modes) (es : List Event) (h : (run (start m) es).main = .returned) :
    Usual (run (start m) es).modes ∧ (run (start m) es).ui = .ended ∧ (run (start m) es).sim = .ended ∧
      (run (start m) es).csv = .ended := by
  have hi := inv_run es (inv_start m)
  obtain ⟨a, b, c⟩ := hi.returned h
  exact ⟨hi.ended a, a, b, c⟩

/-- As soon as the terminal thread has ended without a panic the terminal works as usual, also while the simulation is
still running. -/
theorem C177_left_partial (m : Modes) (es : List Event) (h : (run (start m) es).ui = .ended) :
    Usual (run (start m) es).modes := (inv_run es (inv_start m)).ended h

/-- A run that returns: two drawings, the user quits, the simulation ends. -/
def calm : List Event :=
  [.ui .ok, .ui .ok, .ui .ok, .ui .ok, .main true, .ui .ok, .ui .quit, .ui .ok, .ui .ok, .ui .ok, .sim false, .csv false,
    .main true, .main true, .main true, .main true]

example : (run (start ⟨false, false, false, true⟩) calm).main = .returned := by decide

theorem gone (es : List Event) : ∀ {s : St}, s.main = .panicked → run s es = s := by
  induction es with
  | nil => intro s _; rfl
  | cons e es ih =>
    intro s h
    have hs : step s e = s := if_pos h
    show run (step s e) es = s
    rw [hs]
    exact ih h

theorem run_append (s : St) (xs ys : List Event) : run s (xs ++ ys) = run (run s xs) ys := List.foldl_append

/-- **C177 (negation).** A panic of an agent or of the state: whatever has happened before, as long as the simulation runs
and the terminal is shown, if now the simulation thread panics and the main thread comes to notice it, the program is over
and its terminal is left in raw mode (if it could be set), in the alternate screen and with the mouse captured, and the
terminal thread will not leave them any more. -/
theorem C177_simulation_panics_partial (m : Modes) (es fs : List Event)
    (hs : (run (start m) es).sim = .running) (hm : (run (start m) es).main = .joinSim) (ok : Bool) :
    (run (start m) (es ++ [.sim true, .main ok] ++ fs)).main = .panicked ∧
    (run (start m) (es ++ [.sim true, .main ok] ++ fs)).modes = (run (start m) es).modes := by
  have key : (run (start m) (es ++ [.sim true, .main ok])).main = .panicked ∧
      (run (start m) (es ++ [.sim true, .main ok])).modes = (run (start m) es).modes := by
    rw [run_append]
    generalize run (start m) es = s at *
    show (step (step s (.sim true)) (.main ok)).main = _ ∧ (step (step s (.sim true)) (.main ok)).modes = _
    simp [step, mainStep, hm, hs, Worker.stop]
  rw [run_append, gone fs key.1]
  exact key

/-- While the terminal is shown, it is in the alternate screen with the mouse captured. -/
structure Shown (s : St) : Prop where
  alternate : s.modes.alternate = true
  mouse : s.modes.mouse = true

theorem shown_run (m : Modes) (es : List Event) :
    ((run (start m) es).ui = .creating ∨ (run (start m) es).ui = .loop ∨ (run (start m) es).ui = .quitting ∨
      (run (start m) es).ui = .leaving) → Shown (run (start m) es) := by
  suffices H : ∀ (es : List Event) (s : St),
      (s.ui = .creating ∨ s.ui = .loop ∨ s.ui = .quitting ∨ s.ui = .leaving → Shown s) →
      ((run s es).ui = .creating ∨ (run s es).ui = .loop ∨ (run s es).ui = .quitting ∨ (run s es).ui = .leaving →
        Shown (run s es)) by
    exact H es (start m) (by simp [start])
  intro es
  induction es with
  | nil => intro s h; exact h
  | cons e es ih =>
    intro s h
    apply ih (step s e)
    unfold step
    split
    · exact h
    · cases e with
      | ui e =>
        cases e <;> cases hu : s.ui <;> simp only [uiStep, uiPanic, hu] <;> simp [hu] at h ⊢ <;>
          first | exact ⟨rfl, rfl⟩ | exact ⟨h.1, h.2⟩
      | sim p => exact fun g => ⟨(h g).1, (h g).2⟩
      | csv p => exact fun g => ⟨(h g).1, (h g).2⟩
      | main ok =>
        have hs : (mainStep ok s).ui = s.ui ∧ (mainStep ok s).modes = s.modes := by
          cases hm : s.main <;> cases hs : s.sim <;> cases hc : s.csv <;> cases hu : s.ui <;>
            simp [mainStep, hm, hs, hc, hu]
        intro g
        simp only [hs.1] at g
        have := h g
        exact ⟨by rw [hs.2]; exact this.1, by rw [hs.2]; exact this.2⟩

/-- **C177 (negation).** So after a panic of the simulation thread while the terminal is shown, the terminal does not work
as usual when the program is over. -/
theorem C177_unusual_partial (m : Modes) (es fs : List Event) (hu : (run (start m) es).ui = .loop)
    (hs : (run (start m) es).sim = .running) (hm : (run (start m) es).main = .joinSim) (ok : Bool) :
    (run (start m) (es ++ [.sim true, .main ok] ++ fs)).main = .panicked ∧
    ¬ Usual (run (start m) (es ++ [.sim true, .main ok] ++ fs)).modes := by
  obtain ⟨h1, h2⟩ := C177_simulation_panics_partial m es fs hs hm ok
  refine ⟨h1, ?_⟩
  rw [h2]
  intro h
  have := (shown_run m es (Or.inr (Or.inl hu))).alternate
  rw [h.2.1] at this
  exact absurd this (by decide)

/-- The hypotheses can be met, and the modes are then as said. -/
example : (run (start ⟨false, false, false, true⟩) [.ui .ok, .ui .ok, .ui .ok, .ui .ok]).ui = .loop ∧
    (run (start ⟨false, false, false, true⟩) [.ui .ok, .ui .ok, .ui .ok, .ui .ok]).sim = .running ∧
    (run (start ⟨false, false, false, true⟩) [.ui .ok, .ui .ok, .ui .ok, .ui .ok]).main = .joinSim ∧
    (run (start ⟨false, false, false, true⟩) [.ui .ok, .ui .ok, .ui .ok, .ui .ok, .sim true, .main true]).modes =
      ⟨true, true, true, false⟩ := by decide

/-- **C177 (negation).** If the terminal can not be drawn (see C101: some interfaces make `draw` panic) the terminal thread
is gone and nobody leaves the alternate screen: `simulate!` never returns, and in the end panics. -/
theorem C177_drawing_fails_partial (m : Modes) (es fs : List Event) (b c : Bool)
    (hu : (run (start m) es).ui = .loop) (hm : (run (start m) es).main ≠ .panicked) :
    (run (start m) (es ++ [.ui (.fail b c)] ++ fs)).main ≠ .returned ∧
    ¬ Usual (run (start m) (es ++ [.ui (.fail b c)] ++ fs)).modes ∧
    (run (start m) (es ++ [.ui (.fail b c)] ++ fs)).modes.cursor = true := by
  have hal := (shown_run m es (Or.inr (Or.inl hu))).alternate
  rw [List.append_assoc, run_append]
  have hi := inv_run es (inv_start m)
  generalize run (start m) es = s at *
  have e1 : step s (.ui (.fail b c)) = uiPanic s := by simp [step, hm, uiStep, hu]
  show (run (step s (.ui (.fail b c))) fs).main ≠ .returned ∧ ¬ Usual (run (step s (.ui (.fail b c))) fs).modes ∧
    (run (step s (.ui (.fail b c))) fs).modes.cursor = true
  rw [e1]
  have h0 : (uiPanic s).ui = .panicked ∧ (uiPanic s).main ≠ .returned ∧ (uiPanic s).modes.alternate = true ∧
      (uiPanic s).modes.cursor = true := by
    refine ⟨rfl, ?_, hal, rfl⟩
    intro h
    have := (hi.returned h).1
    rw [hu] at this
    exact absurd this (by decide)
  generalize uiPanic s = t at *
  have H : ∀ (fs : List Event) (t : St), (t.ui = .panicked ∧ t.main ≠ .returned ∧ t.modes.alternate = true ∧
      t.modes.cursor = true) → ((run t fs).ui = .panicked ∧ (run t fs).main ≠ .returned ∧
      (run t fs).modes.alternate = true ∧ (run t fs).modes.cursor = true) := by
    intro fs
    induction fs with
    | nil => intro t h; exact h
    | cons e fs ih =>
      intro t h
      apply ih
      obtain ⟨a, b, c, d⟩ := h
      unfold step
      split
      · exact ⟨a, b, c, d⟩
      · cases e with
        | ui e => cases e <;> simp [uiStep, a, b, c, d]
        | sim p => exact ⟨a, b, c, d⟩
        | csv p => exact ⟨a, b, c, d⟩
        | main ok =>
          cases hm : t.main <;> cases hs : t.sim <;> cases hc : t.csv <;> cases ok <;>
            simp_all [mainStep]
  obtain ⟨_, g2, g3, g4⟩ := H fs t h0
  refine ⟨g2, fun h => ?_, g4⟩
  rw [h.2.1] at g3
  exact absurd g3 (by decide)

example : (run (start ⟨false, false, false, true⟩)
    [.ui .ok, .ui .ok, .ui .ok, .ui (.fail false false), .sim false, .csv false, .main true, .main true, .main true,
      .main true]).main = .panicked ∧
    (run (start ⟨false, false, false, true⟩)
    [.ui .ok, .ui .ok, .ui .ok, .ui (.fail false false), .sim false, .csv false, .main true, .main true, .main true,
      .main true]).modes = ⟨true, true, true, true⟩ := by decide

/-- Up to entering the alternate screen only raw mode has been touched. -/
theorem entering_run (m : Modes) (es : List Event) :
    ((run (start m) es).ui = .start ∨ (run (start m) es).ui = .entering) →
      (run (start m) es).modes.alternate = m.alternate ∧ (run (start m) es).modes.mouse = m.mouse ∧
      (run (start m) es).modes.cursor = m.cursor := by
  suffices H : ∀ (es : List Event) (s : St),
      (s.ui = .start ∨ s.ui = .entering → s.modes.alternate = m.alternate ∧ s.modes.mouse = m.mouse ∧ s.modes.cursor = m.cursor) →
      ((run s es).ui = .start ∨ (run s es).ui = .entering →
        (run s es).modes.alternate = m.alternate ∧ (run s es).modes.mouse = m.mouse ∧ (run s es).modes.cursor = m.cursor) by
    exact H es (start m) (by simp [start])
  intro es
  induction es with
  | nil => intro s h; exact h
  | cons e es ih =>
    intro s h
    apply ih (step s e)
    unfold step
    split
    · exact h
    · cases e with
      | ui e => cases e <;> cases hu : s.ui <;> simp only [uiStep, uiPanic, hu] <;> simp [hu] at h ⊢ <;> exact h
      | sim p => exact h
      | csv p => exact h
      | main ok =>
        have hs : (mainStep ok s).ui = s.ui ∧ (mainStep ok s).modes = s.modes := by
          cases hm : s.main <;> cases hs : s.sim <;> cases hc : s.csv <;> cases hu : s.ui <;>
            simp [mainStep, hm, hs, hc, hu]
        intro g
        simp only [hs.1] at g
        simp only [hs.2]
        exact h g

/-- C177 is about runs that there are: from any moment at which the terminal is shown and the simulation runs, if the user quits, the
calls succeed, the two threads end and the log can be written, `simulate!` returns; and it panics if the log can not be written. -/
theorem C177_returns_partial (m : Modes) (es : List Event) (ok : Bool) (hu : (run (start m) es).ui = .loop)
    (hs : (run (start m) es).sim = .running) (hc : (run (start m) es).csv = .running) (hm : (run (start m) es).main = .joinSim) :
    (run (start m) (es ++ [.ui .quit, .ui .ok, .ui .ok, .ui .ok, .sim false, .csv false, .main true, .main true, .main ok,
      .main true])).main = if ok then .returned else .panicked := by
  rw [run_append]
  generalize run (start m) es = s at *
  obtain ⟨k, u, w, v, p⟩ := s
  dsimp only at *
  subst hu hs hc hm
  cases ok <;> simp [run, step, uiStep, mainStep, Worker.stop]

/-- What `simulate!` does to the terminal, whatever its modes are: if the calls succeed it is in raw mode, in the alternate screen and
with the mouse captured when the loop begins, and the cursor is hidden from the first drawing on. -/
theorem C177_entered_partial (m : Modes) :
    (run (start m) [.ui .ok, .ui .ok, .ui .ok]).ui = .loop ∧
    (run (start m) [.ui .ok, .ui .ok, .ui .ok]).modes = ⟨true, true, true, m.cursor⟩ ∧
    (run (start m) [.ui .ok, .ui .ok, .ui .ok, .ui .ok]).modes = ⟨true, true, true, false⟩ := ⟨rfl, rfl, rfl⟩

/-- **C177 (negation).** If the terminal can not be entered, the terminal thread is gone, and what it has carried out stays: nobody leaves the
screen or gives the mouse back, and raw mode is not left either. -/
theorem C177_entering_fails_partial (m : Modes) (hm : Usual m) (es : List Event) (b c : Bool)
    (hu : (run (start m) es).ui = .entering) (hp : (run (start m) es).main ≠ .panicked) :
    (run (start m) (es ++ [.ui (.fail b c)])).ui = .panicked ∧
    (run (start m) (es ++ [.ui (.fail b c)])).modes = ⟨(run (start m) es).modes.raw, b, c, true⟩ := by
  obtain ⟨h1, h2, h3⟩ := entering_run m es (Or.inr hu)
  obtain ⟨_, m2, m3, m4⟩ := hm
  rw [run_append]
  generalize run (start m) es = s at *
  obtain ⟨⟨r, a, o, k⟩, u, w, v, p⟩ := s
  dsimp only at *
  subst hu h1 h2 h3
  simp [run, step, hp, uiStep, m2, m3, m4]

/-- **C177 (negation).** If the terminal can not be left, the rest stays as it is: exactly what has not been carried out. -/
theorem C177_leaving_fails_partial (m : Modes) (es : List Event) (b c : Bool)
    (hu : (run (start m) es).ui = .leaving) (hp : (run (start m) es).main ≠ .panicked) :
    (run (start m) (es ++ [.ui (.fail b c)])).ui = .panicked ∧
    (run (start m) (es ++ [.ui (.fail b c)])).modes = ⟨false, !b, !c, true⟩ := by
  have h1 := (inv_run es (inv_start m)).leaving hu
  obtain ⟨h2, h3⟩ := shown_run m es (Or.inr (Or.inr (Or.inr hu)))
  rw [run_append]
  generalize run (start m) es = s at *
  obtain ⟨⟨r, a, o, k⟩, u, w, v, p⟩ := s
  dsimp only at *
  subst hu h1 h2 h3
  simp [run, step, hp, uiStep, uiPanic]

/-- The hypotheses can be met. -/
example : (run (start ⟨false, false, false, true⟩) [.ui .ok]).ui = .entering ∧
    (run (start ⟨false, false, false, true⟩) [.ui .ok, .ui .ok, .ui .ok, .ui .quit, .ui .ok]).ui = .leaving := by decide

end Verif.TerminalModes
