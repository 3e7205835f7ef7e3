import Verif.Model.Builder
import Mathlib.Tactic.Ring

/-!
Property C207: the settings of a visualization are those that were given last, the others are as documented, and all have their effect.
-/

namespace Verif.Builder

/-- The sizes of the window that were given. -/
def windows (calls : List Call) : List (Rat × Rat) := calls.filterMap fun | .window w h => some (w, h) | _ => none
/-- The sizes of the simulation that were given. -/
def simulations (calls : List Call) : List (Rat × Rat) := calls.filterMap fun | .simulation w h => some (w, h) | _ => none
/-- The names that were given. -/
def names (calls : List Call) : List String := calls.filterMap fun | .name t => some t | _ => none
/-- The colors that were given. -/
def colors (calls : List Call) : List (Rat × Rat × Rat) := calls.filterMap fun | .color k => some k | _ => none

/-- What the comments promise for settings that are not given (src/visualization/visualization.rs:38, 46, 53, 59): 500 times 300 for both sizes,
the name of the package, black. -/
def documented (package : String) : Config := ⟨(500, 300), (500, 300), package, (0, 0, 0)⟩

/-- The statement of C207 for given values of the settings that are not made. -/
def Promised (d : Config) (calls : List Call) (c : Config) : Prop :=
  c = ⟨(windows calls).getLast?.getD d.window, (simulations calls).getLast?.getD d.simulation, (names calls).getLast?.getD d.name,
    (colors calls).getLast?.getD d.color⟩

theorem build_promised (calls : List Call) (d : Config) : Promised d calls (calls.foldl apply d) := by
  induction calls generalizing d with
  | nil => rfl
  | cons a calls ih =>
    have h := ih (apply d a)
    unfold Promised at h ⊢
    rw [List.foldl_cons, h]
    cases a <;> simp [apply, windows, simulations, names, colors, List.getLast?_cons]

/-- **C207**. Full statement: `Promised (documented package)`. Proved: with the defaults of the code in place of those of the comments. -/
theorem C207_settings_partial (package : String) (calls : List Call) : Promised (default package) calls (build package calls) :=
  build_promised calls _

/-- C207, when everything is given: the full statement. -/
theorem C207_all_given_partial (package : String) (calls : List Call) (h1 : windows calls ≠ []) (h2 : simulations calls ≠ [])
    (h3 : colors calls ≠ []) : Promised (documented package) calls (build package calls) := by
  have h := C207_settings_partial package calls
  unfold Promised at h ⊢
  rw [h]
  have g : ∀ {α : Type} {l : List α} (a b : α), l ≠ [] → l.getLast?.getD a = l.getLast?.getD b := by
    intro α l a b hl
    rw [List.getLast?_eq_some_getLast hl]; rfl
  rw [g _ (documented package).window h1, g _ (documented package).simulation h2, g _ (documented package).color h3]
  rfl

/-- C207 is false: without settings the window is larger than promised, the simulation narrower, and the background white instead of black. -/
theorem C207_defaults_negation_partial (package : String) : ¬ Promised (documented package) [] (build package []) ∧
    (build package []).window = (600, 300) ∧ (build package []).simulation = (300, 300) ∧ (build package []).color = (1, 1, 1) := by
  refine ⟨fun h => ?_, rfl, rfl, rfl⟩
  have h1 : (600, 300) = ((500, 300) : Rat × Rat) := congrArg Config.window h
  exact absurd h1 (by decide)

/-- C207 is false: the size of the window has no effect. Whatever sizes are given, the application is the same, and Bevy is told no size. -/
theorem C207_window_negation_partial (package : String) (before after : List Call) (w h w' h' : Rat) :
    setup (build package (before ++ .window w h :: after)) = setup (build package (before ++ .window w' h' :: after)) ∧
    (setup (build package (before ++ .window w h :: after))).windowSize = none := by
  refine ⟨?_, rfl⟩
  have e := C207_settings_partial package (before ++ .window w h :: after)
  have e' := C207_settings_partial package (before ++ .window w' h' :: after)
  unfold Promised at e e'
  have s1 : ∀ x y, simulations (before ++ .window x y :: after) = simulations before ++ simulations after := by
    intro x y; simp [simulations]
  have s2 : ∀ x y, names (before ++ .window x y :: after) = names before ++ names after := by
    intro x y; simp [names]
  have s3 : ∀ x y, colors (before ++ .window x y :: after) = colors before ++ colors after := by
    intro x y; simp [colors]
  rw [s1, s2, s3] at e e'
  have centre : ∀ a b c d a' b' : Rat, Visual.Desc.setup a b c d = Visual.Desc.setup a' b' c d := by
    intro a b c d a' b'
    unfold Visual.Desc.setup
    congr 1 <;> ring
  rw [e, e']
  unfold setup
  rw [centre]

/-- C207, the other settings do have their effect: the size of the simulation, the heading and the background are those of the settings. -/
theorem C207_effect_partial (c : Config) : (setup c).desc.width = c.simulation.1 ∧ (setup c).desc.height = c.simulation.2 ∧
    (setup c).heading = c.name ∧ (setup c).clear = c.color := ⟨rfl, rfl, rfl, rfl⟩

/-- Two sizes of the window, one name; the last size counts. -/
example : build "p" [.window 10 20, .name "n", .window 30 40] = ⟨(30, 40), (300, 300), "n", (1, 1, 1)⟩ := by decide

end Verif.Builder
