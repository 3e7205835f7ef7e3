/-! What `simulate!` changes about the terminal it runs in, for C177. -/

namespace Verif.Spec.TerminalModes

/-- The modes of a terminal that `simulate!` changes. -/
structure Modes where
  raw : Bool
  alternate : Bool
  mouse : Bool
  cursor : Bool
deriving DecidableEq, Repr

/-- The terminal works as usual: keys are echoed and lines edited, the shell's screen is shown, the mouse selects text
and the cursor is visible. -/
def Usual (m : Modes) : Prop := m.raw = false ∧ m.alternate = false ∧ m.mouse = false ∧ m.cursor = true

instance (m : Modes) : Decidable (Usual m) := by unfold Usual; infer_instance

end Verif.Spec.TerminalModes
