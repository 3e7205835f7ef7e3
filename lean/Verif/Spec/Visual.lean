import Verif.Model.Visual

/-! Vocabulary for the properties of the visualization. -/

namespace Verif.Visual

/-- Whether the simulation runs after these events (the oldest first), and how many time steps it has run since the last
Stop, if it was running or not (`b`) and had run `n` before. -/
def progress : Bool → Nat → List Event → Bool × Nat
  | b, n, [] => (b, n)
  | b, n, .tick :: es => progress b (if b then n + 1 else n) es
  | _, n, .start :: es => progress true n es
  | _, n, .pause :: es => progress false n es
  | _, _, .stop :: es => progress false 0 es

/-- The renders behave as their documentation asks: `update` keeps the render and puts the sprite where `location` says. -/
structure Faithful {A S R : Type} (v : Vis A S R) : Prop where
  keeps : ∀ r a s p b, (v.update r a s p b).1 = r
  moves : ∀ r a s p b, ((v.update r a s p b).2.1.x, (v.update r a s p b).2.1.y, (v.update r a s p b).2.1.z) = v.location r a s

/-- The sprite is drawn for this agent: at its location, half a unit up, with its emoji. -/
def DrawnFor {A S R : Type} (v : Vis A S R) (s : S) (e : Sprite R) (a : A) : Prop :=
  e.visible = true ∧ e.place.x = (v.location e.render a s).1 ∧ e.place.y = (v.location e.render a s).2.1 + 1 / 2 ∧
    e.place.z = (v.location e.render a s).2.2 ∧ e.image = v.sprite e.render a s

/-- The line joins the current locations of its ends. -/
def Joins (loc : Nat → Rat × Rat) (l : Line) : Prop := l.path = (loc l.u, loc l.v)

/-- An end of the line is not where it was at the beginning. -/
def Away (loc : Nat → Rat × Rat) (l : Line) : Prop := loc l.u ≠ l.source ∨ loc l.v ≠ l.target

instance (loc : Nat → Rat × Rat) (l : Line) : Decidable (Away loc l) := inferInstanceAs (Decidable (_ ∨ _))

end Verif.Visual
