import Verif.Model.Charts
import Verif.Spec.Monitor

/-!
What should be seen in the charts, the bars and the logs of the terminal interface.
-/

namespace Verif.MonitorSpec

open Monitor

/-- What is used of the arithmetic of `f64`: adding a nonnegative number to a finite one gives no smaller one, and products of nonnegative and
positive finite numbers are not negative. Any rounding that keeps the order and the floats has this. -/
structure Rounds (F : F64) : Prop where
  add_ge : ∀ (a : Rat) (b : Fl), (Fl.fin 0).le b = true → (Fl.fin a).le (F.add (.fin a) b) = true
  mul_nonneg : ∀ (a b : Rat), 0 ≤ a → 0 < b → (Fl.fin 0).le (F.mul (.fin a) (.fin b)) = true

/-- The chart shows this point. -/
def Chart.Shows (c : Chart) (q : Fl × Fl) : Prop :=
  (c.x.bounds.1.le q.1 = true ∧ q.1.le c.x.bounds.2 = true) ∧ (c.y.bounds.1.le q.2 = true ∧ q.2.le c.y.bounds.2 = true)

/-- The labels at the ends of the axis are the numbers there. -/
def Axis.Labelled (a : Axis) : Prop := a.labels.head? = some a.bounds.1 ∧ a.labels.getLast? = some a.bounds.2

/-- Two series of a chart that look alike. -/
def SameLook (a b : Dataset) : Prop := a.sign = b.sign ∧ a.ink = b.ink

/-- A number fits into this many characters. -/
def Fits (n width : Nat) : Prop := n < 10 ^ width

/-- The colour a log should have. -/
def inkOf (l : Log) : Ink :=
  if l.ltype = .info then .blue else if l.ltype = .warning then .yellow else if l.ltype = .error then .magenta else .red

/-- No line break in the text of a log. -/
def OneLine (l : Log) : Prop := '\n' ∉ l.body.toList

end Verif.MonitorSpec
