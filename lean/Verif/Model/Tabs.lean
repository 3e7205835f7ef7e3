import Verif.Model.Charts

/-!
Model of the choice of what the terminal shows under the tabs (`UI::draw`, src/utils/monitoring/ui.rs:283-327).
-/

namespace Verif.Monitor

/-- What is below the tabs (src/utils/monitoring/ui.rs:311-318): the first tab; a chart; nothing, for a plot that does not exist any more. -/
inductive Page where
  | home
  | chart (c : Chart)
  | empty
deriving DecidableEq, Repr

/-- The page of the selected tab (src/utils/monitoring/ui.rs:311-318); `none` is the panic of an index out of bounds. -/
def UI.page (F : F64) (u : UI) (data : HMap String Plot) : Option Page :=
  match u.index with
  | 0 => some .home
  | i + 1 => (drawTab F u.titles (i + 1) data).map (fun c => match c with | some c => .chart c | none => .empty)

end Verif.Monitor
