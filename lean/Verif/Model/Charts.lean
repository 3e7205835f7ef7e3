import Verif.Model.Monitor

/-!
Model of what the terminal interface draws: the chart of a plot (src/utils/monitoring/ui.rs:318-414), the list of logs and the bars of the
repetitions (478-574), and of the log file (src/lib.rs:641-672, 1131-1145).

Simplifications: layout, borders and fonts are left out. Of the library `tui`: `Chart` draws exactly the points inside its bounds, and writes the
first label at the lower and the last one at the upper end of an axis; a bar of width `n` shows at most `n` characters of its value and of its label.
Sums and products of `f64` are parameters.
-/

namespace Verif.Monitor

/-- `+` and `*` of `f64` (src/utils/monitoring/ui.rs:382-398). -/
structure F64 where
  add : Fl → Fl → Fl
  mul : Fl → Fl → Fl

/-- `SCALE_Y`, the `f64` nearest to 0.2 (src/utils/monitoring/ui.rs:10). -/
def scaleY : Fl := .fin (3602879701896397 / 18014398509481984)

/-- `SCALE_X` (src/utils/monitoring/ui.rs:11). -/
def scaleX : Fl := .fin 10

/-- `symbols::Marker` (src/utils/monitoring/ui.rs:333-337). -/
inductive Sign where
  | dot
  | braille
  | block
deriving DecidableEq, Repr

/-- `tui::style::Color` (src/utils/monitoring/ui.rs:338-346). -/
inductive Ink where
  | red
  | yellow
  | green
  | magenta
  | blue
  | cyan
deriving DecidableEq, Repr

/-- `markers` (src/utils/monitoring/ui.rs:333-337). -/
def signs : List Sign := [.dot, .braille, .block]

/-- `colors` (src/utils/monitoring/ui.rs:338-346). -/
def inks : List Ink := [.red, .yellow, .green, .magenta, .blue, .yellow, .cyan]

/-- `Dataset` (src/utils/monitoring/ui.rs:351-357). -/
structure Dataset where
  name : String
  sign : Sign
  ink : Ink
  data : List (Fl × Fl)
deriving DecidableEq, Repr

/-- The loop over the series (src/utils/monitoring/ui.rs:348-360); indices out of bounds panic. -/
def datasets : Nat → Nat → List (String × List (Fl × Fl)) → Option (List Dataset)
  | _, _, [] => some []
  | markerId, colorId, (name, pts) :: rest =>
    match signs[markerId]?, inks[colorId]? with
    | some s, some c =>
      (datasets ((markerId + 1) % signs.length) ((colorId + 1) % inks.length) rest).map (fun ds =>
        { name := name, sign := s, ink := c, data := pts } :: ds)
    | _, _ => none

/-- `Axis` (src/utils/monitoring/ui.rs:374-405): its title, its bounds and the numbers of its labels. -/
structure Axis where
  title : String
  bounds : Fl × Fl
  labels : List Fl
deriving DecidableEq, Repr

/-- `Chart` (src/utils/monitoring/ui.rs:362-405). -/
structure Chart where
  title : String
  x : Axis
  y : Axis
  sets : List Dataset
deriving DecidableEq, Repr

/-- `draw_tab` (src/utils/monitoring/ui.rs:318-414): an index out of bounds panics; nothing is drawn for a plot that does not exist (any more). -/
def drawTab (F : F64) (titles : List String) (id : Nat) (data : HMap String Plot) : Option (Option Chart) :=
  match titles[id]? with
  | none => none
  | some name =>
    match HMap.get data name with
    | none => some none
    | some p =>
      (datasets 0 0 p.series).map (fun ds => some {
        title := name
        x := { title := p.xlabel, bounds := (p.minX, F.add p.maxX scaleX), labels := [p.minX, p.maxX] }
        y := { title := p.ylabel, bounds := (p.minY, F.add p.maxY (F.mul p.maxY scaleY)),
               labels := [p.minY, F.add p.maxY (F.mul p.maxY scaleY)] }
        sets := ds })

/-! ### Bars -/

/-- `max` (src/utils/monitoring/ui.rs:536-541). -/
def maxSpeed (reps : List (Nat × Nat)) : Nat := reps.foldl (fun m r => if r.2 > m then r.2 else m) 0

/-- `max_digits` (src/utils/monitoring/ui.rs:543-549). -/
def maxDigits (reps : List (Nat × Nat)) : Nat := ((Nat.repr (maxSpeed reps)).toList.filter Char.isDigit).length

/-- `size_bar` (src/utils/monitoring/ui.rs:550-556). -/
def barWidth (reps : List (Nat × Nat)) : Nat :=
  match maxDigits reps with
  | 1 => 3
  | 2 => 3
  | 3 => 5
  | 4 => 7
  | 5 => 9
  | _ => 11

/-- A bar: label, value, and the width it is drawn with (src/utils/monitoring/ui.rs:530-574). -/
structure Bar where
  label : Nat
  value : Nat
  width : Nat
deriving DecidableEq, Repr

/-- The bar chart (src/utils/monitoring/ui.rs:530-574). -/
def bars (u : UI) : List Bar := u.reps.map (fun r => ⟨r.1, r.2, barWidth u.reps⟩)

/-! ### Logs -/

/-- `LogType` (src/lib.rs:639-644). -/
inductive LogType where
  | info
  | warning
  | error
  | critical
deriving DecidableEq, Repr

/-- `Display for LogType` (src/lib.rs:646-655). -/
def LogType.text : LogType → String
  | .info => "Info: "
  | .warning => "Warning: "
  | .error => "Error: "
  | .critical => "Critical: "

/-- `Log` (src/lib.rs:657-665). -/
structure Log where
  ltype : LogType
  body : String
  stored : Bool
deriving DecidableEq, Repr

/-- `Display for Log` (src/lib.rs:668-672). -/
def Log.text (l : Log) : String := l.ltype.text ++ " " ++ l.body

/-- A line of the list of logs: the type, its colour, the body (src/utils/monitoring/ui.rs:506-521). -/
structure LogLine where
  head : String
  ink : Ink
  body : String
deriving DecidableEq, Repr

/-- The colour of a type (src/utils/monitoring/ui.rs:499-513). -/
def LogType.ink : LogType → Ink
  | .warning => .yellow
  | .error => .magenta
  | .critical => .red
  | .info => .blue

/-- The list of logs (src/utils/monitoring/ui.rs:504-521). The width and the alignment of `{:<9}` have no effect: `fmt` writes with `write!`, which
does not look at them. -/
def logLines (logs : List (List Log)) : List LogLine :=
  logs.flatten.map (fun l => { head := l.ltype.text, ink := l.ltype.ink, body := l.body })

/-- The text of the log file (src/lib.rs:1140-1145). -/
def logFile (logs : List (List Log)) : String :=
  String.join ((storedLogs Log.stored logs).map (fun l => l.text ++ "\n"))

end Verif.Monitor
