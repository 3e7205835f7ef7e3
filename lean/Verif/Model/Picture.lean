import Verif.Model.Monitor

/-!
Model of the pictures that `simulate!` with the terminal stores of the plots: `PlotData::store_plot` (src/lib.rs:528-634) and its
calls (src/lib.rs:1092-1101).

Simplifications: a picture is the list of what is drawn into the chart, in order; the drawing library never fails; the file of a picture is
`output/<date>/<name>/<name>_<rep>.png`, here `(name, rep)`. The iteration order of the hash map `series` is that of the `HMap`.
-/

namespace Verif.Monitor

/-- The markers (src/lib.rs:575-612). -/
inductive Marker where
  | circle
  | cross
  | triangle
deriving DecidableEq, Repr

/-- The colors (src/lib.rs:531-538). -/
inductive Color where
  | red
  | petrol
  | black
  | magenta
  | green
  | blue
deriving DecidableEq, Repr

/-- `colors` (src/lib.rs:531-538). -/
def colors : List Color := [.red, .petrol, .black, .magenta, .green, .blue]

/-- One series in the chart: its points with a marker in a color and a legend of the same look and the name, and the line through the points
in a color (src/lib.rs:574-620). -/
structure Drawn where
  label : String
  marker : Marker
  markerColor : Color
  legend : Marker × Color
  points : List (Fl × Fl)
  lineColor : Color
  line : List (Fl × Fl)
deriving DecidableEq, Repr

/-- `match marker_id` (src/lib.rs:575-612). -/
def markerOf : Nat → Marker
  | 0 => .circle
  | 1 => .cross
  | 2 => .triangle
  | _ => .circle

/-- The loop over the series (src/lib.rs:572-623); `colors[color_id]` may be out of bounds. -/
def drawSeries : Nat → Nat → List (String × List (Fl × Fl)) → Option (List Drawn)
  | _, _, [] => some []
  | markerId, colorId, (name, pts) :: rest =>
    match colors[colorId]? with
    | none => none
    | some c =>
      (drawSeries ((markerId + 1) % 3) ((colorId + 1) % colors.length) rest).map (fun ds =>
        { label := name, marker := markerOf markerId, markerColor := c, legend := (markerOf markerId, c), points := pts,
          lineColor := c, line := pts } :: ds)

/-- A picture (src/lib.rs:551-622). -/
structure Picture where
  caption : String
  xRange : Fl × Fl
  yRange : Fl × Fl
  xDesc : String
  yDesc : String
  drawn : List Drawn
deriving DecidableEq, Repr

/-- The pictures stored: `(name, rep)` (src/lib.rs:543-548). -/
abbrev Pictures := String → Nat → Option Picture

/-- `store_plot` (src/lib.rs:528-634). -/
def storePlot (ps : Pictures) (p : Plot) (rep : Nat) : Option Pictures :=
  (drawSeries 0 0 p.series).map (fun ds n r =>
    if n = sanitize p.name ∧ r = rep then
      some { caption := p.name, xRange := (p.minX, p.maxX), yRange := (p.minY, p.maxY), xDesc := p.xlabel, yDesc := p.ylabel, drawn := ds }
    else ps n r)

/-- The loop after a repetition (src/lib.rs:1092-1101). -/
def storePlots (rep : Nat) : Pictures → List (String × Plot) → Option Pictures
  | ps, [] => some ps
  | ps, (_, p) :: rest => if p.stored then (storePlot ps p rep).bind (fun ps => storePlots rep ps rest) else storePlots rep ps rest

/-- The repetitions: `datas` are the contents of `DATA` at the end of repetitions `rep`, `rep + 1`, … (src/lib.rs:1010-1101). -/
def storeAll : Nat → Pictures → List (HMap String Plot) → Option Pictures
  | _, ps, [] => some ps
  | rep, ps, d :: ds => (storePlots rep ps d).bind (fun ps => storeAll (rep + 1) ps ds)

end Verif.Monitor
