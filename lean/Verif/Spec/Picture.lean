import Verif.Model.Picture

/-!
What the pictures of the plots should show.
-/

namespace Verif.Monitor

/-- The colours one after the other. -/
def nthColor (k : Nat) : Color :=
  match k % 6 with
  | 0 => .red
  | 1 => .petrol
  | 2 => .black
  | 3 => .magenta
  | 4 => .green
  | _ => .blue

/-- The markers one after the other. -/
def nthMarker (k : Nat) : Marker :=
  match k % 3 with
  | 0 => .circle
  | 1 => .cross
  | _ => .triangle

/-- A picture shows a plot: all series with all their points, as markers and as a line, and ranges, labels and caption of the plot. -/
def Shows (pic : Picture) (p : Plot) : Prop :=
  pic.caption = p.name ∧ pic.xRange = (p.minX, p.maxX) ∧ pic.yRange = (p.minY, p.maxY) ∧ pic.xDesc = p.xlabel ∧
  pic.yDesc = p.ylabel ∧ pic.drawn.length = p.series.length ∧
  ∀ (k : Nat) (name : String) (pts : List (Fl × Fl)), p.series[k]? = some (name, pts) → ∃ dr, pic.drawn[k]? = some dr ∧
    dr.label = name ∧ dr.points = pts ∧ dr.line = pts ∧ dr.marker = nthMarker k ∧ dr.markerColor = nthColor k ∧
    dr.lineColor = nthColor k ∧ dr.legend = (nthMarker k, nthColor k)

/-- Two series that cannot be told apart in a picture, but for their points. -/
def Alike (a b : Drawn) : Prop :=
  a.marker = b.marker ∧ a.markerColor = b.markerColor ∧ a.lineColor = b.lineColor

/-- The plots to be stored have names that give different files. -/
def FilesDistinct (d : HMap String Plot) : Prop :=
  ((d.filter (fun e => e.2.stored)).map (fun e => sanitize e.2.name)).Nodup

end Verif.Monitor
