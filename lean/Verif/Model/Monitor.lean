import Verif.Model.Fl
import Verif.Model.HashMap

/-!
Model of plots, csv output and logs (src/lib.rs) and of the state of the terminal interface (src/utils/monitoring/ui.rs).

Simplifications: the locks are left out, calls happen one after the other (each macro holds its lock for its whole duration); drawing
and files other than csv files are left out; `none` is a panic.
-/

namespace Verif.Monitor

/-! ### Plots -/

/-- `f64::MAX` (src/lib.rs:511-525). -/
def maxF64 : Fl := .fin ((2 ^ 53 - 1) * 2 ^ 971)

/-- `PlotData` (src/lib.rs:486-506). -/
structure Plot where
  name : String
  series : HMap String (List (Fl × Fl))
  minX : Fl
  maxX : Fl
  minY : Fl
  maxY : Fl
  xlabel : String
  ylabel : String
  stored : Bool
deriving DecidableEq, Repr

/-- `PlotData::new` (src/lib.rs:511-525). -/
def Plot.new (name xlabel ylabel : String) (stored : Bool) : Plot :=
  { name := name, series := [], minX := maxF64, maxX := Fl.minF64, minY := maxF64, maxY := Fl.minF64, xlabel := xlabel,
    ylabel := ylabel, stored := stored }

/-- `DATA`, `PLOT_NAMES`, whether `CSV_SENDER` is set, and the points sent over it (src/lib.rs:1240-1280, 1355-1390). -/
structure Mon where
  data : HMap String Plot
  names : List (String × String × String)
  sender : Bool
  sent : List (String × String × Fl × Fl)
deriving DecidableEq, Repr

/-- `serie.push` after creating the series if needed (src/lib.rs:1246-1250). -/
def pushPoint (s : HMap String (List (Fl × Fl))) (serie : String) (p : Fl × Fl) : HMap String (List (Fl × Fl)) :=
  HMap.adjust (if (HMap.get s serie).isSome then s else (HMap.insert s serie []).1) serie (fun l => l ++ [p])

/-- The update of the plot (src/lib.rs:1246-1263). -/
def Plot.push (p : Plot) (serie : String) (x y : Fl) : Plot :=
  { p with
    series := pushPoint p.series serie (x, y)
    minX := if x.lt p.minX then x else p.minX
    maxX := if p.maxX.lt x then x else p.maxX
    minY := if y.lt p.minY then y else p.minY
    maxY := if p.maxY.lt y then y else p.maxY }

/-- `plot!` (src/lib.rs:1240-1280); without `csv:` the flag is false. -/
def plot (m : Mon) (name serie : String) (x y : Fl) (csv : Bool) : Option Mon :=
  if (HMap.get m.data name).isSome then
    if csv then
      if m.sender then
        some { m with data := HMap.adjust m.data name (fun p => p.push serie x y), sent := m.sent ++ [(name, serie, x, y)] }
      else none
    else some { m with data := HMap.adjust m.data name (fun p => p.push serie x y) }
  else some m

/-- `addplot!` (src/lib.rs:1355-1390); the forms without `csv:` have the flag false. -/
def addplot (m : Mon) (name xlabel ylabel : String) (stored csv : Bool) : Mon :=
  if (HMap.get m.data name).isSome then m
  else { m with
    data := (HMap.insert m.data name (Plot.new name xlabel ylabel stored)).1
    names := if csv then (if (name, xlabel, ylabel) ∈ m.names then m.names else m.names ++ [(name, xlabel, ylabel)]) else m.names }

/-- `DATA.lock().unwrap().clear()` before a repetition (src/lib.rs:1017). -/
def clear (m : Mon) : Mon := { m with data := [] }

/-- A call (src/lib.rs:1240-1280, 1355-1390). -/
inductive Call where
  | add (name xlabel ylabel : String) (stored csv : Bool)
  | point (name serie : String) (x y : Fl) (csv : Bool)
  | clear
deriving DecidableEq, Repr

/-- Executing a call (src/lib.rs:1240-1280, 1355-1390). -/
def exec (m : Mon) : Call → Option Mon
  | .add n x y s c => some (addplot m n x y s c)
  | .point n s x y c => plot m n s x y c
  | .clear => some (clear m)

/-- Executing calls, the oldest last in the list (src/lib.rs:1240-1280, 1355-1390). -/
def execAll (m : Mon) : List Call → Option Mon
  | [] => some m
  | c :: cs => (execAll m cs).bind (fun m => exec m c)

/-! ### The csv thread -/

/-- A row of a csv file (src/lib.rs:987-992). -/
abbrev CsvRow := String × String × String

/-- The messages as far as the csv thread tells them apart (src/lib.rs:698-712). -/
inductive Msg where
  | init
  | point (name serie x y : String)
  | endOfSimulation
  | quit
deriving DecidableEq, Repr

/-- `name.replace("/", "-")` (src/lib.rs:951-968). -/
def sanitize (name : String) : String := String.ofList (name.toList.map (fun c => if c = '/' then '-' else c))

/-- The files: the rows of file `(name, rep)` (the path is `output/<date>/<name>/<name>_<rep>.csv`) (src/lib.rs:951-968). -/
abbrev Files := String → Nat → Option (List CsvRow)

/-- Replacing one file (src/lib.rs:951-992). -/
def setFile (fs : Files) (n : String) (r : Nat) (rows : List CsvRow) : Files :=
  fun n' r' => if n' = n ∧ r' = r then some rows else fs n' r'

/-- State of the csv thread: `rep_counter`, the writers (name and repetition of their file) and the files (src/lib.rs:949-1004). -/
structure Csv where
  counter : Nat
  writers : List (String × Nat)
  files : Files

/-- `open_files` (src/lib.rs:951-968): creates (or truncates) a file for each of `PLOT_NAMES`, with its header. -/
def openFiles (names : List (String × String × String)) (rep : Nat) (c : Csv) : Csv :=
  { c with
    writers := names.map (fun n => (sanitize n.1, rep))
    files := names.foldl (fun fs n => setFile fs (sanitize n.1) rep [("series", n.2.1, n.2.2)]) c.files }

/-- `writer.write_record` (src/lib.rs:987-992) for one writer. Two writers of one file overwrite each other's bytes, which is in
`Verif.Model.CsvBytes`; here they append, and the theorems about it are for one writer per file. -/
def writeRow (fs : Files) (w : String × Nat) (row : CsvRow) : Files :=
  match fs w.1 w.2 with
  | some rows => setFile fs w.1 w.2 (rows ++ [row])
  | none => fs

/-- A message in the loop (src/lib.rs:980-1003); `names` is `PLOT_NAMES` at the time it is handled. The flag is whether the loop
goes on. -/
def handle (c : Csv) (m : Msg) (names : List (String × String × String)) : Csv × Bool :=
  match m with
  | .init => (openFiles names c.counter c, true)
  | .point n s x y =>
    ({ c with files := (c.writers.filter (fun w => sanitize n = w.1)).foldl (fun fs w => writeRow fs w (s, x, y)) c.files }, true)
  | .endOfSimulation => ({ c with counter := c.counter + 1 }, true)
  | .quit => (c, false)

/-- The loop (src/lib.rs:980-1003). -/
def csvLoop (c : Csv) : List (Msg × List (String × String × String)) → Csv
  | [] => c
  | m :: ms => if (handle c m.1 m.2).2 then csvLoop (handle c m.1 m.2).1 ms else (handle c m.1 m.2).1

/-- The csv thread (src/lib.rs:949-1004): the first message, whatever it is, opens the files of repetition 0; `Quit` ends the
thread. -/
def csvThread (fs : Files) : List (Msg × List (String × String × String)) → Files
  | [] => fs
  | m :: ms => if m.1 = .quit then fs else (csvLoop (openFiles m.2 0 { counter := 0, writers := [], files := fs }) ms).files

/-! ### Logs -/

/-- `log!` (src/lib.rs:1418-1443) on `LOGS`. -/
def log {L : Type} (logs : List (List L)) (l : L) : List (List L) :=
  match logs with
  | [] => [[l]]
  | cur :: older => (l :: cur) :: older

/-- The start of a repetition (src/lib.rs:1012-1015). -/
def newRep {L : Type} (logs : List (List L)) : List (List L) := [] :: logs

/-- What happens to the logs (src/lib.rs:1012-1015, 1418-1443). -/
inductive LogEvent (L : Type) where
  | log (l : L)
  | newRep
deriving DecidableEq, Repr

/-- Executing an event (src/lib.rs:1012-1015, 1418-1443). -/
def logStep {L : Type} (logs : List (List L)) : LogEvent L → List (List L)
  | .log l => Monitor.log logs l
  | .newRep => Monitor.newRep logs

/-- The log file (src/lib.rs:1141-1145): the logs to be stored, in the order of the list. -/
def storedLogs {L : Type} (stored : L → Bool) (logs : List (List L)) : List L := logs.flatten.filter stored

/-! ### The interface -/

/-- `UI` (src/utils/monitoring/ui.rs:78-95) as far as keys and ticks change it; the titles of the tabs are names, `monitor` data
are pairs of position and value. -/
structure UI where
  titles : List String
  index : Nat
  shouldQuit : Bool
  showChart : Bool
  showDescription : Bool
  selected : Option Nat
  processor : List (Nat × Rat)
  memory : List (Nat × Rat)
  window : Nat
  rep : Nat
  reps : List (Nat × Nat)
  totReps : Nat
  totLogs : Nat
deriving DecidableEq, Repr

/-- `UI::new` (src/utils/monitoring/ui.rs:97-118). -/
def UI.new (totReps : Nat) : UI :=
  { titles := ["Home"], index := 0, shouldQuit := false, showChart := true, showDescription := false, selected := none,
    processor := [], memory := [], window := 0, rep := 0, reps := [], totReps := totReps, totLogs := 0 }

/-- `on_up` (src/utils/monitoring/ui.rs:120-133); `tot_logs - 1` underflows without logs. -/
def UI.up (u : UI) : Option UI :=
  match u.selected with
  | some 0 => if u.totLogs = 0 then none else some { u with selected := some (u.totLogs - 1) }
  | some (i + 1) => some { u with selected := some i }
  | none => some { u with selected := some 0 }

/-- `on_down` (src/utils/monitoring/ui.rs:135-149). -/
def UI.down (u : UI) : Option UI :=
  match u.selected with
  | some i =>
    if u.totLogs = 0 then none
    else if i ≥ u.totLogs - 1 then some { u with selected := some 0 } else some { u with selected := some (i + 1) }
  | none => some { u with selected := some 0 }

/-- `TabsState::next` (src/utils/monitoring/ui.rs:40-42); the remainder by 0 panics. -/
def UI.right (u : UI) : Option UI :=
  if u.titles.length = 0 then none else some { u with index := (u.index + 1) % u.titles.length }

/-- `TabsState::previous` (src/utils/monitoring/ui.rs:45-51). -/
def UI.left (u : UI) : Option UI :=
  if u.index > 0 then some { u with index := u.index - 1 }
  else if u.titles.length = 0 then none
  else some { u with index := u.titles.length - 1 }

/-- `on_key` (src/utils/monitoring/ui.rs:159-182); other keys write a log. -/
def UI.key (u : UI) (c : Char) : UI :=
  if c = 'q' ∨ c = 'Q' then { u with shouldQuit := true }
  else if c = 'c' ∨ c = 'C' then { u with showChart := !u.showChart }
  else if c = 's' ∨ c = 'S' then { u with showDescription := !u.showDescription }
  else u

/-- Pushing on a bounded list (src/utils/monitoring/ui.rs:199-214). -/
def pushBounded {A : Type} (l : List A) (a : A) : List A := if l.length > 100 then l.tail ++ [a] else l ++ [a]

/-- The position of the last sample after removing the first if there are too many (src/utils/monitoring/ui.rs:199-207). -/
def lastPosition (l : List (Nat × Rat)) : Nat :=
  ((if l.length > 100 then l.tail else l).getLast?.map Prod.fst).getD 0

/-- `on_tick` (src/utils/monitoring/ui.rs:184-215) as far as the samples are concerned. -/
def UI.tick (u : UI) (cpu mem : Rat) : UI :=
  { u with
    window := if u.processor.length > 100 then u.window + 1 else u.window
    processor := pushBounded u.processor (lastPosition u.processor + 1, cpu)
    memory := pushBounded u.memory (lastPosition u.processor + 1, mem) }

/-- `on_rep` (src/utils/monitoring/ui.rs:217-222). -/
def UI.onRep (u : UI) (rep speed : Nat) : UI := { u with reps := (rep + 1, speed) :: u.reps, rep := rep }

/-- The state changes of `draw` (src/utils/monitoring/ui.rs:283-329, 421-450, 500): new plots get a tab; the first tab panics on
a gauge ratio above 1 (`LineGauge::ratio` asserts it; no repetitions at all give an infinite ratio) and counts the logs. -/
def UI.draw (u : UI) (plots : List String) (logs : Nat) : Option UI :=
  if u.index = 0 then
    if u.totReps = 0 ∨ u.rep + 1 > u.totReps then none
    else some { u with
      titles := plots.foldl (fun ts p => if p ∈ ts then ts else ts ++ [p]) u.titles
      totLogs := logs }
  else some { u with titles := plots.foldl (fun ts p => if p ∈ ts then ts else ts ++ [p]) u.titles }

/-- What the terminal thread does (src/utils/monitoring/ui.rs:120-222). -/
inductive UIEvent where
  | up
  | down
  | left
  | right
  | key (c : Char)
  | tick (cpu mem : Rat)
  | rep (r speed : Nat)
  | draw (plots : List String) (logs : Nat)
deriving DecidableEq, Repr

/-- Executing an event (src/utils/monitoring/ui.rs:120-222). -/
def UI.step (u : UI) : UIEvent → Option UI
  | .up => u.up
  | .down => u.down
  | .left => u.left
  | .right => u.right
  | .key c => some (u.key c)
  | .tick a b => some (u.tick a b)
  | .rep r s => some (u.onRep r s)
  | .draw ps n => u.draw ps n

/-- Executing events in order (src/utils/monitoring/ui.rs:120-222). -/
def UI.run (u : UI) : List UIEvent → Option UI
  | [] => some u
  | e :: es => (u.step e).bind (fun u => u.run es)

/-- The monitoring thread (src/lib.rs:807-815): the samples kept. -/
def monitorStep (l : List (Rat × Rat)) (s : Rat × Rat) : List (Rat × Rat) := pushBounded l s

end Verif.Monitor
