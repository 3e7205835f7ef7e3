import Verif.Spec.TerminalModes

/-!
Model of what `simulate!` does to the modes of the terminal, src/lib.rs:838-941 and 1007-1151: the terminal thread enters
raw mode and the alternate screen, draws until it is told to quit and then leaves them, while the main thread waits for
the simulation thread, the CSV thread and the terminal thread.

Every call to the terminal may succeed or fail; which it does is decided by the events of a run. What is between the calls
is left out, as are the monitoring thread and the contents of the screen (`Terminal`, `Frame`). `simulate!` is called from
the main thread of the program and nobody catches its panics, so that the process ends with them.

Of the crates crossterm and tui is assumed: a call that succeeds has its effect, a failing `execute!` may have carried out
any of its commands, `draw` hides the cursor, and dropping a `Terminal` shows it again.
-/

namespace Verif.TerminalModes

open Verif.Spec.TerminalModes

/-- Where the terminal thread is (src/lib.rs:838-941): before `enable_raw_mode` (840); before `execute!` (842); before
`Terminal::new` (844); at the head of the loop (847); about to disable raw mode (871, 902); about to leave the screen
(872, 903); about to show the cursor (877, 908); ended; ended by a panic. -/
inductive Ui where
  | start
  | entering
  | creating
  | loop
  | quitting
  | leaving
  | showing
  | ended
  | panicked
deriving DecidableEq, Repr

/-- What may happen next in the terminal thread (src/lib.rs:838-941): the next call succeeds; it fails, and if it is
`execute!` the commands for the screen and for the mouse may have been carried out nevertheless; the loop is left because
`q` was pressed or `Quit` was received. -/
inductive UiEvent where
  | ok
  | fail (screen mouse : Bool)
  | quit
deriving DecidableEq, Repr

/-- Where the simulation thread (src/lib.rs:1007-1125) or the CSV thread (src/lib.rs:953-1004) is: running, ended, or ended
by a panic. -/
inductive Worker where
  | running
  | ended
  | panicked
deriving DecidableEq, Repr

/-- Where the main thread is (src/lib.rs:1128-1151): waiting for the simulation thread; for the CSV thread; telling the
monitoring thread and writing the logs; waiting for the terminal thread; behind `simulate!`; ended by a panic. -/
inductive Main where
  | joinSim
  | joinCsv
  | logs
  | joinUi
  | returned
  | panicked
deriving DecidableEq, Repr

/-- The process and its terminal (src/lib.rs:783-1151). -/
structure St where
  modes : Modes
  ui : Ui
  sim : Worker
  csv : Worker
  main : Main
deriving DecidableEq, Repr

/-- After the threads have been started (src/lib.rs:838, 953, 1007), in a terminal with the modes `m`. -/
def start (m : Modes) : St := ⟨m, .start, .running, .running, .joinSim⟩

/-- A panic of the terminal thread once `terminal` exists (src/lib.rs:844): it is dropped, which shows the cursor. -/
def uiPanic (s : St) : St := { s with ui := .panicked, modes := { s.modes with cursor := true } }

/-- One call of the terminal thread, src/lib.rs:840-845, 848-868, 871-878, 900-910. The result of `enable_raw_mode` is
thrown away (840). `ok` in the loop is an iteration that does not quit. -/
def uiStep (s : St) : UiEvent → St
  | .ok =>
    match s.ui with
    | .start => { s with ui := .entering, modes := { s.modes with raw := true } }
    | .entering => { s with ui := .creating, modes := { s.modes with alternate := true, mouse := true } }
    | .creating => { s with ui := .loop }
    | .loop => { s with modes := { s.modes with cursor := false } }
    | .quitting => { s with ui := .leaving, modes := { s.modes with raw := false } }
    | .leaving => { s with ui := .showing, modes := { s.modes with alternate := false, mouse := false } }
    | .showing => { s with ui := .ended, modes := { s.modes with cursor := true } }
    | .ended => s
    | .panicked => s
  | .fail screen mouse =>
    match s.ui with
    | .start => { s with ui := .entering }
    | .entering =>
      { s with
        ui := .panicked
        modes := { s.modes with alternate := s.modes.alternate || screen, mouse := s.modes.mouse || mouse } }
    | .creating => { s with ui := .panicked }
    | .loop => uiPanic s
    | .quitting => uiPanic s
    | .leaving =>
      uiPanic { s with
        modes := { s.modes with alternate := s.modes.alternate && !screen, mouse := s.modes.mouse && !mouse } }
    | .showing => uiPanic s
    | .ended => s
    | .panicked => s
  | .quit =>
    match s.ui with
    | .loop => { s with ui := .quitting, modes := { s.modes with cursor := false } }
    | _ => s

/-- The main thread goes on if it can, src/lib.rs:1128-1151; `ok` tells if the monitoring thread is there and the log file
can be written (1130-1148). -/
def mainStep (ok : Bool) (s : St) : St :=
  match s.main with
  | .joinSim =>
    match s.sim with
    | .running => s
    | .ended => { s with main := .joinCsv }
    | .panicked => { s with main := .panicked }
  | .joinCsv =>
    match s.csv with
    | .running => s
    | .ended => { s with main := .logs }
    | .panicked => { s with main := .panicked }
  | .logs => { s with main := if ok then .joinUi else .panicked }
  | .joinUi =>
    match s.ui with
    | .ended => { s with main := .returned }
    | .panicked => { s with main := .panicked }
    | _ => s
  | .returned => s
  | .panicked => s

/-- What can happen (src/lib.rs:838-1151): a call of the terminal thread, the end of the simulation thread or of the CSV
thread, with or without a panic, and a step of the main thread. -/
inductive Event where
  | ui (e : UiEvent)
  | sim (panics : Bool)
  | csv (panics : Bool)
  | main (ok : Bool)
deriving DecidableEq, Repr

/-- The end of a worker (src/lib.rs:1007-1125, 953-1004). -/
def Worker.stop (w : Worker) (panics : Bool) : Worker :=
  match w with
  | .running => if panics then .panicked else .ended
  | .ended => .ended
  | .panicked => .panicked

/-- One event (src/lib.rs:838-1151). When the main thread has panicked the process is gone and with it its threads. -/
def step (s : St) (e : Event) : St :=
  if s.main = .panicked then s
  else
    match e with
    | .ui e => uiStep s e
    | .sim p => { s with sim := s.sim.stop p }
    | .csv p => { s with csv := s.csv.stop p }
    | .main ok => mainStep ok s

/-- A run of the threads (src/lib.rs:838-1151). -/
def run (s : St) (es : List Event) : St := es.foldl step s

end Verif.TerminalModes
