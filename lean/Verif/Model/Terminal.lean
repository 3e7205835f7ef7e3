import Mathlib.Data.List.Basic

/-!
Model of the conversation between the simulation thread and the terminal thread of `simulate!` with the terminal
(src/lib.rs:830-940, 1011-1120). They share two slots behind a mutex each, `tui_operation` and `tui_reps`, and a channel of
empty messages. Every access to a slot takes its lock for one read or one write, so these, the sends and the receives are
the atomic steps. No key is pressed; drawing and the csv thread are left out, as are the times in the messages.
-/

namespace Verif.Terminal

/-- What is put in `tui_operation` (src/lib.rs:706-716): `AfterStep` with the number of the step. -/
inductive Op where
  | consumed
  | clear
  | afterStep (i : Nat)
  | quit
deriving DecidableEq, Repr

/-- What the user sees: `on_tick`, `terminal.clear` and `on_rep` (src/lib.rs:890-930). -/
inductive Shown where
  | tick (i : Nat)
  | cleared
  | rep (r : Nat)
deriving DecidableEq, Repr

/-- What the simulation thread does to the shared data (src/lib.rs:1024-1115). -/
inductive Act where
  | setOp (o : Op)
  | setRep (r : Nat)
  | send
deriving DecidableEq, Repr

/-- Where the terminal thread is in its loop (src/lib.rs:846-935): before `try_recv`; with a message; having read the
operation; having read both; having called `on_tick`; about to look at the repetition; having called `on_rep`; ended. -/
inductive Pc where
  | idle
  | received
  | readOp (o : Op)
  | both (o : Op) (r : Option Nat)
  | ticked (r : Option Nat)
  | doRep (r : Option Nat)
  | repShown
  | dead
deriving DecidableEq, Repr

/-- The state: what the simulation thread still has to do, the two slots (`none` is `Consumed`), the messages in the
channel and the place of the terminal thread (src/lib.rs:834-846). The other members are a record of what has happened:
what was shown, what was put in the slots, and the numbers of messages sent and received. -/
structure St where
  script : List Act
  op : Op
  rep : Option Nat
  pending : Nat
  pc : Pc
  shown : List Shown
  ops : List Op
  reps : List Nat
  sent : Nat
  got : Nat
deriving DecidableEq, Repr

/-- Before the threads start (src/lib.rs:834-835). -/
def start (script : List Act) : St := ⟨script, .consumed, none, 0, .idle, [], [], [], 0, 0⟩

/-- Repetition `r` of `steps` steps, `ended` if the last of them met the end condition (src/lib.rs:1022-1115). -/
def repScript (r steps : Nat) (ended : Bool) : List Act :=
  [.setOp .clear, .send] ++ (List.range steps).flatMap (fun i => [.setOp (.afterStep i), .send]) ++
    (if ended then [.setOp .quit, .send] else []) ++ [.setRep r, .send]

/-- The repetitions from number `r` on (src/lib.rs:1011-1118). -/
def script : Nat → List (Nat × Bool) → List Act
  | _, [] => []
  | r, x :: xs => repScript r x.1 x.2 ++ script (r + 1) xs

/-- One step of the simulation thread (src/lib.rs:1022-1115). A failed send ends the repetitions; what it still writes to
the slots then is left out, nobody reads it. -/
def simStep (s : St) : St :=
  match s.script with
  | [] => s
  | .setOp o :: rest => { s with script := rest, op := o, ops := s.ops ++ [o] }
  | .setRep r :: rest => { s with script := rest, rep := some r, reps := s.reps ++ [r] }
  | .send :: rest =>
    if s.pc = .dead then { s with script := [] }
    else { s with script := rest, pending := s.pending + 1, sent := s.sent + 1 }

/-- One step of the terminal thread (src/lib.rs:879-935). `try_recv` answers `Disconnected` when the simulation thread has
ended and the channel is empty, and is then treated like a message. -/
def uiStep (s : St) : St :=
  match s.pc with
  | .dead => s
  | .idle =>
    if 0 < s.pending then { s with pending := s.pending - 1, got := s.got + 1, pc := .received }
    else if s.script = [] then { s with pc := .received }
    else s
  | .received => { s with pc := .readOp s.op }
  | .readOp o => { s with pc := .both o s.rep }
  | .both (.afterStep i) r => { s with shown := s.shown ++ [.tick i], pc := .ticked r }
  | .both .clear r => { s with shown := s.shown ++ [.cleared], pc := .doRep r }
  | .both .quit _ => { s with pc := .dead }
  | .both .consumed r => { s with pc := .doRep r }
  | .ticked r => { s with op := .consumed, pc := .doRep r }
  | .doRep (some r) => { s with shown := s.shown ++ [.rep r], pc := .repShown }
  | .doRep none => { s with pc := .idle }
  | .repShown => { s with rep := none, pc := .idle }

/-- Which thread makes the next step (src/lib.rs:838, 1007). -/
inductive Actor where
  | sim
  | ui
deriving DecidableEq, Repr

/-- One step of either thread (src/lib.rs:830-1120). -/
def step (s : St) : Actor → St
  | .sim => simStep s
  | .ui => uiStep s

/-- An interleaving of the two threads (src/lib.rs:830-1120). -/
def run (s : St) (as : List Actor) : St := as.foldl step s

end Verif.Terminal
