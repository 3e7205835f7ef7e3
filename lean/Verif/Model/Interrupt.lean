import Verif.Model.Driver

/-!
Model of `simulate!` with the terminal (src/lib.rs:838-940, 1007-1125) when the user may press `q` at any time. The terminal thread is that of
Model/Driver with a key in every round; what the simulation thread does is recorded.
-/

namespace Verif.Driver

open Schedule

/-- The shared data of Model/Driver, and whether it was the user who ended the terminal thread (src/lib.rs:838-940). -/
structure Screen where
  term : Term
  user : Bool

/-- Before the first message (src/lib.rs:834-838). -/
def Screen.new : Screen := ⟨Term.new, false⟩

/-- A round of the terminal loop (src/lib.rs:847-935): first the key, `q` or another one (849-879), then the message. -/
def Screen.round (x : Screen) (q : Bool) : Screen :=
  if x.term.alive = false then x
  else if q then ⟨⟨x.term.op, x.term.pending, false, x.term.sends⟩, true⟩
  else ⟨uiRound x.term, x.user⟩

/-- Some rounds (src/lib.rs:847-935). -/
def Screen.rounds (x : Screen) (qs : List Bool) : Screen := qs.foldl Screen.round x

/-- `*tui_operation = op` (src/lib.rs:1019-1022, 1051-1057, 1072-1075). -/
def Screen.put (x : Screen) (op : Option Msg) : Screen := ⟨⟨op.getD x.term.op, x.term.pending, x.term.alive, x.term.sends⟩, x.user⟩

/-- The channel after a send (src/lib.rs:1025): a message more, if there is a receiver. -/
def Screen.send (x : Screen) : Screen :=
  ⟨⟨x.term.op, if x.term.alive then x.term.pending + 1 else x.term.pending, x.term.alive, x.term.sends + 1⟩, x.user⟩

/-- `*tui_operation = op; sender_ui.send(())` as `post` in Model/Driver, the lists being the keys in the rounds of the terminal before
and after the send (src/lib.rs:1019-1031, 1050-1083, 1101-1116). -/
def postQ (ui : Nat → List Bool) (op : Option Msg) (x : Screen) : Screen × Bool :=
  if ((x.put op).rounds (ui (2 * x.term.sends))).term.alive then
    (((x.put op).rounds (ui (2 * x.term.sends))).send.rounds (ui (2 * x.term.sends + 1)), true)
  else (((x.put op).rounds (ui (2 * x.term.sends))).send, false)

/-- What the simulation thread does: `init` of a repetition (1034); a step (1047); a send, successful or not; the log `Simulation interrupted by
user` (1028, 1064, 1079, 1112); the end of a repetition, with its csv message and its pictures (1090-1103). -/
inductive Did where
  | begin (r : Nat)
  | step
  | send (ok : Bool)
  | interrupted
  | results (r : Nat)
deriving DecidableEq, Repr

variable {T A S : Type} [LinearOrder T]

/-- What is done about a send (src/lib.rs:1025-1031, 1060-1067, 1076-1082, 1108-1115). -/
def sent (ok : Bool) : List Did := if ok then [.send true] else [.send false, .interrupted]

/-- The simulation loop (src/lib.rs:1044-1086). -/
def loopQ (d : Sim T A S) (ui : Nat → List Bool) : Nat → World T A S → Screen → World T A S × Screen × List Did
  | 0, w, x => (w, x, [])
  | n + 1, w, x =>
    if (postQ ui (some .afterStep) x).2 then
      if (check d (step d.model w)).1 then
        ((check d (step d.model w)).2, (postQ ui (some .quit) (postQ ui (some .afterStep) x).1).1,
          .step :: sent true ++ sent (postQ ui (some .quit) (postQ ui (some .afterStep) x).1).2)
      else
        ((loopQ d ui n (check d (step d.model w)).2 (postQ ui (some .afterStep) x).1).1,
          (loopQ d ui n (check d (step d.model w)).2 (postQ ui (some .afterStep) x).1).2.1,
          .step :: sent true ++ (loopQ d ui n (check d (step d.model w)).2 (postQ ui (some .afterStep) x).1).2.2)
    else (step d.model w, (postQ ui (some .afterStep) x).1, .step :: sent false)

/-- The repetitions from number `r` on, `m` of them (src/lib.rs:1011-1118): the world at the end of each, the terminal, and what was done. -/
def repsQ (d : Sim T A S) (ui : Nat → List Bool) (n : Nat) : Nat → Nat → S → Screen → List (World T A S) × Screen × List Did
  | _, 0, _, x => ([], x, [])
  | r, m + 1, s, x =>
    if (postQ ui (some .clear) x).2 then
      match loopQ d ui n (start d s) (postQ ui (some .clear) x).1 with
      | (w, x1, did) =>
        if (postQ ui none x1).2 then
          match repsQ d ui n (r + 1) m w.state (postQ ui none x1).1 with
          | (ws, x2, more) => (w :: ws, x2, sent true ++ .begin r :: did ++ .results r :: sent true ++ more)
        else ([w], (postQ ui none x1).1, sent true ++ .begin r :: did ++ .results r :: sent false)
    else ([], (postQ ui (some .clear) x).1, sent false)

/-- `simulate!` with the terminal (src/lib.rs:838-1125). -/
def simulateQ (d : Sim T A S) (ui : Nat → List Bool) (n reps : Nat) (s : S) : List (World T A S) × Screen × List Did :=
  repsQ d ui n 0 reps s Screen.new

end Verif.Driver
