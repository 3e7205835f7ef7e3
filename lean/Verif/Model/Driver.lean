import Verif.Model.Schedule

/-!
Model of the macros that run a simulation: `simulate!`, `simulate_old!`, `simulate_mpi!` (src/lib.rs) and `simulate_explore!`
(src/explore/model_exploration.rs).

Simplifications: printing, timing, logs, plots and csv messages are left out (they do not influence the loop); the step
counts `u64`/`u32` are unbounded.
-/

namespace Verif.Driver

open Schedule

/-- The user's code: the agents and hooks (`model`), `init`, which fills the new schedule, and `end_condition`, which may
change the state and call the schedule. `zero` is the clock of a new schedule (src/engine/state.rs:9-29, src/lib.rs:1034-1035, 1044-1083). -/
structure Sim (T A S : Type) where
  model : Model T A S
  zero : T
  init : S → S × List (Cmd T A)
  endCondition : World T A S → Bool × S × List (Cmd T A)

variable {T A S : Type} [LinearOrder T]

/-- `Schedule::new()` and `state.init(&mut schedule)` (src/lib.rs:1034-1035, 1159-1160, 1508-1509, 1626-1627;
src/explore/model_exploration.rs:169-170). -/
def start (d : Sim T A S) (s : S) : World T A S :=
  World.execAll { state := (d.init s).1, sched := Sched.new d.zero, trace := [] } (d.init s).2

/-- `state.end_condition(&mut schedule)` (src/lib.rs:1163-1167). -/
def check (d : Sim T A S) (w : World T A S) : Bool × World T A S :=
  ((d.endCondition w).1, World.execAll { w with state := (d.endCondition w).2.1 } (d.endCondition w).2.2)

/-- The simulation loop (src/lib.rs:1162-1167, 1512-1518; src/explore/model_exploration.rs:173-179). -/
def loop (d : Sim T A S) : Nat → World T A S → World T A S
  | 0, w => w
  | n + 1, w =>
    if (check d (step d.model w)).1 then (check d (step d.model w)).2 else loop d n (check d (step d.model w)).2

/-- One repetition: `simulate_explore!` (src/explore/model_exploration.rs:161-191), one round of `simulate!` without terminal
(src/lib.rs:1158-1167) and of `simulate_old!` (src/lib.rs:1507-1518). -/
def runRep (d : Sim T A S) (n : Nat) (s : S) : World T A S := loop d n (start d s)

/-- The repetitions (src/lib.rs:1158-1168, 1507-1574): each starts with the state the previous one left. Returns the world at
the end of each. -/
def runReps (d : Sim T A S) (n : Nat) : Nat → S → List (World T A S)
  | 0, _ => []
  | r + 1, s => runRep d n s :: runReps d n r (runRep d n s).state

/-! ### `simulate!` with the terminal -/

/-- `MessageType` as far as it is put in `tui_operation` (src/lib.rs:698-712). -/
inductive Msg where
  | consumed
  | clear
  | afterStep
  | quit
deriving DecidableEq, Repr

/-- What the simulation thread and the terminal thread share: `tui_operation`, the messages in the channel, and whether the
receiver of the channel still exists. `sends` counts the sends (src/lib.rs:830-940). -/
structure Term where
  op : Msg
  pending : Nat
  alive : Bool
  sends : Nat

/-- Before the first message (src/lib.rs:834). -/
def Term.new : Term := { op := .consumed, pending := 0, alive := true, sends := 0 }

/-- One round of the terminal loop (src/lib.rs:881-935): without message nothing happens; a message makes it read
`tui_operation`, and `Quit` ends the thread. The user does not press `q`. -/
def uiRound (t : Term) : Term :=
  if t.alive = false ∨ t.pending = 0 then t
  else match t.op with
    | .afterStep => { t with pending := t.pending - 1, op := .consumed }
    | .quit => { t with pending := t.pending - 1, alive := false }
    | _ => { t with pending := t.pending - 1 }

/-- `n` rounds (src/lib.rs:881-935). -/
def uiRounds : Nat → Term → Term
  | 0, t => t
  | n + 1, t => uiRounds n (uiRound t)

/-- `*tui_operation = op; sender_ui.send(())`: the terminal makes `ui (2k)` rounds between the two and `ui (2k + 1)` rounds
after the send, `k` being the number of sends so far. The flag is whether the send succeeded (src/lib.rs:1024-1032, 1044-1083). -/
def post (ui : Nat → Nat) (op : Option Msg) (t : Term) : Term × Bool :=
  let t1 := uiRounds (ui (2 * t.sends)) { t with op := op.getD t.op }
  if t1.alive then (uiRounds (ui (2 * t.sends + 1)) { t1 with pending := t1.pending + 1, sends := t1.sends + 1 }, true)
  else ({ t1 with sends := t1.sends + 1 }, false)

/-- The simulation loop with the terminal (src/lib.rs:1044-1083). -/
def loopT (d : Sim T A S) (ui : Nat → Nat) : Nat → World T A S → Term → World T A S × Term
  | 0, w, t => (w, t)
  | n + 1, w, t =>
    if (post ui (some .afterStep) t).2 then
      if (check d (step d.model w)).1 then
        ((check d (step d.model w)).2, (post ui (some .quit) (post ui (some .afterStep) t).1).1)
      else loopT d ui n (check d (step d.model w)).2 (post ui (some .afterStep) t).1
    else (step d.model w, (post ui (some .afterStep) t).1)

/-- The repetitions with the terminal (src/lib.rs:1011-1120): a failed send before a repetition or after it ends them. -/
def runRepsT (d : Sim T A S) (ui : Nat → Nat) (n : Nat) : Nat → S → Term → List (World T A S)
  | 0, _, _ => []
  | r + 1, s, t =>
    if (post ui (some .clear) t).2 then
      (loopT d ui n (start d s) (post ui (some .clear) t).1).1 ::
        if (post ui none (loopT d ui n (start d s) (post ui (some .clear) t).1).2).2 then
          runRepsT d ui n r (loopT d ui n (start d s) (post ui (some .clear) t).1).1.state
            (post ui none (loopT d ui n (start d s) (post ui (some .clear) t).1).2).1
        else []
    else []

/-! ### `simulate_mpi!` -/

/-- The simulation loop at one process (src/lib.rs:1629-1635), with the number of calls of `world.barrier()`; the barrier is
not reached in a round in which the end condition holds. -/
def loopMpi (d : Sim T A S) : Nat → World T A S → World T A S × Nat
  | 0, w => (w, 0)
  | n + 1, w =>
    if (check d (step d.model w)).1 then ((check d (step d.model w)).2, 0)
    else ((loopMpi d n (check d (step d.model w)).2).1, (loopMpi d n (check d (step d.model w)).2).2 + 1)

/-- `simulate_mpi!` (src/lib.rs:1581-1698) at all processes, given by their drivers and states. The barriers are collective, as
is `MPI_Finalize` (line 1693), which is inside the loop over the repetitions: processes that make different numbers of barrier
calls wait for ever, and the second repetition calls MPI (line 1639, `world.rank()`) after it was finalized. Both are `none`. -/
def simulateMpi (ps : List (Sim T A S × S)) (n : Nat) : Nat → Option (List (World T A S))
  | 0 => some []
  | 1 =>
    if (ps.map (fun p => (loopMpi p.1 n (start p.1 p.2)).2)).all
        (fun k => decide (some k = (ps.map (fun p => (loopMpi p.1 n (start p.1 p.2)).2)).head?)) then
      some (ps.map (fun p => (loopMpi p.1 n (start p.1 p.2)).1))
    else none
  | _ + 2 => none

/-! ### The report of `simulate_old!` -/

/-- The number of decimal digits of `n`, the length of `n.to_string()` (src/lib.rs:1539-1545). -/
def digits (n : Nat) : Nat := if n < 10 then 1 else digits (n / 10) + 1

/-- `a - b` on `usize`: a panic below zero (with the overflow checks of a debug build) (src/lib.rs:1555, 1570). -/
def usub (a b : Nat) : Option Nat := if b ≤ a then some (a - b) else none

/-- The widths computed to print the line of a repetition (src/lib.rs:1539-1545, 1555, 1570; the same in
`simulate_mpi!`): `rate` is the number of steps per second rounded to an integer, and `secs` the integer part of the time (or
average time) in seconds, printed with four decimals. -/
def reportWidths (nStep reps rate secs : Nat) : Option (List Nat) :=
  match usub 14 (digits reps), (usub 15 (digits nStep)).bind (fun k => usub k (digits reps)), usub 13 (digits rate),
      usub 9 (digits secs + 5) with
  | some a, some b, some c, some e => some [a, b, c, e]
  | _, _, _, _ => none

/-! ### `check_reproducibility!` -/

/-- One recorded execution (src/lib.rs:1934-1945, 1953-1965): the agents returned by `get_all_events` after `init` and after
each step. -/
def recordLoop (d : Sim T A S) : Nat → World T A S → List (List A) × World T A S
  | 0, w => ([], w)
  | n + 1, w =>
    if (check d (step d.model w)).1 then ([(step d.model w).sched.getAllEvents], (check d (step d.model w)).2)
    else ((step d.model w).sched.getAllEvents :: (recordLoop d n (check d (step d.model w)).2).1,
      (recordLoop d n (check d (step d.model w)).2).2)

/-- A whole execution (src/lib.rs:1934-1965). -/
def record (d : Sim T A S) (n : Nat) (s : S) : List (List A) × World T A S :=
  ((start d s).sched.getAllEvents :: (recordLoop d n (start d s)).1, (recordLoop d n (start d s)).2)

/-- The comparison of two agents (src/lib.rs:1982-2001): for every listed type, if both are of that type and differ, the answer
is no; agents of other types, or of two different types, are not compared. `kind` is the dynamic type. -/
def sameAgent (kind : A → Nat) (equals : A → A → Bool) (listed : List Nat) (a b : A) : Bool :=
  listed.all (fun k => !(kind a == k && kind b == k && !equals a b))

/-- The comparison at one step (src/lib.rs:1971-2002); indexing the second execution panics if it is shorter. -/
def compareStep (kind : A → Nat) (equals : A → A → Bool) (listed : List Nat) (e1 e2 : List A) : Bool :=
  if e1.length = e2.length then (List.zipWith (sameAgent kind equals listed) e1 e2).all id else false

/-- The comparison of the executions (src/lib.rs:1969-2010): whether "The executions are equal" is printed. -/
def compareAll (kind : A → Nat) (equals : A → A → Bool) (listed : List Nat) : List (List A) → List (List A) → Option Bool
  | [], _ => some true
  | _ :: _, [] => none
  | e1 :: r1, e2 :: r2 =>
    if compareStep kind equals listed e1 e2 then compareAll kind equals listed r1 r2 else some false

/-- `check_reproducibility!` (src/lib.rs:1918-2012); `reset` is `state.reset()`. -/
def checkReproducibility (d : Sim T A S) (reset : S → S) (kind : A → Nat) (equals : A → A → Bool) (listed : List Nat)
    (n : Nat) (s : S) : Option Bool :=
  compareAll kind equals listed (record d n s).1 (record d n (reset (record d n s).2.state)).1

end Verif.Driver
