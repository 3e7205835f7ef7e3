/-!
Model of the exchange of lengths in `message_exchange` (src/engine/fields/kdtree_mpi.rs:733-751), turn by turn: for each of its
neighbours, in order, a process posts the receive, starts a ready-mode send and waits for both.

Simplifications: the lengths themselves are left out. A turn is one call of MPI, or the end of a wait. A send is complete when the
receive is posted (an implementation may complete it earlier).
-/

namespace Verif.Exchange

/-- What a process has done for its current partner (src/engine/fields/kdtree_mpi.rs:734-750): nothing, posted the receive, or also
started the send. -/
inductive Stage where
  | start
  | posted
  | sent
deriving DecidableEq, Repr

/-- A process: the neighbours it has not finished with, in order, those it has finished with, the newest first, and its stage
(src/engine/fields/kdtree_mpi.rs:733-751). -/
structure Proc where
  todo : List Nat
  done : List Nat
  stage : Stage
deriving DecidableEq, Repr

/-- All processes (src/engine/fields/kdtree_mpi.rs:733-751). -/
abbrev Procs := Nat → Proc

/-- The beginning: `lists i` is `neighbor_trees` of process `i` (src/engine/fields/kdtree_mpi.rs:733). -/
def start (lists : Nat → List Nat) : Procs := fun i => ⟨lists i, [], .start⟩

/-- Process `i` has posted the receive from `j` (src/engine/fields/kdtree_mpi.rs:736-744). -/
def posted (s : Procs) (i j : Nat) : Bool :=
  (s i).done.contains j || ((s i).todo.head? == some j && (s i).stage != .start)

/-- Process `i` has started the send to `j` (src/engine/fields/kdtree_mpi.rs:745-749). -/
def sent (s : Procs) (i j : Nat) : Bool :=
  (s i).done.contains j || ((s i).todo.head? == some j && (s i).stage == .sent)

/-- The state with another process `i` (src/engine/fields/kdtree_mpi.rs:733-751). -/
def set (s : Procs) (i : Nat) (p : Proc) : Procs := fun k => if k = i then p else s k

/-- A turn of process `i` (src/engine/fields/kdtree_mpi.rs:733-751): posting, sending, or the end of the waits of the two guards,
which needs that the partner has sent, and has posted the receive for the send. `none`: it has finished, or has to wait. -/
def turn (s : Procs) (i : Nat) : Option Procs :=
  match (s i).todo with
  | [] => none
  | j :: rest =>
    match (s i).stage with
    | .start => some (set s i { s i with stage := .posted })
    | .posted => some (set s i { s i with stage := .sent })
    | .sent => if sent s j i && posted s j i then some (set s i ⟨rest, j :: (s i).done, .start⟩) else none

/-- Turns of the processes named, one after the other (src/engine/fields/kdtree_mpi.rs:733-751). -/
def run (s : Procs) : List Nat → Option Procs
  | [] => some s
  | i :: is =>
    match turn s i with
    | none => none
    | some s' => run s' is

/-- The next turn of process `i` is a ready-mode send (`immediate_ready_send_with_tag`, src/engine/fields/kdtree_mpi.rs:745-749)
whose receive is not posted. -/
def early (s : Procs) (i : Nat) : Bool :=
  match (s i).todo with
  | [] => false
  | j :: _ => (s i).stage == .posted && !posted s j i

/-- One of the turns is such a send (src/engine/fields/kdtree_mpi.rs:745-749). -/
def anyEarly (s : Procs) : List Nat → Bool
  | [] => false
  | i :: is =>
    early s i ||
      match turn s i with
      | none => false
      | some s' => anyEarly s' is

end Verif.Exchange
