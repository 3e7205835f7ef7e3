import Verif.Spec.Grid
import Verif.Model.ParGrid
import Mathlib.Logic.Function.Iterate

/-!
Specification of a trail on a number grid (pheromones): in every step numbers are deposited in some cells, then all numbers evaporate
by a closure given to `apply_to_all_values` with READWRITE, then the grid is published. Steps are listed newest first, and so are the
deposits of a step.
-/

namespace Verif.Scent

open Grid

variable {T : Type}

/-- The program of the steps; `fast` publishes with `lazy_update`, otherwise with `update`. -/
def trail (fast : Bool) (f : T → T) : List (List (T × Loc)) → List (NumOp T)
  | [] => []
  | d :: ds => (if fast then .lazyUpdate else .update) :: .apply f .READWRITE :: (d.map (fun p => .set p.1 p.2) ++ trail fast f ds)

/-- The same calls with the feature `parallel`. -/
def parTrail (fast : Bool) (f : T → T) : List (List (T × Loc)) → List (ParGrid.NOp T)
  | [] => []
  | d :: ds => (if fast then .lazyUpdate else .update) :: .apply f .READWRITE :: (d.map (fun p => .set p.1 p.2) ++ parTrail fast f ds)

/-- What was deposited last in a cell in one step. -/
def deposit (d : List (T × Loc)) (l : Loc) : Option T := (d.find? (fun p => decide (p.2 = l))).map Prod.fst

/-- The latest deposit in a cell: how many steps ago, and the number. -/
def latest : List (List (T × Loc)) → Loc → Option (Nat × T)
  | [], _ => none
  | d :: ds, l =>
    match deposit d l with
    | some v => some (0, v)
    | none => (latest ds l).map (fun p => (p.1 + 1, p.2))

/-- The trail: the latest deposit, evaporated once in every step since, the step of the deposit included. -/
def scent (f : T → T) (ds : List (List (T × Loc))) (l : Loc) : Option T := (latest ds l).map (fun p => f^[p.1 + 1] p.2)

/-- The trail if a number does not evaporate in the step in which it is deposited in a cell that was empty. -/
def lateScent (f : T → T) (ds : List (List (T × Loc))) (l : Loc) : Option T :=
  (latest ds l).map (fun p => f^[if (latest (ds.drop (p.1 + 1)) l).isSome then p.1 + 1 else p.1] p.2)

end Verif.Scent
