import Verif.Spec.KdTree

/-!
Programs that insert agents into the block of a process and remove them again.
-/

namespace Verif.KdTree

open Torus

variable {O : Type} [BEq O]

/-- A call on the own block between two updates. -/
inductive BlockCall (O : Type) where
  | insert (a : O) (p : Pos)
  | remove (a : O) (p : Pos)

/-- The calls of a program, oldest first. -/
def runCalls (t : Tree O) : List (BlockCall O) → Option (Tree O)
  | [] => some t
  | .insert a p :: cs => (insert t a p).bind (fun t' => runCalls t' cs)
  | .remove a p :: cs => (removeObjectLocation t a p).bind (fun t' => runCalls t' cs)

/-- The program without its removals. -/
def inserted : List (BlockCall O) → List (O × Pos)
  | [] => []
  | .insert a p :: cs => (a, p) :: inserted cs
  | .remove _ _ :: cs => inserted cs

end Verif.KdTree
