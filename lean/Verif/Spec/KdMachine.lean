import Verif.Model.KdMachine
import Verif.Spec.KdTree

/-!
Specification of the distributed field on machine floats: which fields can be subdivided without rounding, and what it means for
a layout of machine floats to be the layout of exact numbers.
-/

namespace Verif.KdMachine

open Machine

/-- A multiple of `2 ^ e` with at most 24 bits. -/
def Rep (e : Int) (q : Rat) : Prop := ∃ n : Int, |n| ≤ 2 ^ 24 ∧ q = n * (2 : Rat) ^ e

/-- The interval from `x` of length `w` can be halved `k` times without leaving the multiples of `2 ^ e`, and there are bits left
for a margin of `D` times `2 ^ e` at its end. -/
def Fit1 (D : Nat) (e : Int) (k : Nat) (x w : Rat) : Prop :=
  ∃ X W : Int, 0 ≤ X ∧ 0 ≤ W ∧ X + W * 2 ^ k + D ≤ 2 ^ 24 ∧ x = X * (2 : Rat) ^ e ∧ w = W * 2 ^ k * (2 : Rat) ^ e

/-- The box can be halved `k` times along each axis. -/
def Fit (D : Nat) (e : Int) (k : Nat) (t : KdTree.Tile) : Prop := Fit1 D e k t.x t.w ∧ Fit1 D e k t.y t.h

/-- A box of finite numbers. -/
def ofTile (t : KdTree.Tile) : Tile := ⟨.fin t.x, .fin t.y, .fin t.w, .fin t.h⟩

/-- A block of finite numbers. -/
def ofBlock (b : KdTree.Block) : Block := ⟨b.id, .fin b.x, .fin b.y, .fin b.width, .fin b.height⟩

/-- A layout of finite numbers. -/
def ofLayout (l : KdTree.Layout) : Layout :=
  { rank := l.rank, size := l.size, x := .fin l.x, y := .fin l.y, width := .fin l.width, height := .fin l.height,
    originalWidth := .fin l.originalWidth, originalHeight := .fin l.originalHeight, distance := .fin l.distance,
    subtrees := l.subtrees.map ofBlock, neighborTrees := l.neighborTrees, haloRegions := l.haloRegions.map ofBlock,
    neighborsHaloRegions := l.neighborsHaloRegions }

/-- The layout of a process on a field of finite numbers. -/
def layout (rnd : Rat → Rat) (rank size : Nat) (root : KdTree.Tile) (d : Rat) : Option Layout :=
  createTree rnd rank size 0 (ofTile root) (.fin d)

end Verif.KdMachine
