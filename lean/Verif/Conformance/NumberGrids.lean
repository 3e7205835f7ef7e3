import Verif.Model.DenseNumberGrid
import Verif.Model.SparseNumberGrid

/-!
The tests of the number grids that krABMaga ships, run on the model. They are tests, not proofs: a model that answers differently
from the code in a case the shipped tests look at would fail here. `check` is `assert!`; a panic and a failed assertion are both
`none`. Where a test draws at random, the draw is a parameter and the examples try some draws.
-/

namespace Verif.Conformance

open Grid

/-- `assert!`. -/
def check (b : Bool) : Option Unit := if b then some () else none

/-- `for i in 0..WIDTH { for j in 0..HEIGHT` with both 10. -/
def locs10 : List Loc := cells 10 10

/-- tests/engine/dense_number_grid_2d.rs:31-88, `dense_number_grid_2d_apply`. The assertion inside the closure of READWRITE is
checked as: the closure only sees the value 1. -/
def denseNumberApply : Option Unit := do
  let g ← DenseNumber.new 10 10
  let g ← locs10.foldlM (fun g l => DenseNumber.setValueLocation g (0 : Nat) l) g
  let g := DenseNumber.lazyUpdate g
  let g := DenseNumber.applyToAllValues g (fun _ => 1) .WRITE
  let g := DenseNumber.lazyUpdate g
  let g := DenseNumber.applyToAllValues g (fun v => if v = 1 then v + 1 else 1000) .READWRITE
  let g := DenseNumber.lazyUpdate g
  let g := DenseNumber.applyToAllValues g (fun v => v + 1) .READ
  locs10.forM (fun l => do
    let v ← DenseNumber.getValue g l
    check (v == some 3))
  let g ← locs10.foldlM (fun g l => DenseNumber.setValueLocation g (l.x * l.y).toNat l) g
  let vs ← DenseNumber.iterValuesUnbuffered g
  vs.forM (fun e => do
    let v ← DenseNumber.getValueUnbuffered g e.1
    check (v == some e.2 && (e.1.x * e.1.y).toNat == e.2))
  let g := DenseNumber.lazyUpdate g
  let vs ← DenseNumber.iterValues g
  vs.forM (fun e => do
    let v ← DenseNumber.getValue g e.1
    check (v == some e.2 && (e.1.x * e.1.y).toNat == e.2))

example : denseNumberApply = some () := by decide +kernel

/-- tests/engine/dense_number_grid_2d.rs:97-165, `dense_number_grid_2d_bags`; `r` is the draw of `get_random_empty_bag`, `i` and
`j` are the two draws of the test. -/
def denseNumberBags (r : Nat) (i j : Int) : Option Unit := do
  let g ← DenseNumber.new 10 10
  let all ← DenseNumber.getEmptyBags (T := Nat) g
  check (all.length == 100)
  let loc ← DenseNumber.getRandomEmptyBag g (fun n => r % n)
  let loc ← loc
  let g ← DenseNumber.setValueLocation g 10 loc
  let v ← DenseNumber.getValueUnbuffered g loc
  check (v == some 10)
  let g ← DenseNumber.removeValueLocation g loc
  let v ← DenseNumber.getValueUnbuffered g loc
  check (v == none)
  let g ← DenseNumber.setValueLocation g 10 loc
  let g := DenseNumber.update g
  let all ← DenseNumber.getEmptyBags g
  check (all.length == 99)
  let g ← locs10.foldlM (fun g l => DenseNumber.setValueLocation g 0 l) g
  let loc ← DenseNumber.getLocationUnbuffered g 0
  check (loc == some ⟨0, 0⟩)
  let g ← DenseNumber.setValueLocation g 5 ⟨i, j⟩
  let loc2 ← DenseNumber.getLocationUnbuffered g 5
  check (loc2 == some ⟨i, j⟩)
  let loc ← DenseNumber.getLocationUnbuffered g 6
  check (loc == none)
  let g := DenseNumber.lazyUpdate g
  let loc ← DenseNumber.getLocation g 0
  check (loc == some ⟨0, 0⟩)
  let loc2 ← DenseNumber.getLocation g 5
  check (loc2 == some ⟨i, j⟩)
  let loc ← DenseNumber.getLocation g 6
  check (loc == none)
  let all ← DenseNumber.getEmptyBags g
  check (all.length == 0)

example : [0, 99].all (fun r => denseNumberBags r 4 7 == some ()) = true := by decide +kernel

example : [⟨1, 9⟩, ⟨9, 1⟩].all (fun (l : Loc) => denseNumberBags 42 l.x l.y == some ()) = true := by decide +kernel

/-- tests/engine/sparse_number_grid_2d.rs:34-108, `sparse_number_grid_2d`. The assertions inside the closures are checked as: the
closure only sees the value it expects. -/
def sparseNumber : Option Unit := do
  let g : SparseNumber.SGrid Nat := SparseNumber.new 10 10
  let g := locs10.foldl (fun g l => SparseNumber.setValueLocation g 0 l) g
  check ((SparseNumber.getEmptyBags g).length == 100)
  let g := SparseNumber.update g
  check ((SparseNumber.getEmptyBags g).length == 0)
  let g := SparseNumber.applyToAllValues g (fun _ => 1) .WRITE
  check ((SparseNumber.iterValuesUnbuffered g).all (fun e => e.2 == 1))
  let g := SparseNumber.lazyUpdate g
  check ((SparseNumber.iterValues g).all (fun e => e.2 == 1))
  let g := SparseNumber.applyToAllValues g (fun v => if v = 1 then v + 1 else 1000) .READWRITE
  let g := SparseNumber.update g
  let g := SparseNumber.applyToAllValues g (fun v => if v = 2 then v + 1 else 1000) .READ
  check ((SparseNumber.iterValuesUnbuffered g).all (fun e =>
    SparseNumber.getValueUnbuffered g e.1 == some e.2 && e.2 == 2))
  check ((SparseNumber.iterValues g).all (fun e => SparseNumber.getValue g e.1 == some e.2 && e.2 == 3))
  let g := locs10.foldl (fun g l => SparseNumber.setValueLocation g (l.x * l.y).toNat l) g
  let g := SparseNumber.lazyUpdate g
  check ((SparseNumber.iterValues g).all (fun e => SparseNumber.getValue g e.1 == some e.2 && (e.1.x * e.1.y).toNat == e.2))

example : sparseNumber = some () := by decide +kernel

/-- tests/engine/sparse_number_grid_2d.rs:116-178, `sparse_number_grid_2d_bags`; `draw` is the draw of `get_random_empty_bag`, `i`
and `j` are the two draws of the test. -/
def sparseNumberBags (draw : Loc) (i j : Int) : Option Unit := do
  let g : SparseNumber.SGrid Nat := SparseNumber.new 10 10
  check ((SparseNumber.getEmptyBags g).length == 100)
  let loc ← match SparseNumber.getRandomEmptyBag g [draw] with
    | .returned (some l) => some l
    | _ => none
  let g := SparseNumber.setValueLocation g 10 loc
  check (SparseNumber.getValueUnbuffered g loc == some 10)
  let g := SparseNumber.removeValueLocation g loc
  check (SparseNumber.getValueUnbuffered g loc == none)
  let g := SparseNumber.setValueLocation g 10 loc
  let g := SparseNumber.update g
  check ((SparseNumber.getEmptyBags g).length == 99)
  let g := locs10.foldl (fun g l => SparseNumber.setValueLocation g 0 l) g
  check (SparseNumber.getLocationUnbuffered g 0).isSome
  let g := SparseNumber.setValueLocation g 5 ⟨i, j⟩
  check (SparseNumber.getLocationUnbuffered g 5 == some ⟨i, j⟩)
  check (SparseNumber.getLocationUnbuffered g 6 == none)
  let g := SparseNumber.lazyUpdate g
  check (SparseNumber.getLocation g 0).isSome
  check (SparseNumber.getLocation g 5 == some ⟨i, j⟩)
  check (SparseNumber.getLocation g 6 == none)
  check ((SparseNumber.getEmptyBags g).length == 0)

example : [⟨0, 0⟩, ⟨9, 9⟩].all (fun d => sparseNumberBags d 4 7 == some ()) = true := by decide +kernel

example : [⟨1, 9⟩, ⟨9, 1⟩].all (fun (l : Loc) => sparseNumberBags ⟨4, 2⟩ l.x l.y == some ()) = true := by decide +kernel

end Verif.Conformance
