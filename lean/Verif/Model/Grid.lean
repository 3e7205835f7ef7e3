/-!
What the four 2D grids share: locations, the double loop over the cells, and indexing of the flat vectors
of the dense grids.
-/

namespace Verif.Grid

/-- `Int2D` (src/engine/location.rs:36-41), `==` compares both coordinates (51-55). `i32` overflow is not
modelled. -/
structure Loc where
  x : Int
  y : Int
  deriving DecidableEq, Repr

/-- `GridOption` (src/engine/fields/grid_option.rs:3-10). -/
inductive GridOption where
  | READ
  | WRITE
  | READWRITE
  deriving DecidableEq

/-- The cells visited by `for i in 0..width { for j in 0..height { .. } }`, in this order (for instance
src/engine/fields/dense_number_grid_2d.rs:219-220). A range with a non-positive end is empty. -/
def cells (width height : Int) : List Loc :=
  (List.range width.toNat).flatMap (fun (i : Nat) => (List.range height.toNat).map (fun (j : Nat) => ⟨i, j⟩))

/-- `v[((loc.x * height) + loc.y) as usize]` (for instance src/engine/fields/dense_number_grid_2d.rs:351-353);
`none` is an out of bounds panic. A negative index becomes a huge `usize`, hence out of bounds. -/
def vecGet {α : Type} (v : List α) (height : Int) (loc : Loc) : Option α :=
  if 0 ≤ loc.x * height + loc.y then v[(loc.x * height + loc.y).toNat]? else none

/-- `v[((loc.x * height) + loc.y) as usize] = a` (for instance
src/engine/fields/dense_number_grid_2d.rs:493-495); `none` is an out of bounds panic. -/
def vecSet {α : Type} (v : List α) (height : Int) (loc : Loc) (a : α) : Option (List α) :=
  if 0 ≤ loc.x * height + loc.y ∧ (loc.x * height + loc.y).toNat < v.length then
    some (v.set (loc.x * height + loc.y).toNat a)
  else none

/-- The first cell of the list whose element satisfies `p`, as found by the nested loops with `return`
(for instance src/engine/fields/dense_number_grid_2d.rs:217-228); `none` is a panic. -/
def findCell {α : Type} (v : List α) (height : Int) (p : α → Bool) : List Loc → Option (Option Loc)
  | [] => some none
  | c :: cs =>
    match vecGet v height c with
    | none => none
    | some e => if p e then some (some c) else findCell v height p cs

/-- Collects `f cell element` over the cells (for instance
src/engine/fields/dense_number_grid_2d.rs:290-301); `none` is a panic. -/
def collect {α β : Type} (v : List α) (height : Int) (f : Loc → α → List β) : List Loc → Option (List β)
  | [] => some []
  | c :: cs =>
    match vecGet v height c with
    | none => none
    | some e => (collect v height f cs).map (fun r => f c e ++ r)

/-- The outcome of a rejection-sampling loop after a given list of draws (src/engine/fields/sparse_number_grid_2d.rs:307-322). -/
inductive Draw where
  /-- `gen_range` panics on an empty range. -/
  | panic
  /-- The loop has consumed the draws and goes on. -/
  | looping
  /-- The loop returned this answer. -/
  | returned (r : Option Loc)
  deriving DecidableEq

end Verif.Grid
