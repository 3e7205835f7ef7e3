/-!
What it means for code to panic on a `RefCell`. Nothing here comes from the code: it is the meaning of
`std::cell::RefCell`. `borrow` panics while the cell is mutably borrowed, `borrow_mut` panics while it is borrowed in
any way, and a borrow ends when its guard is dropped.
-/

namespace Verif.Borrows

/-- What code does to cells. -/
inductive Act (C : Type) where
  | borrow (c : C)
  | borrowMut (c : C)
  | release (c : C)

variable {C : Type} [DecidableEq C]

/-- The borrows that are out, `true` for mutable ones; `none` is a panic. -/
def run : List (C × Bool) → List (Act C) → Option (List (C × Bool))
  | out, [] => some out
  | out, .borrow c :: p => if (c, true) ∈ out then none else run ((c, false) :: out) p
  | out, .borrowMut c :: p => if (c, true) ∈ out ∨ (c, false) ∈ out then none else run ((c, true) :: out) p
  | out, .release c :: p => run (out.eraseP fun x => x.1 = c) p

/-- The code panics when it starts with nothing borrowed. -/
def Panics (p : List (Act C)) : Prop := run [] p = none

/-- The code runs to its end and gives back every borrow. -/
def RunsClean (p : List (Act C)) : Prop := run [] p = some []

end Verif.Borrows
