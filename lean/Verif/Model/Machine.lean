import Verif.Model.Single
import Verif.Model.Torus

/-!
The values of `f32` with infinities and NaN, and the operations on them that src/engine/fields/field_2d.rs uses. `rnd` rounds the exact result (`single` for
the hardware), `root` is the rounded square root.

Simplification: -0 is 0, so that a division by -0 gives the infinity of the other sign.
-/

namespace Verif.Machine

/-- An `f32` (the type of the coordinates in src/engine/location.rs:17-20). -/
inductive F where
  | nan
  | inf (negative : Bool)
  | fin (q : Rat)
  deriving DecidableEq

/-- The largest finite `f32` (the type of the coordinates in src/engine/location.rs:17-20). -/
def largest : Rat := (2 ^ 24 - 1) * 2 ^ 104

/-- The result of an operation whose exact result is `q` (for instance src/engine/fields/field_2d.rs:985). -/
def ofRat (rnd : Rat → Rat) (q : Rat) : F :=
  if largest < rnd q then .inf false else if rnd q < -largest then .inf true else .fin (rnd q)

/-- `-a` (src/engine/fields/field_2d.rs:997). -/
def neg : F → F
  | .nan => .nan
  | .inf s => .inf (!s)
  | .fin q => .fin (-q)

/-- `a + b` (for instance src/engine/fields/field_2d.rs:985). -/
def add (rnd : Rat → Rat) : F → F → F
  | .fin p, .fin q => ofRat rnd (p + q)
  | .inf s, .fin _ => .inf s
  | .fin _, .inf s => .inf s
  | .inf s, .inf t => if s = t then .inf s else .nan
  | .nan, _ => .nan
  | _, .nan => .nan

/-- `a - b` (for instance src/engine/fields/field_2d.rs:982). -/
def sub (rnd : Rat → Rat) (a b : F) : F := add rnd a (neg b)

/-- `a * b` (for instance src/engine/fields/field_2d.rs:985). -/
def mul (rnd : Rat → Rat) : F → F → F
  | .fin p, .fin q => ofRat rnd (p * q)
  | .inf s, .fin q => if q = 0 then .nan else .inf (s != decide (q < 0))
  | .fin p, .inf s => if p = 0 then .nan else .inf (s != decide (p < 0))
  | .inf s, .inf t => .inf (s != t)
  | .nan, _ => .nan
  | _, .nan => .nan

/-- `a / b` (for instance src/engine/fields/field_2d.rs:329). -/
def div (rnd : Rat → Rat) : F → F → F
  | .fin p, .fin q => if q = 0 then (if p = 0 then .nan else .inf (decide (p < 0))) else ofRat rnd (p / q)
  | .inf s, .fin q => .inf (s != decide (q < 0))
  | .fin _, .inf _ => .fin 0
  | .inf _, .inf _ => .nan
  | .nan, _ => .nan
  | _, .nan => .nan

/-- `a % b` (src/engine/fields/field_2d.rs:1010). -/
def rem : F → F → F
  | .fin p, .fin q => if q = 0 then .nan else .fin (Torus.fmod p q)
  | .fin p, .inf _ => .fin p
  | .inf _, _ => .nan
  | .nan, _ => .nan
  | _, .nan => .nan

/-- `a <= b` (for instance src/engine/fields/field_2d.rs:428). -/
def le : F → F → Bool
  | .fin p, .fin q => decide (p ≤ q)
  | .inf s, .fin _ => s
  | .fin _, .inf s => !s
  | .inf s, .inf t => s || !t
  | .nan, _ => false
  | _, .nan => false

/-- `a < b` (for instance src/engine/fields/field_2d.rs:1011). -/
def lt : F → F → Bool
  | .fin p, .fin q => decide (p < q)
  | .inf s, .fin _ => s
  | .fin _, .inf s => !s
  | .inf s, .inf t => s && !t
  | .nan, _ => false
  | _, .nan => false

/-- `a.abs()` (src/engine/fields/field_2d.rs:989). -/
def abs : F → F
  | .nan => .nan
  | .inf _ => .inf false
  | .fin q => .fin |q|

/-- `a.min(b)` (src/engine/fields/field_2d.rs:949, 952): a NaN is ignored. -/
def min : F → F → F
  | .nan, b => b
  | a, .nan => a
  | a, b => if lt b a then b else a

/-- `a.floor()` (for instance src/engine/fields/field_2d.rs:329). -/
def floor : F → F
  | .fin q => .fin (q.floor : Int)
  | a => a

/-- `a.ceil()` (for instance src/engine/fields/field_2d.rs:396). -/
def ceil : F → F
  | .fin q => .fin (q.ceil : Int)
  | a => a

/-- `a.sqrt()` (src/engine/fields/field_2d.rs:985). -/
def sqrt (root : Rat → Rat) : F → F
  | .nan => .nan
  | .inf s => if s then .nan else .inf false
  | .fin q => if q < 0 then .nan else .fin (root q)

/-- `a as i32`, saturating, NaN gives 0 (for instance src/engine/fields/field_2d.rs:330). -/
def toI32 : F → Int
  | .nan => 0
  | .inf s => if s then -2 ^ 31 else 2 ^ 31 - 1
  | .fin q => Max.max (-2 ^ 31) (Min.min (if 0 ≤ q then q.floor else q.ceil) (2 ^ 31 - 1))

/-- `a as usize`, saturating, NaN gives 0 (src/engine/fields/field_2d.rs:307-309). -/
def toUsize : F → Nat
  | .nan => 0
  | .inf s => if s then 0 else 2 ^ 64 - 1
  | .fin q => Min.min q.floor.toNat (2 ^ 64 - 1)

end Verif.Machine
