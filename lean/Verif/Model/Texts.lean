import Mathlib.Algebra.Order.Field.Rat

/-!
Model of the `Display` implementations of the engine: locations, priorities, scheduled agents. Texts are lists of characters. The decimal
text of a float that is not negative is a parameter (`core::fmt`, the shortest decimal that reads back as the same float); its sign, and the texts
of the values that are no numbers, are as in `core::fmt`.
-/

namespace Verif.Texts

/-- An `f32`, with the sign of zero (the type of src/engine/location.rs:17-20 and src/engine/priority.rs:7-10). -/
inductive Float32 where
  | nan
  | inf (negative : Bool)
  | num (negative : Bool) (size : Rat)
  deriving DecidableEq

/-- The number. -/
def Float32.value (negative : Bool) (size : Rat) : Rat := if negative then -size else size

/-- `==` on `f32` (used in src/engine/location.rs:32 and src/engine/priority.rs:50). -/
def Float32.eq : Float32 → Float32 → Bool
  | .inf s, .inf t => s == t
  | .num s p, .num t q => Float32.value s p == Float32.value t q
  | _, _ => false

/-- `-` before a negative number. -/
def sign (negative : Bool) (text : List Char) : List Char := if negative then '-' :: text else text

/-- `{}` for `f32` (used in src/engine/location.rs:24 and src/engine/priority.rs:56). -/
def ofFloat (dec : Rat → List Char) : Float32 → List Char
  | .nan => "NaN".toList
  | .inf s => sign s "inf".toList
  | .num s q => sign s (dec q)

/-- `{}` for `i32` (used in src/engine/location.rs:45 and src/engine/priority.rs:56). -/
def ofInt (i : Int) : List Char := sign (decide (i < 0)) (Nat.toDigits 10 i.natAbs)

/-- `{}` for `u32` (used in src/engine/agentimpl.rs:39). -/
def ofNat (n : Nat) : List Char := Nat.toDigits 10 n

/-- `{}` for `bool` (used in src/engine/agentimpl.rs:39). -/
def ofBool (b : Bool) : List Char := if b then "true".toList else "false".toList

/-- `"{} {}"`. -/
def two (a b : List Char) : List Char := a ++ ' ' :: b

/-- `Display` of `Int2D` (src/engine/location.rs:43-47). -/
def int2D (p : Int × Int) : List Char := two (ofInt p.1) (ofInt p.2)

/-- `Display` of `Real2D` (src/engine/location.rs:22-26). -/
def real2D (dec : Rat → List Char) (p : Float32 × Float32) : List Char := two (ofFloat dec p.1) (ofFloat dec p.2)

/-- `==` on `Real2D` (src/engine/location.rs:30-34). -/
def real2DEq (p q : Float32 × Float32) : Bool := p.1.eq q.1 && p.2.eq q.2

/-- `Display` of `Priority`: time and ordering (src/engine/priority.rs:54-58). -/
def priority (dec : Rat → List Char) (p : Float32 × Int) : List Char := two (ofFloat dec p.1) (ofInt p.2)

/-- `==` on `Priority` (src/engine/priority.rs:48-52). -/
def priorityEq (p q : Float32 × Int) : Bool := p.2 == q.2 && p.1.eq q.1

/-- `Display` of `AgentImpl`: id and whether it repeats (src/engine/agentimpl.rs:37-41). -/
def agentImpl (a : Nat × Bool) : List Char := two (ofNat a.1) (ofBool a.2)

/-- `Display` of `Pair` (src/engine/schedule.rs:73-77, 254-258). -/
def pair (dec : Rat → List Char) (a : Nat × Bool) (p : Float32 × Int) : List Char :=
  "agent: ".toList ++ agentImpl a ++ " priority: ".toList ++ priority dec p

end Verif.Texts
