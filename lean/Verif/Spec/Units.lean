import Verif.Model.Field2D

/-!
Specification of C247: the unit of length does not matter.
-/

namespace Verif.Field2D

open Torus

variable {O : Type}

/-- The position in a unit that is `1 / c` of the old one. -/
def rescale (c : Rat) (p : Pos) : Pos := ⟨c * p.x, c * p.y⟩

/-- The same call in the new unit. -/
def FieldOp.rescale (c : Rat) : FieldOp O → FieldOp O
  | .place o l => .place o (Field2D.rescale c l)
  | .remove o l => .remove o (Field2D.rescale c l)
  | .update => .update
  | .lazyUpdate => .lazyUpdate

/-- What a program can ask a field. -/
structure Answers (O : Type) where
  near : (O → Pos) → Pos → Rat → Option (List O)
  relaxed : Pos → Rat → Option (List O)
  objects : Pos → Option (List O)
  unbuffered : Pos → Option (List O)
  number : Pos → Option Nat
  iter : Option (List (Pos × O))
  iterUnbuffered : Option (List (Pos × O))
  empty : Option (List Pos)

/-- The second answers are the first ones in the new unit, also where the program panics. -/
structure Answers.Same (c : Rat) (a b : Answers O) : Prop where
  near : ∀ locOf loc dist, b.near (fun o => rescale c (locOf o)) (rescale c loc) (c * dist) = a.near locOf loc dist
  relaxed : ∀ loc dist, b.relaxed (rescale c loc) (c * dist) = a.relaxed loc dist
  objects : ∀ loc, b.objects (rescale c loc) = a.objects loc
  unbuffered : ∀ loc, b.unbuffered (rescale c loc) = a.unbuffered loc
  number : ∀ loc, b.number (rescale c loc) = a.number loc
  iter : b.iter = a.iter.map (List.map (fun e => (rescale c e.1, e.2)))
  iterUnbuffered : b.iterUnbuffered = a.iterUnbuffered.map (List.map (fun e => (rescale c e.1, e.2)))
  empty : b.empty = a.empty.map (List.map (rescale c))

/-- The answers of a field (src/engine/fields/field_2d.rs:386-808). -/
def Field.answers [BEq O] (f : Field O) : Answers O where
  near := getNeighborsWithinDistance f
  relaxed := getNeighborsWithinRelaxDistance f
  objects := getObjects f
  unbuffered := getObjectsUnbuffered f
  number := numObjectsAtLocation f
  iter := iterObjects f
  iterUnbuffered := iterObjectsUnbuffered f
  empty := getEmptyBags f

/-- Both programs panic, or both come to an end with the same answers. -/
def SameRuns (c : Rat) (a b : Option (Answers O)) : Prop :=
  match a, b with
  | none, none => True
  | some a, some b => a.Same c b
  | _, _ => False

end Verif.Field2D
