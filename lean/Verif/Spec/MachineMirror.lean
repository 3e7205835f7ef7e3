import Verif.Spec.ParMirror
import Verif.Model.ParMachineField

/-!
The two axes exchanged, with machine floats.
-/

namespace Verif.Machine

open Grid ParGrid
open DenseI32 (Mode)

/-- The position with its coordinates exchanged. -/
def PosF.mirror (p : PosF) : PosF := ⟨p.y, p.x⟩

/-- The call at the position with its coordinates exchanged. -/
def OpF.mirror {O : Type} : OpF O → OpF O
  | .place o l => .place o l.mirror
  | .remove o l => .remove o l.mirror
  | .update => .update
  | .lazyUpdate => .lazyUpdate

/-- The answers of a field and of the one with the axes exchanged, at the positions `P` and with the distances `Q`. -/
structure FieldF.MirrorAnswers {O : Type} (rnd root : Rat → Rat) (m : Mode) (P : PosF → Prop) (Q : F → Prop) (f f' : FieldF O) : Prop where
  objects : ∀ p, P p → ∃ b, getObjects rnd m f p = some b ∧ getObjects rnd m f' p.mirror = some b
  objectsUnbuffered : ∀ p, P p → ∃ b, getObjectsUnbuffered rnd m f p = some b ∧ getObjectsUnbuffered rnd m f' p.mirror = some b
  number : ∀ p, P p → ∃ n, numObjectsAtLocation rnd m f p = some n ∧ numObjectsAtLocation rnd m f' p.mirror = some n
  near : ∀ locOf p dis, P p → Q dis → ∃ r r', getNeighborsWithinDistance rnd root m f locOf p dis = some r ∧
    getNeighborsWithinDistance rnd root m f' (fun o => (locOf o).mirror) p.mirror dis = some r' ∧ r.Perm r'
  around : ∀ p dis, P p → Q dis → ∃ r r', getNeighborsWithinRelaxDistance rnd m f p dis = some r ∧
    getNeighborsWithinRelaxDistance rnd m f' p.mirror dis = some r' ∧ r.Perm r'
  density : f'.density = f.density

end Verif.Machine

namespace Verif.ParMachine

open Grid ParGrid Machine
open DenseI32 (Mode)

variable {O I : Type} [DecidableEq I]

/-- The call at the position with its coordinates exchanged. -/
def ROpF.mirror : ROpF O → ROpF O
  | .place o l => .place o l.mirror
  | .update => .update
  | .lazyUpdate => .lazyUpdate

/-- The answers of a field and of the one with the axes exchanged; the neighbours may come in another order. -/
structure PFieldF.MirrorAnswers (rnd root : Rat → Rat) (m : Mode) (size : Nat) (ident : O → I) (f f' : PFieldF O I) : Prop where
  location : ∀ o, getLocation f' ident o = (getLocation f ident o).map (Option.map PosF.mirror)
  objects : ∀ p, getObjects rnd f' p.mirror = getObjects rnd f p
  numberAt : ∀ p, numObjectsAtLocation rnd f' p.mirror = numObjectsAtLocation rnd f p
  near : ∀ (locOf : O → PosF) (p : PosF) (dis : F), Both List.Perm (getNeighborsWithinDistance rnd root m size f locOf p dis)
    (getNeighborsWithinDistance rnd root m size f' (fun o => (locOf o).mirror) p.mirror dis)
  around : ∀ (p : PosF) (dis : F), Both List.Perm (getNeighborsWithinRelaxDistance rnd m size f p dis)
    (getNeighborsWithinRelaxDistance rnd m size f' p.mirror dis)

end Verif.ParMachine
