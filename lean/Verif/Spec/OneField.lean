import Verif.Spec.Distributed

/-!
The same kind of model as in `Verif.Spec.Distributed` on an ordinary toroidal `Field2D`, without MPI, as its author writes it with the
calls of the library: the agents look around, act and are placed one after the other; then comes `lazy_update`. `none` is a panic.
-/

namespace Verif.KdTree

open Torus

variable {O : Type}

/-- The agents look, act and are placed one after the other. -/
def fieldTurns (m : Rule O) (f : Field2D.Field O) : List O → Option (Field2D.Field O × List O)
  | [] => some (f, [])
  | a :: as =>
    (Field2D.getNeighborsWithinDistance f m.locOf (m.locOf a) m.sight).bind (fun ns =>
      (Field2D.setObjectLocation f (m.act a ns) (m.locOf (m.act a ns))).bind (fun f' =>
        (fieldTurns m f' as).map (fun r => (r.1, m.act a ns :: r.2))))

/-- A step. -/
def fieldStep (m : Rule O) (s : Field2D.Field O × List O) : Option (Field2D.Field O × List O) :=
  (fieldTurns m s.1 s.2).bind (fun r => (Field2D.lazyUpdate r.1).map (fun f => (f, r.2)))

/-- All agents are placed. -/
def placeAll (m : Rule O) (f : Field2D.Field O) : List O → Option (Field2D.Field O)
  | [] => some f
  | a :: as => (Field2D.setObjectLocation f a (m.locOf a)).bind (fun f' => placeAll m f' as)

/-- The field and the agents after a number of steps. -/
def fieldRun (m : Rule O) (w h disc : Rat) (as : List O) : Nat → Option (Field2D.Field O × List O)
  | 0 => (placeAll m (Field2D.new w h disc true) as).bind (fun f => (Field2D.lazyUpdate f).map (fun f' => (f', as)))
  | n + 1 => (fieldRun m w h disc as n).bind (fieldStep m)

/-- What an agent does does not depend on what is exactly where it is itself: itself, and others at the same point. -/
def Blind (m : Rule O) : Prop := ∀ a l, m.act a l = m.act a (l.filter (fun e => decide (m.locOf e ≠ m.locOf a)))

end Verif.KdTree
