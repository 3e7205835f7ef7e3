import Verif.Model.Terminal

/-! Vocabulary for the properties of the terminal. -/

namespace Verif.Terminal

/-- The steps among the operations. -/
def tickOf : Op → Option Nat
  | .afterStep i => some i
  | _ => none

/-- The steps shown, in order. -/
def shownTicks (l : List Shown) : List Nat := l.filterMap (fun x => match x with | .tick i => some i | _ => none)

/-- The repetitions shown, in order. -/
def shownReps (l : List Shown) : List Nat := l.filterMap (fun x => match x with | .rep r => some r | _ => none)

/-- The steps of the repetitions: 0, 1, …, once per repetition. -/
def stepsOf (runs : List (Nat × Bool)) : List Nat := runs.flatMap (fun x => List.range x.1)

/-- The terminal has read the operation and not yet marked it consumed. -/
def Pc.holdsOp : Pc → Bool
  | .readOp _ => true
  | .both _ _ => true
  | .ticked _ => true
  | _ => false

/-- The terminal has read the repetition and not yet marked it consumed. -/
def Pc.holdsRep : Pc → Bool
  | .both _ _ => true
  | .ticked _ => true
  | .doRep _ => true
  | .repShown => true
  | _ => false

/-- The simulation thread does not write a slot while the terminal is between reading it and marking it consumed. -/
def CalmStep (s : St) : Actor → Prop
  | .ui => True
  | .sim => match s.script with
    | .setOp _ :: _ => s.pc.holdsOp = false
    | .setRep _ :: _ => s.pc.holdsRep = false
    | _ => True

/-- Every step of the interleaving is calm. -/
def Calm : St → List Actor → Prop
  | _, [] => True
  | s, a :: as => CalmStep s a ∧ Calm (step s a) as

end Verif.Terminal
