import Verif.Model.Monitor

/-!
Specification of plots, csv output and logs: what they should contain after a sequence of calls (the newest first), told from the
sequence alone.
-/

namespace Verif.MonitorSpec

open Monitor (Call LogEvent)

/-- The plot was added since the last clearing. -/
def known (name : String) : List Call → Bool
  | [] => false
  | .add n _ _ _ _ :: h => n == name || known name h
  | .point _ _ _ _ _ :: h => known name h
  | .clear :: _ => false

/-- The labels and the flag of the first call that added the plot since the last clearing. -/
def labels (name : String) : List Call → Option (String × String × Bool)
  | [] => none
  | .add n x y s _ :: h => (labels name h).or (if n = name then some (x, y, s) else none)
  | .point _ _ _ _ _ :: h => labels name h
  | .clear :: _ => none

/-- The points of a plot since the last clearing, with their series, in the order they were plotted. -/
def points (name : String) : List Call → List (String × Fl × Fl)
  | [] => []
  | .add _ _ _ _ _ :: h => points name h
  | .point n s x y _ :: h => if n = name ∧ known name h then points name h ++ [(s, x, y)] else points name h
  | .clear :: _ => []

/-- The points of one series. -/
def seriesPoints (name serie : String) (h : List Call) : List (Fl × Fl) :=
  ((points name h).filter (fun p => p.1 == serie)).map Prod.snd

/-- The points that should reach the csv thread. -/
def csvPoints : List Call → List (String × String × Fl × Fl)
  | [] => []
  | .point n s x y c :: h => if c ∧ known n h then csvPoints h ++ [(n, s, x, y)] else csvPoints h
  | _ :: h => csvPoints h

/-- A finite `f64`. -/
def IsFinite (x : Fl) : Prop := ∃ q : Rat, x = .fin q ∧ -((2 ^ 53 - 1) * 2 ^ 971) ≤ q ∧ q ≤ (2 ^ 53 - 1) * 2 ^ 971

/-- All logs of a sequence of events (the newest first), the newest first. -/
def allLogs {L : Type} : List (LogEvent L) → List L
  | [] => []
  | .log l :: h => l :: allLogs h
  | .newRep :: h => allLogs h

/-- The logs since the start of the current repetition, the newest first. -/
def currentLogs {L : Type} : List (LogEvent L) → List L
  | [] => []
  | .log l :: h => l :: currentLogs h
  | .newRep :: _ => []

open Monitor (UIEvent)

/-- One of these keys is pressed. -/
def isKey (keys : List Char) : UIEvent → Bool
  | .key c => keys.contains c
  | _ => false

/-- How often one of these keys is pressed. -/
def presses (keys : List Char) (es : List UIEvent) : Nat := es.countP (isKey keys)

/-- The repetitions reported, with their speeds, in order. -/
def reported (es : List UIEvent) : List (Nat × Nat) :=
  es.filterMap (fun e => match e with
    | .rep r s => some (r, s)
    | _ => none)

/-- How far the selection moves down. -/
def moves (es : List UIEvent) : Int := es.count .down - es.count .up

end Verif.MonitorSpec
