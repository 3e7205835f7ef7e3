import Verif.Model.Frame

/-!
What the file of an exploration should show: every argument of a row below the name of its field.
-/

namespace Verif.Frame

/-- The heading of a field. -/
def heading (f : String) : String :=
  if f = "conf_num" then "Simulation"
  else if f = "conf_rep" then "Run"
  else if f = "run_duration" then "Run Duration"
  else if f = "step_per_sec" then "Step per sec"
  else f

/-- The value of the field of a name, where fields and values are listed in one order. -/
def valueOf {V : Type} (names : List String) (args : List V) (f : String) : Option V :=
  (names.zip args).lookup f

/-- The fields of the struct with their types, for the types given to the macro. -/
def typed (d : Decl) (inputTy outputTy : List Nat) (vecTy : List (Nat × Nat)) : List (String × Ty) :=
  [("conf_num", Ty.scalar 4), ("conf_rep", Ty.scalar 4)] ++ d.input.zip (inputTy.map Ty.scalar)
    ++ d.output.zip (outputTy.map Ty.scalar) ++ d.inputVec.zip (vecTy.map (fun t => Ty.array t.1 t.2))
    ++ [("run_duration", Ty.scalar 4), ("step_per_sec", Ty.scalar 4)]

end Verif.Frame
