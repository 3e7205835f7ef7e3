import Verif.Model.Search

/-!
Model of the rows that explorations return: `build_dataframe!` (src/explore/model_exploration.rs:452-541),
`build_dataframe_explore!` (src/explore/genetic.rs:16-123), and their transfer between processes, `extend_dataframe!`
(src/explore/mpi/model_exploration.rs:12-76) and `extend_dataframe_explore!` (src/explore/mpi/genetic.rs:8-42).

Simplifications: a struct is the list of its fields in the order of declaration, read by name; the values of all fields have one
type `V`, with `pretty : V → String` for `{:?}` and `to_string`. `none` is code that does not compile.
-/

namespace Verif.Frame

/-- The arguments of the macro: names of the inputs, vectors and outputs (src/explore/model_exploration.rs:454-460). -/
structure Decl where
  input : List String
  inputVec : List String
  output : List String
deriving DecidableEq, Repr

/-- The fields of the struct in the order of declaration (src/explore/model_exploration.rs:463-471). -/
def Decl.fields (d : Decl) : List String :=
  ["conf_num", "conf_rep"] ++ d.input ++ d.output ++ d.inputVec ++ ["run_duration", "step_per_sec"]

/-- The parameters of `new` (src/explore/model_exploration.rs:502-504). -/
def Decl.params (d : Decl) : List String :=
  ["conf_num", "conf_rep"] ++ d.input ++ d.inputVec ++ d.output ++ ["run_duration", "step_per_sec"]

/-- A struct: its fields in the order of declaration (src/explore/model_exploration.rs:463-471). -/
abbrev Struct (V : Type) := List (String × V)

/-- A struct expression `$name { a, b, .. }`: every field gets the value of the variable of its name
(src/explore/model_exploration.rs:505-519; src/explore/genetic.rs:61-68). -/
def build {V : Type} (fields : List String) (env : List (String × V)) : Option (Struct V) :=
  fields.mapM (fun f => (env.lookup f).map (fun v => (f, v)))

/-- `new` (src/explore/model_exploration.rs:502-521). -/
def new {V : Type} (d : Decl) (args : List V) : Option (Struct V) := build d.fields (d.params.zip args)

/-- `field_names` (src/explore/model_exploration.rs:474-478). -/
def fieldNames (d : Decl) : List String :=
  ["Simulation", "Run"] ++ d.input ++ d.inputVec ++ d.output ++ ["Run Duration", "Step per sec"]

/-- `to_string` (src/explore/model_exploration.rs:480-497): `self.f` for the fields one after the other. -/
def toStrings {V : Type} (pretty : V → String) (d : Decl) (s : Struct V) : Option (List String) :=
  (["conf_num", "conf_rep"] ++ d.input ++ d.inputVec ++ d.output ++ ["run_duration", "step_per_sec"]).mapM
    (fun f => (s.lookup f).map pretty)

/-- `build_dataframe_explore!`: `field_names` (src/explore/genetic.rs:34-38). -/
def exploreNames (input vecs : List String) : List String := input ++ vecs

/-- `build_dataframe_explore!`: `to_string` (src/explore/genetic.rs:41-50). -/
def exploreStrings {V : Type} (pretty : V → String) (input vecs : List String) (s : Struct V) : Option (List String) :=
  (input ++ vecs).mapM (fun f => (s.lookup f).map pretty)

/-- `build_dataframe_explore!`: `new` (src/explore/genetic.rs:58-69). -/
def exploreNew {V : Type} (input vecs : List String) (args : List V) : Option (Struct V) :=
  build (input ++ vecs) ((input ++ vecs).zip args)

/-! ### Transfer between processes -/

/-- The type of a field as far as its size matters: a number of bytes, or an array of such
(src/explore/mpi/model_exploration.rs:53-70). -/
inductive Ty where
  | scalar (size : Nat)
  | array (size len : Nat)
deriving DecidableEq, Repr

/-- The bytes a value of the type occupies (`size_of`; `[T; n]` is `n` values of `T` without gaps) (src/explore/model_exploration.rs:463-471). -/
def Ty.bytes : Ty → Nat
  | .scalar s => s
  | .array s n => s * n

/-- `UserDatatype::structured` (src/explore/mpi/model_exploration.rs:38-71; src/explore/mpi/genetic.rs:25-37): the blocks `(displacement, bytes)` of
the type; the three slices must have one length (panic otherwise). -/
def structured (counts displacements bytes : List Nat) : Option (List (Nat × Nat)) :=
  if counts.length = displacements.length ∧ displacements.length = bytes.length then
    some (displacements.zip (List.zipWith (· * ·) counts bytes))
  else none

/-- `equivalent_datatype` (src/explore/mpi/model_exploration.rs:22-73): `offset` is `offset_of!`, `inputTy` etc. the types given to
the macro, in order. -/
def datatype (offset : String → Nat) (d : Decl) (inputTy outputTy : List Nat) (vecTy : List (Nat × Nat)) :
    Option (List (Nat × Nat)) :=
  structured (List.replicate (d.input.length + d.output.length + d.inputVec.length + 4) 1)
    ([offset "conf_num", offset "conf_rep"] ++ d.input.map offset ++ d.inputVec.map offset ++ d.output.map offset
      ++ [offset "run_duration", offset "step_per_sec"])
    ([4, 4] ++ inputTy ++ vecTy.map (fun t => t.2 * t.1) ++ outputTy ++ [4, 4])

/-- `equivalent_datatype` of `extend_dataframe_explore!` (src/explore/mpi/genetic.rs:16-39). -/
def exploreDatatype (offset : String → Nat) (input : List String) (inputTy : List Nat) : Option (List (Nat × Nat)) :=
  structured (List.replicate input.length 1) (input.map offset) inputTy

/-- Receiving a value of the type: the bytes of the blocks are those of the sender, the others stay
(src/explore/mpi/model_exploration.rs:249-300). -/
def receive {B : Type} (blocks : List (Nat × Nat)) (sent old : Nat → B) : Nat → B :=
  fun a => if blocks.any (fun b => decide (b.1 ≤ a) && decide (a < b.1 + b.2)) then sent a else old a

end Verif.Frame
