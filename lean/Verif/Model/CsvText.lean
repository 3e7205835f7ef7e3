import Verif.Model.Frame
import Verif.Model.Genetic

/-!
Model of the texts in the csv files of the explorations: `{:?}` of the values of a row (src/explore/genetic.rs:41-50;
src/explore/model_exploration.rs:480-497) and `parse` of the texts of a record (`load_csv!`, src/lib.rs:1874-1894).

Simplifications: the shortest text that stands for an `f32` and its inverse are parameters (`showF`, `readF`); which characters
`{:?}` writes as `\u{..}` (those that cannot be printed) is a parameter (`unicode`, with the digits). A usize of the machine is not
treated on its own: `top` is the largest value of the type.
-/

namespace Verif.CsvText

/-- The character of a digit (`{:?}` of an integer, src/explore/genetic.rs:44). -/
def digitChar (d : Nat) : Char := Char.ofNat (48 + d)

/-- `{:?}` of an unsigned integer: its decimal digits (src/explore/genetic.rs:44). -/
def showNat (n : Nat) : List Char := if n < 10 then [digitChar n] else showNat (n / 10) ++ [digitChar (n % 10)]
termination_by n

/-- `{:?}` of a signed integer (src/explore/genetic.rs:44). -/
def showInt (i : Int) : List Char := if i < 0 then '-' :: showNat i.natAbs else showNat i.natAbs

/-- The escapes of `{:?}` of a text with a letter (src/explore/genetic.rs:44). -/
def shortEscape (c : Char) : Option Char :=
  if c = '\t' then some 't'
  else if c = '\r' then some 'r'
  else if c = '\n' then some 'n'
  else if c = '"' then some '"'
  else if c = '\\' then some '\\'
  else if c = Char.ofNat 0 then some '0'
  else none

/-- `{:?}` of a character of a text (src/explore/genetic.rs:44). -/
def escapeChar (unicode : Char → Option (List Char)) (c : Char) : List Char :=
  match shortEscape c with
  | some e => ['\\', e]
  | none =>
    match unicode c with
    | some hex => '\\' :: 'u' :: '{' :: (hex ++ ['}'])
    | none => [c]

/-- `{:?}` of a text (src/explore/genetic.rs:44): in quotes, with escapes. -/
def showText (unicode : Char → Option (List Char)) (s : List Char) : List Char :=
  '"' :: (s.flatMap (escapeChar unicode) ++ ['"'])

/-- The value of a character as a digit (`parse` of an integer, src/lib.rs:1886). -/
def digitValue (c : Char) : Option Nat := if 48 ≤ c.toNat ∧ c.toNat ≤ 57 then some (c.toNat - 48) else none

/-- The digits of `parse` of an integer from the left, with the value so far; `none` for another character and for a value that the
type does not have (src/lib.rs:1886). -/
def readDigits (top : Nat) : List Char → Nat → Option Nat
  | [], n => some n
  | c :: cs, n =>
    match digitValue c with
    | none => none
    | some d => if 10 * n + d ≤ top then readDigits top cs (10 * n + d) else none

/-- `parse` of an unsigned integer with largest value `top`: a sign `+` may come first, there is a digit (src/lib.rs:1886). -/
def readNat (top : Nat) (s : List Char) : Option Nat :=
  match s with
  | [] => none
  | '+' :: [] => none
  | '+' :: cs => readDigits top cs 0
  | cs => readDigits top cs 0

/-- `parse` of a signed integer with largest value `top` and smallest value `-top - 1` (src/lib.rs:1886). -/
def readInt (top : Nat) (s : List Char) : Option Int :=
  match s with
  | '-' :: [] => none
  | '-' :: cs => (readDigits (top + 1) cs 0).map (fun n : Nat => - (n : Int))
  | cs => (readNat top cs).map (fun n : Nat => (n : Int))

/-- A value of a row of `BufferGA` (src/explore/genetic.rs:401-406). -/
inductive Val (F : Type) where
  | u32 (n : Nat)
  | i32 (i : Int)
  | f32 (x : F)
  | text (s : List Char)
deriving DecidableEq, Repr

variable {F : Type}

/-- `{:?}` of a value (src/explore/genetic.rs:44). -/
def pretty (unicode : Char → Option (List Char)) (showF : F → List Char) : Val F → String
  | .u32 n => String.ofList (showNat n)
  | .i32 i => String.ofList (showInt i)
  | .f32 x => String.ofList (showF x)
  | .text s => String.ofList (showText unicode s)

/-- The arguments of `new` for a row (src/explore/genetic.rs:478-483). -/
def values (r : Genetic.Row (List Char) F) : List (Val F) :=
  [.u32 r.generation, .i32 r.index, .f32 r.fitness, .text r.individual]

/-- The columns of `BufferGA` of the sequential search (src/explore/genetic.rs:401-406). -/
def columns : List String := ["generation", "index", "fitness", "individual"]

/-- The texts of a row (src/explore/genetic.rs:41-50, 478-483). -/
def texts (unicode : Char → Option (List Char)) (showF : F → List Char) (r : Genetic.Row (List Char) F) : List String :=
  ((Frame.exploreNew columns [] (values r)).bind (Frame.exploreStrings (pretty unicode showF) columns [])).getD []

/-- `write_csv` of the result of the search (src/lib.rs:1776-1787; src/explore/genetic.rs:168-171). -/
def written (unicode : Char → Option (List Char)) (showF : F → List Char) (rows : List (Genetic.Row (List Char) F)) :
    Option (List (List String)) :=
  Search.writeCsv columns (texts unicode showF) rows

/-- The parsers of `load_csv!(file, generation: u32, index: i32, fitness: f32, individual: String)` (src/lib.rs:1874-1894):
`parse` of a text is the text. -/
def parsers (readF : List Char → Option F) : List (String → Option (Val F)) :=
  [fun s => (readNat (2 ^ 32 - 1) s.toList).map .u32, fun s => (readInt (2 ^ 31 - 1) s.toList).map .i32,
    fun s => (readF s.toList).map .f32, fun s => some (.text s.toList)]

end Verif.CsvText
