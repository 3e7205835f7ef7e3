/-!
What the texts of numbers and strings are, apart from how the code writes and reads them.
-/

namespace Verif.CsvText

/-- The text of decimal digits. -/
def digitsText (ds : List Nat) : List Char := ds.map (fun d => ['0', '1', '2', '3', '4', '5', '6', '7', '8', '9'].getD d '?')

/-- The number that decimal digits stand for. -/
def decimal (ds : List Nat) : Nat := ds.foldl (fun n d => 10 * n + d) 0

/-- The text of a number without sign: digits, perhaps after a `+`. -/
def UnsignedText (s : List Char) (n : Nat) : Prop :=
  ∃ ds : List Nat, ds ≠ [] ∧ (∀ d ∈ ds, d < 10) ∧ decimal ds = n ∧ (s = digitsText ds ∨ s = '+' :: digitsText ds)

/-- The text of a number with sign. -/
def SignedText (s : List Char) (i : Int) : Prop :=
  (∃ n : Nat, UnsignedText s n ∧ i = n) ∨
    ∃ ds : List Nat, ds ≠ [] ∧ (∀ d ∈ ds, d < 10) ∧ i = - (decimal ds : Int) ∧ s = '-' :: digitsText ds

/-- A string literal of Rust between its quotes, and the text it stands for (The Rust Reference, string literals); `hex h c`: the
digits `h` are the number of the character `c`. -/
inductive Literal (hex : List Char → Char → Prop) : List Char → List Char → Prop where
  | nil : Literal hex [] []
  | plain {c : Char} {t s : List Char} (h1 : c ≠ '"') (h2 : c ≠ '\\') (h3 : c ≠ '\r') (h : Literal hex t s) : Literal hex (c :: t) (c :: s)
  | short {e c : Char} {t s : List Char}
      (he : (e, c) ∈ [('n', '\n'), ('r', '\r'), ('t', '\t'), ('\\', '\\'), ('0', Char.ofNat 0), ('\'', '\''), ('"', '"')])
      (h : Literal hex t s) : Literal hex ('\\' :: e :: t) (c :: s)
  | unicode {x : List Char} {c : Char} {t s : List Char} (hx : hex x c) (h : Literal hex t s) :
      Literal hex ('\\' :: 'u' :: '{' :: (x ++ '}' :: t)) (c :: s)

end Verif.CsvText
