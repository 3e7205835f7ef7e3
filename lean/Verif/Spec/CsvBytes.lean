/-!
What a file shows after writes at given places, and what becomes of lines when two hands write the same lines to one file.
-/

namespace Verif.CsvBytesSpec

/-- The character that the last of some writes, the oldest first, has put at a place. -/
def lastAt : List (Nat × List Char) → Nat → Option Char
  | [], _ => none
  | (p, b) :: later, x => (lastAt later x).or (if p ≤ x then b[x - p]? else none)

/-- The writes of hands that go on after `s` characters of rows, each behind its own header. -/
def writesOn (hs : List (List Char)) : Nat → List (List Char) → List (Nat × List Char)
  | _, [] => []
  | s, r :: rs => hs.map (fun h => (h.length + s, r)) ++ writesOn hs (s + r.length) rs

/-- The writes of hands that have a header each and write the same rows: the header goes with the first row. -/
def writes (hs : List (List Char)) : List (List Char) → List (Nat × List Char)
  | [] => hs.map (fun h => (0, h))
  | r :: rs => hs.map (fun h => (0, h ++ r)) ++ writesOn hs r.length rs

/-- The rows when each has its last `d` characters replaced by the first `d` of the next one. -/
def mixed (d : Nat) : List (List Char) → List Char
  | [] => []
  | r :: [] => r
  | r :: r' :: rs => r.take (r.length - d) ++ r'.take d ++ mixed d (r' :: rs)

end Verif.CsvBytesSpec
