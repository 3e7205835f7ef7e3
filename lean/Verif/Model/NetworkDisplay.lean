import Verif.Model.Network

/-!
Model of `impl Display for Network`, sequential variant (src/engine/fields/network.rs:632-661).

Simplification: strings are lists of characters; `{:?}` of a string of `0`, `1` and `-` only adds the quotes.
-/

namespace Verif.Network

variable {K O L W : Type} [DecidableEq K]

/-- The body of the inner loop (src/engine/fields/network.rs:643-649): `none` if one of the `expect`s fails. -/
def displayCell (ident : O → K) (n : Net K O L W) (i j : Nat) : Option Char :=
  match HMap.get n.r.id2nodes i with
  | none => none
  | some o1 =>
    match HMap.get n.r.id2nodes j with
    | none => none
    | some o2 =>
      match getEdge ident n o1 o2 with
      | none => none
      | some (some _) => some '1'
      | some none => some '0'

/-- The inner loop, from `j` on for `k` rounds (src/engine/fields/network.rs:640-650). -/
def displayRow (ident : O → K) (n : Net K O L W) (i : Nat) : Nat → Nat → Option (List Char)
  | 0, _ => some []
  | k + 1, j =>
    match displayCell ident n i j with
    | none => none
    | some c => (displayRow ident n i k (j + 1)).map (fun cs => c :: cs)

/-- The outer loop, from `i` on for `k` rounds (src/engine/fields/network.rs:638-652). -/
def displayRows (ident : O → K) (n : Net K O L W) : Nat → Nat → Option (List Char)
  | 0, _ => some []
  | k + 1, i =>
    match displayRow ident n i n.r.id2nodes.length 0 with
    | none => none
    | some cs => (displayRows ident n k (i + 1)).map (fun rest => cs ++ '-' :: rest)

/-- `fmt` (src/engine/fields/network.rs:633-661). -/
def display (ident : O → K) (n : Net K O L W) : Option (List Char) :=
  (displayRows ident n n.r.id2nodes.length 0).map (fun cs => "MATRIX:\n\"".toList ++ cs ++ ['"'])

end Verif.Network
