import Verif.Model.Monitor

/-!
Which calls of `addplot!` and `plot!` precede the end of a repetition in the drivers (src/lib.rs:1011-1103, 1149-1168, 1507-1518).
-/

namespace Verif.Monitor

/-- `simulate!` with the terminal (src/lib.rs:1011-1103): before each repetition `DATA` is emptied (1017). The calls made before it, then those of each
repetition (its `init`, its steps, `end_condition`), each the newest first; all calls, the newest first. -/
def withTerminal : List Call → List (List Call) → List Call
  | before, [] => before
  | before, r :: rs => withTerminal (r ++ .clear :: before) rs

/-- `simulate!` without the terminal (src/lib.rs:1149-1168), `simulate_old!` (1507-1518) and the explorations: nothing empties `DATA`. -/
def withoutTerminal : List Call → List (List Call) → List Call
  | before, [] => before
  | before, r :: rs => withoutTerminal (r ++ before) rs

end Verif.Monitor
