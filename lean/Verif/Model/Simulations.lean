import Verif.Model.Monitor

/-!
Model of a program that calls `simulate!` (with the terminal) several times: the csv files, whose folder has the date of the first
use of `CURRENT_DATE` (src/lib.rs:688-690), are those of the calls before.
-/

namespace Verif.Monitor

/-- The csv files after calls of `simulate!` one after the other (src/lib.rs:940-1004): every call has its own csv thread, with
`rep_counter` from 0, and the path of a file has the date, the plot and the repetition only. Each list holds the messages of a
call, with `PLOT_NAMES` when they are handled. -/
def simulations (fs : Files) (calls : List (List (Msg × List (String × String × String)))) : Files :=
  calls.foldl csvThread fs

end Verif.Monitor
