import Verif.Spec.Schedule

/-! Vocabulary for waiting agents (C192, C193). -/

namespace Verif.Schedule

variable {T A : Type}

/-- The call schedules nothing for a time at which `Bad` holds. -/
def Cmd.avoids (Bad : T → Prop) : Cmd T A → Prop
  | .scheduleOnce _ t _ => ¬ Bad t
  | .scheduleRepeating _ t _ => ¬ Bad t
  | .dequeue _ => True

/-- Weights of the entries, added up. -/
def weight (f : T → Nat) (q : Queue T A) : Nat := (q.map (fun e => f e.2.time)).sum

end Verif.Schedule
