import Verif.Model.TerminalLocks

/-!
What the code of a user has to respect so that nothing hangs: the user numbers the fields of the model in any order,
and a closure given to `apply_to_all_values` of a number grid with the options WRITE and READWRITE uses the written
side only of fields with a greater number than the grid. All other closures may do what they like.
-/

namespace Verif.Locks

/-- A closure, for each time it is called, uses the written side only of fields after `f`. -/
def OnlyAfter (f : Nat) (cs : List (List Call)) : Prop := ∀ c ∈ cs, ∀ x ∈ c, ∀ g, x.field = some g → f < g

def Gentle : Use → Prop
  | .applyWrite f _ cs => ∀ i, OnlyAfter f (cs i)
  | .applyReadWrite f _ cs => ∀ i, OnlyAfter f (cs i)
  | _ => True

def GentleUser : User → Prop
  | .use u => Gentle u
  | _ => True

def GentlePlan (p : StepPlan) : Prop :=
  (∀ u ∈ p.update0, GentleUser u) ∧ (∀ u ∈ p.before, GentleUser u) ∧ (∀ u ∈ p.after, GentleUser u) ∧
  (∀ u ∈ p.update, GentleUser u) ∧ ∀ b ∈ p.batches, ∀ item ∈ b, ∀ u ∈ item.1, GentleUser u

def GentleRep (r : RepPlan) : Prop :=
  (∀ u ∈ r.init, GentleUser u) ∧
  ∀ s ∈ r.steps, (∀ u ∈ s.1, GentleUser u) ∧ ∀ u ∈ s.2.2.1, GentleUser u

def GentleSystem : System → Prop
  | .simulation _ step => ∀ u ∈ step, GentleUser u
  | .ui _ reset start onInit setup => ∀ u ∈ reset ++ start ++ onInit ++ setup, GentleUser u
  | .renderer _ before agents => (∀ u ∈ before, GentleUser u) ∧ ∀ a ∈ agents, ∀ u ∈ a.1, GentleUser u
  | .init _ onInit setup => ∀ u ∈ onInit ++ setup, GentleUser u
  | .camera => True
  | .render body => ∀ u ∈ body, GentleUser u

/-- Two systems conflict if they ask for the same resource and one of them wants to change it. Bevy never runs two
systems that conflict at the same time. -/
def Conflict (a b : System) : Prop :=
  ∃ r m m', (r, m) ∈ a.access ∧ (r, m') ∈ b.access ∧ (m = true ∨ m' = true)

end Verif.Locks
