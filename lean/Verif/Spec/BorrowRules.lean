import Verif.Model.Borrows

/-!
Which function of a grid panics inside which closure over the same grid, in words.
-/

namespace Verif.Borrows

/-- It looks at the published state, at least at one cell. -/
def Looks (c : GridCall) : Prop := ∃ n, c = .get (n + 1)

/-- `get_neighbors_within_relax_distance`, with at least one cell in reach. -/
def Relaxes (c : GridCall) : Prop := ∃ n, c = .relaxed (n + 1)

/-- It looks at the new state. -/
def LooksNew (c : GridCall) : Prop := c = .getUnbuffered

/-- It sets or removes something. -/
def Changes : GridCall → Prop
  | .set => True
  | .fieldSet _ => True
  | .fieldRemove _ _ => True
  | _ => False

/-- The call panics in the closure. -/
def Clash : Over → GridCall → Prop
  | .iterSparse false, c => Relaxes c
  | .iterDenseObjects false, c => Relaxes c
  | .iterField false, c => Relaxes c
  | .iterSparse true, c => Changes c
  | .iterDenseObjects true, c => Changes c
  | .iterField true, c => Changes c
  | .iterDenseValues _, _ => False
  | .apply _ .read, c => Looks c ∨ Relaxes c
  | .apply .sparseNumber .write, c => LooksNew c ∨ Changes c
  | .apply .sparseObject .write, c => LooksNew c ∨ Changes c
  | .apply .denseNumber .readWrite, c => Looks c ∨ Relaxes c ∨ LooksNew c ∨ Changes c
  | .apply _ _, c => Relaxes c ∨ LooksNew c ∨ Changes c

end Verif.Borrows
