import Verif.Model.Fl
import Mathlib.Order.WithBot

/-!
Specification of the searches, without the model: what the best of a sequence of evaluated candidates is.
-/

namespace Verif.SearchSpec

/-- `best` is the first candidate of smallest cost in `evald`, or `init` if none of them costs less than `init`. -/
def IsFirstMin {S : Type} (init : S × Fl) (evald : List (S × Fl)) (best : S × Fl) : Prop :=
  (best = init ∧ ∀ e ∈ evald, e.2.lt init.2 = false) ∨
  ∃ k : Nat, evald[k]? = some best ∧ best.2.lt init.2 = true ∧ (∀ e ∈ evald, e.2.lt best.2 = false) ∧
    ∀ j < k, ∀ e : S × Fl, evald[j]? = some e → e.2 ≠ best.2

/-- The value of a float among the rationals with both infinities, if it is a number. -/
def value : Fl → Option (WithBot (WithTop Rat))
  | .nan => none
  | .ninf => some ⊥
  | .fin q => some ((q : WithTop Rat) : WithBot (WithTop Rat))
  | .pinf => some ((⊤ : WithTop Rat) : WithBot (WithTop Rat))

/-- `best` is the first candidate of largest value in `evald`. -/
def IsFirstMax {X : Type} (evald : List (X × Fl)) (best : X × Fl) : Prop :=
  ∃ k : Nat, evald[k]? = some best ∧ (∀ e ∈ evald, best.2.lt e.2 = false) ∧ ∀ j < k, ∀ e : X × Fl, evald[j]? = some e → e.2 ≠ best.2

end Verif.SearchSpec
