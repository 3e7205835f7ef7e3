/-!
Specification of C272: a call that is made twice in a row does what it does when it is made once.
-/

namespace Verif.Repeated

/-- Once the call was made, making it again succeeds and changes nothing. `none` is a panic. -/
def Repeatable {S : Type} (call : S → Option S) : Prop := ∀ s s', call s = some s' → call s' = some s'

end Verif.Repeated
