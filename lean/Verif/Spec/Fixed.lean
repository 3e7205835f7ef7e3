import Verif.Spec.Split

/-! Specification of C281: a parameter may be fixed in the model, and the order of the parameters does not matter. -/

namespace Verif.Explore

variable {V S : Type}

/-- `make` with the parameter at place `k` fixed to `v`: it is called with the other parameters. -/
def fixedAt (k : Nat) (v : V) (make : List V → S) (others : List V) : S := make (others.take k ++ v :: others.drop k)

/-- `make` with the parameters at `k` and `k + 1` given in the other order. -/
def swappedAt (make : List V → S) : Nat → List V → S
  | 0, x :: y :: rest => make (y :: x :: rest)
  | 0, rest => make rest
  | _ + 1, [] => make []
  | k + 1, x :: rest => swappedAt (fun vs => make (x :: vs)) k rest

end Verif.Explore
