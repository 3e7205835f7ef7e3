import Verif.Spec.DBDashMap

/-!
Specification of calls made while other threads write to the same map: a plain map changes in steps, and an answer is
right when there is a moment between the beginning and the end of the call at which it holds. No shards, no hash, no
locks.
-/

namespace Verif.DBDashMap

variable {K V : Type} [DecidableEq K]

/-- What another thread does to the map in one call. -/
inductive Change (K V : Type) where
  | insert (k : K) (v : V)
  | remove (k : K)
  | modify (k : K) (f : V → V)

/-- The map after a change. -/
def Change.apply (w : K → Option V) : Change K V → (K → Option V)
  | .insert k v => set w k (some v)
  | .remove k => set w k none
  | .modify k f => set w k ((w k).map f)

/-- The map after changes made one after the other. -/
def after (w : K → Option V) (cs : List (Change K V)) : K → Option V := cs.foldl Change.apply w

/-- `P` holds of the map at some moment while it goes through the changes `cs`. -/
def AtSomeMoment (w : K → Option V) (cs : List (Change K V)) (P : (K → Option V) → Prop) : Prop :=
  ∃ before later, cs = before ++ later ∧ P (after w before)

/-- `w'` is what the changes `cs` leave if a call that turns a map `m` into `g m` takes effect at one moment among them. -/
def EffectAtSomeMoment (w : K → Option V) (cs : List (Change K V)) (g : (K → Option V) → (K → Option V))
    (w' : K → Option V) : Prop :=
  ∃ before later, cs = before ++ later ∧ w' = after (g (after w before)) later

/-- The change takes nothing out of the map. -/
def Change.Keeps : Change K V → Prop
  | .remove _ => False
  | _ => True

/-- The change puts nothing new into the map. -/
def Change.AddsNothing : Change K V → Prop
  | .insert _ _ => False
  | _ => True

end Verif.DBDashMap
