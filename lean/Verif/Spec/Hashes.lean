import Verif.Model.ParGrid
import Verif.Model.ParField2D

/-!
Two runs of one program under the feature `parallel`: in another process the random keys of the hasher and the number of processors
are different, and the objects may have other names (`φ`) and other identities.
-/

namespace Verif.ParGrid

open Grid

variable {T O P I J : Type} [DecidableEq I] [DecidableEq J]

/-- Objects have the same identity under the new names iff they had under the old ones. -/
def Names (ident : O → I) (ident' : P → J) (φ : O → P) : Prop := ∀ a b, ident' (φ a) = ident' (φ b) ↔ ident a = ident b

/-- Both runs panic, or both end with `R`. -/
def Both {α β : Type} (R : α → β → Prop) : Option α → Option β → Prop
  | none, none => True
  | some a, some b => R a b
  | _, _ => False

/-- The closure leaves each object its identity. -/
def KeepsIdentity (ident : O → I) (f : Loc → O → Option O) : Prop := ∀ l o x, f l o = some x → ident x = ident o

/-- The second call is the first one under the new names. -/
inductive POp.Renamed (ident : O → I) (ident' : P → J) (φ : O → P) : POp O → POp P → Prop where
  | place (o : O) (l : Loc) : POp.Renamed ident ident' φ (.place o l) (.place (φ o) l)
  | remove (o : O) : POp.Renamed ident ident' φ (.remove o) (.remove (φ o))
  | removeAt (o : O) (l : Loc) : POp.Renamed ident ident' φ (.removeAt o l) (.removeAt (φ o) l)
  | update : POp.Renamed ident ident' φ .update .update
  | lazyUpdate : POp.Renamed ident ident' φ .lazyUpdate .lazyUpdate
  | apply (f : Loc → O → Option O) (f' : Loc → P → Option P) (opt : GridOption) (same : ∀ l o, f' l (φ o) = (f l o).map φ)
      (keeps : KeepsIdentity ident f) (keeps' : KeepsIdentity ident' f') : POp.Renamed ident ident' φ (.apply f opt) (.apply f' opt)

/-- Every query of the two grids has the same answer, up to the names. -/
structure OGrid.Alike (ident : O → I) (ident' : P → J) (φ : O → P) (g : OGrid O I) (g' : OGrid P J) : Prop where
  get : ∀ o, g'.get ident' (φ o) = (g.get ident o).map (Option.map φ)
  location : ∀ o, g'.getLocation ident' (φ o) = g.getLocation ident o
  locationUnbuffered : ∀ o, g'.getLocationUnbuffered ident' (φ o) = g.getLocationUnbuffered ident o
  unbuffered : ∀ o, g'.getUnbuffered ident' (φ o) = (g.getUnbuffered ident o).map (Option.map φ)
  objects : ∀ l, g'.getObjects l = (g.getObjects l).map (Option.map (List.map φ))
  objectsUnbuffered : ∀ l, g'.getObjectsUnbuffered l = (g.getObjectsUnbuffered l).map (Option.map (List.map φ))
  empty : g'.getEmptyBags = g.getEmptyBags
  random : ∀ draws, g'.getRandomEmptyBag draws = g.getRandomEmptyBag draws
  iter : g'.iterObjects = g.iterObjects.map (List.map (fun e => (e.1, φ e.2)))

/-- Every query of the two number grids has the same answer. -/
structure NGrid.Alike (g g' : NGrid T) : Prop where
  value : ∀ l, g'.getValue l = g.getValue l
  valueUnbuffered : ∀ l, g'.getValueUnbuffered l = g.getValueUnbuffered l

end Verif.ParGrid

namespace Verif.ParField2D

open Grid Torus ParGrid

variable {O P I J : Type} [DecidableEq I] [DecidableEq J]

/-- The call under the new names. -/
def ROp.rename (φ : O → P) : ROp O → ROp P
  | .place o l => .place (φ o) l
  | .update => .update
  | .lazyUpdate => .lazyUpdate

/-- Every query of the two fields has the same answer, up to the names. -/
structure PField.Alike (ident : O → I) (ident' : P → J) (φ : O → P) (f : PField O I) (f' : PField P J) : Prop where
  get : ∀ o, f'.get ident' (φ o) = (f.get ident o).map (Option.map φ)
  location : ∀ o, f'.getLocation ident' (φ o) = f.getLocation ident o
  locationUnbuffered : ∀ o, f'.getLocationUnbuffered ident' (φ o) = f.getLocationUnbuffered ident o
  unbuffered : ∀ o, f'.getUnbuffered ident' (φ o) = (f.getUnbuffered ident o).map (Option.map φ)
  objects : ∀ p, f'.getObjects p = (f.getObjects p).map (List.map φ)
  number : f'.numObjects = f.numObjects
  numberAt : ∀ p, f'.numObjectsAtLocation p = f.numObjectsAtLocation p
  near : ∀ (locOf : O → Pos) (locOf' : P → Pos) (p : Pos) (dist : Rat), (∀ o, locOf' (φ o) = locOf o) →
    f'.getNeighborsWithinDistance locOf' p dist = (f.getNeighborsWithinDistance locOf p dist).map (List.map φ)
  around : ∀ (p : Pos) (dist : Rat), f'.getNeighborsWithinRelaxDistance p dist = (f.getNeighborsWithinRelaxDistance p dist).map (List.map φ)

end Verif.ParField2D
