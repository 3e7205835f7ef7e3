import Verif.Model.ParGrid

/-!
Specification of the grids under the feature `parallel`: what a history of calls (newest first) has written and published, as
plain lists.
-/

namespace Verif.ParGridSpec

open Grid ParGrid

variable {T O I : Type} [DecidableEq I]

/-- The call is not `apply_to_all_values`. -/
def NPlain : NOp T → Prop
  | .apply _ _ => False
  | _ => True

/-- The value written to `l` last since the latest `lazy_update`. -/
def written : List (NOp T) → Loc → Option T
  | [], _ => none
  | .set v l' :: h, l => if l = l' then some v else written h l
  | .lazyUpdate :: _, _ => none
  | .update :: h, l => written h l
  | .apply _ _ :: h, l => written h l

/-- The value published at `l`: `lazy_update` publishes exactly what was written, `update` adds what was written to what was
published before. -/
def published : List (NOp T) → Loc → Option T
  | [], _ => none
  | .set _ _ :: h, l => published h l
  | .lazyUpdate :: h, l => written h l
  | .update :: h, l => (written h l).or (published h l)
  | .apply _ _ :: h, l => published h l

/-- The call is a placement, an `update` or a `lazy_update`. -/
def OPlain : POp O → Prop
  | .place _ _ => True
  | .update => True
  | .lazyUpdate => True
  | _ => False

/-- The placements since the latest `lazy_update`, oldest first. -/
def placements : List (POp O) → List (O × Loc)
  | [] => []
  | .place o l :: h => placements h ++ [(o, l)]
  | .lazyUpdate :: _ => []
  | _ :: h => placements h

/-- The objects placed at `l`, oldest first. -/
def placedAt (ps : List (O × Loc)) (l : Loc) : List O := (ps.filter (fun p => decide (p.2 = l))).map Prod.fst

/-- The placements at `l` that a publication shows. -/
def publishedAt : List (POp O) → Loc → List O
  | [], _ => []
  | .lazyUpdate :: h, l => placedAt (placements h) l
  | .update :: h, l => if placedAt (placements h) l = [] then publishedAt h l else placedAt (placements h) l
  | _ :: h, l => publishedAt h l

/-- The latest placement of the object with this identity. -/
def latest (ident : O → I) (ps : List (O × Loc)) (i : I) : Option (O × Loc) :=
  ps.reverse.find? (fun p => decide (ident p.1 = i))

/-- The published placement of the object with this identity. -/
def publishedOf (ident : O → I) : List (POp O) → I → Option (O × Loc)
  | [], _ => none
  | .lazyUpdate :: h, i => latest ident (placements h) i
  | .update :: h, i => (latest ident (placements h) i).or (publishedOf ident h i)
  | _ :: h, i => publishedOf ident h i

/-- `bag` is what the placements `os` (oldest first) leave in one bag: each object once, as it was placed last, in the order
of those last placements. -/
structure IsBag (ident : O → I) (os : List O) (bag : List O) : Prop where
  sublist : bag.Sublist os
  once : (bag.map ident).Nodup
  latest : ∀ x, x ∈ bag ↔ ∃ pre post, os = pre ++ x :: post ∧ ∀ y ∈ post, ident y ≠ ident x

end Verif.ParGridSpec
