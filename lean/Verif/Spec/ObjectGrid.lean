import Verif.Spec.Grid

/-!
Specification of the object grids: for a program (calls listed newest first), the bag of objects placed
at a location since the last update, and the bag placed before it.

Objects are compared by their own `==` (`PartialEq`), which need not look at the whole object: birds and agents compare their id only.
-/

namespace Verif.Grid

/-- The calls of a program that change an object grid. -/
inductive ObjOp (O : Type) where
  | place (o : O) (l : Loc)
  | remove (o : O) (l : Loc)
  | update
  | lazyUpdate
  | apply (f : Loc → O → Option O) (opt : GridOption)

variable {O : Type} [BEq O]

/-- The objects at `l` since the last update, oldest first. With `once`, an object placed again at the
same location moves to the end instead of being there twice. -/
def bagWritten (once : Bool) : List (ObjOp O) → Loc → List O
  | [], _ => []
  | .place o l' :: h, l =>
    if l = l' then
      (if once then (bagWritten once h l).filter (fun x => x != o) else bagWritten once h l) ++ [o]
    else bagWritten once h l
  | .remove o l' :: h, l =>
    if l = l' then (bagWritten once h l).filter (fun x => x != o) else bagWritten once h l
  | .update :: _, _ => []
  | .lazyUpdate :: _, _ => []
  | .apply _ _ :: h, l => bagWritten once h l

/-- The objects at `l` that were there at the last update. -/
def bagPublished (once : Bool) : List (ObjOp O) → Loc → List O
  | [], _ => []
  | .update :: h, l => bagWritten once h l
  | .lazyUpdate :: h, l => bagWritten once h l
  | .place _ _ :: h, l => bagPublished once h l
  | .remove _ _ :: h, l => bagPublished once h l
  | .apply _ _ :: h, l => bagPublished once h l

omit [BEq O] in
/-- How many of the calls `closure(place, object)` are made at `k` with an object that satisfies `q`. -/
def callsAt {K : Type} [DecidableEq K] (calls : List (K × O)) (k : K) (q : O → Bool) : Nat :=
  calls.countP (fun e => decide (e.1 = k) && q e.2)

/-- The bag holds an object equal to `o`. -/
def HoldsEqual (b : List O) (o : O) : Prop := ∃ x ∈ b, (o == x) = true

/-- No object of the bag is equal to a later one. -/
def NoneEqual (b : List O) : Prop := b.Pairwise (fun x y => (x == y) = false)

/-- The objects equal to `o` placed at `l` since the last update and since an equal one was removed there, oldest first. -/
def versions : List (ObjOp O) → Loc → O → List O
  | [], _, _ => []
  | .place o' l' :: h, l, o => if l = l' ∧ (o' == o) = true then versions h l o ++ [o'] else versions h l o
  | .remove o' l' :: h, l, o => if l = l' ∧ (o' == o) = true then [] else versions h l o
  | .update :: _, _, _ => []
  | .lazyUpdate :: _, _, _ => []
  | .apply _ _ :: h, l, o => versions h l o

/-- The object equal to `o` that was placed at `l` last since the last update, unless an equal one was removed there after it. -/
def newest : List (ObjOp O) → Loc → O → Option O
  | [], _, _ => none
  | .place o' l' :: h, l, o => if l = l' ∧ (o' == o) = true then some o' else newest h l o
  | .remove o' l' :: h, l, o => if l = l' ∧ (o' == o) = true then none else newest h l o
  | .update :: _, _, _ => none
  | .lazyUpdate :: _, _, _ => none
  | .apply _ _ :: h, l, o => newest h l o

/-- Every placement at `l` is made when no equal object is there: the caller removes the old version first. -/
def RemovesFirst (l : Loc) : List (ObjOp O) → Prop
  | [] => True
  | .place o l' :: h => (l = l' → newest h l o = none) ∧ RemovesFirst l h
  | _ :: h => RemovesFirst l h

/-- The location of the call is inside the grid. -/
def ObjOp.InRange (w h : Int) : ObjOp O → Prop
  | .place _ l => Grid.InRange w h l
  | .remove _ l => Grid.InRange w h l
  | _ => True

/-- The call is place, remove or lazy_update. -/
def ObjOp.Lazy : ObjOp O → Prop
  | .apply _ _ => False
  | .update => False
  | _ => True

/-- The call is place, remove, update or lazy_update. -/
def ObjOp.Plain : ObjOp O → Prop
  | .apply _ _ => False
  | _ => True

end Verif.Grid
