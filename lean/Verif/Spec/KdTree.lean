import Verif.Model.KdTree

/-!
Specification of the distributed field: what a partition of the field into boxes is, when boxes touch on a torus, and
when an agent is near a box.
-/

namespace Verif.KdTree

open Torus

/-- The closed box contains the point. -/
def Tile.Has (t : Tile) (p : Pos) : Prop := t.x ≤ p.x ∧ p.x ≤ t.x + t.w ∧ t.y ≤ p.y ∧ p.y ≤ t.y + t.h

/-- The open box contains the point. -/
def Tile.Inside (t : Tile) (p : Pos) : Prop := t.x < p.x ∧ p.x < t.x + t.w ∧ t.y < p.y ∧ p.y < t.y + t.h

/-- The box of a block. -/
def Block.tile (b : Block) : Tile := ⟨b.x, b.y, b.width, b.height⟩

/-- The boxes partition the field: sizes are positive, no two overlap, together they are the field. -/
structure Partition (root : Tile) (ts : List Tile) : Prop where
  positive : ∀ t ∈ ts, 0 < t.w ∧ 0 < t.h
  disjoint : ts.Pairwise (fun s t => ∀ p, ¬ (s.Inside p ∧ t.Inside p))
  covers : ∀ p, root.Has p ↔ ∃ t ∈ ts, t.Has p
  area : (ts.map (fun t => t.w * t.h)).sum = root.w * root.h

/-- On a torus of size `w` by `h`, a point of the one box is a point of the other. -/
def Touch (w h : Rat) (s t : Tile) : Prop :=
  ∃ p q : Pos, s.Has p ∧ t.Has q ∧ ∃ k m : Int, p.x = q.x + k * w ∧ p.y = q.y + m * h

/-- On a torus of size `w` by `h`, the box has a point at most `d` away from `p` along each axis (in particular if it has
a point at Euclidean distance at most `d`). -/
def Near (w h d : Rat) (p : Pos) (t : Tile) : Prop :=
  ∃ q : Pos, t.Has q ∧ ∃ k m : Int, (-d ≤ p.x - (q.x + k * w) ∧ p.x - (q.x + k * w) ≤ d) ∧
    (-d ≤ p.y - (q.y + m * h) ∧ p.y - (q.y + m * h) ≤ d)

instance (t : Tile) (p : Pos) : Decidable (t.Has p) := by unfold Tile.Has; infer_instance

instance (t : Tile) (p : Pos) : Decidable (t.Inside p) := by unfold Tile.Inside; infer_instance

/-- Insert agents one after the other. -/
def insertAll {O : Type} [BEq O] (t : Tree O) : List (O × Pos) → Option (Tree O)
  | [] => some t
  | a :: as =>
    match insert t a.1 a.2 with
    | none => none
    | some t' => insertAll t' as

/-- The border whose halo list gets an agent at `p`: the first of north (0), east (1), south (2), west (3) that is at most
`d` away. -/
def haloOf (t : Tile) (d : Rat) (p : Pos) : Option Nat :=
  if t.y + t.h - d ≤ p.y then some 0
  else if t.x + t.w - d ≤ p.x then some 1
  else if p.y ≤ t.y + d then some 2
  else if p.x ≤ t.x + d then some 3
  else none

/-- `p` is at most `d` away from border `k` of the box: north (0), east (1), south (2), west (3). -/
def AtBorder (t : Tile) (d : Rat) (p : Pos) (k : Nat) : Prop :=
  (k = 0 ∧ t.y + t.h - p.y ≤ d) ∨ (k = 1 ∧ t.x + t.w - p.x ≤ d) ∨ (k = 2 ∧ p.y - t.y ≤ d) ∨ (k = 3 ∧ p.x - t.x ≤ d)

/-- The numbers of processes for which the boxes turn out to be the fields of a grid of rows and columns: powers of two,
and 6, 24, 96, … -/
def GridSize (size : Nat) : Prop := (∃ e, size = 2 ^ e) ∨ ∃ j, size = 6 * 4 ^ j

/-- The halo exchange does what it is for, on a field of size `w` by `h`: the agents inserted in a process before
`lazy_update` are received by every process whose box is within the distance. -/
def Delivers (O : Type) [BEq O] (size : Nat) (w h disc d : Rat) : Prop :=
  ∀ r s, r < size → s < size → r ≠ s → ∀ t u t1 t2 : Tree O, Tree.create r size 0 ⟨0, 0, w, h⟩ disc d = some t →
    Tree.create s size 0 ⟨0, 0, w, h⟩ disc d = some u → ∀ as : List (O × Pos),
    (∀ a ∈ as, (⟨t.layout.x, t.layout.y, t.layout.width, t.layout.height⟩ : Tile).Has a.2) → insertAll t as = some t1 →
    lazyUpdate t1 = some t2 → ∀ a p, (a, p) ∈ as →
    Near w h d p ⟨u.layout.x, u.layout.y, u.layout.width, u.layout.height⟩ →
    ∃ l, receivedFrom u t2 t2.precNeighbors true = some l ∧ a ∈ l

/-- A state of the loop that exchanges lengths (src/engine/fields/kdtree_mpi.rs:733-755): the partners each process still
has to serve. Serving the first one blocks until that process serves it too. -/
abbrev Pending := Nat → List Nat

/-- Two processes that have each other as next partner complete their exchange. -/
def Meet (s s' : Pending) : Prop :=
  ∃ i j a b, i ≠ j ∧ s i = j :: a ∧ s j = i :: b ∧
    s' = fun k => if k = i then a else if k = j then b else s k

/-- A state that can follow. -/
inductive Reachable (s : Pending) : Pending → Prop
  | start : Reachable s s
  | step {s1 s2 : Pending} : Reachable s s1 → Meet s1 s2 → Reachable s s2

end Verif.KdTree
