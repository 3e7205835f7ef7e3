import Verif.Props.ObjectGrid
import Verif.Props.Field2D
import Verif.Props.NumberGrid

/-!
Objects whose `==` looks at their id only, as agents do (tests/model/flockers/bird.rs:157-172): which version of an object that
is placed again in the same step a grid shows (C198). Also the number grids with a value that differs from itself, as NaN (C22,
C26).
-/

set_option linter.unusedSectionVars false

namespace Verif.Grid

variable {O : Type} [BEq O]

/-- The bag of `once` holds the newest version of every object and nothing else. -/
theorem mem_bagWritten_iff [EquivBEq O] (hist : List (ObjOp O)) (l : Loc) (x : O) :
    x ∈ bagWritten true hist l ↔ newest hist l x = some x := by
  induction hist with
  | nil => simp [bagWritten, newest]
  | cons op hist ih =>
    cases op with
    | place o l' =>
      rw [bagWritten, newest]
      by_cases hl : l = l'
      · rw [if_pos hl, if_pos rfl]
        cases he : o == x with
        | true =>
          rw [if_pos ⟨hl, rfl⟩, List.mem_append, List.mem_filter, bne, BEq.symm he]
          simp [eq_comm]
        | false =>
          have hne : x ≠ o := by rintro rfl; rw [BEq.rfl] at he; cases he
          have hb : (x == o) = false := by rw [BEq.comm]; exact he
          rw [if_neg (by simp), ← ih, List.mem_append, List.mem_filter, bne, hb]
          simp [hne]
      · rw [if_neg hl, if_neg (fun h => hl h.1)]; exact ih
    | remove o l' =>
      rw [bagWritten, newest]
      by_cases hl : l = l'
      · rw [if_pos hl, List.mem_filter, bne]
        cases he : o == x with
        | true => rw [if_pos ⟨hl, rfl⟩, BEq.symm he]; simp
        | false =>
          have hb : (x == o) = false := by rw [BEq.comm]; exact he
          rw [if_neg (by simp), ← ih, hb]; simp
      · rw [if_neg hl, if_neg (fun h => hl h.1)]; exact ih
    | update => simp [bagWritten, newest]
    | lazyUpdate => simp [bagWritten, newest]
    | apply f o => exact ih

/-- The object found is equal to the one looked for, and so is the one found for it. -/
theorem newest_self [EquivBEq O] {hist : List (ObjOp O)} {l : Loc} {o x : O} (h : newest hist l o = some x) :
    (x == o) = true ∧ newest hist l x = some x := by
  induction hist with
  | nil => cases h
  | cons op hist ih =>
    cases op with
    | place o' l' =>
      rw [newest] at h
      by_cases hc : l = l' ∧ (o' == o) = true
      · rw [if_pos hc] at h
        injection h with h
        subst h
        exact ⟨hc.2, by rw [newest, if_pos ⟨hc.1, BEq.rfl⟩]⟩
      · rw [if_neg hc] at h
        obtain ⟨h1, h2⟩ := ih h
        refine ⟨h1, ?_⟩
        rw [newest, if_neg, h2]
        rintro ⟨ha, hb⟩
        exact hc ⟨ha, BEq.trans hb h1⟩
    | remove o' l' =>
      rw [newest] at h
      by_cases hc : l = l' ∧ (o' == o) = true
      · rw [if_pos hc] at h; cases h
      · rw [if_neg hc] at h
        obtain ⟨h1, h2⟩ := ih h
        refine ⟨h1, ?_⟩
        rw [newest, if_neg, h2]
        rintro ⟨ha, hb⟩
        exact hc ⟨ha, BEq.trans hb h1⟩
    | update => cases h
    | lazyUpdate => cases h
    | apply f o => exact ih h

/-- Without the removal of an equal object, nothing changes for a caller who removes the old version first. -/
theorem bagWritten_removesFirst [EquivBEq O] (l : Loc) (hist : List (ObjOp O)) (h : RemovesFirst l hist) :
    bagWritten false hist l = bagWritten true hist l := by
  induction hist with
  | nil => rfl
  | cons op hist ih =>
    cases op with
    | place o l' =>
      obtain ⟨h1, h2⟩ := h
      rw [bagWritten, bagWritten, ih h2]
      by_cases hl : l = l'
      · rw [if_pos hl, if_pos hl, if_neg (by decide), if_pos rfl]
        congr 1
        symm
        rw [List.filter_eq_self]
        intro x hx
        cases he : x == o with
        | false => rw [bne, he]; rfl
        | true =>
          have hx := (mem_bagWritten_iff hist l x).1 hx
          have : newest hist l o = newest hist l x := newest_congr hist l (BEq.symm he)
          rw [this, hx] at h1
          cases h1 hl
      · rw [if_neg hl, if_neg hl]
    | remove o l' => rw [bagWritten, bagWritten, ih h]
    | update => rfl
    | lazyUpdate => rfl
    | apply f o => exact ih h
where
  newest_congr (hist : List (ObjOp O)) (l : Loc) {a b : O} (hab : (a == b) = true) : newest hist l a = newest hist l b := by
    have key : ∀ o : O, (o == a) = (o == b) := fun o => by
      cases h1 : o == a with
      | true => exact (BEq.trans h1 hab).symm
      | false =>
        cases h2 : o == b with
        | false => rfl
        | true => rw [BEq.trans h2 (BEq.symm hab)] at h1; cases h1
    induction hist with
    | nil => rfl
    | cons op hist ih =>
      cases op with
      | place o l' => rw [newest, newest, key, ih]
      | remove o l' => rw [newest, newest, key, ih]
      | update => rfl
      | lazyUpdate => rfl
      | apply f o => exact ih

/-- A bag holds of every object all the versions placed since it was removed. -/
theorem bagWritten_versions [EquivBEq O] (hist : List (ObjOp O)) (l : Loc) (x : O) :
    (bagWritten false hist l).filter (fun y => y == x) = versions hist l x := by
  induction hist with
  | nil => rfl
  | cons op hist ih =>
    cases op with
    | place o l' =>
      rw [bagWritten, versions]
      by_cases hl : l = l'
      · rw [if_pos hl, if_neg (by decide), List.filter_append, ih]
        cases he : o == x with
        | true => rw [if_pos ⟨hl, rfl⟩]; simp [he]
        | false => rw [if_neg (by simp)]; simp [he]
      · rw [if_neg hl, if_neg (fun h => hl h.1)]; exact ih
    | remove o l' =>
      rw [bagWritten, versions]
      by_cases hl : l = l'
      · rw [if_pos hl]
        cases he : o == x with
        | true =>
          rw [if_pos ⟨hl, rfl⟩, List.filter_filter, List.filter_eq_nil_iff]
          intro y _ hy
          simp only [Bool.and_eq_true, bne] at hy
          rw [BEq.trans hy.1 (BEq.symm he)] at hy
          simp at hy
        | false =>
          rw [if_neg (by simp), ← ih, List.filter_filter]
          apply List.filter_congr
          intro y _
          cases hy : y == x with
          | false => rfl
          | true =>
            have : (y == o) = false := by
              cases h2 : y == o with
              | false => rfl
              | true => rw [BEq.trans (BEq.symm h2) hy] at he; cases he
            rw [bne, this]; rfl
      · rw [if_neg hl, if_neg (fun h => hl h.1)]; exact ih
    | update => rfl
    | lazyUpdate => rfl
    | apply f o => exact ih

/-- No two objects of a bag are equal iff there is at most one equal to each. -/
theorem noneEqual_iff [EquivBEq O] (b : List O) : NoneEqual b ↔ ∀ x, (b.filter (fun y => y == x)).length ≤ 1 := by
  unfold NoneEqual
  induction b with
  | nil => simp
  | cons a b ih =>
    rw [List.pairwise_cons, ih]
    constructor
    · rintro ⟨h1, h2⟩ x
      rw [List.filter_cons]
      cases ha : a == x with
      | false => exact h2 x
      | true =>
        have : b.filter (fun y => y == x) = [] := by
          rw [List.filter_eq_nil_iff]
          intro y hy hyx
          have := h1 y hy
          rw [BEq.trans ha (BEq.symm hyx)] at this
          cases this
        rw [this]
        simp
    · intro h
      refine ⟨fun y hy => ?_, fun x => ?_⟩
      · cases hay : a == y with
        | false => rfl
        | true =>
          have := h a
          rw [List.filter_cons, if_pos BEq.rfl] at this
          have hm : y ∈ b.filter (fun y => y == a) := List.mem_filter.2 ⟨hy, BEq.symm hay⟩
          have := List.length_pos_of_mem hm
          simp only [List.length_cons] at *
          omega
      · have := h x
        rw [List.filter_cons] at this
        split at this
        · simp only [List.length_cons] at this
          omega
        · exact this

/-- An agent that is compared by its id only. -/
structure Agent where
  id : Nat
  state : Nat
  deriving DecidableEq

/-- `PartialEq` of the agents (tests/model/flockers/bird.rs:157-172). -/
instance (priority := high) : BEq Agent := ⟨fun a b => a.id == b.id⟩

theorem Agent.beq_iff (a b : Agent) : (a == b) = true ↔ a.id = b.id := by
  show (a.id == b.id) = true ↔ _
  simp

instance : EquivBEq Agent where
  rfl := (Agent.beq_iff _ _).2 rfl
  symm h := (Agent.beq_iff _ _).2 ((Agent.beq_iff _ _).1 h).symm
  trans h1 h2 := (Agent.beq_iff _ _).2 (((Agent.beq_iff _ _).1 h1).trans ((Agent.beq_iff _ _).1 h2))

end Verif.Grid

namespace Verif.DenseObject

open Grid

variable {O : Type} [BEq O]

/-- **C198**, the part that holds. `DenseGrid2D` shows of every object placed at a cell exactly its newest version: what was
written since the last update at once to `get_objects_unbuffered`, and after `lazy_update` to `get_objects`. -/
theorem C198_dense_shows_the_newest_partial [EquivBEq O] (width height : Int) (g0 : OGrid O)
    (hnew : new width height = some g0) (hist : List (ObjOp O))
    (hin : ∀ op ∈ hist, op.InRange width.natAbs height.natAbs) (hlazy : ∀ op ∈ hist, op.Lazy) :
    ∃ g, run g0 hist = some g ∧ ∀ l, InRange width.natAbs height.natAbs l →
      (∀ x, x ∈ seenUnbuffered g l ↔ newest hist l x = some x) ∧ NoneEqual (seenUnbuffered g l) ∧
      (∀ x, x ∈ seen (lazyUpdate g) l ↔ newest hist l x = some x) ∧ NoneEqual (seen (lazyUpdate g) l) := by
  obtain ⟨g, hg, hs⟩ := run_shows (shows_new hnew) hist hin hlazy
  refine ⟨g, hg, fun l hl => ?_⟩
  have h1 : seenUnbuffered g l = bagWritten true hist l := seenUnbuffered_of (hs.write l hl)
  have h2 : seen (lazyUpdate g) l = bagWritten true hist l := seen_of ((shows_lazy hs).read l hl)
  rw [h1, h2]
  exact ⟨mem_bagWritten_iff hist l, bagWritten_noneEqual hist l, mem_bagWritten_iff hist l, bagWritten_noneEqual hist l⟩

/-- An agent is placed, changes and is placed again; another one is removed. -/
def agents : List (ObjOp Agent) :=
  [.place ⟨1, 20⟩ ⟨0, 1⟩, .remove ⟨2, 99⟩ ⟨0, 1⟩, .place ⟨3, 10⟩ ⟨0, 1⟩, .place ⟨2, 10⟩ ⟨0, 1⟩, .place ⟨1, 10⟩ ⟨0, 1⟩]

example : (∀ op ∈ agents, op.InRange 2 3 ∧ op.Lazy) ∧ newest agents ⟨0, 1⟩ ⟨1, 0⟩ = some ⟨1, 20⟩ ∧
    newest agents ⟨0, 1⟩ ⟨2, 0⟩ = none ∧
    ((new 2 3).bind (fun g => run g agents)).map (fun g => seen (lazyUpdate g) ⟨0, 1⟩) = some [⟨3, 10⟩, ⟨1, 20⟩] := by
  refine ⟨?_, by decide, by decide, by decide⟩
  intro op hop
  simp only [agents, List.mem_cons, List.not_mem_nil, or_false] at hop
  rcases hop with h | h | h | h | h <;> subst h <;> simp [ObjOp.InRange, ObjOp.Lazy, Grid.InRange]

end Verif.DenseObject

namespace Verif.SparseObject

open Grid

variable {O : Type} [BEq O]

/-- **C198**, the part that holds. `SparseGrid2D` does the same for a caller who removes the old version first. -/
theorem C198_sparse_shows_the_newest_partial [EquivBEq O] (width height : Int) (hist : List (ObjOp O))
    (hplain : ∀ op ∈ hist, op.Plain) (l : Loc) (hrem : RemovesFirst l hist) :
    ∃ g, run (new width height) hist = some g ∧
      (∀ x, x ∈ seenUnbuffered g l ↔ newest hist l x = some x) ∧ NoneEqual (seenUnbuffered g l) ∧
      (∀ x, x ∈ seen (lazyUpdate g) l ↔ newest hist l x = some x) ∧ NoneEqual (seen (lazyUpdate g) l) := by
  obtain ⟨g, hg, hs⟩ := run_shows width height hist hplain
  have e : ∀ b : List O, (entry b).getD [] = b := fun b => by cases b <;> simp [entry]
  have h1 : seenUnbuffered g l = bagWritten true hist l := by
    rw [seenUnbuffered, getObjectsUnbuffered, hs.write l, e, bagWritten_removesFirst l hist hrem]
  have h2 : seen (lazyUpdate g) l = bagWritten true hist l := by
    rw [seen, getObjects, (shows_lazy hs).read l, e, bagWritten_removesFirst l hist hrem]
  refine ⟨g, hg, ?_⟩
  rw [h1, h2]
  exact ⟨mem_bagWritten_iff hist l, DenseObject.bagWritten_noneEqual hist l, mem_bagWritten_iff hist l,
    DenseObject.bagWritten_noneEqual hist l⟩

/-- **C198**, exactly. `SparseGrid2D` shows of every object all the versions placed since an equal one was removed, so each object is
shown at most once iff none was placed twice since then. -/
theorem C198_sparse_exactly_partial [EquivBEq O] (width height : Int) (hist : List (ObjOp O))
    (hplain : ∀ op ∈ hist, op.Plain) (l : Loc) :
    ∃ g, run (new width height) hist = some g ∧
      (∀ x, (seenUnbuffered g l).filter (fun y => y == x) = versions hist l x) ∧
      (∀ x, (seen (lazyUpdate g) l).filter (fun y => y == x) = versions hist l x) ∧
      (NoneEqual (seen (lazyUpdate g) l) ↔ ∀ x, (versions hist l x).length ≤ 1) := by
  obtain ⟨g, hg, hs⟩ := run_shows width height hist hplain
  have e : ∀ b : List O, (entry b).getD [] = b := fun b => by cases b <;> simp [entry]
  have h1 : seenUnbuffered g l = bagWritten false hist l := by
    rw [seenUnbuffered, getObjectsUnbuffered, hs.write l, e]
  have h2 : seen (lazyUpdate g) l = bagWritten false hist l := by
    rw [seen, getObjects, (shows_lazy hs).read l, e]
  refine ⟨g, hg, ?_⟩
  rw [h1, h2]
  refine ⟨bagWritten_versions hist l, bagWritten_versions hist l, ?_⟩
  rw [noneEqual_iff]
  simp only [bagWritten_versions]

/-- An agent is placed, removed, and placed twice: the two last versions are shown. -/
example : versions [.place ⟨1, 30⟩ ⟨0, 1⟩, .place ⟨1, 20⟩ ⟨0, 1⟩, .remove ⟨1, 0⟩ ⟨0, 1⟩, .place (⟨1, 10⟩ : Agent) ⟨0, 1⟩] ⟨0, 1⟩ ⟨1, 0⟩ =
    [⟨1, 20⟩, ⟨1, 30⟩] := by decide

/-- **C198** is false of the code. `SparseGrid2D`: an agent placed, changed and placed again at the same cell in one step is
shown twice, once as it was. -/
theorem C198_sparse_shows_the_old_version_partial :
    (run (new 2 3) [.place ⟨1, 20⟩ ⟨0, 1⟩, .place (⟨1, 10⟩ : Agent) ⟨0, 1⟩]).map (fun g => seen (lazyUpdate g) ⟨0, 1⟩) =
      some [⟨1, 10⟩, ⟨1, 20⟩] := by decide

/-- An agent is placed, changes, is removed and placed again. -/
def agents : List (ObjOp Agent) :=
  [.place ⟨1, 20⟩ ⟨0, 1⟩, .remove ⟨1, 20⟩ ⟨0, 1⟩, .place ⟨2, 10⟩ ⟨0, 1⟩, .place ⟨1, 10⟩ ⟨0, 1⟩]

example : RemovesFirst ⟨0, 1⟩ agents ∧ newest agents ⟨0, 1⟩ ⟨1, 0⟩ = some ⟨1, 20⟩ ∧
    (run (new 2 3) agents).map (fun g => seen (lazyUpdate g) ⟨0, 1⟩) = some [⟨2, 10⟩, ⟨1, 20⟩] := by
  refine ⟨?_, by decide, by decide⟩
  simp only [RemovesFirst, agents]
  exact ⟨fun _ => by decide, fun _ => by decide, fun _ => by decide, trivial⟩

end Verif.SparseObject

namespace Verif.Field2D

open Grid Torus

variable {O : Type} [BEq O]

/-- The square of the position. -/
def squareOf (d : Rat) (p : Torus.Pos) : Loc := ⟨(p.x / d).floor, (p.y / d).floor⟩

/-- The same calls on a grid of the squares. `update` of a field does nothing. -/
def onSquares (d : Rat) : List (FieldOp O) → List (ObjOp O)
  | [] => []
  | .place o l :: h => .place o (squareOf d l) :: onSquares d h
  | .remove o l :: h => .remove o (squareOf d l) :: onSquares d h
  | .update :: h => onSquares d h
  | .lazyUpdate :: h => .lazyUpdate :: onSquares d h

theorem sameSquare_eq (d : Rat) (l p : Torus.Pos) : sameSquare d l p = true ↔ squareOf d p = squareOf d l := by
  unfold sameSquare squareOf
  simp only [Bool.and_eq_true, beq_iff_eq, Loc.mk.injEq]
  exact ⟨fun h => ⟨h.1.symm, h.2.symm⟩, fun h => ⟨h.1.symm, h.2.symm⟩⟩

theorem objsWritten_onSquares (d : Rat) (hist : List (FieldOp O)) (p : Torus.Pos) :
    objsWritten d hist p = bagWritten false (onSquares d hist) (squareOf d p) := by
  induction hist with
  | nil => rfl
  | cons op hist ih =>
    cases op with
    | place o l =>
      rw [objsWritten, onSquares, bagWritten, ih, if_neg (show ¬ (false = true) by decide)]
      by_cases h : sameSquare d l p = true
      · rw [if_pos h, if_pos ((sameSquare_eq d l p).1 h)]
      · rw [if_neg h, if_neg (fun h' => h ((sameSquare_eq d l p).2 h'))]
    | remove o l =>
      rw [objsWritten, onSquares, bagWritten, ih]
      by_cases h : sameSquare d l p = true
      · rw [if_pos h, if_pos ((sameSquare_eq d l p).1 h)]
      · rw [if_neg h, if_neg (fun h' => h ((sameSquare_eq d l p).2 h'))]
    | update => rw [objsWritten, onSquares, ih]
    | lazyUpdate => rfl

/-- **C198**, the part that holds. `Field2D` does the same for every square whose objects are removed before they are placed
again. -/
theorem C198_field_shows_the_newest_partial [EquivBEq O] (w h d : ℚ) (t : Bool) (hw : 0 < w) (hh : 0 < h) (hd : 0 < d)
    (hist : List (FieldOp O)) (hin : ∀ op ∈ hist, op.InField w h) :
    ∃ f f', run (new w h d t) hist = some f ∧ lazyUpdate f = some f' ∧
      ∀ p, InField w h p → RemovesFirst (squareOf d p) (onSquares d hist) →
        ∃ b, getObjectsUnbuffered f p = some b ∧ getObjects f' p = some b ∧ NoneEqual b ∧
          ∀ x, x ∈ b ↔ newest (onSquares d hist) (squareOf d p) x = some x := by
  obtain ⟨f, h1, h2⟩ := C35_field_history w h d t hw hh hd hist hin
  obtain ⟨f', h3, h4⟩ := C35_field_history w h d t hw hh hd (.lazyUpdate :: hist) (by
    intro op hop
    rcases List.mem_cons.1 hop with rfl | hop
    · trivial
    · exact hin op hop)
  rw [run, h1] at h3
  refine ⟨f, f', h1, h3, fun p hp hrem => ?_⟩
  have e : objsWritten d hist p = bagWritten true (onSquares d hist) (squareOf d p) := by
    rw [objsWritten_onSquares, bagWritten_removesFirst _ _ hrem]
  refine ⟨objsWritten d hist p, (h2 p hp).2.1, (h4 p hp).1, ?_, ?_⟩
  · rw [e]; exact DenseObject.bagWritten_noneEqual _ _
  · intro x; rw [e]; exact mem_bagWritten_iff _ _ x

/-- **C198**, exactly. `Field2D` shows in every square all the versions of an object placed there since an equal one was removed, so each
object is shown at most once iff none was placed twice in the square since then. -/
theorem C198_field_exactly_partial [EquivBEq O] (w h d : ℚ) (t : Bool) (hw : 0 < w) (hh : 0 < h) (hd : 0 < d)
    (hist : List (FieldOp O)) (hin : ∀ op ∈ hist, op.InField w h) :
    ∃ f f', run (new w h d t) hist = some f ∧ lazyUpdate f = some f' ∧
      ∀ p, InField w h p → ∃ b, getObjectsUnbuffered f p = some b ∧ getObjects f' p = some b ∧
        (∀ x, b.filter (fun y => y == x) = versions (onSquares d hist) (squareOf d p) x) ∧
        (NoneEqual b ↔ ∀ x, (versions (onSquares d hist) (squareOf d p) x).length ≤ 1) := by
  obtain ⟨f, h1, h2⟩ := C35_field_history w h d t hw hh hd hist hin
  obtain ⟨f', h3, h4⟩ := C35_field_history w h d t hw hh hd (.lazyUpdate :: hist) (by
    intro op hop
    rcases List.mem_cons.1 hop with rfl | hop
    · trivial
    · exact hin op hop)
  rw [run, h1] at h3
  refine ⟨f, f', h1, h3, fun p hp => ⟨objsWritten d hist p, (h2 p hp).2.1, (h4 p hp).1, ?_, ?_⟩⟩
  · intro x; rw [objsWritten_onSquares]; exact bagWritten_versions _ _ x
  · rw [noneEqual_iff, objsWritten_onSquares]
    simp only [bagWritten_versions]

/-- **C198** is false of the code. `Field2D`: an agent placed, changed and placed again within one square in one step is shown
twice, once as it was. -/
theorem C198_field_shows_the_old_version_partial :
    (run (new 10 10 3 true) [.lazyUpdate, .place ⟨1, 20⟩ ⟨2, 2⟩, .place (⟨1, 10⟩ : Agent) ⟨1, 1⟩]).bind
      (fun f => getObjects f ⟨0, 0⟩) = some [⟨1, 10⟩, ⟨1, 20⟩] := by decide +kernel

/-- An agent is placed, changes, is removed from where it was and placed again, a little further on. -/
def agents : List (FieldOp Agent) :=
  [.place ⟨1, 20⟩ ⟨2, 2⟩, .remove ⟨1, 20⟩ ⟨1, 1⟩, .place ⟨2, 10⟩ ⟨1, 2⟩, .place ⟨1, 10⟩ ⟨1, 1⟩]

example : (∀ op ∈ agents, op.InField 10 10) ∧ RemovesFirst (squareOf 3 ⟨0, 0⟩) (onSquares 3 agents) ∧
    (run (new 10 10 3 true) (.lazyUpdate :: agents)).bind (fun f => getObjects f ⟨0, 0⟩) = some [⟨2, 10⟩, ⟨1, 20⟩] := by
  refine ⟨by decide +kernel, ?_, by decide +kernel⟩
  simp only [RemovesFirst, onSquares, agents]
  exact ⟨fun _ => by decide +kernel, fun _ => by decide +kernel, fun _ => by decide +kernel, trivial⟩

end Verif.Field2D

namespace Verif.DenseNumber

open Grid

/-- **C22.** A value that no value is equal to, as the NaN of the floats, is never found. -/
theorem C22_get_location_of_nan {T : Type} [BEq T] (g : DGrid T) (hg : WF g) (nan : T) (hnan : ∀ x, (x == nan) = false) :
    getLocation g nan = some none ∧ getLocationUnbuffered g nan = some none := by
  obtain ⟨⟨r, h1, h2⟩, r', h3, h4⟩ := C22_get_location g hg nan
  have k1 : r = none := h2.1.2 (fun l _ ⟨x, _, hx⟩ => by rw [hnan x] at hx; cases hx)
  have k2 : r' = none := h4.1.2 (fun l _ ⟨x, _, hx⟩ => by rw [hnan x] at hx; cases hx)
  rw [h1, h3, k1, k2]
  exact ⟨rfl, rfl⟩

end Verif.DenseNumber

namespace Verif.SparseNumber

open Grid

/-- **C26.** A value that no value is equal to, as the NaN of the floats, is never found. -/
theorem C26_get_location_of_nan {T : Type} [BEq T] (g : SGrid T) (hg : WF g) (nan : T) (hnan : ∀ x, (x == nan) = false) :
    getLocation g nan = none ∧ getLocationUnbuffered g nan = none := by
  obtain ⟨⟨h1, _⟩, h2, _⟩ := C26_get_location g hg nan
  exact ⟨h1.2 (fun _ x _ => hnan x), h2.2 (fun _ x _ => hnan x)⟩

/-- Integers with a NaN. -/
inductive Num where
  | nan
  | num (n : Int)
  deriving DecidableEq

/-- `==` of the floats. -/
instance (priority := high) : BEq Num := ⟨fun a b => match a, b with
  | .num n, .num m => n == m
  | _, _ => false⟩

example : (∀ x : Num, (x == .nan) = false) ∧ WF (⟨[(⟨0, 1⟩, .nan), (⟨1, 1⟩, .num 4)], [], 2, 2⟩ : SGrid Num) ∧
    getLocation (⟨[(⟨0, 1⟩, .nan), (⟨1, 1⟩, .num 4)], [], 2, 2⟩ : SGrid Num) (.num 4) = some ⟨1, 1⟩ ∧
    getLocation (⟨[(⟨0, 1⟩, .nan), (⟨1, 1⟩, .num 4)], [], 2, 2⟩ : SGrid Num) .nan = none ∧
    DenseNumber.getLocation ⟨[none, some Num.nan, none, some (.num 4)], [none, none, none, none], 2, 2⟩ .nan = some none := by
  refine ⟨fun x => by cases x <;> rfl, ⟨by simp [HMap.WF], by simp [HMap.WF]⟩, by decide, by decide, by decide⟩

end Verif.SparseNumber
