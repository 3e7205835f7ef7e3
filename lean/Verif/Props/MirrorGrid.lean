import Verif.Spec.Mirror
import Verif.Props.NumberGrid
import Verif.Props.ObjectGrid

/-!
C250 "The two axes are treated alike", the four grids.
-/

namespace Verif.Grid

theorem mirror_mirror (l : Loc) : l.mirror.mirror = l := rfl

theorem mirror_injective : Function.Injective Loc.mirror := by
  rintro ⟨a, b⟩ ⟨c, e⟩ he
  simp only [Loc.mirror, Loc.mk.injEq] at he ⊢
  exact ⟨he.2, he.1⟩

theorem mirror_eq_iff (l l' : Loc) : l.mirror = l'.mirror ↔ l = l' := mirror_injective.eq_iff

theorem inRange_mirror (w h : Int) (l : Loc) : InRange h w l.mirror ↔ InRange w h l := by
  unfold InRange Loc.mirror
  constructor
  · rintro ⟨a, b, c, d⟩; exact ⟨c, d, a, b⟩
  · rintro ⟨a, b, c, d⟩; exact ⟨c, d, a, b⟩

/-- Two lists of cells without repetitions that correspond to each other cell by cell. -/
theorem perm_mirror {r r' : List Loc} (hr : r.Nodup) (hr' : r'.Nodup) (h : ∀ l, l.mirror ∈ r' ↔ l ∈ r) :
    r'.Perm (r.map Loc.mirror) := by
  refine (List.perm_ext_iff_of_nodup hr' (hr.map mirror_injective)).2 (fun p => ?_)
  have h1 := h p.mirror
  rw [mirror_mirror] at h1
  rw [h1]
  constructor
  · intro hp; exact List.mem_map.2 ⟨_, hp, rfl⟩
  · intro hp
    obtain ⟨q, hq, rfl⟩ := List.mem_map.1 hp
    exact hq

section num

variable {T : Type}

theorem lastWritten_mirror (hist : List (NumOp T)) (l : Loc) :
    lastWritten (hist.map NumOp.mirror) l.mirror = lastWritten hist l := by
  induction hist with
  | nil => rfl
  | cons op hist ih =>
    cases op with
    | set v l' =>
      show (if l.mirror = l'.mirror then some v else _) = if l = l' then some v else _
      rw [ih]; exact if_congr (mirror_eq_iff l l') rfl rfl
    | remove l' =>
      show (if l.mirror = l'.mirror then none else _) = if l = l' then none else _
      rw [ih]; exact if_congr (mirror_eq_iff l l') rfl rfl
    | update => rfl
    | lazyUpdate => rfl
    | apply f o => exact ih

theorem lastPublished_mirror (hist : List (NumOp T)) (l : Loc) :
    lastPublished (hist.map NumOp.mirror) l.mirror = lastPublished hist l := by
  induction hist with
  | nil => rfl
  | cons op hist ih =>
    cases op with
    | set v l' => exact ih
    | remove l' => exact ih
    | update => exact lastWritten_mirror hist l
    | lazyUpdate => exact lastWritten_mirror hist l
    | apply f o => exact ih

theorem numMirror_inRange {w h : Int} {hist : List (NumOp T)} (hin : ∀ op ∈ hist, op.InRange w h) :
    ∀ op ∈ hist.map NumOp.mirror, op.InRange h w := by
  intro op hop
  obtain ⟨a, ha, rfl⟩ := List.mem_map.1 hop
  have := hin a ha
  cases a with
  | set v l => exact (inRange_mirror w h l).2 this
  | remove l => exact (inRange_mirror w h l).2 this
  | update => exact trivial
  | lazyUpdate => exact trivial
  | apply f o => exact trivial

theorem numMirror_plain {hist : List (NumOp T)} (hp : ∀ op ∈ hist, op.Plain) :
    ∀ op ∈ hist.map NumOp.mirror, op.Plain := by
  intro op hop
  obtain ⟨a, ha, rfl⟩ := List.mem_map.1 hop
  have := hp a ha
  cases a with
  | apply f o => exact this
  | _ => exact trivial

end num

section obj

variable {O : Type}

theorem bagWritten_mirror [BEq O] (once : Bool) (hist : List (ObjOp O)) (l : Loc) :
    bagWritten once (hist.map ObjOp.mirror) l.mirror = bagWritten once hist l := by
  induction hist with
  | nil => rfl
  | cons op hist ih =>
    cases op with
    | place o l' =>
      show (if l.mirror = l'.mirror then
          (if once then (bagWritten once (hist.map ObjOp.mirror) l.mirror).filter (fun x => x != o)
            else bagWritten once (hist.map ObjOp.mirror) l.mirror) ++ [o]
        else bagWritten once (hist.map ObjOp.mirror) l.mirror) = bagWritten once (.place o l' :: hist) l
      rw [ih]; exact if_congr (mirror_eq_iff l l') rfl rfl
    | remove o l' =>
      show (if l.mirror = l'.mirror then (bagWritten once (hist.map ObjOp.mirror) l.mirror).filter (fun x => x != o)
        else bagWritten once (hist.map ObjOp.mirror) l.mirror) = bagWritten once (.remove o l' :: hist) l
      rw [ih]; exact if_congr (mirror_eq_iff l l') rfl rfl
    | update => rfl
    | lazyUpdate => rfl
    | apply f o => exact ih

theorem bagPublished_mirror [BEq O] (once : Bool) (hist : List (ObjOp O)) (l : Loc) :
    bagPublished once (hist.map ObjOp.mirror) l.mirror = bagPublished once hist l := by
  induction hist with
  | nil => rfl
  | cons op hist ih =>
    cases op with
    | place o l' => exact ih
    | remove o l' => exact ih
    | update => exact bagWritten_mirror once hist l
    | lazyUpdate => exact bagWritten_mirror once hist l
    | apply f o => exact ih

theorem objMirror_inRange {w h : Int} {hist : List (ObjOp O)} (hin : ∀ op ∈ hist, op.InRange w h) :
    ∀ op ∈ hist.map ObjOp.mirror, op.InRange h w := by
  intro op hop
  obtain ⟨a, ha, rfl⟩ := List.mem_map.1 hop
  have := hin a ha
  cases a with
  | place o l => exact (inRange_mirror w h l).2 this
  | remove o l => exact (inRange_mirror w h l).2 this
  | update => exact trivial
  | lazyUpdate => exact trivial
  | apply f o => exact trivial

theorem objMirror_plain {hist : List (ObjOp O)} (hp : ∀ op ∈ hist, op.Plain) :
    ∀ op ∈ hist.map ObjOp.mirror, op.Plain := by
  intro op hop
  obtain ⟨a, ha, rfl⟩ := List.mem_map.1 hop
  have := hp a ha
  cases a with
  | apply f o => exact this
  | _ => exact trivial

theorem objMirror_lazy {hist : List (ObjOp O)} (hp : ∀ op ∈ hist, op.Lazy) :
    ∀ op ∈ hist.map ObjOp.mirror, op.Lazy := by
  intro op hop
  obtain ⟨a, ha, rfl⟩ := List.mem_map.1 hop
  have := hp a ha
  cases a with
  | apply f o => exact this
  | update => exact this
  | _ => exact trivial

end obj

end Verif.Grid

namespace Verif.DenseNumber

open Grid

variable {T : Type}

/-- C250, `DenseNumberGrid2D`. -/
theorem C250_dense_number_partial (width height : Int) (hw : 0 ≤ width) (hh : 0 ≤ height) (hist : List (NumOp T))
    (hin : ∀ op ∈ hist, op.InRange width height) (hplain : ∀ op ∈ hist, op.Plain) :
    ∃ g g' r r', (new width height).bind (fun g0 => run g0 hist) = some g ∧
      (new height width).bind (fun g0 => run g0 (hist.map NumOp.mirror)) = some g' ∧
      (∀ l, InRange width height l → getValue g' l.mirror = getValue g l ∧
        getValueUnbuffered g' l.mirror = getValueUnbuffered g l) ∧
      getEmptyBags g = some r ∧ getEmptyBags g' = some r' ∧ r'.Perm (r.map Loc.mirror) := by
  have ew : (width.natAbs : Int) = width := Int.natAbs_of_nonneg hw
  have eh : (height.natAbs : Int) = height := Int.natAbs_of_nonneg hh
  have n1 : ∃ g0, (new width height : Option (DGrid T)) = some g0 :=
    ⟨_, if_neg (Int.not_lt.2 (Int.mul_nonneg hw hh))⟩
  have n2 : ∃ g0, (new height width : Option (DGrid T)) = some g0 :=
    ⟨_, if_neg (Int.not_lt.2 (Int.mul_nonneg hh hw))⟩
  obtain ⟨g0, n1⟩ := n1
  obtain ⟨g0', n2⟩ := n2
  obtain ⟨g, r1, wf1, gw1, gh1, a1⟩ := C20_dense_number_grid_is_double_buffered width height g0 n1 hist
    (by rw [ew, eh]; exact hin) hplain
  obtain ⟨g', r2, wf2, gw2, gh2, a2⟩ := C20_dense_number_grid_is_double_buffered height width g0' n2 (hist.map NumOp.mirror)
    (by rw [ew, eh]; exact numMirror_inRange hin) (numMirror_plain hplain)
  rw [ew, eh] at a1 a2
  rw [ew] at gw1 gh2
  rw [eh] at gh1 gw2
  obtain ⟨r, e1, d1, m1⟩ := C22_get_empty_bags g wf1
  obtain ⟨r', e2, d2, m2⟩ := C22_get_empty_bags g' wf2
  have val : ∀ l, InRange width height l → getValue g' l.mirror = getValue g l ∧
      getValueUnbuffered g' l.mirror = getValueUnbuffered g l := by
    intro l hl
    obtain ⟨b1, b2⟩ := a1 l hl
    obtain ⟨c1, c2⟩ := a2 l.mirror ((inRange_mirror _ _ _).2 hl)
    rw [b1, b2, c1, c2, lastPublished_mirror, lastWritten_mirror]
    exact ⟨rfl, rfl⟩
  refine ⟨g, g', r, r', by rw [n1]; exact r1, by rw [n2]; exact r2, val, e1, e2, perm_mirror d1 d2 (fun l => ?_)⟩
  rw [m1, m2, gw1, gw2, gh1, gh2, inRange_mirror]
  constructor
  · rintro ⟨hl, hv⟩; exact ⟨hl, by rw [← (val l hl).1]; exact hv⟩
  · rintro ⟨hl, hv⟩; exact ⟨hl, by rw [(val l hl).1]; exact hv⟩

example : (∀ op ∈ demoHist, op.InRange 2 3 ∧ op.Plain) ∧
    ((new 2 3).bind (fun g => run g demoHist)).bind (fun g => getValue g ⟨1, 2⟩) = some (some 7) ∧
    ((new 3 2).bind (fun g => run g (demoHist.map NumOp.mirror))).bind (fun g => getValue g ⟨2, 1⟩) = some (some 7) ∧
    ((new 2 3).bind (fun g => run g demoHist)).bind getEmptyBags = some [⟨0, 0⟩, ⟨0, 1⟩, ⟨0, 2⟩, ⟨1, 0⟩, ⟨1, 1⟩] ∧
    ((new 3 2).bind (fun g => run g (demoHist.map NumOp.mirror))).bind getEmptyBags =
      some [⟨0, 0⟩, ⟨0, 1⟩, ⟨1, 0⟩, ⟨1, 1⟩, ⟨2, 0⟩] := by
  refine ⟨?_, by decide, by decide, by decide, by decide⟩
  intro op hop
  simp only [demoHist, List.mem_cons, List.not_mem_nil, or_false] at hop
  rcases hop with h | h | h | h | h | h <;> subst h <;> simp [NumOp.InRange, NumOp.Plain, Grid.InRange]

/-- The limits: a value written above the grid is read in the next column; with the axes exchanged the call panics or lands on
another cell. Of two equal values the search finds the one in the first column, whatever the axes. -/
theorem C250_dense_number_negation_partial :
    (∃ l : Loc, ((new 2 1).bind (fun g => setValueLocation g 7 l)).bind (fun g => getValueUnbuffered g ⟨1, 0⟩) = some (some 7) ∧
      (new 1 2).bind (fun g => setValueLocation g 7 l.mirror) = none) ∧
    (∃ hist : List (NumOp Nat), (∀ op ∈ hist, op.InRange 2 2 ∧ op.Plain) ∧
      ((new 2 2).bind (fun g => run g hist)).bind (fun g => getLocation g 7) = some (some ⟨0, 1⟩) ∧
      ((new 2 2).bind (fun g => run g (hist.map NumOp.mirror))).bind (fun g => getLocation g 7) = some (some ⟨0, 1⟩)) := by
  refine ⟨⟨⟨0, 1⟩, by decide, rfl⟩, [.lazyUpdate, .set 7 ⟨0, 1⟩, .set 7 ⟨1, 0⟩], ?_, by decide, by decide⟩
  intro op hop
  simp only [List.mem_cons, List.not_mem_nil, or_false] at hop
  rcases hop with h | h | h <;> subst h <;> simp [NumOp.InRange, NumOp.Plain, Grid.InRange]

end Verif.DenseNumber

namespace Verif.SparseNumber

open Grid

variable {T : Type}

theorem sizes_run (g : SGrid T) (hist : List (NumOp T)) : (run g hist).width = g.width ∧ (run g hist).height = g.height := by
  induction hist with
  | nil => exact ⟨rfl, rfl⟩
  | cons op hist ih =>
    cases op with
    | apply f o => cases o <;> exact ih
    | _ => exact ih

/-- C250, `SparseNumberGrid2D`: at all locations. -/
theorem C250_sparse_number_partial (width height : Int) (hist : List (NumOp T)) (hplain : ∀ op ∈ hist, op.Plain) :
    (∀ l, getValue (run (new height width) (hist.map NumOp.mirror)) l.mirror = getValue (run (new width height) hist) l ∧
      getValueUnbuffered (run (new height width) (hist.map NumOp.mirror)) l.mirror =
        getValueUnbuffered (run (new width height) hist) l) ∧
    (getEmptyBags (run (new height width) (hist.map NumOp.mirror))).Perm
      ((getEmptyBags (run (new width height) hist)).map Loc.mirror) := by
  have val : ∀ l, getValue (run (new height width) (hist.map NumOp.mirror)) l.mirror = getValue (run (new width height) hist) l ∧
      getValueUnbuffered (run (new height width) (hist.map NumOp.mirror)) l.mirror =
        getValueUnbuffered (run (new width height) hist) l := by
    intro l
    have a := (C25_sparse_number_grid_is_double_buffered width height hist hplain).2 l
    have b := (C25_sparse_number_grid_is_double_buffered height width (hist.map NumOp.mirror) (numMirror_plain hplain)).2 l.mirror
    rw [a.1, a.2, b.1, b.2, lastPublished_mirror, lastWritten_mirror]
    exact ⟨rfl, rfl⟩
  refine ⟨val, perm_mirror (C26_get_empty_bags _).1 (C26_get_empty_bags _).1 (fun l => ?_)⟩
  rw [(C26_get_empty_bags _).2, (C26_get_empty_bags _).2, (val l).1, (sizes_run _ _).1, (sizes_run _ _).2, (sizes_run _ _).1,
    (sizes_run _ _).2]
  exact and_congr_left' (inRange_mirror _ _ _)

example :
    let hist : List (NumOp Nat) := [.set 9 ⟨0, 2⟩, .lazyUpdate, .remove ⟨0, 1⟩, .set 5 ⟨0, 1⟩, .set 7 ⟨-1, 2⟩]
    getValue (run (new 2 3) hist) ⟨-1, 2⟩ = some 7 ∧
    getValue (run (new 3 2) (hist.map NumOp.mirror)) ⟨2, -1⟩ = some 7 ∧
    getValue (run (new 3 2) (hist.map NumOp.mirror)) ⟨-1, 2⟩ = none := by decide

end Verif.SparseNumber

namespace Verif.DenseObject

open Grid

variable {O : Type} [BEq O]

/-- C250, `DenseGrid2D`. -/
theorem C250_dense_object_partial (width height : Int) (hw : 0 ≤ width) (hh : 0 ≤ height) (hist : List (ObjOp O))
    (hin : ∀ op ∈ hist, op.InRange width height) (hlazy : ∀ op ∈ hist, op.Lazy) :
    ∃ g g' r r', (new width height).bind (fun g0 => run g0 hist) = some g ∧
      (new height width).bind (fun g0 => run g0 (hist.map ObjOp.mirror)) = some g' ∧
      (∀ l, InRange width height l → getObjects g' l.mirror = getObjects g l ∧
        getObjectsUnbuffered g' l.mirror = getObjectsUnbuffered g l) ∧
      getEmptyBags g = some r ∧ getEmptyBags g' = some r' ∧ r'.Perm (r.map Loc.mirror) := by
  have ew : (width.natAbs : Int) = width := Int.natAbs_of_nonneg hw
  have eh : (height.natAbs : Int) = height := Int.natAbs_of_nonneg hh
  have n1 : ∃ g0, (new width height : Option (OGrid O)) = some g0 :=
    ⟨_, if_neg (Int.not_lt.2 (Int.mul_nonneg hw hh))⟩
  have n2 : ∃ g0, (new height width : Option (OGrid O)) = some g0 :=
    ⟨_, if_neg (Int.not_lt.2 (Int.mul_nonneg hh hw))⟩
  obtain ⟨g0, n1⟩ := n1
  obtain ⟨g0', n2⟩ := n2
  obtain ⟨g, r1, wf1, gw1, gh1, a1⟩ := C28_dense_object_grid_is_double_buffered width height g0 n1 hist
    (by rw [ew, eh]; exact hin) hlazy
  obtain ⟨g', r2, wf2, gw2, gh2, a2⟩ := C28_dense_object_grid_is_double_buffered height width g0' n2 (hist.map ObjOp.mirror)
    (by rw [ew, eh]; exact objMirror_inRange hin) (objMirror_lazy hlazy)
  rw [ew, eh] at a1 a2
  rw [ew] at gw1 gh2
  rw [eh] at gh1 gw2
  obtain ⟨r, e1, d1, m1⟩ := C29_get_empty_bags g wf1.wf
  obtain ⟨r', e2, d2, m2⟩ := C29_get_empty_bags g' wf2.wf
  have val : ∀ l, InRange width height l → getObjects g' l.mirror = getObjects g l ∧
      getObjectsUnbuffered g' l.mirror = getObjectsUnbuffered g l := by
    intro l hl
    obtain ⟨b1, b2⟩ := a1 l hl
    obtain ⟨c1, c2⟩ := a2 l.mirror ((inRange_mirror _ _ _).2 hl)
    rw [b1, b2, c1, c2, bagPublished_mirror, bagWritten_mirror]
    exact ⟨rfl, rfl⟩
  refine ⟨g, g', r, r', by rw [n1]; exact r1, by rw [n2]; exact r2, val, e1, e2, perm_mirror d1 d2 (fun l => ?_)⟩
  rw [m1, m2, gw1, gw2, gh1, gh2, inRange_mirror]
  constructor
  · rintro ⟨hl, hv⟩; exact ⟨hl, by rw [← (val l hl).1]; exact hv⟩
  · rintro ⟨hl, hv⟩; exact ⟨hl, by rw [(val l hl).1]; exact hv⟩

example :
    let hist : List (ObjOp Nat) := [.place 9 ⟨0, 2⟩, .lazyUpdate, .remove 5 ⟨0, 1⟩, .place 5 ⟨0, 1⟩, .place 8 ⟨1, 2⟩, .place 7 ⟨1, 2⟩]
    ((new 2 3).bind (fun g => run g hist)).bind (fun g => getObjects g ⟨1, 2⟩) = some (some [7, 8]) ∧
    ((new 3 2).bind (fun g => run g (hist.map ObjOp.mirror))).bind (fun g => getObjects g ⟨2, 1⟩) = some (some [7, 8]) ∧
    ((new 3 2).bind (fun g => run g (hist.map ObjOp.mirror))).bind getEmptyBags =
      some [⟨0, 0⟩, ⟨0, 1⟩, ⟨1, 0⟩, ⟨1, 1⟩, ⟨2, 0⟩] := by decide

/-- The limits: an object placed above the grid is found in the next column; with the axes exchanged the call panics. -/
theorem C250_dense_object_negation_partial :
    ∃ l : Loc, ((new 2 1).bind (fun g => setObjectLocation g 7 l)).bind (fun g => getObjectsUnbuffered g ⟨1, 0⟩) = some (some [7]) ∧
      (new 1 2).bind (fun g => setObjectLocation g 7 l.mirror) = none :=
  ⟨⟨0, 1⟩, by decide, rfl⟩

end Verif.DenseObject

namespace Verif.SparseObject

open Grid

variable {O : Type} [BEq O]

theorem sizes_run (g : BGrid O) : ∀ (hist : List (ObjOp O)) (g' : BGrid O), run g hist = some g' →
    g'.width = g.width ∧ g'.height = g.height
  | [], g', h => by cases h; exact ⟨rfl, rfl⟩
  | op :: hist, g', h => by
    obtain ⟨g1, h1, h2⟩ := Option.bind_eq_some_iff.1 h
    have ih := sizes_run g hist g1 h1
    cases op with
    | place o l =>
      cases h2
      unfold setObjectLocation
      split <;> exact ih
    | remove o l =>
      cases h2
      unfold removeObjectLocation
      split
      · exact ih
      · split <;> exact ih
    | update => cases h2; exact ih
    | lazyUpdate => cases h2; exact ih
    | apply f o => cases o <;> (obtain ⟨m, _, rfl⟩ := Option.map_eq_some_iff.1 h2; exact ih)

/-- C250, `SparseGrid2D`: at all locations. -/
theorem C250_sparse_object_partial (width height : Int) (hist : List (ObjOp O)) (hplain : ∀ op ∈ hist, op.Plain) :
    ∃ g g', run (new width height) hist = some g ∧ run (new height width) (hist.map ObjOp.mirror) = some g' ∧
      (∀ l, getObjects g' l.mirror = getObjects g l ∧ getObjectsUnbuffered g' l.mirror = getObjectsUnbuffered g l) ∧
      (getEmptyBags g').Perm ((getEmptyBags g).map Loc.mirror) := by
  obtain ⟨g, r1, _, a1, a2, _⟩ := C33_sparse_object_grid_is_double_buffered width height hist hplain
  obtain ⟨g', r2, _, b1, b2, _⟩ :=
    C33_sparse_object_grid_is_double_buffered height width (hist.map ObjOp.mirror) (objMirror_plain hplain)
  have val : ∀ l, getObjects g' l.mirror = getObjects g l ∧ getObjectsUnbuffered g' l.mirror = getObjectsUnbuffered g l := by
    intro l
    rw [a1, a2, b1, b2, bagPublished_mirror, bagWritten_mirror]
    exact ⟨rfl, rfl⟩
  refine ⟨g, g', r1, r2, val, perm_mirror (C34_get_empty_bags _).1 (C34_get_empty_bags _).1 (fun l => ?_)⟩
  obtain ⟨w1, h1⟩ := sizes_run _ _ _ r1
  obtain ⟨w2, h2⟩ := sizes_run _ _ _ r2
  have hs : seen g' l.mirror = seen g l := by
    show (getObjects g' l.mirror).getD [] = (getObjects g l).getD []
    rw [(val l).1]
  rw [(C34_get_empty_bags _).2, (C34_get_empty_bags _).2, hs, w1, w2, h1, h2]
  exact and_congr_left' (inRange_mirror _ _ _)

example :
    let hist : List (ObjOp Nat) := [.place 9 ⟨0, 2⟩, .update, .remove 5 ⟨0, 1⟩, .place 5 ⟨0, 1⟩, .place 8 ⟨-1, 2⟩, .place 7 ⟨-1, 2⟩]
    (run (new 2 3) hist).bind (fun g => getObjects g ⟨-1, 2⟩) = some [7, 8] ∧
    (run (new 3 2) (hist.map ObjOp.mirror)).bind (fun g => getObjects g ⟨2, -1⟩) = some [7, 8] := by decide

end Verif.SparseObject
