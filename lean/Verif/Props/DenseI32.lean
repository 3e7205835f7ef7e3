import Verif.Model.DenseI32
import Verif.Props.NumberGrid
import Verif.Props.ObjectGrid

/-! Dense grids of every size: C178. -/

namespace Verif.DenseI32

open Grid

theorem fit_of (m : Mode) {z : Int} (h1 : -2 ^ 31 ≤ z) (h2 : z < 2 ^ 31) : fit m z = some z := by
  cases m with
  | debug => exact if_pos ⟨h1, h2⟩
  | release =>
    show some ((z + 2 ^ 31) % 2 ^ 32 - 2 ^ 31) = some z
    rw [Int.emod_eq_of_lt (by omega) (by omega)]
    congr 1
    omega

theorem index_of (m : Mode) {w h : Int} (hs : w * h < 2 ^ 31) {l : Loc} (hl : InRange w h l) :
    index m h l = some (l.x * h + l.y) := by
  obtain ⟨h1, h2⟩ := index_range hl
  have hx : 0 ≤ l.x * h := Int.mul_nonneg hl.1 (by obtain ⟨_, _, _, _⟩ := hl; omega)
  have hy := hl.2.2.1
  unfold index
  rw [fit_of m (by omega) (by omega)]
  exact fit_of m (by omega) (by omega)

variable {α β : Type}

theorem vecGet_of (m : Mode) {w h : Int} (hs : w * h < 2 ^ 31) (v : List α) {l : Loc} (hl : InRange w h l) :
    vecGet m v h l = Grid.vecGet v h l := by
  unfold vecGet Grid.vecGet
  rw [index_of m hs hl]

theorem vecSet_of (m : Mode) {w h : Int} (hs : w * h < 2 ^ 31) (v : List α) {l : Loc} (hl : InRange w h l) (a : α) :
    vecSet m v h l a = Grid.vecSet v h l a := by
  unfold vecSet Grid.vecSet
  rw [index_of m hs hl]

theorem findCell_of (m : Mode) {w h : Int} (hs : w * h < 2 ^ 31) (v : List α) (p : α → Bool) (cs : List Loc)
    (hc : ∀ c ∈ cs, InRange w h c) : findCell m v h p cs = Grid.findCell v h p cs := by
  induction cs with
  | nil => rfl
  | cons c cs ih =>
    unfold findCell Grid.findCell
    rw [vecGet_of m hs v (hc c List.mem_cons_self), ih (fun c h => hc c (List.mem_cons_of_mem _ h))]
    cases Grid.vecGet v h c <;> rfl

theorem collect_of (m : Mode) {w h : Int} (hs : w * h < 2 ^ 31) (v : List α) (f : Loc → α → List β) (cs : List Loc)
    (hc : ∀ c ∈ cs, InRange w h c) : collect m v h f cs = Grid.collect v h f cs := by
  induction cs with
  | nil => rfl
  | cons c cs ih =>
    unfold collect Grid.collect
    rw [vecGet_of m hs v (hc c List.mem_cons_self), ih (fun c h => hc c (List.mem_cons_of_mem _ h))]
    cases Grid.vecGet v h c <;> rfl

theorem natAbs_le_of {w : Int} (hw : w.natAbs < 2 ^ 31) (m : Mode) : fit m w.natAbs = some (w.natAbs : Int) :=
  fit_of m (by omega) (by omega)

theorem dims_of (m : Mode) {w h : Int} (hw : w.natAbs < 2 ^ 31) (hh : h.natAbs < 2 ^ 31) (h0 : 0 ≤ w * h)
    (hs : w * h < 2 ^ 31) : dims m w h = some ((w * h).toNat, (w.natAbs : Int), (h.natAbs : Int)) := by
  unfold dims
  rw [fit_of m (by omega) hs, natAbs_le_of hw, natAbs_le_of hh]
  exact if_neg (by omega)

variable {T : Type}

theorem newNumber_of (m : Mode) {w h : Int} (hw : w.natAbs < 2 ^ 31) (hh : h.natAbs < 2 ^ 31) (h0 : 0 ≤ w * h)
    (hs : w * h < 2 ^ 31) : (newNumber m w h : Option (DenseNumber.DGrid T)) = DenseNumber.new w h := by
  unfold newNumber DenseNumber.new
  rw [dims_of m hw hh h0 hs, if_neg (show ¬ w * h < 0 by omega)]
  rfl

theorem natAbs_prod {w h : Int} (h0 : 0 ≤ w * h) (hs : w * h < 2 ^ 31) :
    (w.natAbs : Int) * (h.natAbs : Int) < 2 ^ 31 := by
  have : (w.natAbs : Int) * (h.natAbs : Int) = ((w * h).natAbs : Int) := by
    rw [Int.natAbs_mul]; rfl
  rw [this]
  omega

/-- The queries of the number grid, by build and without overflow. -/
def SameAnswers [BEq T] (m : Mode) (g : DenseNumber.DGrid T) : Prop :=
  (∀ l, InRange g.width g.height l → getValue m g l = DenseNumber.getValue g l ∧
    getValueUnbuffered m g l = DenseNumber.getValueUnbuffered g l) ∧
  (∀ v, getLocation m g v = DenseNumber.getLocation g v ∧
    getLocationUnbuffered m g v = DenseNumber.getLocationUnbuffered g v) ∧
  getEmptyBags m g = DenseNumber.getEmptyBags g ∧
  iterValues m g = DenseNumber.iterValues g ∧
  iterValuesUnbuffered m g = DenseNumber.iterValuesUnbuffered g

theorem sameAnswers [BEq T] (m : Mode) {g : DenseNumber.DGrid T} (hs : g.width * g.height < 2 ^ 31) :
    SameAnswers m g := by
  refine ⟨fun l hl => ⟨vecGet_of m hs _ hl, vecGet_of m hs _ hl⟩, fun v => ⟨?_, ?_⟩, ?_, ?_, ?_⟩
  · exact findCell_of m hs _ _ _ (fun c hc => mem_cells.1 hc)
  · exact findCell_of m hs _ _ _ (fun c hc => mem_cells.1 hc)
  · exact collect_of m hs _ _ _ (fun c hc => mem_cells.1 hc)
  · exact collect_of m hs _ _ _ (fun c hc => mem_cells.1 hc)
  · exact collect_of m hs _ _ _ (fun c hc => mem_cells.1 hc)

theorem exec_dims {g g' : DenseNumber.DGrid T} {op : NumOp T} (h : DenseNumber.exec g op = some g') :
    g'.width = g.width ∧ g'.height = g.height := by
  cases op with
  | set v l =>
    obtain ⟨x, _, rfl⟩ := Option.map_eq_some_iff.1 (show (Grid.vecSet _ _ _ _).map _ = some g' from h)
    exact ⟨rfl, rfl⟩
  | remove l =>
    obtain ⟨x, _, rfl⟩ := Option.map_eq_some_iff.1 (show (Grid.vecSet _ _ _ _).map _ = some g' from h)
    exact ⟨rfl, rfl⟩
  | update => obtain rfl := Option.some.inj h; exact ⟨rfl, rfl⟩
  | lazyUpdate => obtain rfl := Option.some.inj h; exact ⟨rfl, rfl⟩
  | apply f o => obtain rfl := Option.some.inj h; cases o <;> exact ⟨rfl, rfl⟩

theorem run_dims {g : DenseNumber.DGrid T} : ∀ (hist : List (NumOp T)) {g' : DenseNumber.DGrid T},
    DenseNumber.run g hist = some g' → g'.width = g.width ∧ g'.height = g.height := by
  intro hist
  induction hist with
  | nil => intro g' h; obtain rfl := Option.some.inj h; exact ⟨rfl, rfl⟩
  | cons op hist ih =>
    intro g' h
    obtain ⟨x, h1, h2⟩ := Option.bind_eq_some_iff.1 (show (DenseNumber.run g hist).bind _ = some g' from h)
    have a := ih h1
    have b := exec_dims h2
    exact ⟨b.1.trans a.1, b.2.trans a.2⟩

theorem runNumber_of (m : Mode) {g : DenseNumber.DGrid T} (hs : g.width * g.height < 2 ^ 31)
    (hist : List (NumOp T)) (hin : DenseNumber.InRangeProgram g.width g.height hist) :
    runNumber m g hist = DenseNumber.run g hist := by
  induction hist with
  | nil => rfl
  | cons op hist ih =>
    unfold runNumber DenseNumber.run
    rw [ih (fun op h => hin op (List.mem_cons_of_mem _ h))]
    cases hr : DenseNumber.run g hist with
    | none => rfl
    | some x =>
      obtain ⟨hw, hh⟩ := run_dims hist hr
      have hop := hin op List.mem_cons_self
      have hs' : x.width * x.height < 2 ^ 31 := by rw [hw, hh]; exact hs
      show execNumber m x op = DenseNumber.exec x op
      cases op with
      | set v l =>
        show (vecSet m x.locs x.height l (some v)).map _ = (Grid.vecSet x.locs x.height l (some v)).map _
        rw [vecSet_of m hs' _ (show InRange x.width x.height l by rw [hw, hh]; exact hop)]
      | remove l =>
        show (vecSet m x.locs x.height l none).map _ = (Grid.vecSet x.locs x.height l none).map _
        rw [vecSet_of m hs' _ (show InRange x.width x.height l by rw [hw, hh]; exact hop)]
      | update => rfl
      | lazyUpdate => rfl
      | apply f o => rfl

/-- **C178, for number grids of fewer than 2^31 cells**, in debug and in release builds: making the grid, every
program on cells of the grid and all queries give what they give without bounds on the arithmetic, so that C20 to C23
hold. Full statement: for all sizes an `i32` can give; false by `C178_usable_iff_partial` and
`C178_alias_partial`. -/
theorem C178_number_grid_partial [BEq T] (m : Mode) (w h : Int) (hw : w.natAbs < 2 ^ 31)
    (hh : h.natAbs < 2 ^ 31) (h0 : 0 ≤ w * h) (hs : w * h < 2 ^ 31) (hist : List (NumOp T))
    (hin : DenseNumber.InRangeProgram w.natAbs h.natAbs hist) :
    ∃ g0, newNumber m w h = some g0 ∧ DenseNumber.new w h = some g0 ∧
      runNumber m g0 hist = DenseNumber.run g0 hist ∧
      ∀ g, DenseNumber.run g0 hist = some g → SameAnswers m g := by
  refine ⟨⟨List.replicate (w * h).toNat none, List.replicate (w * h).toNat none, w.natAbs, h.natAbs⟩, ?_, ?_, ?_, ?_⟩
  · rw [newNumber_of m hw hh h0 hs]
    exact if_neg (by omega)
  · exact if_neg (by omega)
  · have hp := natAbs_prod h0 hs
    apply runNumber_of m _ hist hin
    simp only
    exact hp
  · intro g hg
    obtain ⟨a, b⟩ := run_dims hist hg
    exact sameAnswers m (by rw [a, b]; exact natAbs_prod h0 hs)

/-- A grid of 40000 by 50000 cells has fewer than 2^31. -/
example : ((40000 : Int) * 50000 < 2 ^ 31) ∧
    DenseNumber.InRangeProgram 40000 50000 [NumOp.set 7 ⟨39999, 49999⟩, .lazyUpdate] :=
  ⟨by decide, by intro op h; simp at h; rcases h with rfl | rfl <;> simp [NumOp.InRange, InRange]⟩

/-- **C178 (negation).** A number grid can be made and all its cells read if and only if it has fewer than 2^31 cells:
a bigger one panics when it is made (always in a debug build) or has cells inside it that panic. -/
theorem C178_usable_iff_partial (m : Mode) (w h : Int) (hw0 : 0 < w) (hh0 : 0 < h) (hw : w < 2 ^ 31)
    (hh : h < 2 ^ 31) :
    (∃ g : DenseNumber.DGrid T, newNumber m w h = some g ∧ ∀ l, InRange w h l → (getValue m g l).isSome = true) ↔
      w * h < 2 ^ 31 := by
  have hp : 0 < w * h := Int.mul_pos hw0 hh0
  constructor
  · rintro ⟨g, hg, hread⟩
    by_contra hbig
    obtain ⟨d, hd, rfl⟩ := Option.map_eq_some_iff.1 hg
    unfold dims at hd
    cases m with
    | debug =>
      have : fit .debug (w * h) = none := if_neg (by omega)
      rw [this] at hd
      simp at hd
    | release =>
      rw [natAbs_le_of (by omega), natAbs_le_of (by omega)] at hd
      have e1 : (w.natAbs : Int) = w := by omega
      have e2 : (h.natAbs : Int) = h := by omega
      rw [e1, e2] at hd
      unfold fit at hd
      simp only at hd
      split at hd
      · simp at hd
      · rename_i hn
        obtain rfl := Option.some.inj hd
        -- the cell whose exact index is the number of bags
        generalize hN : (w * h + 2 ^ 31) % 2 ^ 32 - 2 ^ 31 = n at hn hread
        have hnb : 0 ≤ n ∧ n < 2 ^ 31 := by omega
        have hx : InRange w h ⟨n / h, n % h⟩ := by
          have h1 : 0 ≤ n / h := Int.ediv_nonneg hnb.1 (by omega)
          have h2 : n / h < w := Int.ediv_lt_of_lt_mul hh0 (by omega)
          exact ⟨h1, h2, Int.emod_nonneg _ (by omega), Int.emod_lt_of_pos _ hh0⟩
        have := hread _ hx
        have hdiv := Int.mul_ediv_add_emod n h
        have hmul : n / h * h = h * (n / h) := Int.mul_comm _ _
        have hm0 := Int.emod_nonneg n (show h ≠ 0 by omega)
        have hq0 : 0 ≤ h * (n / h) := Int.mul_nonneg (by omega) hx.1
        have hi : index .release h ⟨n / h, n % h⟩ = some n := by
          unfold index
          simp only
          rw [fit_of .release (by omega) (by omega)]
          simp only
          rw [fit_of .release (by omega) (by omega)]
          congr 1
          omega
        unfold getValue vecGet at this
        simp only at this
        rw [hi] at this
        simp [hnb.1] at this
  · intro hs
    have e1 : (w.natAbs : Int) = w := by omega
    have e2 : (h.natAbs : Int) = h := by omega
    refine ⟨_, (newNumber_of m (by omega) (by omega) (by omega) hs).trans (if_neg (by omega)), ?_⟩
    intro l hl
    unfold getValue
    simp only [e2]
    rw [vecGet_of m hs _ hl]
    have hb : Big w h (List.replicate (w * h).toNat (none : Option T)) := by simp [Big]
    obtain ⟨a, ha⟩ := vecGet_some hb hl
    rw [ha]
    rfl

/-- **C178 (negation, witness).** A release build makes a grid of 65537 by 65536 cells with 65536 bags, and what is
written at (65536, 0) is read at (0, 0). -/
theorem C178_alias_partial : ∃ g g' : DenseNumber.DGrid Nat,
    newNumber .release 65537 65536 = some g ∧ InRange 65537 65536 ⟨65536, 0⟩ ∧ InRange 65537 65536 ⟨0, 0⟩ ∧
    execNumber .release g (.set 7 ⟨65536, 0⟩) = some g' ∧
    getValueUnbuffered .release g' ⟨0, 0⟩ = some (some 7) := by
  have h1 : index .release 65536 ⟨65536, 0⟩ = some 0 := by decide +kernel
  have h2 : index .release 65536 ⟨0, 0⟩ = some 0 := by decide +kernel
  have hd : dims .release 65537 65536 = some (65536, 65537, 65536) := by decide +kernel
  refine ⟨⟨List.replicate 65536 none, List.replicate 65536 none, 65537, 65536⟩,
    ⟨List.replicate 65536 none, (List.replicate 65536 none).set 0 (some 7), 65537, 65536⟩, ?_, by decide, by decide,
    ?_, ?_⟩
  · unfold newNumber
    rw [hd]
    rfl
  · unfold execNumber vecSet
    simp only
    rw [h1]
    simp only
    rw [if_pos ⟨Int.le_refl _, by rw [List.length_replicate]; decide⟩]
    rfl
  · unfold getValueUnbuffered vecGet
    simp only
    rw [h2]
    simp only [Int.le_refl, if_true]
    exact List.getElem?_set_self (by rw [List.length_replicate]; decide)

variable {O : Type} [BEq O]

theorem obj_dims {g g' : DenseObject.OGrid O} {op : ObjOp O} (hl : op.Lazy) (h : DenseObject.exec g op = some g') :
    g'.width = g.width ∧ g'.height = g.height := by
  cases op with
  | place o l =>
    replace h : DenseObject.setObjectLocation g o l = some g' := h
    unfold DenseObject.setObjectLocation at h
    split at h
    · simp at h
    · obtain ⟨x, _, rfl⟩ := Option.map_eq_some_iff.1 h
      exact ⟨rfl, rfl⟩
  | remove o l =>
    replace h : DenseObject.removeObjectLocation g o l = some g' := h
    unfold DenseObject.removeObjectLocation at h
    split at h
    · simp at h
    · obtain ⟨x, _, rfl⟩ := Option.map_eq_some_iff.1 h
      exact ⟨rfl, rfl⟩
  | update => exact hl.elim
  | lazyUpdate => obtain rfl := Option.some.inj h; exact ⟨rfl, rfl⟩
  | apply f o => exact hl.elim

theorem obj_run_dims {g : DenseObject.OGrid O} : ∀ (hist : List (ObjOp O)) {g' : DenseObject.OGrid O},
    (∀ op ∈ hist, op.Lazy) → DenseObject.run g hist = some g' → g'.width = g.width ∧ g'.height = g.height := by
  intro hist
  induction hist with
  | nil => intro g' _ h; obtain rfl := Option.some.inj h; exact ⟨rfl, rfl⟩
  | cons op hist ih =>
    intro g' hl h
    obtain ⟨x, h1, h2⟩ := Option.bind_eq_some_iff.1 (show (DenseObject.run g hist).bind _ = some g' from h)
    have a := ih (fun op h => hl op (List.mem_cons_of_mem _ h)) h1
    have b := obj_dims (hl op List.mem_cons_self) h2
    exact ⟨b.1.trans a.1, b.2.trans a.2⟩

/-- **C178, for object grids of fewer than 2^31 cells**, in debug and in release builds: the grid is made, and programs
that place and remove objects on its cells and call `lazy_update` show what they show without bounds on the arithmetic
(C28). Full statement: for all sizes; false as for number grids. -/
theorem C178_object_grid_partial (m : Mode) (w h : Int) (hw : w.natAbs < 2 ^ 31) (hh : h.natAbs < 2 ^ 31)
    (h0 : 0 ≤ w * h) (hs : w * h < 2 ^ 31) (hist : List (ObjOp O))
    (hin : ∀ op ∈ hist, op.InRange w.natAbs h.natAbs) (hlazy : ∀ op ∈ hist, op.Lazy) :
    ∃ g0 g, newObject m w h = some g0 ∧ runObject m g0 hist = some g ∧
      ∀ l, InRange w.natAbs h.natAbs l →
        getObjects m g l = some (if bagPublished true hist l = [] then none else some (bagPublished true hist l)) ∧
        getObjectsUnbuffered m g l =
          some (if bagWritten true hist l = [] then none else some (bagWritten true hist l)) := by
  have hnew : DenseObject.new w h = some (⟨List.replicate (w * h).toNat [], List.replicate (w * h).toNat [],
    w.natAbs, h.natAbs⟩ : DenseObject.OGrid O) := if_neg (by omega)
  obtain ⟨g, hrun, _, e1, e2, hshow⟩ :=
    DenseObject.C28_dense_object_grid_is_double_buffered w h _ hnew hist hin hlazy
  have hs' := natAbs_prod h0 hs
  refine ⟨⟨List.replicate (w * h).toNat [], List.replicate (w * h).toNat [], w.natAbs, h.natAbs⟩, g, ?_, ?_, ?_⟩
  · unfold newObject
    rw [dims_of m hw hh h0 hs]
    rfl
  · rw [← hrun]
    clear hrun hshow e1 e2
    induction hist with
    | nil => rfl
    | cons op hist ih =>
      have hlz := fun op h => hlazy op (List.mem_cons_of_mem _ h)
      unfold runObject DenseObject.run
      rw [ih (fun op h => hin op (List.mem_cons_of_mem _ h)) hlz]
      cases hr : DenseObject.run _ hist with
      | none => rfl
      | some x =>
        obtain ⟨a, b⟩ := obj_run_dims hist hlz hr
        simp only at a b
        have hop := hin op List.mem_cons_self
        have hs2 : x.width * x.height < 2 ^ 31 := by rw [a, b]; exact hs'
        show execObject m x op = DenseObject.exec x op
        cases op with
        | place o l =>
          have hl : InRange x.width x.height l := by rw [a, b]; exact hop
          show setObjectLocation m x o l = DenseObject.setObjectLocation x o l
          unfold setObjectLocation DenseObject.setObjectLocation
          simp only [vecGet_of m hs2 _ hl, vecSet_of m hs2 _ hl]
          cases Grid.vecGet x.locs x.height l <;> rfl
        | remove o l =>
          have hl : InRange x.width x.height l := by rw [a, b]; exact hop
          show removeObjectLocation m x o l = DenseObject.removeObjectLocation x o l
          unfold removeObjectLocation DenseObject.removeObjectLocation
          simp only [vecGet_of m hs2 _ hl, vecSet_of m hs2 _ hl]
          cases Grid.vecGet x.locs x.height l <;> rfl
        | update => exact (hlazy .update List.mem_cons_self).elim
        | lazyUpdate => rfl
        | apply f o => exact (hlazy (.apply f o) List.mem_cons_self).elim
  · intro l hl
    obtain ⟨h1, h2⟩ := hshow l hl
    have hs2 : g.width * g.height < 2 ^ 31 := by rw [e1, e2]; exact hs'
    have hl' : InRange g.width g.height l := by rw [e1, e2]; exact hl
    refine ⟨?_, ?_⟩
    · rw [← h1]; unfold getObjects DenseObject.getObjects; rw [vecGet_of m hs2 _ hl']
    · rw [← h2]; unfold getObjectsUnbuffered DenseObject.getObjectsUnbuffered; rw [vecGet_of m hs2 _ hl']

end Verif.DenseI32
