import Verif.Spec.Rename
import Verif.Model.DenseObjectGrid
import Verif.Model.SparseObjectGrid
import Verif.Lemmas.ObjectGrid

/-!
C251 "Names of objects do not matter", grids and the continuous field.
-/

namespace Verif.Grid

variable {α β γ : Type}

theorem vecSet_map (f : α → β) (v : List α) (h : Int) (l : Loc) (a : α) :
    vecSet (v.map f) h l (f a) = (vecSet v h l a).map (List.map f) := by
  unfold vecSet
  rw [List.length_map]
  by_cases hc : 0 ≤ l.x * h + l.y ∧ (l.x * h + l.y).toNat < v.length
  · rw [if_pos hc, if_pos hc, Option.map_some, List.map_set]
  · rw [if_neg hc, if_neg hc]; rfl

theorem findCell_map (f : α → β) (v : List α) (h : Int) (p : β → Bool) (q : α → Bool) (hpq : ∀ a, p (f a) = q a) :
    ∀ cs, findCell (v.map f) h p cs = findCell v h q cs
  | [] => rfl
  | c :: cs => by
    rw [findCell, findCell, vecGet_map]
    cases vecGet v h c with
    | none => rfl
    | some e =>
      show (if p (f e) then _ else _) = if q e then _ else _
      rw [hpq, findCell_map f v h p q hpq cs]

theorem collect_map (f : α → β) (k : γ → δ) (v : List α) (h : Int) (c1 : Loc → α → List γ) (c2 : Loc → β → List δ)
    (hc : ∀ l a, c2 l (f a) = (c1 l a).map k) : ∀ cs, collect (v.map f) h c2 cs = (collect v h c1 cs).map (List.map k)
  | [] => rfl
  | c :: cs => by
    rw [collect, collect, vecGet_map]
    cases vecGet v h c with
    | none => rfl
    | some e =>
      show (collect (v.map f) h c2 cs).map (fun r => c2 c (f e) ++ r) = _
      rw [collect_map f k v h c1 c2 hc cs, Option.map_map, Option.map_map]
      congr 1
      funext r
      simp [hc]

variable {O P : Type} [BEq O] [BEq P]

theorem filter_ne_map {φ : O → P} (hφ : Faithful φ) (b : List O) (o : O) :
    (b.map φ).filter (fun x => x != φ o) = (b.filter (fun x => x != o)).map φ := by
  rw [List.filter_map]
  congr 1
  apply List.filter_congr
  intro x _
  show (!(φ x == φ o)) = !(x == o)
  rw [hφ]

theorem contains_map {φ : O → P} (hφ : Faithful φ) (b : List O) (o : O) : (b.map φ).contains (φ o) = b.contains o := by
  induction b with
  | nil => rfl
  | cons x b ih =>
    rw [List.map_cons, List.contains_cons, List.contains_cons, ih, hφ]

end Verif.Grid

namespace Verif.DenseObject

open Grid

variable {O P : Type} [BEq O] [BEq P]

/-- The grid with all objects under their new names. -/
def OGrid.rename (φ : O → P) (g : OGrid O) : OGrid P :=
  ⟨g.rlocs.map (List.map φ), g.locs.map (List.map φ), g.width, g.height⟩

/-- The answers of the second grid are those of the first one under the new names. -/
structure RenamedAnswers (φ : O → P) (g : OGrid O) (g' : OGrid P) : Prop where
  objects : ∀ l, getObjects g' l = (getObjects g l).map (Option.map (List.map φ))
  unbuffered : ∀ l, getObjectsUnbuffered g' l = (getObjectsUnbuffered g l).map (Option.map (List.map φ))
  location : ∀ o, getLocation g' (φ o) = getLocation g o
  locationUnbuffered : ∀ o, getLocationUnbuffered g' (φ o) = getLocationUnbuffered g o
  empty : getEmptyBags g' = getEmptyBags g
  iter : iterObjects g' = (iterObjects g).map (List.map (fun e => (e.1, φ e.2)))
  iterUnbuffered : iterObjectsUnbuffered g' = (iterObjectsUnbuffered g).map (List.map (fun e => (e.1, φ e.2)))

omit [BEq O] [BEq P] in
theorem bagAnswer_map (φ : O → P) (b : List O) : bagAnswer (b.map φ) = (bagAnswer b).map (List.map φ) := by
  cases b <;> rfl

theorem rename_answers {φ : O → P} (hφ : Faithful φ) (g : OGrid O) : RenamedAnswers φ g (g.rename φ) where
  objects l := by
    show (vecGet (g.rlocs.map (List.map φ)) g.height l).map bagAnswer = ((vecGet g.rlocs g.height l).map bagAnswer).map _
    rw [vecGet_map, Option.map_map, Option.map_map]
    congr 1; funext b; exact bagAnswer_map φ b
  unbuffered l := by
    show (vecGet (g.locs.map (List.map φ)) g.height l).map bagAnswer = ((vecGet g.locs g.height l).map bagAnswer).map _
    rw [vecGet_map, Option.map_map, Option.map_map]
    congr 1; funext b; exact bagAnswer_map φ b
  location o := findCell_map _ _ _ _ _ (fun b => contains_map hφ b o) _
  locationUnbuffered o := findCell_map _ _ _ _ _ (fun b => contains_map hφ b o) _
  empty := by
    have h := collect_map (List.map φ) id g.rlocs g.height (fun c e => if e.isEmpty then [c] else [])
      (fun c e => if e.isEmpty then [c] else []) (fun l a => by cases a <;> rfl) (cells g.width g.height)
    rw [List.map_id_fun, Option.map_id] at h
    exact h
  iter := collect_map (List.map φ) (fun e : Loc × O => (e.1, φ e.2)) _ _ _ _ (fun l a => by simp) _
  iterUnbuffered := collect_map (List.map φ) (fun e : Loc × O => (e.1, φ e.2)) _ _ _ _ (fun l a => by simp) _

omit [BEq O] [BEq P] in
theorem filterMap_rename {φ : O → P} {f : O → Option O} {f' : P → Option P} (h : ∀ o, f' (φ o) = (f o).map φ) (b : List O) :
    (b.map φ).filterMap f' = (b.filterMap f).map φ := by
  rw [List.filterMap_map, List.map_filterMap]
  congr 1
  funext o
  exact h o

omit [BEq O] [BEq P] in
theorem applyRead_rename {φ : O → P} {f : Loc → O → Option O} {f' : Loc → P → Option P}
    (h : ∀ l o, f' l (φ o) = (f l o).map φ) (w hh : Int) :
    ∀ (i : Nat) (r : List (List O)),
      applyRead f' w hh i (r.map (List.map φ)) = (applyRead f w hh i r).map (List.map (List.map φ))
  | _, [] => rfl
  | i, b :: r => by
    rw [List.map_cons, applyRead, applyRead, applyRead_rename h w hh (i + 1) r]
    cases calculateIndexesBag i w hh with
    | none => rfl
    | some id =>
      show Option.map _ (Option.map _ _) = Option.map _ (Option.map _ _)
      rw [Option.map_map, Option.map_map]
      congr 1; funext t
      show (b.map φ).filterMap (f' id) :: _ = _
      rw [filterMap_rename (h id)]; rfl

omit [BEq O] [BEq P] in
theorem applyWrite_rename {φ : O → P} {f : Loc → O → Option O} {f' : Loc → P → Option P}
    (h : ∀ l o, f' l (φ o) = (f l o).map φ) (w hh : Int) :
    ∀ (i : Nat) (r v : List (List O)),
      applyWrite f' w hh i (r.map (List.map φ)) (v.map (List.map φ)) = (applyWrite f w hh i r v).map (List.map (List.map φ))
  | _, [], _ => rfl
  | i, b :: r, v => by
    rw [List.map_cons, applyWrite, applyWrite]
    cases calculateIndexesBag i w hh with
    | none => rfl
    | some id =>
      cases v with
      | nil =>
        show (if ((b.map φ).filterMap (f' id)).isEmpty then applyWrite f' w hh (i + 1) (r.map (List.map φ)) [] else none) = _
        rw [filterMap_rename (h id), List.isEmpty_map]
        have ih := applyWrite_rename h w hh (i + 1) r []
        rw [List.map_nil] at ih
        rw [ih]
        show _ = Option.map _ (if (b.filterMap (f id)).isEmpty then applyWrite f w hh (i + 1) r [] else none)
        by_cases hc : (b.filterMap (f id)).isEmpty = true
        · rw [if_pos hc, if_pos hc]
        · rw [if_neg hc, if_neg hc]; rfl
      | cons c v =>
        show (applyWrite f' w hh (i + 1) (r.map (List.map φ)) (v.map (List.map φ))).map
          (fun t => (c.map φ ++ (b.map φ).filterMap (f' id)) :: t) = _
        rw [applyWrite_rename h w hh (i + 1) r v, filterMap_rename (h id), Option.map_map]
        show _ = Option.map _ ((applyWrite f w hh (i + 1) r v).map (fun t => (c ++ b.filterMap (f id)) :: t))
        rw [Option.map_map]
        congr 1; funext t
        show _ = (c ++ b.filterMap (f id)).map φ :: _
        rw [List.map_append]; rfl

theorem pushNew_rename {φ : O → P} (hφ : Faithful φ) {f : O → Option O} {f' : P → Option P} (h : ∀ o, f' (φ o) = (f o).map φ)
    (b : List O) (e : O) : pushNew f' (b.map φ) (φ e) = (pushNew f b e).map φ := by
  unfold pushNew
  rw [h]
  cases f e with
  | none => rfl
  | some x =>
    show (if (b.map φ).contains (φ x) then b.map φ else b.map φ ++ [φ x]) = (if b.contains x then b else b ++ [x]).map φ
    rw [contains_map hφ]
    by_cases hc : b.contains x = true
    · rw [if_pos hc, if_pos hc]
    · rw [if_neg hc, if_neg hc, List.map_append]; rfl

theorem applyRWBag_rename {φ : O → P} (hφ : Faithful φ) {f : O → Option O} {f' : P → Option P} (h : ∀ o, f' (φ o) = (f o).map φ)
    (b r : List O) : applyRWBag f' (b.map φ) (r.map φ) = (applyRWBag f b r).map φ := by
  have fold : ∀ (r b : List O), (r.map φ).foldl (pushNew f') (b.map φ) = (r.foldl (pushNew f) b).map φ := by
    intro r
    induction r with
    | nil => intro b; rfl
    | cons e r ih =>
      intro b
      rw [List.map_cons, List.foldl_cons, List.foldl_cons, pushNew_rename hφ h, ih]
  unfold applyRWBag
  rw [List.isEmpty_map]
  by_cases hc : b.isEmpty = true
  · rw [if_pos hc, if_pos hc]; exact fold r []
  · rw [if_neg hc, if_neg hc, List.map_map, List.map_map]
    apply List.map_congr_left
    intro e _
    show (f' (φ e)).getD (φ e) = φ ((f e).getD e)
    rw [h]
    cases f e <;> rfl

theorem applyReadWrite_rename {φ : O → P} (hφ : Faithful φ) {f : Loc → O → Option O} {f' : Loc → P → Option P}
    (h : ∀ l o, f' l (φ o) = (f l o).map φ) (w hh : Int) :
    ∀ (i : Nat) (r v : List (List O)),
      applyReadWrite f' w hh i (r.map (List.map φ)) (v.map (List.map φ)) =
        (applyReadWrite f w hh i r v).map (List.map (List.map φ))
  | _, [], _ => rfl
  | i, b :: r, v => by
    rw [List.map_cons, applyReadWrite, applyReadWrite]
    cases calculateIndexesBag i w hh with
    | none => rfl
    | some id =>
      cases v with
      | nil => rfl
      | cons c v =>
        show (applyReadWrite f' w hh (i + 1) (r.map (List.map φ)) (v.map (List.map φ))).map
          (fun t => applyRWBag (f' id) (c.map φ) (b.map φ) :: t) = _
        rw [applyReadWrite_rename hφ h w hh (i + 1) r v, applyRWBag_rename hφ (h id), Option.map_map]
        show _ = Option.map _ ((applyReadWrite f w hh (i + 1) r v).map (fun t => applyRWBag (f id) c b :: t))
        rw [Option.map_map]
        rfl

omit [BEq O] [BEq P] in
theorem update_rename (φ : O → P) (g : OGrid O) : update (g.rename φ) = (update g).map (OGrid.rename φ) := by
  have fold : ∀ (cs : List Loc) (r : List (List O)),
      cs.foldlM (updateCell (g.rename φ)) (r.map (List.map φ)) = (cs.foldlM (updateCell g) r).map (List.map (List.map φ)) := by
    intro cs
    induction cs with
    | nil => intro r; rfl
    | cons c cs ih =>
      intro r
      have e : updateCell (g.rename φ) (r.map (List.map φ)) c = (updateCell g r c).map (List.map (List.map φ)) := by
        unfold updateCell
        show (match vecGet (g.locs.map (List.map φ)) g.height c with
          | none => none
          | some b => vecInsert (r.map (List.map φ)) (c.x * g.height + c.y).toNat b) = _
        rw [vecGet_map]
        cases vecGet g.locs g.height c with
        | none => rfl
        | some b =>
          show vecInsert (r.map (List.map φ)) (c.x * g.height + c.y).toNat (b.map φ) = (vecInsert r _ b).map _
          unfold vecInsert
          rw [List.length_map]
          by_cases hc : (c.x * g.height + c.y).toNat ≤ r.length
          · rw [if_pos hc, if_pos hc]
            simp [List.map_take, List.map_drop]
          · rw [if_neg hc, if_neg hc]; rfl
      rw [List.foldlM_cons, List.foldlM_cons, e]
      cases updateCell g r c with
      | none => rfl
      | some r' => exact ih r'
  unfold update
  show Option.map _ (List.foldlM (updateCell (g.rename φ)) (g.rlocs.map (List.map φ)) (cells g.width g.height)) = _
  rw [fold, Option.map_map, Option.map_map]
  rfl

theorem exec_rename {φ : O → P} (hφ : Faithful φ) (g : OGrid O) {op : ObjOp O} {op' : ObjOp P} (h : op.Renamed φ op') :
    exec (g.rename φ) op' = (exec g op).map (OGrid.rename φ) := by
  cases h with
  | place o l =>
    show setObjectLocation (g.rename φ) (φ o) l = (setObjectLocation g o l).map _
    unfold setObjectLocation
    show (match vecGet (g.locs.map (List.map φ)) g.height l with
      | none => none
      | some b => (vecSet (g.locs.map (List.map φ)) g.height l (b.filter (fun x => x != φ o) ++ [φ o])).map
          (fun v => { g.rename φ with locs := v })) = _
    rw [vecGet_map]
    cases vecGet g.locs g.height l with
    | none => rfl
    | some b =>
      show Option.map _ (vecSet (g.locs.map (List.map φ)) g.height l ((b.map φ).filter (fun x => x != φ o) ++ [φ o])) =
        Option.map _ (Option.map _ (vecSet g.locs g.height l (b.filter (fun x => x != o) ++ [o])))
      rw [filter_ne_map hφ]
      have e : (b.filter (fun x => x != o)).map φ ++ [φ o] = (b.filter (fun x => x != o) ++ [o]).map φ := by
        rw [List.map_append]; rfl
      rw [e, vecSet_map, Option.map_map, Option.map_map]
      rfl
  | remove o l =>
    show removeObjectLocation (g.rename φ) (φ o) l = (removeObjectLocation g o l).map _
    unfold removeObjectLocation
    show (match vecGet (g.locs.map (List.map φ)) g.height l with
      | none => none
      | some b => (vecSet (g.locs.map (List.map φ)) g.height l (b.filter (fun x => x != φ o))).map
          (fun v => { g.rename φ with locs := v })) = _
    rw [vecGet_map]
    cases vecGet g.locs g.height l with
    | none => rfl
    | some b =>
      show Option.map _ (vecSet (g.locs.map (List.map φ)) g.height l ((b.map φ).filter (fun x => x != φ o))) =
        Option.map _ (Option.map _ (vecSet g.locs g.height l (b.filter (fun x => x != o))))
      rw [filter_ne_map hφ, vecSet_map, Option.map_map, Option.map_map]
      rfl
  | update => exact update_rename φ g
  | lazyUpdate =>
    show some (lazyUpdate (g.rename φ)) = some ((lazyUpdate g).rename φ)
    unfold lazyUpdate OGrid.rename
    simp only [List.map_map]
    rfl
  | apply f f' opt h =>
    cases opt with
    | READ =>
      show Option.map _ (applyRead f' g.width g.height 0 (g.rlocs.map (List.map φ))) = Option.map _ (Option.map _ _)
      rw [applyRead_rename h, Option.map_map, Option.map_map]; rfl
    | WRITE =>
      show Option.map _ (applyWrite f' g.width g.height 0 (g.rlocs.map (List.map φ)) (g.locs.map (List.map φ))) =
        Option.map _ (Option.map _ _)
      rw [applyWrite_rename h, Option.map_map, Option.map_map]; rfl
    | READWRITE =>
      show Option.map _ (applyReadWrite f' g.width g.height 0 (g.rlocs.map (List.map φ)) (g.locs.map (List.map φ))) =
        Option.map _ (Option.map _ _)
      rw [applyReadWrite_rename hφ h, Option.map_map, Option.map_map]; rfl

theorem run_rename {φ : O → P} (hφ : Faithful φ) (g : OGrid O) {hist : List (ObjOp O)} {hist' : List (ObjOp P)}
    (h : List.Forall₂ (ObjOp.Renamed φ) hist hist') : run (g.rename φ) hist' = (run g hist).map (OGrid.rename φ) := by
  induction h with
  | nil => rfl
  | @cons op op' hist hist' h1 _ ih =>
    rw [run, run, ih]
    cases run g hist with
    | none => rfl
    | some g1 => exact exec_rename hφ g1 h1

/-- C251, `DenseGrid2D`. -/
theorem C251_dense {φ : O → P} (hφ : Faithful φ) (width height : Int) {hist : List (ObjOp O)} {hist' : List (ObjOp P)}
    (h : List.Forall₂ (ObjOp.Renamed φ) hist hist') :
    ((new width height).bind (fun g => run g hist) = none → (new width height).bind (fun g => run g hist') = none) ∧
    ∀ g, (new width height).bind (fun g => run g hist) = some g →
      ∃ g', (new width height).bind (fun g => run g hist') = some g' ∧ RenamedAnswers φ g g' := by
  have e : (new width height : Option (OGrid P)) = (new width height).map (OGrid.rename φ) := by
    unfold new
    by_cases hc : width * height < 0
    · rw [if_pos hc, if_pos hc]; rfl
    · rw [if_neg hc, if_neg hc]; simp [OGrid.rename]
  have key : (new width height : Option (OGrid P)).bind (fun g => run g hist') =
      ((new width height).bind (fun g => run g hist)).map (OGrid.rename φ) := by
    rw [e]
    cases (new width height : Option (OGrid O)) with
    | none => rfl
    | some g0 => exact run_rename hφ g0 h
  refine ⟨fun h0 => by rw [key, h0]; rfl, fun g hg => ⟨g.rename φ, by rw [key, hg]; rfl, rename_answers hφ g⟩⟩

/-- Numbers renamed to pairs; the closure makes the objects of a cell equal. -/
example :
    let φ : Nat → Nat × Bool := fun n => (n, true)
    let hist : List (ObjOp Nat) :=
      [.apply (fun _ _ => some 9) .READWRITE, .lazyUpdate, .remove 2 ⟨0, 0⟩, .place 2 ⟨0, 0⟩, .place 4 ⟨0, 0⟩, .place 3 ⟨0, 0⟩]
    let hist' : List (ObjOp (Nat × Bool)) :=
      [.apply (fun _ _ => some (9, true)) .READWRITE, .lazyUpdate, .remove (2, true) ⟨0, 0⟩, .place (2, true) ⟨0, 0⟩,
        .place (4, true) ⟨0, 0⟩, .place (3, true) ⟨0, 0⟩]
    Faithful φ ∧ List.Forall₂ (ObjOp.Renamed φ) hist hist' ∧
    ((new 1 1).bind (fun g => run g hist)).bind (fun g => getObjects g ⟨0, 0⟩) = some (some [3, 4]) ∧
    ((new 1 1).bind (fun g => run g hist')).bind (fun g => getObjects g ⟨0, 0⟩) = some (some [(3, true), (4, true)]) ∧
    ((new 1 1).bind (fun g => run g hist')).bind (fun g => getObjectsUnbuffered g ⟨0, 0⟩) = some (some [(9, true)]) := by
  refine ⟨fun a b => by simp [BEq.beq], ?_, by decide, by decide, by decide⟩
  exact .cons (.apply _ _ _ (fun _ _ => rfl)) (.cons .lazyUpdate (.cons (.remove 2 _) (.cons (.place 2 _) (.cons (.place 4 _)
    (.cons (.place 3 _) .nil)))))

/-- A renaming that confuses two objects is noticed. -/
theorem C251_confused :
    ∃ (φ : Nat → Nat) (hist : List (ObjOp Nat)) (hist' : List (ObjOp Nat)), List.Forall₂ (ObjOp.Renamed φ) hist hist' ∧
      ((new 1 1).bind (fun g => run g hist)).bind (fun g => getObjectsUnbuffered g ⟨0, 0⟩) = some (some [1, 2]) ∧
      ((new 1 1).bind (fun g => run g hist')).bind (fun g => getObjectsUnbuffered g ⟨0, 0⟩) = some (some [0]) :=
  ⟨fun _ => 0, [.place 2 ⟨0, 0⟩, .place 1 ⟨0, 0⟩], [.place 0 ⟨0, 0⟩, .place 0 ⟨0, 0⟩], .cons (.place 2 _) (.cons (.place 1 _) .nil),
    by decide, by decide⟩

end Verif.DenseObject

namespace Verif.HMap

variable {K V W : Type} [DecidableEq K]

/-- The map with all values changed. -/
def mapVals (f : V → W) (m : HMap K V) : HMap K W := m.map (fun e => (e.1, f e.2))

theorem find_mapVals (f : V → W) (m : HMap K V) (k : K) :
    (mapVals f m).find? (fun e => e.1 == k) = (m.find? (fun e => e.1 == k)).map (fun e => (e.1, f e.2)) := by
  unfold mapVals
  rw [List.find?_map]
  rfl

theorem get_mapVals (f : V → W) (m : HMap K V) (k : K) : get (mapVals f m) k = (get m k).map f := by
  unfold get
  rw [find_mapVals, Option.map_map, Option.map_map]
  rfl

theorem insert_mapVals (f : V → W) (m : HMap K V) (k : K) (v : V) :
    (insert (mapVals f m) k (f v)).1 = mapVals f (insert m k v).1 := by
  unfold insert
  rw [find_mapVals]
  cases m.find? (fun e => e.1 == k) with
  | none => simp [mapVals]
  | some e =>
    show (mapVals f m).map _ = mapVals f (m.map _)
    unfold mapVals
    rw [List.map_map, List.map_map]
    apply List.map_congr_left
    intro e _
    show (if (e.1 == k) = true then (e.1, f v) else (e.1, f e.2)) = ((if (e.1 == k) = true then (e.1, v) else e).1, f (if (e.1 == k) = true then (e.1, v) else e).2)
    by_cases hc : (e.1 == k) = true
    · rw [if_pos hc, if_pos hc]
    · rw [if_neg hc, if_neg hc]

theorem remove_mapVals (f : V → W) (m : HMap K V) (k : K) : (remove (mapVals f m) k).1 = mapVals f (remove m k).1 := by
  unfold remove mapVals
  rw [List.filter_map]
  rfl

theorem adjust_mapVals (f : V → W) (u : V → V) (u' : W → W) (hu : ∀ v, u' (f v) = f (u v)) (m : HMap K V) (k : K) :
    adjust (mapVals f m) k u' = mapVals f (adjust m k u) := by
  unfold adjust mapVals
  rw [List.map_map, List.map_map]
  apply List.map_congr_left
  intro e _
  show (if (e.1 == k) = true then (e.1, u' (f e.2)) else (e.1, f e.2)) = ((if (e.1 == k) = true then (e.1, u e.2) else e).1, f (if (e.1 == k) = true then (e.1, u e.2) else e).2)
  by_cases hc : (e.1 == k) = true
  · rw [if_pos hc, if_pos hc, hu]
  · rw [if_neg hc, if_neg hc]

end Verif.HMap

namespace Verif.SparseObject

open Grid HMap

variable {O P : Type} [BEq O] [BEq P]

/-- The grid with all objects under their new names. -/
def BGrid.rename (φ : O → P) (g : BGrid O) : BGrid P :=
  ⟨mapVals (List.map φ) g.rlocs, mapVals (List.map φ) g.locs, g.width, g.height⟩

/-- The answers of the second grid are those of the first one under the new names. -/
structure RenamedAnswers (φ : O → P) (g : BGrid O) (g' : BGrid P) : Prop where
  objects : ∀ l, getObjects g' l = (getObjects g l).map (List.map φ)
  unbuffered : ∀ l, getObjectsUnbuffered g' l = (getObjectsUnbuffered g l).map (List.map φ)
  location : ∀ o, getLocation g' (φ o) = getLocation g o
  locationUnbuffered : ∀ o, getLocationUnbuffered g' (φ o) = getLocationUnbuffered g o
  empty : getEmptyBags g' = getEmptyBags g
  iter : iterObjects g' = (iterObjects g).map (fun e => (e.1, φ e.2))
  iterUnbuffered : iterObjectsUnbuffered g' = (iterObjectsUnbuffered g).map (fun e => (e.1, φ e.2))

theorem find_location {φ : O → P} (hφ : Faithful φ) (m : HMap Loc (List O)) (o : O) :
    ((mapVals (List.map φ) m).find? (fun e => e.2.contains (φ o))).map Prod.fst = (m.find? (fun e => e.2.contains o)).map Prod.fst := by
  unfold mapVals
  rw [List.find?_map, Option.map_map]
  have e : ((fun e : Loc × List P => e.2.contains (φ o)) ∘ fun e : Loc × List O => (e.1, e.2.map φ)) =
      fun e : Loc × List O => e.2.contains o := by
    funext e
    exact contains_map hφ e.2 o
  rw [e]
  rfl

omit [BEq O] [BEq P] in
theorem iter_rename (φ : O → P) (m : HMap Loc (List O)) :
    (mapVals (List.map φ) m).flatMap (fun e => e.2.map (fun o => (e.1, o))) =
      (m.flatMap (fun e => e.2.map (fun o => (e.1, o)))).map (fun e => (e.1, φ e.2)) := by
  unfold mapVals
  rw [List.flatMap_map, List.map_flatMap]
  congr 1
  funext e
  simp

theorem rename_answers {φ : O → P} (hφ : Faithful φ) (g : BGrid O) : RenamedAnswers φ g (g.rename φ) where
  objects l := get_mapVals _ _ _
  unbuffered l := get_mapVals _ _ _
  location o := find_location hφ _ o
  locationUnbuffered o := find_location hφ _ o
  empty := by
    unfold getEmptyBags
    apply List.filter_congr
    intro c _
    show (match get (mapVals (List.map φ) g.rlocs) c with
      | some bag => bag.isEmpty
      | none => true) = _
    rw [get_mapVals]
    cases get g.rlocs c with
    | none => rfl
    | some b => exact List.isEmpty_map
  iter := iter_rename φ _
  iterUnbuffered := iter_rename φ _

omit [BEq O] [BEq P] in
theorem applyBag_rename {φ : O → P} {f : O → Option O} {f' : P → Option P} (h : ∀ o, f' (φ o) = (f o).map φ) :
    ∀ b : List O, applyBag f' (b.map φ) = (applyBag f b).map (List.map φ)
  | [] => rfl
  | o :: b => by
    rw [List.map_cons, applyBag, applyBag, h]
    cases f o with
    | none => rfl
    | some x =>
      show (applyBag f' (b.map φ)).map (fun t => φ x :: t) = ((applyBag f b).map (fun t => x :: t)).map (List.map φ)
      rw [applyBag_rename h b, Option.map_map, Option.map_map]
      rfl

omit [BEq O] [BEq P] in
theorem applyMap_rename {φ : O → P} {f : Loc → O → Option O} {f' : Loc → P → Option P} (h : ∀ l o, f' l (φ o) = (f l o).map φ) :
    ∀ m : HMap Loc (List O), applyMap f' (mapVals (List.map φ) m) = (applyMap f m).map (mapVals (List.map φ))
  | [] => rfl
  | e :: m => by
    show (match applyBag (f' e.1) (e.2.map φ) with
      | none => none
      | some b => (applyMap f' (mapVals (List.map φ) m)).map (fun t => (e.1, b) :: t)) = _
    rw [applyBag_rename (h e.1), applyMap]
    cases applyBag (f e.1) e.2 with
    | none => rfl
    | some b =>
      show (applyMap f' (mapVals (List.map φ) m)).map (fun t => (e.1, b.map φ) :: t) =
        ((applyMap f m).map (fun t => (e.1, b) :: t)).map (mapVals (List.map φ))
      rw [applyMap_rename h m, Option.map_map, Option.map_map]
      rfl

omit [BEq O] [BEq P] in
theorem insertEach_rename {φ : O → P} {f : O → Option O} {f' : P → Option P} (h : ∀ o, f' (φ o) = (f o).map φ) (k : Loc) :
    ∀ (b : List O) (m : HMap Loc (List O)),
      insertEach f' k (mapVals (List.map φ) m) (b.map φ) = (insertEach f k m b).map (mapVals (List.map φ))
  | [], _ => rfl
  | o :: b, m => by
    rw [List.map_cons, insertEach, insertEach, h]
    cases f o with
    | none => rfl
    | some x =>
      show insertEach f' k (HMap.insert (mapVals (List.map φ) m) k ([x].map φ)).1 (b.map φ) = _
      rw [insert_mapVals]
      exact insertEach_rename h k b _

omit [BEq O] [BEq P] in
theorem applyRWEntry_rename {φ : O → P} {f : Loc → O → Option O} {f' : Loc → P → Option P} (h : ∀ l o, f' l (φ o) = (f l o).map φ)
    (m : HMap Loc (List O)) (e : Loc × List O) :
    applyRWEntry f' (mapVals (List.map φ) m) (e.1, e.2.map φ) = (applyRWEntry f m e).map (mapVals (List.map φ)) := by
  unfold applyRWEntry
  show (match get (mapVals (List.map φ) m) e.1 with
    | some b => (applyBag (f' e.1) b).map (fun b' => HMap.adjust (mapVals (List.map φ) m) e.1 (fun _ => b'))
    | none => insertEach (f' e.1) e.1 (mapVals (List.map φ) m) (e.2.map φ)) = _
  rw [get_mapVals]
  cases get m e.1 with
  | none => exact insertEach_rename (h e.1) e.1 e.2 m
  | some b =>
    show (applyBag (f' e.1) (b.map φ)).map (fun b' => HMap.adjust (mapVals (List.map φ) m) e.1 (fun _ => b')) =
      ((applyBag (f e.1) b).map (fun b' => HMap.adjust m e.1 (fun _ => b'))).map (mapVals (List.map φ))
    rw [applyBag_rename (h e.1), Option.map_map, Option.map_map]
    congr 1
    funext b'
    exact adjust_mapVals (List.map φ) (fun _ => b') (fun _ => b'.map φ) (fun _ => rfl) m e.1

omit [BEq O] [BEq P] in
theorem applyRW_rename {φ : O → P} {f : Loc → O → Option O} {f' : Loc → P → Option P} (h : ∀ l o, f' l (φ o) = (f l o).map φ) :
    ∀ (r m : HMap Loc (List O)), (mapVals (List.map φ) r).foldlM (applyRWEntry f') (mapVals (List.map φ) m) =
      (r.foldlM (applyRWEntry f) m).map (mapVals (List.map φ))
  | [], _ => rfl
  | e :: r, m => by
    show ((e.1, e.2.map φ) :: mapVals (List.map φ) r).foldlM (applyRWEntry f') (mapVals (List.map φ) m) = _
    rw [List.foldlM_cons, List.foldlM_cons, applyRWEntry_rename h]
    cases applyRWEntry f m e with
    | none => rfl
    | some m' => exact applyRW_rename h r m'

omit [BEq O] [BEq P] in
theorem foldInsert_rename (φ : O → P) : ∀ (m acc : HMap Loc (List O)),
    (mapVals (List.map φ) m).foldl (fun m e => (HMap.insert m e.1 e.2).1) (mapVals (List.map φ) acc) =
      mapVals (List.map φ) (m.foldl (fun m e => (HMap.insert m e.1 e.2).1) acc)
  | [], _ => rfl
  | e :: m, acc => by
    show (mapVals (List.map φ) m).foldl (fun m e => (HMap.insert m e.1 e.2).1)
      (HMap.insert (mapVals (List.map φ) acc) e.1 (e.2.map φ)).1 = _
    rw [insert_mapVals]
    exact foldInsert_rename φ m _

theorem exec_rename {φ : O → P} (hφ : Faithful φ) (g : BGrid O) {op : ObjOp O} {op' : ObjOp P} (h : op.Renamed φ op') :
    exec (g.rename φ) op' = (exec g op).map (BGrid.rename φ) := by
  cases h with
  | place o l =>
    show some (setObjectLocation (g.rename φ) (φ o) l) = some ((setObjectLocation g o l).rename φ)
    congr 1
    unfold setObjectLocation
    show (match get (mapVals (List.map φ) g.locs) l with
      | some _ => { g.rename φ with locs := HMap.adjust (mapVals (List.map φ) g.locs) l (fun bag => bag ++ [φ o]) }
      | none => { g.rename φ with locs := (HMap.insert (mapVals (List.map φ) g.locs) l ([o].map φ)).1 }) = _
    rw [get_mapVals, insert_mapVals, adjust_mapVals (List.map φ) (fun bag => bag ++ [o]) _ (fun v => by simp)]
    cases get g.locs l <;> rfl
  | remove o l =>
    show some (removeObjectLocation (g.rename φ) (φ o) l) = some ((removeObjectLocation g o l).rename φ)
    congr 1
    unfold removeObjectLocation
    show (match get (mapVals (List.map φ) g.locs) l with
      | none => g.rename φ
      | some bag =>
        if (bag.filter (fun x => x != φ o)).isEmpty then
          { g.rename φ with locs := (HMap.remove (mapVals (List.map φ) g.locs) l).1 }
        else { g.rename φ with locs := HMap.adjust (mapVals (List.map φ) g.locs) l (fun bag => bag.filter (fun x => x != φ o)) }) = _
    rw [get_mapVals, remove_mapVals,
      adjust_mapVals (List.map φ) (fun bag => bag.filter (fun x => x != o)) _ (fun v => filter_ne_map hφ v o)]
    cases get g.locs l with
    | none => rfl
    | some bag =>
      show (if ((bag.map φ).filter (fun x => x != φ o)).isEmpty then _ else _) =
        BGrid.rename φ (if (bag.filter (fun x => x != o)).isEmpty then _ else _)
      rw [filter_ne_map hφ, List.isEmpty_map]
      by_cases hc : (bag.filter (fun x => x != o)).isEmpty = true
      · rw [if_pos hc, if_pos hc]; rfl
      · rw [if_neg hc, if_neg hc]; rfl
  | update =>
    show some (update (g.rename φ)) = some ((update g).rename φ)
    congr 1
    have e := foldInsert_rename φ g.locs []
    unfold update BGrid.rename
    congr 1
  | lazyUpdate => rfl
  | apply f f' opt h =>
    cases opt with
    | READ =>
      show Option.map _ (applyMap f' (mapVals (List.map φ) g.rlocs)) = Option.map _ (Option.map _ _)
      rw [applyMap_rename h, Option.map_map, Option.map_map]; rfl
    | WRITE =>
      show Option.map _ (applyMap f' (mapVals (List.map φ) g.locs)) = Option.map _ (Option.map _ _)
      rw [applyMap_rename h, Option.map_map, Option.map_map]; rfl
    | READWRITE =>
      show Option.map _ ((mapVals (List.map φ) g.rlocs).foldlM (applyRWEntry f') (mapVals (List.map φ) g.locs)) =
        Option.map _ (Option.map _ _)
      rw [applyRW_rename h, Option.map_map, Option.map_map]; rfl

theorem run_rename {φ : O → P} (hφ : Faithful φ) (g : BGrid O) {hist : List (ObjOp O)} {hist' : List (ObjOp P)}
    (h : List.Forall₂ (ObjOp.Renamed φ) hist hist') : run (g.rename φ) hist' = (run g hist).map (BGrid.rename φ) := by
  induction h with
  | nil => rfl
  | @cons op op' hist hist' h1 _ ih =>
    rw [run, run, ih]
    cases run g hist with
    | none => rfl
    | some g1 => exact exec_rename hφ g1 h1

/-- C251, `SparseGrid2D`. -/
theorem C251_sparse {φ : O → P} (hφ : Faithful φ) (width height : Int) {hist : List (ObjOp O)} {hist' : List (ObjOp P)}
    (h : List.Forall₂ (ObjOp.Renamed φ) hist hist') :
    (run (new width height) hist = none → run (new width height) hist' = none) ∧
    ∀ g, run (new width height) hist = some g → ∃ g', run (new width height) hist' = some g' ∧ RenamedAnswers φ g g' := by
  have key : run (new width height) hist' = (run (new width height) hist).map (BGrid.rename φ) :=
    run_rename hφ (new width height) h
  exact ⟨fun h0 => by rw [key, h0]; rfl, fun g hg => ⟨g.rename φ, by rw [key, hg]; rfl, rename_answers hφ g⟩⟩

example :
    let φ : Nat → Nat × Bool := fun n => (n, true)
    let hist : List (ObjOp Nat) :=
      [.apply (fun _ n => some (n + 1)) .WRITE, .place 3 ⟨0, 0⟩, .lazyUpdate, .remove 2 ⟨0, 0⟩, .place 2 ⟨0, 0⟩, .place 4 ⟨0, 0⟩]
    let hist' : List (ObjOp (Nat × Bool)) :=
      [.apply (fun _ n => some (n.1 + 1, n.2)) .WRITE, .place (3, true) ⟨0, 0⟩, .lazyUpdate, .remove (2, true) ⟨0, 0⟩,
        .place (2, true) ⟨0, 0⟩, .place (4, true) ⟨0, 0⟩]
    List.Forall₂ (ObjOp.Renamed φ) hist hist' ∧
    (run (new 1 1) hist').bind (fun g => getObjects g ⟨0, 0⟩) = some [(4, true)] ∧
    (run (new 1 1) hist').bind (fun g => getObjectsUnbuffered g ⟨0, 0⟩) = some [(4, true)] := by
  refine ⟨?_, by decide, by decide⟩
  exact .cons (.apply _ _ _ (fun _ _ => rfl)) (.cons (.place 3 _) (.cons .lazyUpdate (.cons (.remove 2 _) (.cons (.place 2 _)
    (.cons (.place 4 _) .nil)))))

end Verif.SparseObject
