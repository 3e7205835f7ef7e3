import Verif.Lemmas.Synchronous
import Verif.Lemmas.ObjectGrid
import Verif.Lemmas.ParGrid

/-!
The grids and fields of the library are lawful.
-/

set_option linter.unusedSectionVars false

namespace Verif.Sync

open Schedule
open Grid (Loc InRange)
open Torus (Pos)
open Flockers (filter_snoc)

variable {B : Type} [DecidableEq B]

/-! ### Grids -/

/-- The agents at a location. -/
def atLoc (loc : B → Loc) (pop : List B) (l : Loc) : List B := pop.filter (fun b => decide (loc b = l))

theorem atLoc_snoc (loc : B → Loc) (w : List B) (b : B) (l : Loc) :
    atLoc loc (w ++ [b]) l = if l = loc b then atLoc loc w l ++ [b] else atLoc loc w l := by
  unfold atLoc
  rw [filter_snoc]
  by_cases h : l = loc b
  · rw [if_pos h, if_pos (by rw [decide_eq_true_iff]; exact h.symm)]
  · rw [if_neg h, if_neg (by rw [decide_eq_true_iff]; exact fun e => h e.symm)]

omit [DecidableEq B] in
theorem bagAt_perm (loc : B → Loc) {r r' : List B} (h : r.Perm r') (l : Loc) : SameBag (bagAt loc r l) (bagAt loc r' l) := by
  unfold bagAt SameBag
  have hp := h.filter (fun b => decide (loc b = l))
  by_cases hr : r.filter (fun b => decide (loc b = l)) = []
  · have hr' : r'.filter (fun b => decide (loc b = l)) = [] := by
      rw [hr] at hp
      exact hp.symm.eq_nil
    rw [if_pos hr, if_pos hr']
    exact .none
  · have hr' : r'.filter (fun b => decide (loc b = l)) ≠ [] := by
      intro he
      rw [he] at hp
      exact hr hp.eq_nil
    rw [if_neg hr, if_neg hr']
    exact .some hp

omit [DecidableEq B] in
theorem sameBag_refl (a : Option (List B)) : SameBag a a := by
  unfold SameBag
  cases a with
  | none => exact .none
  | some a => exact .some (List.Perm.refl _)

omit [DecidableEq B] in
theorem gridView_perm (loc : B → Loc) (nbh : B → List Loc) {r r' : List B} (h : r.Perm r') (b : B) :
    SameView (gridView loc nbh r b) (gridView loc nbh r' b) := by
  unfold gridView SameView
  induction nbh b with
  | nil => exact .nil
  | cons l ls ih => exact .cons (bagAt_perm loc h l) ih

omit [DecidableEq B] in
theorem sameView_refl (a : List (Option (List B))) : SameView a a := by
  induction a with
  | nil => exact .nil
  | cons x a ih => exact .cons (sameBag_refl x) ih

theorem mapM_some {α β : Type} {f : α → Option β} {g : α → β} {l : List α} (h : ∀ a ∈ l, f a = some (g a)) :
    l.mapM f = some (l.map g) := by
  induction l with
  | nil => rfl
  | cons a l ih =>
    rw [List.mapM_cons, h a (by simp), ih (fun b hb => h b (List.mem_cons_of_mem _ hb))]
    rfl

theorem filter_fresh {ident : B → Nat} {w : List B} {b : B} (h : ∀ x ∈ w, ident x ≠ ident b) (loc : B → Loc) (l : Loc) :
    (atLoc loc w l).filter (fun x => x != b) = atLoc loc w l := by
  rw [List.filter_eq_self]
  intro x hx
  rw [bne_iff_ne]
  rintro rfl
  exact h x (List.mem_of_mem_filter hx) rfl

theorem denseLaws (ident : B → Nat) (loc : B → Loc) (nbh : B → List Loc) (w h : Int) :
    Laws (denseOps loc nbh) ident (GridOk loc nbh w h) (gridView loc nbh) SameView
      (GridShows DenseObject.getObjects loc w h) (fun g r wr => DenseObject.Shows g w h (atLoc loc r) (atLoc loc wr)) where
  place {g r wr} b hs hok hfr := by
    obtain ⟨g', h1, h2⟩ := DenseObject.shows_place hs b (loc b) hok.1
    refine ⟨g', h1, ?_⟩
    have : (fun l' => if l' = loc b then (atLoc loc wr l').filter (fun x => x != b) ++ [b] else atLoc loc wr l') =
        atLoc loc (wr ++ [b]) := by
      funext l'
      rw [atLoc_snoc, filter_fresh hfr]
    rwa [this] at h2
  publish hs := ⟨_, rfl, DenseObject.shows_lazy hs⟩
  look {g r wr} b hs _ hok := by
    refine ⟨_, mapM_some (g := bagAt loc r) ?_, sameView_refl _⟩
    intro l hl
    unfold DenseObject.getObjects
    rw [hs.read l (hok.2 l hl)]
    unfold bagAt
    show some (DenseObject.bagAnswer (atLoc loc r l)) = _
    unfold DenseObject.bagAnswer atLoc
    simp only [List.isEmpty_iff]
  shows {g r wr pop} hs hp := by
    intro l hl
    refine ⟨bagAt loc r l, ?_, bagAt_perm loc hp l⟩
    unfold DenseObject.getObjects
    rw [hs.read l hl]
    show some (DenseObject.bagAnswer (atLoc loc r l)) = _
    unfold bagAt DenseObject.bagAnswer atLoc
    simp only [List.isEmpty_iff]
  perm b _ _ hp := gridView_perm loc nbh hp b

theorem sparse_bag (loc : B → Loc) (r : List B) (l : Loc) : SparseObject.entry (atLoc loc r l) = bagAt loc r l := by
  unfold bagAt SparseObject.entry atLoc
  simp only [List.isEmpty_iff]

theorem sparseLaws (ident : B → Nat) (loc : B → Loc) (nbh : B → List Loc) (w h : Int) :
    Laws (sparseOps loc nbh) ident (GridOk loc nbh w h) (gridView loc nbh) SameView
      (GridShows (fun g l => some (SparseObject.getObjects g l)) loc w h)
      (fun g r wr => SparseObject.Shows g (atLoc loc r) (atLoc loc wr)) where
  place {g r wr} b hs hok hfr := by
    have h2 := SparseObject.shows_place hs b (loc b)
    refine ⟨_, rfl, ?_⟩
    have : (fun l' => if l' = loc b then atLoc loc wr l' ++ [b] else atLoc loc wr l') = atLoc loc (wr ++ [b]) := by
      funext l'
      rw [atLoc_snoc]
    rwa [this] at h2
  publish hs := ⟨_, rfl, SparseObject.shows_lazy hs⟩
  look {g r wr} b hs _ hok := by
    refine ⟨_, rfl, ?_⟩
    have : SparseObject.getObjects g = bagAt loc r := by
      funext l
      rw [SparseObject.getObjects, hs.read l, sparse_bag]
    rw [this]
    exact sameView_refl _
  shows {g r wr pop} hs hp := by
    intro l hl
    refine ⟨_, rfl, ?_⟩
    rw [SparseObject.getObjects, hs.read l, sparse_bag]
    exact bagAt_perm loc hp l
  perm b _ _ hp := gridView_perm loc nbh hp b

/-- `Holds` of the grids of the feature `parallel`. -/
def ParGridHolds (ident : B → Nat) (loc : B → Loc) (g : ParGrid.OGrid B Nat) (r wr : List B) : Prop :=
  ∃ rl wl, ParGrid.OShows g rl wl (bagAt loc r) (bagAt loc wr)

theorem bagAt_getD (loc : B → Loc) (r : List B) (l : Loc) : (bagAt loc r l).getD [] = atLoc loc r l := by
  unfold bagAt atLoc
  split
  · rename_i h; rw [h]; rfl
  · rfl

theorem nonEmpty_bagAt (loc : B → Loc) (r : List B) (l : Loc) : ParGrid.nonEmpty (bagAt loc r l) = bagAt loc r l := by
  unfold bagAt
  split
  · rfl
  · rename_i h
    unfold ParGrid.nonEmpty
    split
    · rename_i he
      exact absurd (Option.some.inj he) h
    · rfl

theorem parGridLaws (ident : B → Nat) (loc : B → Loc) (nbh : B → List Loc) (w h : Int) :
    Laws (parGridOps ident loc nbh) ident (GridOk loc nbh w h) (gridView loc nbh) SameView
      (GridShows ParGrid.OGrid.getObjects loc w h) (ParGridHolds ident loc) where
  place {g r wr} b hs hok hfr := by
    obtain ⟨rl, wl, hs⟩ := hs
    obtain ⟨g', h1, _, _, h2⟩ := ParGrid.oshows_place ident hs b (loc b)
    refine ⟨g', h1, rl, _, h2.congr rfl rfl rfl ?_⟩
    funext l'
    have hnil : ∀ l, (bagAt loc (wr ++ [b]) l) = if atLoc loc (wr ++ [b]) l = [] then none else some (atLoc loc (wr ++ [b]) l) :=
      fun _ => rfl
    rw [hnil, atLoc_snoc, bagAt_getD]
    by_cases hl : l' = loc b
    · subst hl
      simp only [if_true]
      rw [if_neg (by simp)]
      unfold ParGrid.pushObject
      congr 2
      symm
      rw [List.filter_eq_self]
      intro x hx
      rw [decide_eq_true_iff]
      exact hfr x (List.mem_of_mem_filter hx)
    · simp only [if_neg hl]
      rfl
  publish {g r wr} hs := by
    obtain ⟨rl, wl, hs⟩ := hs
    exact ⟨_, rfl, _, _, ParGrid.oshows_lazy hs⟩
  look {g r wr} b hs _ hok := by
    obtain ⟨rl, wl, hs⟩ := hs
    refine ⟨_, mapM_some (g := bagAt loc r) ?_, sameView_refl _⟩
    intro l hl
    unfold ParGrid.OGrid.getObjects
    rw [ParGrid.getRead_abs hs.invL, hs.readL, Option.map_some, nonEmpty_bagAt]
  shows {g r wr pop} hs hp := by
    intro l hl
    obtain ⟨rl, wl, hs⟩ := hs
    refine ⟨bagAt loc r l, ?_, bagAt_perm loc hp l⟩
    unfold ParGrid.OGrid.getObjects
    rw [ParGrid.getRead_abs hs.invL, hs.readL, Option.map_some, nonEmpty_bagAt]
  perm b _ _ hp := gridView_perm loc nbh hp b

/-! ### The continuous field -/

section Field

open Field2D

/-- The agents in a cell. -/
def inCell (loc : B → Pos) (d : ℚ) (r : List B) (q : Loc) : List B := r.filter (fun o => decide (q = discretize d (loc o)))

/-- The answer of the search, from the list of the published agents. -/
def seen (width height d : ℚ) (tor : Bool) (loc : B → Pos) (reach : B → ℚ) (r : List B) (b : B) : List B :=
  if reach b ≤ 0 then [] else
  (searchCells (Field2D.new width height d tor : Field2D.Field B) (loc b) (reach b)).flatMap (fun q =>
    (inCell loc d r (wrapped (Field2D.new width height d tor : Field2D.Field B) q)).filter
      (keepExact (Field2D.new width height d tor : Field2D.Field B) loc (loc b) (reach b)
        (wrapped (Field2D.new width height d tor : Field2D.Field B) q)))

theorem neighbors_eq {width height d : ℚ} {tor : Bool} {loc : B → Pos} {reach : B → ℚ} {f : Field2D.Field B} {r : List B}
    {cur : Loc → List B} (hs : Field2D.Shows f width height d tor (inCell loc d r) cur) (b : B) :
    getNeighborsWithinDistance f loc (loc b) (reach b) = some (seen width height d tor loc reach r b) := by
  have hc : searchCells f (loc b) (reach b) = searchCells (Field2D.new width height d tor : Field2D.Field B) (loc b) (reach b) := by
    unfold searchCells
    rw [hs.disc, hs.width, hs.height, hs.tor]
    rfl
  have hk : keepExact f loc (loc b) (reach b) = keepExact (Field2D.new width height d tor : Field2D.Field B) loc (loc b) (reach b) := by
    unfold keepExact
    rw [hs.disc, hs.width, hs.height, hs.tor]
    rfl
  have hwr : ∀ q, wrapped f q = wrapped (Field2D.new width height d tor : Field2D.Field B) q := by
    intro q
    unfold wrapped
    rw [hs.disc, hs.width, hs.height]
    rfl
  unfold getNeighborsWithinDistance seen
  by_cases hd : reach b ≤ 0
  · rw [if_pos hd, if_pos hd]
  · rw [if_neg hd, if_neg hd, Field2D.scan_eq hs.wf, hc, hk]
    congr 2
    funext q
    have hb : bagOf f (wrapped f q) = inCell loc d r (wrapped f q) := by
      unfold bagOf
      rw [hs.read _ (wrapped_inRange hs.wf q)]
      rfl
    rw [hb, hwr]

theorem seen_perm {width height d : ℚ} {tor : Bool} {loc : B → Pos} {reach : B → ℚ} {r r' : List B} (h : r.Perm r') (b : B) :
    (seen width height d tor loc reach r b).Perm (seen width height d tor loc reach r' b) := by
  unfold seen
  split
  · exact List.Perm.refl _
  · exact List.Perm.flatMap_left _ (fun q _ => (h.filter _).filter _)

theorem inCell_snoc (loc : B → Pos) (d : ℚ) (w : List B) (b : B) (q : Loc) :
    inCell loc d (w ++ [b]) q = if q = discretize d (loc b) then inCell loc d w q ++ [b] else inCell loc d w q := by
  unfold inCell
  rw [filter_snoc]
  by_cases hq : q = discretize d (loc b)
  · rw [if_pos hq, if_pos (decide_eq_true hq)]
  · rw [if_neg hq, if_neg (by rw [decide_eq_true_iff]; exact hq)]

theorem shows_places {width height d : ℚ} {tor : Bool} {loc : B → Pos} {f : Field2D.Field B} {pub : Loc → List B} {wr : List B}
    (hs : Field2D.Shows f width height d tor pub (inCell loc d wr)) (b : B) (hb : InField width height (loc b)) :
    ∃ f', setObjectLocation f b (loc b) = some f' ∧ Field2D.Shows f' width height d tor pub (inCell loc d (wr ++ [b])) := by
  obtain ⟨f', h1, _, _, h2⟩ := Field2D.shows_place hs b (loc b) hb
  refine ⟨f', h1, ?_⟩
  have : (fun q => if q = discretize d (loc b) then inCell loc d wr q ++ [b] else inCell loc d wr q) = inCell loc d (wr ++ [b]) := by
    funext q
    rw [inCell_snoc]
  rwa [this] at h2

theorem published_shows {width height d : ℚ} (hw : 0 < width) (hh : 0 < height) (hd : 0 < d) (tor : Bool) (loc : B → Pos) (r : List B)
    (hr : ∀ b ∈ r, InField width height (loc b)) :
    ∃ g, Field2D.run (Field2D.new width height d tor) (.lazyUpdate :: (r.map (fun b => .place b (loc b))).reverse) = some g ∧
      Field2D.Shows g width height d tor (inCell loc d r) (fun _ => []) := by
  have key : ∀ r : List B, (∀ b ∈ r, InField width height (loc b)) →
      ∃ g, Field2D.run (Field2D.new width height d tor) ((r.map (fun b => FieldOp.place b (loc b))).reverse) = some g ∧
        Field2D.Shows g width height d tor (fun _ => []) (inCell loc d r) := by
    intro r
    induction r using List.reverseRecOn with
    | nil => intro _; exact ⟨_, rfl, Field2D.shows_new tor hw hh hd⟩
    | append_singleton r b ih =>
      intro hr
      obtain ⟨g, h1, h2⟩ := ih (fun b hb => hr b (List.mem_append_left _ hb))
      obtain ⟨g', h3, h4⟩ := shows_places h2 b (hr b (by simp))
      refine ⟨g', ?_, h4⟩
      rw [List.map_append, List.reverse_append]
      show (Field2D.run _ ((r.map (fun b => FieldOp.place b (loc b))).reverse)).bind _ = _
      rw [h1]
      exact h3
  obtain ⟨g, h1, h2⟩ := key r hr
  obtain ⟨g', h3, _, _, h4⟩ := Field2D.shows_lazy h2
  refine ⟨g', ?_, h4⟩
  show (Field2D.run _ _).bind _ = _
  rw [h1]
  exact h3

theorem fieldView_eq {width height d : ℚ} (hw : 0 < width) (hh : 0 < height) (hd : 0 < d) (tor : Bool) (loc : B → Pos) (reach : B → ℚ)
    {r : List B} (hr : ∀ b ∈ r, InField width height (loc b)) (b : B) :
    fieldView width height d tor loc reach r b = seen width height d tor loc reach r b := by
  obtain ⟨g, h1, h2⟩ := published_shows hw hh hd tor loc r hr
  unfold fieldView
  rw [h1, Option.bind_some, neighbors_eq h2]
  rfl

theorem inCell_square (loc : B → Pos) (d : ℚ) (r : List B) (p : Pos) :
    inCell loc d r (discretize d p) = r.filter (fun b => sameSquare d (loc b) p) := by
  unfold inCell
  apply List.filter_congr
  intro b _
  rw [Bool.eq_iff_iff, decide_eq_true_iff, sameSquare_discretize]

/-- `Holds` of the field. -/
def FieldHolds (width height d : ℚ) (tor : Bool) (loc : B → Pos) (f : Field2D.Field B) (r wr : List B) : Prop :=
  (∀ b ∈ wr, InField width height (loc b)) ∧ (∀ b ∈ r, InField width height (loc b)) ∧
  Field2D.Shows f width height d tor (inCell loc d r) (inCell loc d wr)

theorem fieldLaws (ident : B → Nat) {width height d : ℚ} (hw : 0 < width) (hh : 0 < height) (hd : 0 < d) (tor : Bool) (loc : B → Pos)
    (reach : B → ℚ) :
    Laws (fieldOps loc reach) ident (fun b => InField width height (loc b)) (fieldView width height d tor loc reach) List.Perm
      (FieldShows Field2D.getObjects loc width height d) (FieldHolds width height d tor loc) where
  place {f r wr} b hs hok _ := by
    obtain ⟨h0, h0', hs⟩ := hs
    obtain ⟨f', h1, h2⟩ := shows_places hs b hok
    refine ⟨f', h1, ?_, h0', h2⟩
    intro x hx
    rcases List.mem_append.1 hx with hx | hx
    · exact h0 x hx
    · rw [List.mem_singleton] at hx; subst hx; exact hok
  publish {f r wr} hs := by
    obtain ⟨h0, h0', hs⟩ := hs
    obtain ⟨f', h1, _, _, h2⟩ := Field2D.shows_lazy hs
    exact ⟨f', h1, by simp, h0, h2⟩
  look {f r wr} b hs _ _ := by
    obtain ⟨h0, h0', hs⟩ := hs
    exact ⟨_, neighbors_eq hs b, by rw [fieldView_eq hw hh hd tor loc reach h0']⟩
  shows {f r wr pop} hs hp := by
    obtain ⟨h0, h0', hs⟩ := hs
    intro p hpp
    have hr : InRange f.dw f.dh (discretize d p) := by
      have := inRange_of hs.wf (p := p) (by rw [hs.width, hs.height]; exact hpp)
      rwa [hs.disc] at this
    refine ⟨_, ?_, hp.filter _⟩
    unfold getObjects
    rw [hs.disc, hs.read _ hr, inCell_square]
  perm {r r'} b hok _ hp := by
    rw [fieldView_eq hw hh hd tor loc reach hok, fieldView_eq hw hh hd tor loc reach (fun x hx => hok x (hp.mem_iff.2 hx))]
    exact seen_perm hp b

/-- `Holds` of the field of the feature `parallel`. -/
def ParFieldHolds (ident : B → Nat) (width height d : ℚ) (tor : Bool) (loc : B → Pos) (f : ParField2D.PField B Nat) (r wr : List B) :
    Prop :=
  (∀ b ∈ wr, InField width height (loc b)) ∧ (∀ b ∈ r, InField width height (loc b)) ∧
  ParField2D.FShows f width height d tor
    (ParField2DSpec.latest ident (r.map (fun b => (b, loc b)))) (ParField2DSpec.latest ident (wr.map (fun b => (b, loc b))))
    (fun q => ParField2D.held (inCell loc d r q)) (fun q => ParField2D.held (inCell loc d wr q))

theorem parFieldLaws (ident : B → Nat) {width height d : ℚ} (hw : 0 < width) (hh : 0 < height) (hd : 0 < d) (tor : Bool)
    (loc : B → Pos) (reach : B → ℚ) :
    Laws (parFieldOps ident loc reach) ident (fun b => InField width height (loc b)) (fieldView width height d tor loc reach) List.Perm
      (FieldShows ParField2D.PField.getObjects loc width height d) (ParFieldHolds ident width height d tor loc) where
  place {f r w} b hs hb _ := by
    obtain ⟨h0, h0', hs⟩ := hs
    obtain ⟨f', h1, h2⟩ := ParField2D.fshows_place ident hs b (loc b)
    refine ⟨f', h1, ?_, h0', h2.congr rfl ?_ rfl ?_⟩
    · intro x hx
      rcases List.mem_append.1 hx with hx | hx
      · exact h0 x hx
      · rw [List.mem_singleton] at hx; subst hx; exact hb
    · funext i
      rw [List.map_append, List.map_singleton, ParField2D.flatest_snoc]
    · funext q
      rw [ParField2D.held_getD, inCell_snoc]
      by_cases hq : q = discretize d (loc b)
      · rw [if_pos hq, if_pos hq, ParField2D.held, if_neg (by simp)]
      · rw [if_neg hq, if_neg hq]
  publish {f r w} hs := by
    obtain ⟨h0, h0', hs⟩ := hs
    exact ⟨_, rfl, by simp, h0, (ParField2D.fshows_lazy hs).congr rfl rfl rfl rfl⟩
  look {f r w} b hs hr _ := by
    obtain ⟨h0, h0', hs⟩ := hs
    refine ⟨_, ?_, List.Perm.refl _⟩
    rw [fieldView_eq hw hh hd tor loc reach h0']
    obtain ⟨g, _, hg⟩ := published_shows hw hh hd tor loc r h0'
    have hlen : ¬ DBDashMap.rLen f.findex = 0 := by
      rw [ParField2D.rLen_zero hs.invI, hs.readI]
      intro hz
      obtain ⟨b, r', rfl⟩ := List.exists_cons_of_ne_nil hr
      have := hz (ident b)
      rw [Option.map_eq_none_iff] at this
      unfold ParField2DSpec.latest at this
      rw [List.find?_eq_none] at this
      exact this (b, loc b) (by simp) (by simp)
    have hk : f.keepExact loc (loc b) (reach b) = Field2D.keepExact g loc (loc b) (reach b) := by
      unfold ParField2D.PField.keepExact Field2D.keepExact
      rw [hs.disc, hs.width, hs.height, hs.tor, hg.disc, hg.width, hg.height, hg.tor]
    have := neighbors_eq (reach := reach) hg b
    unfold Field2D.getNeighborsWithinDistance at this
    show f.getNeighborsWithinDistance loc (loc b) (reach b) = _
    unfold ParField2D.PField.getNeighborsWithinDistance
    rw [if_neg hlen]
    by_cases hz : reach b ≤ 0
    · rw [if_pos hz] at this ⊢
      exact this
    · rw [if_neg hz] at this ⊢
      rw [hk, ParField2D.searches_eq hw hh hd hs hg, this]
  shows {f r w pop} hs hp := by
    obtain ⟨h0, h0', hs⟩ := hs
    intro p _
    refine ⟨_, ?_, hp.filter _⟩
    unfold ParField2D.PField.getObjects
    rw [ParGrid.getRead_abs hs.invL, hs.readL, ParField2D.cellOf_eq, hs.disc, Option.map_some, ParField2D.held_getD, inCell_square]
  perm {r r'} b hok _ hp := by
    rw [fieldView_eq hw hh hd tor loc reach hok, fieldView_eq hw hh hd tor loc reach (fun x hx => hok x (hp.mem_iff.2 hx))]
    exact seen_perm hp b

end Field

end Verif.Sync
