import Verif.Spec.ParMachine
import Verif.Lemmas.MachineAgents
import Verif.Lemmas.ParField2D

/-!
Lemmas about the continuous field of the feature `parallel` on machine floats.
-/

set_option linter.unusedSectionVars false

namespace Verif.ParMachine

open Grid DBDashMap Machine ParGrid
open ParField2D (held held_getD)
open Torus (Pos)
open Single (Rounding imageField image)
open DenseI32 (Mode)
open Field2D (InField Shows)

variable {O I : Type} [DecidableEq I]

/-- What a field holds: published and written locations, published and written bags. -/
structure FShows (rnd : Rat → Rat) (f : PFieldF O I) (w h d : F) (t : Bool) (rl wl : I → Option (O × PosF)) (rb wb : Loc → Option (List O)) : Prop where
  width : f.width = w
  height : f.height = h
  disc : f.discretization = d
  tor : f.toroidal = t
  invO : Inv f.floc
  invI : Inv f.findex
  invL : Inv f.fbag
  readO : (DBDashMap.abs f.floc).read = rl
  writeO : (DBDashMap.abs f.floc).write = wl
  readI : (DBDashMap.abs f.findex).read = fun i => (rl i).map (fun e => (e.1, discretize rnd d e.2))
  writeI : (DBDashMap.abs f.findex).write = fun i => (wl i).map (fun e => (e.1, discretize rnd d e.2))
  readL : (DBDashMap.abs f.fbag).read = rb
  writeL : (DBDashMap.abs f.fbag).write = wb

theorem FShows.congr {rnd : Rat → Rat} {f : PFieldF O I} {w h d : F} {t : Bool} {rl wl rl' wl' : I → Option (O × PosF)} {rb wb rb' wb' : Loc → Option (List O)}
    (hs : FShows rnd f w h d t rl wl rb wb) (h1 : rl' = rl) (h2 : wl' = wl) (h3 : rb' = rb) (h4 : wb' = wb) : FShows rnd f w h d t rl' wl' rb' wb' := by
  subst h1 h2 h3 h4; exact hs

theorem fshows_new (rnd : Rat → Rat) {cpus : Nat} (hc : shardAmount cpus ≤ 2 ^ 64) (hashO : I → Nat) (hashL : Loc → Nat) (w h d : F) (t : Bool) :
    FShows rnd (new cpus hashO hashL w h d t : PFieldF O I) w h d t (fun _ => none) (fun _ => none) (fun _ => none) (fun _ => none) := by
  refine ⟨rfl, rfl, rfl, rfl, inv_new hc hashO, inv_new hc hashO, inv_new hc hashL, ?_, ?_, ?_, ?_, ?_, ?_⟩
  all_goals
    simp only [new, abs_new]
    rfl

theorem cellOf_eq (rnd : Rat → Rat) (f : PFieldF O I) (l : PosF) : cellOf rnd f l = discretize rnd f.discretization l := rfl

theorem putInBag_sim {f : PFieldF O I} (hi : Inv f.fbag) (o : O) (c : Loc) :
    ∃ m, putInBag f o c = some m ∧ Inv m ∧ (DBDashMap.abs m).read = (DBDashMap.abs f.fbag).read ∧
      (DBDashMap.abs m).write = fun c' => if c' = c then some (((DBDashMap.abs f.fbag).write c).getD [] ++ [o]) else (DBDashMap.abs f.fbag).write c' := by
  unfold putInBag
  rw [getWrite_abs hi, Option.bind_some]
  cases hb : (DBDashMap.abs f.fbag).write c with
  | none =>
    obtain ⟨m, h1, h2, _, h3⟩ := insert_sim hi c [o]
    refine ⟨m, by simp [h1], h2, by rw [h3], ?_⟩
    rw [h3]
    rfl
  | some b =>
    obtain ⟨m, h1, h2, h3⟩ := modifyWrite_sim hi c (fun v => v ++ [o])
    refine ⟨m, h1, h2, by rw [h3], ?_⟩
    rw [h3, hb]
    rfl

theorem fshows_place {rnd : Rat → Rat} (ident : O → I) {f : PFieldF O I} {w h d : F} {t : Bool} {rl wl : I → Option (O × PosF)}
    {rb wb : Loc → Option (List O)} (hs : FShows rnd f w h d t rl wl rb wb) (o : O) (l : PosF) :
    ∃ f', setObjectLocation rnd ident f o l = some f' ∧
      FShows rnd f' w h d t rl (fun i => if i = ident o then some (o, l) else wl i) rb
        (fun c => if c = discretize rnd d l then some ((wb c).getD [] ++ [o]) else wb c) := by
  obtain ⟨m1, a1, a2, _, a3⟩ := insert_sim hs.invO (ident o) (o, l)
  obtain ⟨m2, b1, b2, _, b3⟩ := insert_sim hs.invI (ident o) (o, discretize rnd d l)
  obtain ⟨m3, c1, c2, c3, c4⟩ := putInBag_sim hs.invL o (discretize rnd d l)
  have hcell : cellOf rnd f l = discretize rnd d l := by rw [cellOf_eq, hs.disc]
  refine ⟨{ f with floc := m1, findex := m2, fbag := m3 }, ?_,
    hs.width, hs.height, hs.disc, hs.tor, a2, b2, c2, ?_, ?_, ?_, ?_, ?_, ?_⟩
  · unfold setObjectLocation
    rw [hcell, a1, Option.bind_some, b1, Option.bind_some, c1]
    rfl
  · show (DBDashMap.abs m1).read = _
    rw [a3]; exact hs.readO
  · show (DBDashMap.abs m1).write = _
    rw [a3, hs.writeO]; rfl
  · show (DBDashMap.abs m2).read = _
    rw [b3]; exact hs.readI
  · show (DBDashMap.abs m2).write = _
    rw [b3, hs.writeI]
    funext i
    dsimp only
    unfold DBDashMap.set
    split <;> rfl
  · show (DBDashMap.abs m3).read = _
    rw [c3]; exact hs.readL
  · show (DBDashMap.abs m3).write = _
    rw [c4, hs.writeL]
    funext c
    split
    · rename_i he; rw [he]
    · rfl

theorem fshows_update {rnd : Rat → Rat} {f : PFieldF O I} {w h d : F} {t : Bool} {rl wl : I → Option (O × PosF)}
    {rb wb : Loc → Option (List O)} (hs : FShows rnd f w h d t rl wl rb wb) :
    FShows rnd (update f) w h d t (fun i => (wl i).or (rl i)) wl (fun c => (wb c).or (rb c)) wb := by
  refine ⟨hs.width, hs.height, hs.disc, hs.tor, (update_sim hs.invO).1, (update_sim hs.invI).1, (update_sim hs.invL).1, ?_, ?_,
    ?_, ?_, ?_, ?_⟩
  · show (DBDashMap.abs (DBDashMap.update f.floc)).read = _
    rw [(update_sim hs.invO).2, hs.readO, hs.writeO]
  · show (DBDashMap.abs (DBDashMap.update f.floc)).write = _
    rw [(update_sim hs.invO).2, hs.writeO]
  · show (DBDashMap.abs (DBDashMap.update f.findex)).read = _
    rw [(update_sim hs.invI).2, hs.readI, hs.writeI]
    funext i
    dsimp only
    cases wl i <;> rfl
  · show (DBDashMap.abs (DBDashMap.update f.findex)).write = _
    rw [(update_sim hs.invI).2, hs.writeI]
  · show (DBDashMap.abs (DBDashMap.update f.fbag)).read = _
    rw [(update_sim hs.invL).2, hs.readL, hs.writeL]
  · show (DBDashMap.abs (DBDashMap.update f.fbag)).write = _
    rw [(update_sim hs.invL).2, hs.writeL]

theorem fshows_lazy {rnd : Rat → Rat} {f : PFieldF O I} {w h d : F} {t : Bool} {rl wl : I → Option (O × PosF)}
    {rb wb : Loc → Option (List O)} (hs : FShows rnd f w h d t rl wl rb wb) :
    FShows rnd (lazyUpdate f) w h d t wl (fun _ => none) wb (fun _ => none) := by
  refine ⟨hs.width, hs.height, hs.disc, hs.tor, (lazyUpdate_sim hs.invO).1, (lazyUpdate_sim hs.invI).1,
    (lazyUpdate_sim hs.invL).1, ?_, ?_, ?_, ?_, ?_, ?_⟩
  · show (DBDashMap.abs (DBDashMap.lazyUpdate f.floc)).read = _
    rw [(lazyUpdate_sim hs.invO).2, hs.writeO]
  · show (DBDashMap.abs (DBDashMap.lazyUpdate f.floc)).write = _
    rw [(lazyUpdate_sim hs.invO).2]
  · show (DBDashMap.abs (DBDashMap.lazyUpdate f.findex)).read = _
    rw [(lazyUpdate_sim hs.invI).2, hs.writeI]
  · show (DBDashMap.abs (DBDashMap.lazyUpdate f.findex)).write = _
    rw [(lazyUpdate_sim hs.invI).2]
    rfl
  · show (DBDashMap.abs (DBDashMap.lazyUpdate f.fbag)).read = _
    rw [(lazyUpdate_sim hs.invL).2, hs.writeL]
  · show (DBDashMap.abs (DBDashMap.lazyUpdate f.fbag)).write = _
    rw [(lazyUpdate_sim hs.invL).2]

theorem latest_snoc (ident : O → I) (ps : List (O × PosF)) (o : O) (l : PosF) (i : I) :
    latest ident (ps ++ [(o, l)]) i = if i = ident o then some (o, l) else latest ident ps i := by
  unfold latest
  rw [List.reverse_append]
  by_cases h : i = ident o
  · subst h; simp
  · have h' : ¬ ident o = i := fun e => h e.symm
    simp [h, h']

/-- The cell of a position, as a pair. -/
def cellPair (rnd : Rat → Rat) (d : F) (p : PosF) : Int × Int := ((discretize rnd d p).x, (discretize rnd d p).y)

theorem cellPair_eq (rnd : Rat → Rat) (d : F) (p q : PosF) : cellPair rnd d p = cellPair rnd d q ↔ discretize rnd d p = discretize rnd d q := by
  unfold cellPair
  generalize discretize rnd d p = a
  generalize discretize rnd d q = b
  cases a; cases b
  simp only [Loc.mk.injEq, Prod.mk.injEq]

/-- The objects placed in a cell. -/
def inBag (rnd : Rat → Rat) (d : F) (ps : List (O × PosF)) (c : Loc) : List O := (ps.filter (fun p => decide (discretize rnd d p.2 = c))).map Prod.fst

theorem inBag_snoc (rnd : Rat → Rat) (d : F) (ps : List (O × PosF)) (o : O) (l : PosF) (c : Loc) :
    inBag rnd d (ps ++ [(o, l)]) c = if c = discretize rnd d l then inBag rnd d ps c ++ [o] else inBag rnd d ps c := by
  unfold inBag
  rw [List.filter_append, List.map_append]
  by_cases h : c = discretize rnd d l
  · subst h; simp
  · have h' : ¬ discretize rnd d l = c := fun e => h e.symm
    simp [h, h']

/-- What is published in a cell. -/
def shownIn (rnd : Rat → Rat) (d : F) : List (ROpF O) → Loc → List O
  | [], _ => []
  | .place _ _ :: h, c => shownIn rnd d h c
  | .lazyUpdate :: h, c => inBag rnd d (placements h) c
  | .update :: h, c => if inBag rnd d (placements h) c = [] then shownIn rnd d h c else inBag rnd d (placements h) c

theorem placedIn_inBag (rnd : Rat → Rat) (d : F) (ps : List (O × PosF)) (q : PosF) :
    placedIn (cellPair rnd d) ps q = inBag rnd d ps (discretize rnd d q) := by
  unfold placedIn inBag
  congr 1
  apply List.filter_congr
  intro p _
  simp only [cellPair_eq]

theorem publishedIn_shownIn (rnd : Rat → Rat) (d : F) (hist : List (ROpF O)) (q : PosF) :
    publishedIn (cellPair rnd d) hist q = shownIn rnd d hist (discretize rnd d q) := by
  induction hist with
  | nil => rfl
  | cons op hist ih => cases op <;> simp only [publishedIn, shownIn, ih, placedIn_inBag]

theorem fshows_run (rnd : Rat → Rat) {cpus : Nat} (hc : shardAmount cpus ≤ 2 ^ 64) (ident : O → I) (hashO : I → Nat) (hashL : Loc → Nat)
    (w h d : F) (t : Bool) (hist : List (ROpF O)) :
    ∃ f, run rnd ident (new cpus hashO hashL w h d t) hist = some f ∧
      FShows rnd f w h d t (publishedOf ident hist) (latest ident (placements hist)) (fun c => held (shownIn rnd d hist c))
        (fun c => held (inBag rnd d (placements hist) c)) := by
  induction hist with
  | nil => exact ⟨_, rfl, (fshows_new rnd hc hashO hashL w h d t).congr rfl rfl rfl rfl⟩
  | cons op hist ih =>
    obtain ⟨f, h1, h2⟩ := ih
    cases op with
    | place o l =>
      obtain ⟨f', h3, h4⟩ := fshows_place ident h2 o l
      refine ⟨f', ?_, h4.congr rfl ?_ rfl ?_⟩
      · rw [run, h1]; exact h3
      · funext i
        rw [placements, latest_snoc]
      · funext c
        rw [placements, inBag_snoc, held_getD]
        split
        · rw [held, if_neg (by simp)]
        · rfl
    | update =>
      refine ⟨update f, ?_, (fshows_update h2).congr rfl rfl ?_ rfl⟩
      · rw [run, h1]; rfl
      · funext c
        show held (shownIn rnd d (.update :: hist) c) = _
        rw [shownIn]
        unfold held
        by_cases hb : inBag rnd d (placements hist) c = []
        · simp [hb]
        · simp [hb]
    | lazyUpdate =>
      refine ⟨lazyUpdate f, ?_, (fshows_lazy h2).congr rfl rfl rfl rfl⟩
      rw [run, h1]; rfl

theorem getObjects_of {rnd : Rat → Rat} {f : PFieldF O I} {w h d : F} {t : Bool} {rl wl : I → Option (O × PosF)} {wb : Loc → Option (List O)} {pub : Loc → List O}
    (hs : FShows rnd f w h d t rl wl (fun c => held (pub c)) wb) (p : PosF) :
    getObjects rnd f p = some (pub (discretize rnd d p)) ∧ numObjectsAtLocation rnd f p = some (pub (discretize rnd d p)).length := by
  unfold getObjects numObjectsAtLocation
  rw [getRead_abs hs.invL, hs.readL, cellOf_eq, hs.disc, Option.map_some, Option.map_some, held_getD]
  exact ⟨rfl, rfl⟩

theorem rLen_pos {rnd : Rat → Rat} {f : PFieldF O I} {w h d : F} {t : Bool} {rl wl : I → Option (O × PosF)} {rb wb : Loc → Option (List O)}
    (hs : FShows rnd f w h d t rl wl rb wb) : rLen f.findex = 0 ↔ ∀ i, rl i = none := by
  rw [ParField2D.rLen_zero hs.invI, hs.readI]
  simp

theorem umul_of (m : Mode) {a b : Nat} (h : a * b < 2 ^ 64) : umul m a b = some (a * b) := by
  cases m with
  | debug => simp only [umul]; rw [if_pos h]
  | release => simp only [umul]; rw [Nat.mod_eq_of_lt h]

theorem capacity_of {rnd : Rat → Rat} (hr : Rounding rnd) (m : Mode) {size : Nat} {f : PFieldF O I} {w h reach : Rat} (hw : 0 ≤ w) (hh : 0 ≤ h) (hw' : w ≤ 2 ^ 30) (hh' : h ≤ 2 ^ 30)
    (h1 : f.width = .fin w) (h2 : f.height = .fin h) (hn : rLen f.findex ≠ 0) (ha : Affordable rnd size w h reach) (hreach : |reach| ≤ 2 ^ 60) :
    (capacity rnd m f (.fin reach)).bind (reserve size) = some () := by
  have e1 : mul rnd (.fin w) (.fin h) = .fin (rnd (w * h)) := by
    apply mul_of hr
    refine le_trans (abs_mul_le' (a := 2 ^ 30) (b := 2 ^ 30) ?_ ?_) (by norm_num)
    · rwa [abs_of_nonneg hw]
    · rwa [abs_of_nonneg hh]
  have e2 : mul rnd (.fin reach) (.fin reach) = .fin (rnd (reach * reach)) := by
    apply mul_of hr
    exact le_trans (abs_mul_le' hreach hreach) (by norm_num)
  obtain ⟨a1, a2⟩ := ha
  unfold capacity
  rw [if_neg hn, h1, h2, e1, e2]
  simp only [toUsize]
  generalize (rnd (w * h)).floor.toNat = A at *
  generalize (rnd (reach * reach)).floor.toNat = B at *
  have hle : Min.min A (2 ^ 64 - 1) / rLen f.findex * Min.min B (2 ^ 64 - 1) ≤ A * B :=
    Nat.mul_le_mul (le_trans (Nat.div_le_self _ _) (Nat.min_le_left _ _)) (Nat.min_le_left _ _)
  rw [umul_of m (lt_of_le_of_lt hle a2), Option.bind_some, reserve, if_pos (lt_of_le_of_lt (Nat.mul_le_mul_left _ hle) a1)]

/-- The cell of a search after wrapping. -/
def wrap (rnd : Rat → Rat) (w h d : Rat) (c : Loc) : Loc := ⟨Torus.tT c.x (Single.cellsAlong rnd w d), Torus.tT c.y (Single.cellsAlong rnd h d)⟩

theorem wrap_eq (rnd : Rat → Rat) (w h d : Rat) (t : Bool) (c : Loc) :
    wrap rnd w h d c = Field2D.wrapped (imageField rnd (Single.new rnd w h d t : Field2D.Field O)) c := by
  unfold wrap Field2D.wrapped imageField Single.new Single.cellsAlong
  simp only [div_one]

theorem bagId_of {rnd : Rat → Rat} (hr : Rounding rnd) (m : Mode) {w h d : Rat} (ho : Ordinary rnd w h d) {f : PFieldF O I} (h1 : f.width = .fin w)
    (h2 : f.height = .fin h) (h3 : f.discretization = .fin d) (c : Loc) : bagId rnd m f c = some (wrap rnd w h d c) := by
  have w1 := one_le_cells hr ho.pos ho.dw
  have w2 := one_le_cells hr ho.pos ho.dh
  have w3 := cells_lt hr ho
  have w4 := cells_lt hr ho.flip
  have e1 := (cellsAlong_of hr ho).2
  have e2 := (cellsAlong_of hr ho.flip).2
  unfold Machine.cellsAlong at e1 e2
  unfold bagId wrap
  rw [h1, h2, h3, e1, e2, (tTransform_of m w1 w3.le).1, (tTransform_of m w2 w4.le).1, Torus.tTransform_eq (by omega), Torus.tTransform_eq (by omega)]

theorem scan_of {rnd : Rat → Rat} (hr : Rounding rnd) (m : Mode) {w h d : Rat} (ho : Ordinary rnd w h d) {f : PFieldF O I} {t : Bool} {rl wl : I → Option (O × PosF)}
    {wb : Loc → Option (List O)} {pub : Loc → List O} (hs : FShows rnd f (.fin w) (.fin h) (.fin d) t rl wl (fun c => held (pub c)) wb) (keep : Loc → O → Bool)
    (cs : List Loc) : scan rnd m f keep cs = some (cs.flatMap (fun c => (pub (wrap rnd w h d c)).filter (keep (wrap rnd w h d c)))) := by
  induction cs with
  | nil => rfl
  | cons c cs ih =>
    rw [scan, bagId_of hr m ho hs.width hs.height hs.disc]
    dsimp only
    rw [getRead_abs hs.invL, hs.readL, ih]
    have := held_getD (pub (wrap rnd w h d c))
    cases hh : held (pub (wrap rnd w h d c)) with
    | none =>
      rw [hh] at this
      simp only [Option.getD_none] at this
      simp only [hh]
      rw [List.flatMap_cons, ← this]
      rfl
    | some b =>
      rw [hh] at this
      simp only [Option.getD_some] at this
      simp only [hh]
      rw [List.flatMap_cons, ← this]
      rfl

theorem searchCells_of {rnd : Rat → Rat} (hr : Rounding rnd) (m : Mode) {w h d : Rat} (ho : Ordinary rnd w h d) {f : PFieldF O I} {t : Bool}
    (h1 : f.width = .fin w) (h2 : f.height = .fin h) (h3 : f.discretization = .fin d) (h4 : f.toroidal = t) {loc : Pos} (hl : InField w h loc) {dis : Rat}
    (h0 : 0 < dis) (hdis : dis / d ≤ 2 ^ 30) [BEq O] :
    searchCells rnd m f (ofPos loc) (.fin dis) = some (Single.searchCells rnd (Single.new rnd w h d t : Field2D.Field O) loc dis) := by
  rw [← Machine.searchCells_of hr m ho (new_sized rnd w h d t) hl h0 (fits_of hr ho t hl (le_trans hdis (by norm_num)))]
  unfold searchCells cellOf
  rw [h1, h2, h3, h4]
  rfl

/-! ### the same program without the feature -/

section Same

variable [BEq O]

/-- The loop of the search without the feature. -/
theorem seqScan_of {rnd : Rat → Rat} (hr : Rounding rnd) (m : Mode) {w h d : Rat} (ho : Ordinary rnd w h d) {g : Field2D.Field O} (hg : Sized rnd w h d g) {t : Bool}
    {pub cur : Loc → List O} (hs : Shows (imageField rnd g) (rnd (w / d)) (rnd (h / d)) 1 t pub cur) (keep : Loc → O → Bool) (cs : List Loc) :
    Machine.scan rnd m (ofField g) keep cs = some (cs.flatMap (fun c => (pub (wrap rnd w h d c)).filter (keep (wrap rnd w h d c)))) := by
  rw [Machine.scan_of hr m ho hg _ _ (fun _ _ _ _ _ _ => rfl), Single.scan_image, Field2D.scan_eq hs.wf]
  congr 2
  funext q
  have e : Field2D.wrapped (imageField rnd g) q = wrap rnd w h d q := by
    rw [wrap_eq (O := O) rnd w h d t]
    unfold Field2D.wrapped imageField
    simp only [hg.disc, hg.width, hg.height]
    rfl
  have hbag : Field2D.bagOf (imageField rnd g) (Field2D.wrapped (imageField rnd g) q) = pub (Field2D.wrapped (imageField rnd g) q) := by
    unfold Field2D.bagOf
    rw [hs.read _ (Field2D.wrapped_inRange hs.wf q)]
    rfl
  rw [hbag, e]

theorem same_run {rnd : Rat → Rat} (hr : Rounding rnd) (m : Mode) {w h d : Rat} (ho : Ordinary rnd w h d) (t : Bool) {cpus : Nat} (hc : shardAmount cpus ≤ 2 ^ 64)
    (ident : O → I) (hashO : I → Nat) (hashL : Loc → Nat) (hist : List (ROpF O)) (hp : ∀ op ∈ hist, PlaceLazy w h op) :
    ∃ f g, ∃ pub cur : Loc → List O, run rnd ident (new cpus hashO hashL (.fin w) (.fin h) (.fin d) t) hist = some f ∧
      Machine.run rnd m (ofField (Single.new rnd w h d t)) (hist.map toSeq) = some (ofField g) ∧ Sized rnd w h d g ∧ g.toroidal = t ∧
      Shows (imageField rnd g) (rnd (w / d)) (rnd (h / d)) 1 t pub cur ∧
      FShows rnd f (.fin w) (.fin h) (.fin d) t (publishedOf ident hist) (latest ident (placements hist)) (fun c => held (pub c)) (fun c => held (cur c)) := by
  induction hist with
  | nil =>
    refine ⟨_, _, fun _ => [], fun _ => [], rfl, rfl, new_sized rnd w h d t, rfl, ?_, (fshows_new rnd hc hashO hashL _ _ _ t).congr rfl rfl rfl rfl⟩
    rw [Single.image_new hr t (lt_of_lt_of_le ho.pos ho.dw) (lt_of_lt_of_le ho.pos ho.dh) ho.pos ho.cells]
    exact Field2D.shows_new t (Single.width_pos hr ho.pos ho.dw) (Single.width_pos hr ho.pos ho.dh) (by norm_num)
  | cons op hist ih =>
    obtain ⟨f, g, pub, cur, h1, h2, h3, h4, h5, h6⟩ := ih (fun o ho => hp o (List.mem_cons_of_mem _ ho))
    have hop := hp op List.mem_cons_self
    cases op with
    | place o l =>
      have hin : Inside w h l := hop
      obtain ⟨e, hin'⟩ := hin.numbers
      obtain ⟨f', h7, h8⟩ := fshows_place ident h6 o l
      obtain ⟨g', p1, _, _, p2⟩ := Field2D.shows_place h5 o (image rnd d (numbers l)) (Single.image_inField hr ho.pos hin')
      have hx := Single.exec_image rnd g (Field2D.FieldOp.place o (numbers l))
      rw [h3.disc] at hx
      have hx : (Single.exec rnd g (Field2D.FieldOp.place o (numbers l))).map (imageField rnd) = some g' := hx.trans p1
      obtain ⟨g'', q1, rfl⟩ := Option.map_eq_some_iff.1 hx
      have hex := exec_of hr m ho h3 (op := Field2D.FieldOp.place o (numbers l)) hin' q1
      refine ⟨f', g'', pub, _, ?_, ?_, exec_sized h3 q1, p2.tor, p2, h8.congr rfl ?_ rfl ?_⟩
      · rw [run, h1]; exact h7
      · rw [List.map_cons, Machine.run, h2]
        show Machine.setObjectLocation rnd m (ofField g) o l = _
        rw [e]
        exact hex
      · funext i
        rw [placements, latest_snoc]
      · funext c
        have e' : discretize rnd (.fin d) l = Field2D.discretize 1 (image rnd d (numbers l)) := by
          rw [← Single.discretize_image, ← (discretize_of hr ho hin').1, ← e]
        rw [held_getD, e']
        split
        · rw [held, if_neg (by simp)]
        · rfl
    | update => exact absurd hop (by simp [PlaceLazy])
    | lazyUpdate =>
      obtain ⟨g', p1, _, _, p2⟩ := Field2D.shows_lazy h5
      have hx := Single.exec_image rnd g (Field2D.FieldOp.lazyUpdate)
      have hx : (Single.exec rnd g Field2D.FieldOp.lazyUpdate).map (imageField rnd) = some g' := hx.trans p1
      obtain ⟨g'', q1, rfl⟩ := Option.map_eq_some_iff.1 hx
      refine ⟨lazyUpdate f, g'', cur, _, ?_, ?_, exec_sized h3 q1, p2.tor, p2, (fshows_lazy h6).congr rfl rfl rfl rfl⟩
      · rw [run, h1]; rfl
      · rw [List.map_cons, Machine.run, h2]
        exact exec_of hr m ho h3 (op := Field2D.FieldOp.lazyUpdate) trivial q1

end Same

/-! ### agents -/

section Agents

variable {B : Type} [DecidableEq B]

/-- The field holds these agents, published and written. -/
def Holds (rnd : Rat → Rat) (w h d : Rat) (t : Bool) (ident : B → Nat) (loc : B → PosF) (f : PFieldF B Nat) (r wr : List B) : Prop :=
  (∀ b ∈ wr, Inside w h (loc b)) ∧ (∀ b ∈ r, Inside w h (loc b)) ∧
    FShows rnd f (.fin w) (.fin h) (.fin d) t (latest ident (r.map (fun b => (b, loc b)))) (latest ident (wr.map (fun b => (b, loc b))))
      (fun c => held (Sync.inCell (spot rnd d loc) 1 r c)) (fun c => held (Sync.inCell (spot rnd d loc) 1 wr c))

theorem discretize_inside {rnd : Rat → Rat} (hr : Rounding rnd) {w h d : Rat} (ho : Ordinary rnd w h d) {loc : B → PosF} {b : B} (hb : Inside w h (loc b)) :
    discretize rnd (.fin d) (loc b) = Field2D.discretize 1 (spot rnd d loc b) := by
  obtain ⟨e, hin⟩ := hb.numbers
  rw [spot, ← Single.discretize_image, ← (discretize_of hr ho hin).1, ← e]

theorem parLaws {rnd root : Rat → Rat} (hr : Rounding rnd) (m : Mode) (size : Nat) {w h d : Rat} (ho : Ordinary rnd w h d) (t : Bool) (ident : B → Nat) (ok : B → Prop)
    (loc : B → PosF) (hok : ∀ b, ok b → Inside w h (loc b)) (reach : B → Rat) (hreach : ∀ b, |reach b| / d ≤ 2 ^ 30)
    (ha : ∀ b, Affordable rnd size w h (reach b)) :
    Sync.Laws (agentOps rnd root m size ident loc (fun b => .fin (reach b))) ident ok (answer rnd root m w h d t loc (fun b => .fin (reach b))) List.Perm
      (ShowsAll rnd (Single.cellOf rnd d) loc w h) (Holds rnd w h d t ident loc) where
  place {f r wr} b hh hb _ := by
    obtain ⟨g1, g2, hs⟩ := hh
    obtain ⟨f', h1, h2⟩ := fshows_place ident hs b (loc b)
    refine ⟨f', h1, ?_, g2, h2.congr rfl ?_ rfl ?_⟩
    · intro x hx
      rcases List.mem_append.1 hx with hx | hx
      · exact g1 x hx
      · rw [List.mem_singleton] at hx; subst hx; exact hok _ hb
    · funext i
      rw [List.map_append, List.map_singleton, latest_snoc]
    · funext q
      rw [held_getD, Sync.inCell_snoc, discretize_inside hr ho (hok b hb)]
      by_cases hq : q = Field2D.discretize 1 (spot rnd d loc b)
      · rw [if_pos hq, if_pos hq, held, if_neg (by simp)]
      · rw [if_neg hq, if_neg hq]
  publish {f r wr} hh := by
    obtain ⟨g1, g2, hs⟩ := hh
    exact ⟨_, rfl, by simp, g1, (fshows_lazy hs).congr rfl rfl rfl rfl⟩
  look {f r wr} b hh hr' hb := by
    obtain ⟨g1, g2, hs⟩ := hh
    have hin := hok b hb
    obtain ⟨e, hin'⟩ := hin.numbers
    have hrb : reach b / d ≤ 2 ^ 30 := le_trans (div_le_div_of_nonneg_right (le_abs_self _) ho.pos.le) (hreach b)
    have hd30 : d ≤ 2 ^ 30 := le_trans ho.dw ho.wide
    have habs : |reach b| ≤ 2 ^ 60 := by
      have := hreach b
      rw [div_le_iff₀ ho.pos] at this
      nlinarith
    refine ⟨_, ?_, List.Perm.refl _⟩
    rw [answer_eq hr m ho g2 b hin (le_trans hrb (by norm_num))]
    have hlen : rLen f.findex ≠ 0 := by
      rw [Ne, rLen_pos hs]
      intro hz
      obtain ⟨c, r', rfl⟩ := List.exists_cons_of_ne_nil hr'
      have := hz (ident c)
      unfold latest at this
      rw [List.find?_eq_none] at this
      exact this (c, loc c) (by simp) (by simp)
    show getNeighborsWithinDistance rnd root m size f loc (loc b) (.fin (reach b)) = _
    unfold getNeighborsWithinDistance seenM
    rw [capacity_of hr m (le_trans ho.pos.le ho.dw) (le_trans ho.pos.le ho.dh) ho.wide ho.high hs.width hs.height hlen (ha b) habs, Option.bind_some]
    simp only [le, decide_eq_true_eq]
    by_cases hd : reach b ≤ 0
    · rw [if_pos hd, if_pos hd]
    rw [if_neg hd, if_neg hd]
    have hk : keepExact rnd root f loc (loc b) (.fin (reach b)) =
        Machine.keepExact rnd root (ofField (Single.new rnd w h d t : Field2D.Field B)) loc (loc b) (.fin (reach b)) := by
      funext q x
      unfold keepExact Machine.keepExact
      rw [hs.disc, hs.width, hs.height, hs.tor]
      rfl
    have hc : searchCells rnd m f (loc b) (.fin (reach b)) =
        some (Single.searchCells rnd (Single.new rnd w h d t : Field2D.Field B) (numbers (loc b)) (reach b)) := by
      conv_lhs => rw [e]
      exact searchCells_of hr m ho hs.width hs.height hs.disc hs.tor hin' (lt_of_not_ge hd) hrb
    rw [hc, Option.bind_some, hk, scan_of hr m ho hs]
    simp only [wrap_eq (O := B) rnd w h d t]
  shows {f r wr pop} hh hp := by
    intro x y hx hx' hy hy'
    obtain ⟨g1, g2, hs⟩ := hh
    have hin : InField w h ⟨x, y⟩ := ⟨hx, hx', hy, hy'⟩
    refine ⟨_, (getObjects_of hs _).1, ?_⟩
    have e := (discretize_of hr ho hin).1
    unfold ofPos at e
    rw [e]
    refine List.Perm.trans (List.Perm.of_eq ?_) (hp.filter _)
    unfold Sync.inCell
    apply List.filter_congr
    intro b _
    rw [Bool.eq_iff_iff, decide_eq_true_iff, decide_eq_true_iff]
    unfold Single.cellOf spot numbers
    rw [← Single.discretize_image]
    generalize Single.discretize rnd d ⟨x, y⟩ = A
    generalize Single.discretize rnd d ⟨number (loc b).x, number (loc b).y⟩ = C
    cases A; cases C
    simp only [Loc.mk.injEq, Prod.mk.injEq]
    constructor <;> rintro ⟨rfl, rfl⟩ <;> exact ⟨rfl, rfl⟩
  perm {r r'} b hr' hb hp := by
    have hrb : reach b / d ≤ 2 ^ 30 := le_trans (div_le_div_of_nonneg_right (le_abs_self _) ho.pos.le) (hreach b)
    rw [answer_eq hr m ho (fun x hx => hok x (hr' x hx)) b (hok b hb) (le_trans hrb (by norm_num)),
      answer_eq hr m ho (fun x hx => hok x (hr' x (hp.mem_iff.2 hx))) b (hok b hb) (le_trans hrb (by norm_num))]
    exact seenM_perm hp b

theorem holds_new {rnd : Rat → Rat} {cpus : Nat} (hc : shardAmount cpus ≤ 2 ^ 64) (hashO : Nat → Nat) (hashL : Loc → Nat) (w h d : Rat) (t : Bool)
    (ident : B → Nat) (loc : B → PosF) : Holds rnd w h d t ident loc (new cpus hashO hashL (.fin w) (.fin h) (.fin d) t) [] [] :=
  ⟨by simp, by simp, (fshows_new rnd hc hashO hashL _ _ _ t).congr rfl rfl rfl rfl⟩

end Agents

end Verif.ParMachine
