import Verif.Lemmas.ParGrid
import Verif.Props.Field2D
import Verif.Spec.ParField2D

/-! Lemmas about `Field2D` under the feature `parallel`. -/

set_option linter.unusedSectionVars false

namespace Verif.ParField2D

open Grid Torus DBDashMap Field2D ParField2DSpec ParGrid

variable {O I : Type} [DecidableEq I]

/-- The bag of a square, as the map holds it. -/
def held (os : List O) : Option (List O) := if os = [] then none else some os

theorem held_getD (os : List O) : (held os).getD [] = os := by
  unfold held
  split
  · rename_i h; rw [h]; rfl
  · rfl

/-- The entry of `findex` for an entry of `floc`. -/
def indexed (d : ℚ) (e : O × Pos) : O × Loc := (e.1, discretize d e.2)

/-- What a field holds: published and written locations, published and written bags. -/
structure FShows (f : PField O I) (w h d : ℚ) (t : Bool) (rl wl : I → Option (O × Pos)) (rb wb : Loc → Option (List O)) :
    Prop where
  width : f.width = w
  height : f.height = h
  disc : f.discretization = d
  tor : f.toroidal = t
  invO : Inv f.floc
  invI : Inv f.findex
  invL : Inv f.fbag
  readO : (abs f.floc).read = rl
  writeO : (abs f.floc).write = wl
  readI : (abs f.findex).read = fun i => (rl i).map (indexed d)
  writeI : (abs f.findex).write = fun i => (wl i).map (indexed d)
  readL : (abs f.fbag).read = rb
  writeL : (abs f.fbag).write = wb

theorem FShows.congr {f : PField O I} {w h d : ℚ} {t : Bool} {rl wl rl' wl' : I → Option (O × Pos)}
    {rb wb rb' wb' : Loc → Option (List O)} (hs : FShows f w h d t rl wl rb wb) (h1 : rl' = rl) (h2 : wl' = wl) (h3 : rb' = rb)
    (h4 : wb' = wb) : FShows f w h d t rl' wl' rb' wb' := by
  subst h1 h2 h3 h4; exact hs

theorem fshows_new {cpus : Nat} (hc : shardAmount cpus ≤ 2 ^ 64) (hashO : I → Nat) (hashL : Loc → Nat) (w h d : ℚ) (t : Bool) :
    FShows (PField.new cpus hashO hashL w h d t : PField O I) w h d t (fun _ => none) (fun _ => none) (fun _ => none)
      (fun _ => none) := by
  refine ⟨rfl, rfl, rfl, rfl, inv_new hc hashO, inv_new hc hashO, inv_new hc hashL, ?_, ?_, ?_, ?_, ?_, ?_⟩
  all_goals
    simp only [PField.new, abs_new]
    rfl

theorem cellOf_eq (f : PField O I) (l : Pos) : f.cellOf l = discretize f.discretization l := rfl

theorem putInBag_sim {f : PField O I} (hi : Inv f.fbag) (o : O) (c : Loc) :
    ∃ m, f.putInBag o c = some m ∧ Inv m ∧ (abs m).read = (abs f.fbag).read ∧
      (abs m).write = fun c' => if c' = c then some (((abs f.fbag).write c).getD [] ++ [o]) else (abs f.fbag).write c' := by
  unfold PField.putInBag
  rw [getWrite_abs hi, Option.bind_some]
  cases hb : (abs f.fbag).write c with
  | none =>
    obtain ⟨m, h1, h2, _, h3⟩ := insert_sim hi c [o]
    refine ⟨m, by simp [h1], h2, by rw [h3], ?_⟩
    rw [h3]
    rfl
  | some b =>
    obtain ⟨m, h1, h2, h3⟩ := modifyWrite_sim hi c (fun v => v ++ [o])
    refine ⟨m, h1, h2, by rw [h3], ?_⟩
    rw [h3, hb]
    rfl

theorem fshows_place (ident : O → I) {f : PField O I} {w h d : ℚ} {t : Bool} {rl wl : I → Option (O × Pos)}
    {rb wb : Loc → Option (List O)} (hs : FShows f w h d t rl wl rb wb) (o : O) (l : Pos) :
    ∃ f', f.setObjectLocation ident o l = some f' ∧
      FShows f' w h d t rl (fun i => if i = ident o then some (o, l) else wl i) rb
        (fun c => if c = discretize d l then some ((wb c).getD [] ++ [o]) else wb c) := by
  obtain ⟨m1, a1, a2, _, a3⟩ := insert_sim hs.invO (ident o) (o, l)
  obtain ⟨m2, b1, b2, _, b3⟩ := insert_sim hs.invI (ident o) (o, discretize d l)
  obtain ⟨m3, c1, c2, c3, c4⟩ := putInBag_sim hs.invL o (discretize d l)
  have hcell : f.cellOf l = discretize d l := by rw [cellOf_eq, hs.disc]
  refine ⟨{ f with floc := m1, findex := m2, fbag := m3 }, ?_,
    hs.width, hs.height, hs.disc, hs.tor, a2, b2, c2, ?_, ?_, ?_, ?_, ?_, ?_⟩
  · unfold PField.setObjectLocation
    rw [hcell, a1, Option.bind_some, b1, Option.bind_some, c1]
    rfl
  · show (abs m1).read = _
    rw [a3]; exact hs.readO
  · show (abs m1).write = _
    rw [a3, hs.writeO]; rfl
  · show (abs m2).read = _
    rw [b3]; exact hs.readI
  · show (abs m2).write = _
    rw [b3, hs.writeI]
    funext i
    dsimp only
    unfold DBDashMap.set
    split <;> rfl
  · show (abs m3).read = _
    rw [c3]; exact hs.readL
  · show (abs m3).write = _
    rw [c4, hs.writeL]
    funext c
    split
    · rename_i he; rw [he]
    · rfl

theorem fshows_update {f : PField O I} {w h d : ℚ} {t : Bool} {rl wl : I → Option (O × Pos)}
    {rb wb : Loc → Option (List O)} (hs : FShows f w h d t rl wl rb wb) :
    FShows f.update w h d t (fun i => (wl i).or (rl i)) wl (fun c => (wb c).or (rb c)) wb := by
  refine ⟨hs.width, hs.height, hs.disc, hs.tor, (update_sim hs.invO).1, (update_sim hs.invI).1, (update_sim hs.invL).1, ?_, ?_,
    ?_, ?_, ?_, ?_⟩
  · show (abs (DBDashMap.update f.floc)).read = _
    rw [(update_sim hs.invO).2, hs.readO, hs.writeO]
  · show (abs (DBDashMap.update f.floc)).write = _
    rw [(update_sim hs.invO).2, hs.writeO]
  · show (abs (DBDashMap.update f.findex)).read = _
    rw [(update_sim hs.invI).2, hs.readI, hs.writeI]
    funext i
    dsimp only
    cases wl i <;> rfl
  · show (abs (DBDashMap.update f.findex)).write = _
    rw [(update_sim hs.invI).2, hs.writeI]
  · show (abs (DBDashMap.update f.fbag)).read = _
    rw [(update_sim hs.invL).2, hs.readL, hs.writeL]
  · show (abs (DBDashMap.update f.fbag)).write = _
    rw [(update_sim hs.invL).2, hs.writeL]

theorem fshows_lazy {f : PField O I} {w h d : ℚ} {t : Bool} {rl wl : I → Option (O × Pos)}
    {rb wb : Loc → Option (List O)} (hs : FShows f w h d t rl wl rb wb) :
    FShows f.lazyUpdate w h d t wl (fun _ => none) wb (fun _ => none) := by
  refine ⟨hs.width, hs.height, hs.disc, hs.tor, (lazyUpdate_sim hs.invO).1, (lazyUpdate_sim hs.invI).1,
    (lazyUpdate_sim hs.invL).1, ?_, ?_, ?_, ?_, ?_, ?_⟩
  · show (abs (DBDashMap.lazyUpdate f.floc)).read = _
    rw [(lazyUpdate_sim hs.invO).2, hs.writeO]
  · show (abs (DBDashMap.lazyUpdate f.floc)).write = _
    rw [(lazyUpdate_sim hs.invO).2]
  · show (abs (DBDashMap.lazyUpdate f.findex)).read = _
    rw [(lazyUpdate_sim hs.invI).2, hs.writeI]
  · show (abs (DBDashMap.lazyUpdate f.findex)).write = _
    rw [(lazyUpdate_sim hs.invI).2]
    rfl
  · show (abs (DBDashMap.lazyUpdate f.fbag)).read = _
    rw [(lazyUpdate_sim hs.invL).2, hs.writeL]
  · show (abs (DBDashMap.lazyUpdate f.fbag)).write = _
    rw [(lazyUpdate_sim hs.invL).2]

theorem flatest_snoc (ident : O → I) (ps : List (O × Pos)) (o : O) (l : Pos) (i : I) :
    ParField2DSpec.latest ident (ps ++ [(o, l)]) i = if i = ident o then some (o, l) else ParField2DSpec.latest ident ps i := by
  unfold ParField2DSpec.latest
  rw [List.reverse_append]
  by_cases h : i = ident o
  · subst h; simp
  · have : ¬ ident o = i := fun hc => h hc.symm
    simp [h, this]

theorem placedIn_snoc (d : ℚ) (ps : List (O × Pos)) (o : O) (l q : Pos) :
    placedIn d (ps ++ [(o, l)]) q = if sameSquare d l q then placedIn d ps q ++ [o] else placedIn d ps q := by
  unfold placedIn
  rw [List.filter_append, List.map_append]
  cases h : sameSquare d l q <;> simp [h]

theorem fshows_run {cpus : Nat} (hc : shardAmount cpus ≤ 2 ^ 64) (ident : O → I) (hashO : I → Nat) (hashL : Loc → Nat)
    (w h : ℚ) {d : ℚ} (hd : 0 < d) (t : Bool) (hist : List (ROp O)) :
    ∃ f, PField.run ident (PField.new cpus hashO hashL w h d t) hist = some f ∧
      FShows f w h d t (ParField2DSpec.publishedOf ident hist) (ParField2DSpec.latest ident (ParField2DSpec.placements hist))
        (fun c => held (publishedIn d hist (notDiscretize d c)))
        (fun c => held (placedIn d (ParField2DSpec.placements hist) (notDiscretize d c))) := by
  induction hist with
  | nil => exact ⟨_, rfl, fshows_new hc hashO hashL w h d t⟩
  | cons op hist ih =>
    obtain ⟨f, h1, h2⟩ := ih
    cases op with
    | place o l =>
      obtain ⟨f', h3, h4⟩ := fshows_place ident h2 o l
      refine ⟨f', by rw [PField.run, h1]; exact h3, ?_⟩
      refine h4.congr rfl ?_ rfl ?_
      · funext i
        exact flatest_snoc ident _ o l i
      · funext c
        show held (placedIn d (ParField2DSpec.placements hist ++ [(o, l)]) (notDiscretize d c)) = _
        rw [placedIn_snoc]
        have key : (c = discretize d l) = (sameSquare d l (notDiscretize d c) = true) := by
          rw [sameSquare_discretize, discretize_notDiscretize hd]
        simp only [key]
        split
        · rw [held_getD]
          unfold held
          rw [if_neg (by simp)]
        · rfl
    | update =>
      refine ⟨f.update, by rw [PField.run, h1]; rfl, ?_⟩
      refine (fshows_update h2).congr rfl rfl ?_ rfl
      funext c
      show held (if placedIn d (ParField2DSpec.placements hist) (notDiscretize d c) = [] then publishedIn d hist (notDiscretize d c)
        else placedIn d (ParField2DSpec.placements hist) (notDiscretize d c)) = _
      by_cases he : placedIn d (ParField2DSpec.placements hist) (notDiscretize d c) = []
      · rw [if_pos he]
        rw [show held (placedIn d (ParField2DSpec.placements hist) (notDiscretize d c)) = none from if_pos he]
        rfl
      · rw [if_neg he]
        rw [show held (placedIn d (ParField2DSpec.placements hist) (notDiscretize d c)) = some _ from if_neg he]
        rfl
    | lazyUpdate =>
      exact ⟨f.lazyUpdate, by rw [PField.run, h1]; rfl, fshows_lazy h2⟩

theorem placedIn_congr {d : ℚ} (ps : List (O × Pos)) {p q : Pos} (h : discretize d p = discretize d q) :
    placedIn d ps p = placedIn d ps q := by
  have key : ∀ l, sameSquare d l p = sameSquare d l q := by
    intro l
    rw [Bool.eq_iff_iff, sameSquare_discretize, sameSquare_discretize, h]
  unfold placedIn
  simp only [key]

theorem publishedIn_congr {d : ℚ} (hist : List (ROp O)) {p q : Pos} (h : discretize d p = discretize d q) :
    publishedIn d hist p = publishedIn d hist q := by
  induction hist with
  | nil => rfl
  | cons op hist ih => cases op <;> simp only [publishedIn, ih, placedIn_congr _ h]

theorem atCell {d : ℚ} (hd : 0 < d) (hist : List (ROp O)) (p : Pos) :
    publishedIn d hist (notDiscretize d (discretize d p)) = publishedIn d hist p ∧
      placedIn d (ParField2DSpec.placements hist) (notDiscretize d (discretize d p)) =
        placedIn d (ParField2DSpec.placements hist) p :=
  ⟨publishedIn_congr hist (discretize_notDiscretize hd _), placedIn_congr _ (discretize_notDiscretize hd _)⟩

/-- The search loop, when no size is zero. -/
theorem pscan_eq {f : PField O I} {w h d : ℚ} {t : Bool} {rl wl : I → Option (O × Pos)} {rb wb : Loc → Option (List O)}
    (hs : FShows f w h d t rl wl rb wb) (hw : 0 < w) (hh : 0 < h) (hd : 0 < d) (keep : Loc → O → Bool) (cs : List Loc) :
    f.scan keep cs = some (cs.flatMap (fun c =>
      ((rb ⟨tT c.x (w / d).ceil, tT c.y (h / d).ceil⟩).getD []).filter (keep ⟨tT c.x (w / d).ceil, tT c.y (h / d).ceil⟩))) := by
  induction cs with
  | nil => rfl
  | cons c cs ih =>
    have hb : f.bagId c = some ⟨tT c.x (w / d).ceil, tT c.y (h / d).ceil⟩ := by
      unfold PField.bagId
      rw [hs.width, hs.height, hs.disc, tTransform_eq (ne_of_gt (ceil_pos hw hd)), tTransform_eq (ne_of_gt (ceil_pos hh hd))]
    rw [PField.scan, hb]
    dsimp only
    rw [getRead_abs hs.invL, hs.readL, ih]
    cases hr : rb ⟨tT c.x (w / d).ceil, tT c.y (h / d).ceil⟩ <;> simp [hr]

theorem rLen_hasSize {db : DB I (O × Loc)} (hi : Inv db) : HasSize (abs db).read (rLen db) := hasSize_flatten hi.r

theorem rLen_zero {db : DB I (O × Loc)} (hi : Inv db) : rLen db = 0 ↔ ∀ i, (abs db).read i = none := by
  have := empty_iff hi.r
  rw [beq_iff_eq] at this
  exact this

/-! ### The same program without the feature -/

theorem toSeq_inField {w h : ℚ} {hist : List (ROp O)} (hp : ∀ op ∈ hist, PlaceLazy w h op) :
    ∀ op ∈ hist.map toSeq, FieldOp.InField w h op := by
  intro op hop
  obtain ⟨r, hr, rfl⟩ := List.mem_map.1 hop
  have := hp r hr
  cases r with
  | place o l => exact this
  | update => exact absurd this (by simp [PlaceLazy])
  | lazyUpdate => trivial

theorem objsWritten_eq [BEq O] {w h : ℚ} (d : ℚ) (hist : List (ROp O)) (hp : ∀ op ∈ hist, PlaceLazy w h op) (q : Pos) :
    objsWritten d (hist.map toSeq) q = placedIn d (ParField2DSpec.placements hist) q := by
  induction hist with
  | nil => rfl
  | cons op hist ih =>
    have ih := ih (fun o ho => hp o (List.mem_cons_of_mem _ ho))
    have := hp op List.mem_cons_self
    cases op with
    | place o l =>
      rw [List.map_cons, toSeq, objsWritten, ih]
      exact (placedIn_snoc d _ o l q).symm
    | update => exact absurd this (by simp [PlaceLazy])
    | lazyUpdate => rfl

theorem objsPublished_eq [BEq O] {w h : ℚ} (d : ℚ) (hist : List (ROp O)) (hp : ∀ op ∈ hist, PlaceLazy w h op) (q : Pos) :
    objsPublished d (hist.map toSeq) q = publishedIn d hist q := by
  induction hist with
  | nil => rfl
  | cons op hist ih =>
    have hp' : ∀ o ∈ hist, PlaceLazy w h o := fun o ho => hp o (List.mem_cons_of_mem _ ho)
    have := hp op List.mem_cons_self
    cases op with
    | place o l => exact ih hp'
    | update => exact absurd this (by simp [PlaceLazy])
    | lazyUpdate => exact objsWritten_eq d hist hp' q

/-! ### Concurrent placements -/

theorem fthreadStep_sim (ident : O → I) {f : PField O I} (hO : Inv f.floc) (hI : Inv f.findex) (hL : Inv f.fbag) (t : Thread O) :
    ∃ f' pc', threadStep ident f t = some (f', pc') ∧ Inv f'.floc ∧ Inv f'.findex ∧ Inv f'.fbag ∧
      f'.discretization = f.discretization ∧
      (abs f'.floc).read = (abs f.floc).read ∧ (abs f'.findex).read = (abs f.findex).read ∧
      (abs f'.fbag).read = (abs f.fbag).read ∧
      match t.pc with
      | .loc =>
        pc' = .index ∧ (abs f'.findex).write = (abs f.findex).write ∧ (abs f'.fbag).write = (abs f.fbag).write ∧
          (abs f'.floc).write = fun i => if i = ident t.object then some (t.object, t.loc) else (abs f.floc).write i
      | .index =>
        pc' = .bag ∧ (abs f'.floc).write = (abs f.floc).write ∧ (abs f'.fbag).write = (abs f.fbag).write ∧
          (abs f'.findex).write = fun i => if i = ident t.object then some (t.object, f.cellOf t.loc)
            else (abs f.findex).write i
      | .bag =>
        (abs f'.floc).write = (abs f.floc).write ∧ (abs f'.findex).write = (abs f.findex).write ∧
        (((abs f.fbag).write (f.cellOf t.loc) = none ∧ pc' = .missing ∧ (abs f'.fbag).write = (abs f.fbag).write) ∨
          ∃ b, (abs f.fbag).write (f.cellOf t.loc) = some b ∧ pc' = .done ∧
            (abs f'.fbag).write = fun c => if c = f.cellOf t.loc then some (b ++ [t.object]) else (abs f.fbag).write c)
      | .missing =>
        pc' = .done ∧ (abs f'.floc).write = (abs f.floc).write ∧ (abs f'.findex).write = (abs f.findex).write ∧
          (abs f'.fbag).write = fun c => if c = f.cellOf t.loc then some [t.object] else (abs f.fbag).write c
      | .done => f' = f ∧ pc' = .done := by
  unfold threadStep
  cases hp : t.pc with
  | loc =>
    obtain ⟨db', h1, h2, _, h3⟩ := insert_sim hO (ident t.object) (t.object, t.loc)
    refine ⟨{ f with floc := db' }, .index, by dsimp only; rw [h1]; rfl, h2, hI, hL, rfl, ?_, rfl, rfl, rfl, rfl, rfl, ?_⟩
    · show (abs db').read = _
      rw [h3]
    · show (abs db').write = _
      rw [h3]; rfl
  | index =>
    obtain ⟨db', h1, h2, _, h3⟩ := insert_sim hI (ident t.object) (t.object, f.cellOf t.loc)
    refine ⟨{ f with findex := db' }, .bag, by dsimp only; rw [h1]; rfl, hO, h2, hL, rfl, rfl, ?_, rfl, rfl, rfl, rfl, ?_⟩
    · show (abs db').read = _
      rw [h3]
    · show (abs db').write = _
      rw [h3]; rfl
  | bag =>
    dsimp only
    rw [getWrite_abs hL, Option.bind_some]
    cases hb : (abs f.fbag).write (f.cellOf t.loc) with
    | none => exact ⟨f, .missing, rfl, hO, hI, hL, rfl, rfl, rfl, rfl, rfl, rfl, Or.inl ⟨rfl, rfl, rfl⟩⟩
    | some b =>
      obtain ⟨db', h1, h2, h3⟩ := modifyWrite_sim hL (f.cellOf t.loc) (fun v => v ++ [t.object])
      refine ⟨{ f with fbag := db' }, .done, by dsimp only; rw [h1]; rfl, hO, hI, h2, rfl, rfl, rfl, ?_, rfl, rfl,
        Or.inr ⟨b, rfl, rfl, ?_⟩⟩
      · show (abs db').read = _
        rw [h3]
      · show (abs db').write = _
        rw [h3, hb]; rfl
  | missing =>
    obtain ⟨db', h1, h2, _, h3⟩ := insert_sim hL (f.cellOf t.loc) [t.object]
    refine ⟨{ f with fbag := db' }, .done, by dsimp only; rw [h1]; rfl, hO, hI, h2, rfl, rfl, rfl, ?_, rfl, rfl, rfl, ?_⟩
    · show (abs db').read = _
      rw [h3]
    · show (abs db').write = _
      rw [h3]; rfl
  | done => exact ⟨f, .done, rfl, hO, hI, hL, rfl, rfl, rfl, rfl, rfl, rfl⟩

/-- The objects whose thread has finished in this square. -/
def finished (d : ℚ) (ts : List (Thread O)) (c : Loc) : List O :=
  (ts.filter (fun t => decide (discretize d t.loc = c) && decide (t.pc = .done))).map Thread.object

/-- Replacing one element of a list. -/
theorem filter_set_perm {A : Type} (p : A → Bool) : ∀ (l : List A) (i : Nat) (a b : A), l[i]? = some a → p a = false →
    (p b = false → (l.set i b).filter p = l.filter p) ∧ (p b = true → ((l.set i b).filter p).Perm (l.filter p ++ [b])) := by
  intro l
  induction l with
  | nil => intro i a b h; simp at h
  | cons x l ih =>
    intro i a b h ha
    cases i with
    | zero =>
      simp only [List.getElem?_cons_zero, Option.some.injEq] at h
      subst h
      refine ⟨fun hb => by simp [ha, hb], fun hb => ?_⟩
      simp only [List.set_cons_zero, List.filter_cons, ha, hb, if_true, Bool.false_eq_true, if_false]
      exact (List.perm_append_comm (l₁ := l.filter p) (l₂ := [b])).symm
    | succ i =>
      rw [List.getElem?_cons_succ] at h
      obtain ⟨h1, h2⟩ := ih i a b h ha
      rw [List.set_cons_succ]
      refine ⟨fun hb => ?_, fun hb => ?_⟩
      · rw [List.filter_cons, List.filter_cons, h1 hb]
      · rw [List.filter_cons, List.filter_cons]
        split
        · exact (h2 hb).cons x
        · exact h2 hb

theorem finished_set {d : ℚ} {ts : List (Thread O)} {i : Nat} {t : Thread O} (hi : ts[i]? = some t) (ht : t.pc ≠ .done) (pc' : Pc)
    (c : Loc) :
    (pc' ≠ .done ∨ discretize d t.loc ≠ c → finished d (ts.set i { t with pc := pc' }) c = finished d ts c) ∧
      (pc' = .done → discretize d t.loc = c →
        (finished d (ts.set i { t with pc := pc' }) c).Perm (finished d ts c ++ [t.object])) := by
  obtain ⟨h1, h2⟩ := filter_set_perm (fun t : Thread O => decide (discretize d t.loc = c) && decide (t.pc = .done)) ts i t
    { t with pc := pc' } hi (by simp [ht])
  refine ⟨fun h => ?_, fun ha hb => ?_⟩
  · unfold finished
    rw [h1]
    rcases h with h | h <;> simp [h]
  · have := (h2 (by simp [ha, hb])).map Thread.object
    rw [List.map_append] at this
    exact this

/-- A square at which concurrent placements are safe: its bag exists before, or one placement at most goes there. -/
def Safe (d : ℚ) (w0 : Loc → Option (List O)) (ps : List (O × Pos)) (c : Loc) : Prop :=
  w0 c ≠ none ∨ (ps.filter (fun p => decide (discretize d p.2 = c))).length ≤ 1

/-- What holds at every moment of concurrent placements `ps`. -/
structure CInv (ident : O → I) (d : ℚ) (r0 w0 : Loc → Option (List O)) (rl0 wl0 : I → Option (O × Pos))
    (ri0 wi0 : I → Option (O × Loc)) (ps : List (O × Pos)) (c : Conc O I) : Prop where
  disc : c.field.discretization = d
  invO : Inv c.field.floc
  invI : Inv c.field.findex
  invL : Inv c.field.fbag
  readO : (abs c.field.floc).read = rl0
  readI : (abs c.field.findex).read = ri0
  readL : (abs c.field.fbag).read = r0
  threads : c.threads.map (fun t => (t.object, t.loc)) = ps
  locDone : ∀ (j : Nat) (t : Thread O), c.threads[j]? = some t → t.pc ≠ .loc →
    (abs c.field.floc).write (ident t.object) = some (t.object, t.loc)
  locOther : ∀ i, (∀ (j : Nat) (t : Thread O), c.threads[j]? = some t → ident t.object ≠ i) → (abs c.field.floc).write i = wl0 i
  indexDone : ∀ (j : Nat) (t : Thread O), c.threads[j]? = some t → t.pc ≠ .loc → t.pc ≠ .index →
    (abs c.field.findex).write (ident t.object) = some (t.object, discretize d t.loc)
  indexOther : ∀ i, (∀ (j : Nat) (t : Thread O), c.threads[j]? = some t → ident t.object ≠ i) →
    (abs c.field.findex).write i = wi0 i
  kept : ∀ l, w0 l ≠ none → (abs c.field.fbag).write l ≠ none
  missing : ∀ (j : Nat) (t : Thread O), c.threads[j]? = some t → t.pc = .missing → w0 (discretize d t.loc) = none
  sub : ∀ l, (((abs c.field.fbag).write l).getD []).Subperm ((w0 l).getD [] ++ finished d c.threads l)
  some : ∀ l, finished d c.threads l ≠ [] → ((abs c.field.fbag).write l).getD [] ≠ []
  exact : ∀ l, Safe d w0 ps l → (((abs c.field.fbag).write l).getD []).Perm ((w0 l).getD [] ++ finished d c.threads l)

theorem threads_set {ts : List (Thread O)} {i : Nat} {t : Thread O} (hi : ts[i]? = some t) (pc' : Pc) :
    (ts.set i { t with pc := pc' }).map (fun t => (t.object, t.loc)) = ts.map (fun t => (t.object, t.loc)) := by
  rw [List.map_set]
  apply List.ext_getElem?
  intro j
  rw [List.getElem?_set]
  split
  · rename_i hj
    subst hj
    have hlt : i < ts.length := (List.getElem?_eq_some_iff.1 hi).1
    rw [List.getElem?_map, hi]
    simp [hlt]
  · rfl

theorem fset_lookup {ts : List (Thread O)} {i : Nat} {t : Thread O} (hi : ts[i]? = some t) (pc' : Pc) (j : Nat) (u : Thread O) :
    (ts.set i { t with pc := pc' })[j]? = some u ↔ (j = i ∧ u = { t with pc := pc' }) ∨ (j ≠ i ∧ ts[j]? = some u) := by
  have hlt : i < ts.length := (List.getElem?_eq_some_iff.1 hi).1
  rw [List.getElem?_set]
  by_cases h : i = j
  · subst h
    simp only [if_pos, hlt, Option.some.injEq, true_and, ne_eq, not_true_eq_false, false_and, or_false]
    exact eq_comm
  · simp [h, Ne.symm h]

/-- If one placement only goes to the square and its thread has not finished, nothing has finished there. -/
theorem finished_nil {d : ℚ} {ts : List (Thread O)} {i : Nat} {t : Thread O} (hi : ts[i]? = some t) (hpc : t.pc ≠ .done)
    (h : ((ts.map (fun t => (t.object, t.loc))).filter (fun p => decide (discretize d p.2 = discretize d t.loc))).length ≤ 1) :
    finished d ts (discretize d t.loc) = [] := by
  rw [List.filter_map, List.length_map] at h
  have hm : t ∈ ts.filter (fun u => decide (discretize d u.loc = discretize d t.loc)) :=
    List.mem_filter.2 ⟨List.mem_of_getElem? hi, by simp⟩
  have h' : (ts.filter (fun u => decide (discretize d u.loc = discretize d t.loc))).length ≤ 1 := h
  have e : ts.filter (fun u => decide (discretize d u.loc = discretize d t.loc)) = [t] := by
    cases hl : ts.filter (fun u => decide (discretize d u.loc = discretize d t.loc)) with
    | nil => rw [hl] at hm; cases hm
    | cons a as =>
      rw [hl] at h' hm
      cases as with
      | nil => rw [List.mem_singleton] at hm; rw [hm]
      | cons b bs => simp at h'
  unfold finished
  rw [show ts.filter (fun u => decide (discretize d u.loc = discretize d t.loc) && decide (u.pc = .done)) =
    (ts.filter (fun u => decide (discretize d u.loc = discretize d t.loc))).filter (fun u => decide (u.pc = .done)) by
      rw [List.filter_filter]; congr 1; funext u; rw [Bool.and_comm], e]
  simp [hpc]

theorem fcinv_step (ident : O → I) {d : ℚ} {r0 w0 : Loc → Option (List O)} {rl0 wl0 : I → Option (O × Pos)}
    {ri0 wi0 : I → Option (O × Loc)} {ps : List (O × Pos)} (hd : (ps.map (fun p => ident p.1)).Nodup) {c : Conc O I}
    (hc : CInv ident d r0 w0 rl0 wl0 ri0 wi0 ps c) (i : Nat) :
    ∃ c', c.step ident i = some c' ∧ CInv ident d r0 w0 rl0 wl0 ri0 wi0 ps c' := by
  unfold Conc.step
  cases hi : c.threads[i]? with
  | none => exact ⟨c, rfl, hc⟩
  | some t =>
    obtain ⟨f', pc', h1, hO, hI, hL, hdd, hrO, hrI, hrL, h2⟩ := fthreadStep_sim ident hc.invO hc.invI hc.invL t
    refine ⟨{ field := f', threads := c.threads.set i { t with pc := pc' } }, by dsimp only; rw [h1]; rfl, ?_⟩
    have look := fset_lookup hi pc'
    have hcell : c.field.cellOf t.loc = discretize d t.loc := by rw [cellOf_eq, hc.disc]
    have back : ∀ (j : Nat) (a : Thread O), c.threads[j]? = some a →
        ∃ a', (c.threads.set i { t with pc := pc' })[j]? = some a' ∧ a'.object = a.object ∧ a'.loc = a.loc := by
      intro j a ha
      by_cases hj : j = i
      · subst hj
        have : a = t := by
          have := ha.symm.trans hi
          simpa using this
        subst this
        exact ⟨_, (look j _).2 (Or.inl ⟨rfl, rfl⟩), rfl, rfl⟩
      · exact ⟨a, (look j a).2 (Or.inr ⟨hj, ha⟩), rfl, rfl⟩
    have dist2 : ∀ (j : Nat) (a : Thread O), j ≠ i → c.threads[j]? = some a → ident a.object ≠ ident t.object := by
      intro j a hj ha he
      have k1 : (ps.map (fun p => ident p.1))[j]? = some (ident a.object) := by
        rw [← hc.threads, List.getElem?_map, List.getElem?_map, ha]; rfl
      have k2 : (ps.map (fun p => ident p.1))[i]? = some (ident t.object) := by
        rw [← hc.threads, List.getElem?_map, List.getElem?_map, hi]; rfl
      have hlt : j < (ps.map (fun p => ident p.1)).length := (List.getElem?_eq_some_iff.1 k1).1
      exact hj ((List.getElem?_inj hlt hd).1 (by rw [k1, k2, he]))
    have other : ∀ {k : I}, (∀ (j : Nat) (a : Thread O), (c.threads.set i { t with pc := pc' })[j]? = some a →
        ident a.object ≠ k) → ∀ (j : Nat) (a : Thread O), c.threads[j]? = some a → ident a.object ≠ k := by
      intro k hk j a ha
      obtain ⟨a', k1, k2, _⟩ := back j a ha
      rw [← k2]
      exact hk j a' k1
    have hself : (c.threads.set i { t with pc := pc' })[i]? = some { t with pc := pc' } := (look i _).2 (Or.inl ⟨rfl, rfl⟩)
    have hthr : (c.threads.set i { t with pc := pc' }).map (fun t => (t.object, t.loc)) = ps := by
      rw [threads_set hi]; exact hc.threads
    have hdisc : f'.discretization = d := hdd.trans hc.disc
    cases hpc : t.pc with
    | loc =>
      rw [hpc] at h2
      obtain ⟨hpc', hwI, hwL, hwO⟩ := h2
      have hfin : ∀ l, finished d (c.threads.set i { t with pc := pc' }) l = finished d c.threads l := fun l =>
        (finished_set hi (by rw [hpc]; decide) pc' l).1 (Or.inl (by rw [hpc']; decide))
      refine ⟨hdisc, hO, hI, hL, hrO.trans hc.readO, hrI.trans hc.readI, hrL.trans hc.readL, hthr, ?_, ?_, ?_, ?_, ?_, ?_, ?_, ?_,
        ?_⟩
      · intro j a ha hp
        rw [hwO]
        rcases (look j a).1 ha with ⟨rfl, rfl⟩ | ⟨hj, ha⟩
        · simp
        · dsimp only
          rw [if_neg (dist2 j a hj ha)]
          exact hc.locDone j a ha hp
      · intro k hk
        rw [hwO]
        dsimp only
        rw [if_neg (Ne.symm (hk i _ hself))]
        exact hc.locOther k (other hk)
      · intro j a ha hp hq
        rw [hwI]
        rcases (look j a).1 ha with ⟨rfl, rfl⟩ | ⟨hj, ha⟩
        · exact absurd hpc' hq
        · exact hc.indexDone j a ha hp hq
      · intro k hk
        rw [hwI]
        exact hc.indexOther k (other hk)
      · intro l hl; rw [hwL]; exact hc.kept l hl
      · intro j a ha hp
        rcases (look j a).1 ha with ⟨rfl, rfl⟩ | ⟨hj, ha⟩
        · exact absurd (hpc'.symm.trans hp) (by decide)
        · exact hc.missing j a ha hp
      · intro l; rw [hwL, hfin]; exact hc.sub l
      · intro l hl; rw [hfin] at hl; rw [hwL]; exact hc.some l hl
      · intro l hl; rw [hwL, hfin]; exact hc.exact l hl
    | index =>
      rw [hpc] at h2
      obtain ⟨hpc', hwO, hwL, hwI⟩ := h2
      have hfin : ∀ l, finished d (c.threads.set i { t with pc := pc' }) l = finished d c.threads l := fun l =>
        (finished_set hi (by rw [hpc]; decide) pc' l).1 (Or.inl (by rw [hpc']; decide))
      refine ⟨hdisc, hO, hI, hL, hrO.trans hc.readO, hrI.trans hc.readI, hrL.trans hc.readL, hthr, ?_, ?_, ?_, ?_, ?_, ?_, ?_, ?_,
        ?_⟩
      · intro j a ha hp
        rw [hwO]
        rcases (look j a).1 ha with ⟨rfl, rfl⟩ | ⟨hj, ha⟩
        · exact hc.locDone j t hi (by rw [hpc]; decide)
        · exact hc.locDone j a ha hp
      · intro k hk
        rw [hwO]
        exact hc.locOther k (other hk)
      · intro j a ha hp hq
        rw [hwI]
        rcases (look j a).1 ha with ⟨rfl, rfl⟩ | ⟨hj, ha⟩
        · simp [hcell]
        · dsimp only
          rw [if_neg (dist2 j a hj ha)]
          exact hc.indexDone j a ha hp hq
      · intro k hk
        rw [hwI]
        dsimp only
        rw [if_neg (Ne.symm (hk i _ hself))]
        exact hc.indexOther k (other hk)
      · intro l hl; rw [hwL]; exact hc.kept l hl
      · intro j a ha hp
        rcases (look j a).1 ha with ⟨rfl, rfl⟩ | ⟨hj, ha⟩
        · exact absurd (hpc'.symm.trans hp) (by decide)
        · exact hc.missing j a ha hp
      · intro l; rw [hwL, hfin]; exact hc.sub l
      · intro l hl; rw [hfin] at hl; rw [hwL]; exact hc.some l hl
      · intro l hl; rw [hwL, hfin]; exact hc.exact l hl
    | bag =>
      rw [hpc] at h2
      obtain ⟨hwO, hwI, h2⟩ := h2
      have hL1 : ∀ (j : Nat) (a : Thread O), (c.threads.set i { t with pc := pc' })[j]? = some a → a.pc ≠ .loc →
          (abs f'.floc).write (ident a.object) = some (a.object, a.loc) := by
        intro j a ha hp
        rw [hwO]
        rcases (look j a).1 ha with ⟨rfl, rfl⟩ | ⟨hj, ha⟩
        · exact hc.locDone j t hi (by rw [hpc]; decide)
        · exact hc.locDone j a ha hp
      have hL2 : ∀ k, (∀ (j : Nat) (a : Thread O), (c.threads.set i { t with pc := pc' })[j]? = some a → ident a.object ≠ k) →
          (abs f'.floc).write k = wl0 k := by
        intro k hk
        rw [hwO]
        exact hc.locOther k (other hk)
      have hI1 : ∀ (j : Nat) (a : Thread O), (c.threads.set i { t with pc := pc' })[j]? = some a → a.pc ≠ .loc → a.pc ≠ .index →
          (abs f'.findex).write (ident a.object) = some (a.object, discretize d a.loc) := by
        intro j a ha hp hq
        rw [hwI]
        rcases (look j a).1 ha with ⟨rfl, rfl⟩ | ⟨hj, ha⟩
        · exact hc.indexDone j t hi (by rw [hpc]; decide) (by rw [hpc]; decide)
        · exact hc.indexDone j a ha hp hq
      have hI2 : ∀ k, (∀ (j : Nat) (a : Thread O), (c.threads.set i { t with pc := pc' })[j]? = some a → ident a.object ≠ k) →
          (abs f'.findex).write k = wi0 k := by
        intro k hk
        rw [hwI]
        exact hc.indexOther k (other hk)
      rcases h2 with ⟨hb, hpc', hwL⟩ | ⟨b, hb, hpc', hwL⟩
      · have hfin : ∀ l, finished d (c.threads.set i { t with pc := pc' }) l = finished d c.threads l := fun l =>
          (finished_set hi (by rw [hpc]; decide) pc' l).1 (Or.inl (by rw [hpc']; decide))
        refine ⟨hdisc, hO, hI, hL, hrO.trans hc.readO, hrI.trans hc.readI, hrL.trans hc.readL, hthr, hL1, hL2, hI1, hI2, ?_, ?_, ?_,
          ?_, ?_⟩
        · intro l hl; rw [hwL]; exact hc.kept l hl
        · intro j a ha hp
          rcases (look j a).1 ha with ⟨rfl, rfl⟩ | ⟨hj, ha⟩
          · by_contra hn
            exact hc.kept _ hn (by rw [← hcell]; exact hb)
          · exact hc.missing j a ha hp
        · intro l; rw [hwL, hfin]; exact hc.sub l
        · intro l hl; rw [hfin] at hl; rw [hwL]; exact hc.some l hl
        · intro l hl; rw [hwL, hfin]; exact hc.exact l hl
      · rw [hcell] at hb hwL
        have hfs := fun l => finished_set (d := d) hi (by rw [hpc]; decide) pc' l
        refine ⟨hdisc, hO, hI, hL, hrO.trans hc.readO, hrI.trans hc.readI, hrL.trans hc.readL, hthr, hL1, hL2, hI1, hI2, ?_, ?_, ?_,
          ?_, ?_⟩
        · intro l hl
          rw [hwL]
          dsimp only
          split
          · simp
          · exact hc.kept l hl
        · intro j a ha hp
          rcases (look j a).1 ha with ⟨rfl, rfl⟩ | ⟨hj, ha⟩
          · exact absurd (hpc'.symm.trans hp) (by decide)
          · exact hc.missing j a ha hp
        · intro l
          rw [hwL]
          dsimp only
          by_cases hl : l = discretize d t.loc
          · subst hl
            rw [if_pos rfl]
            have h3 := ((hfs _).2 hpc' rfl).append_left ((w0 (discretize d t.loc)).getD [])
            rw [← List.append_assoc] at h3
            have h4 := hc.sub (discretize d t.loc)
            rw [hb] at h4
            exact ((List.subperm_append_right [t.object]).2 h4).trans h3.symm.subperm
          · rw [if_neg hl, (hfs l).1 (Or.inr (Ne.symm hl))]
            exact hc.sub l
        · intro l hf
          rw [hwL]
          dsimp only
          split
          · simp
          · rename_i hl
            rw [(hfs l).1 (Or.inr (Ne.symm hl))] at hf
            exact hc.some l hf
        · intro l hs
          rw [hwL]
          dsimp only
          by_cases hl : l = discretize d t.loc
          · subst hl
            rw [if_pos rfl]
            have h3 := ((hfs _).2 hpc' rfl).append_left ((w0 (discretize d t.loc)).getD [])
            rw [← List.append_assoc] at h3
            have h4 := hc.exact (discretize d t.loc) hs
            rw [hb] at h4
            exact (h4.append_right [t.object]).trans h3.symm
          · rw [if_neg hl, (hfs l).1 (Or.inr (Ne.symm hl))]
            exact hc.exact l hs
    | missing =>
      rw [hpc] at h2
      obtain ⟨hpc', hwO, hwI, hwL⟩ := h2
      rw [hcell] at hwL
      have hfs := fun l => finished_set (d := d) hi (by rw [hpc]; decide) pc' l
      have hw0 := hc.missing i t hi hpc
      refine ⟨hdisc, hO, hI, hL, hrO.trans hc.readO, hrI.trans hc.readI, hrL.trans hc.readL, hthr, ?_, ?_, ?_, ?_, ?_, ?_, ?_, ?_,
        ?_⟩
      · intro j a ha hp
        rw [hwO]
        rcases (look j a).1 ha with ⟨rfl, rfl⟩ | ⟨hj, ha⟩
        · exact hc.locDone j t hi (by rw [hpc]; decide)
        · exact hc.locDone j a ha hp
      · intro k hk
        rw [hwO]
        exact hc.locOther k (other hk)
      · intro j a ha hp hq
        rw [hwI]
        rcases (look j a).1 ha with ⟨rfl, rfl⟩ | ⟨hj, ha⟩
        · exact hc.indexDone j t hi (by rw [hpc]; decide) (by rw [hpc]; decide)
        · exact hc.indexDone j a ha hp hq
      · intro k hk
        rw [hwI]
        exact hc.indexOther k (other hk)
      · intro l hl
        rw [hwL]
        dsimp only
        split
        · simp
        · exact hc.kept l hl
      · intro j a ha hp
        rcases (look j a).1 ha with ⟨rfl, rfl⟩ | ⟨hj, ha⟩
        · exact absurd (hpc'.symm.trans hp) (by decide)
        · exact hc.missing j a ha hp
      · intro l
        rw [hwL]
        dsimp only
        by_cases hl : l = discretize d t.loc
        · subst hl
          rw [if_pos rfl, hw0]
          have h3 := (hfs _).2 hpc' rfl
          exact (List.sublist_append_right _ _).subperm.trans h3.symm.subperm
        · rw [if_neg hl, (hfs l).1 (Or.inr (Ne.symm hl))]
          exact hc.sub l
      · intro l hf
        rw [hwL]
        dsimp only
        split
        · simp
        · rename_i hl
          rw [(hfs l).1 (Or.inr (Ne.symm hl))] at hf
          exact hc.some l hf
      · intro l hs
        rw [hwL]
        dsimp only
        by_cases hl : l = discretize d t.loc
        · subst hl
          rw [if_pos rfl, hw0]
          have h3 := (hfs _).2 hpc' rfl
          have h4 : finished d c.threads (discretize d t.loc) = [] := by
            rcases hs with hs | hs
            · exact absurd hw0 hs
            · refine finished_nil hi (by rw [hpc]; decide) ?_
              rw [hc.threads]
              exact hs
          rw [h4] at h3
          exact h3.symm
        · rw [if_neg hl, (hfs l).1 (Or.inr (Ne.symm hl))]
          exact hc.exact l hs
    | done =>
      rw [hpc] at h2
      obtain ⟨rfl, hpc'⟩ := h2
      have hsame : c.threads.set i { t with pc := pc' } = c.threads := by
        rw [hpc', ← hpc]
        apply List.ext_getElem?
        intro j
        rw [List.getElem?_set]
        split
        · rename_i hj
          subst hj
          rw [hi]
          have hlt : i < c.threads.length := (List.getElem?_eq_some_iff.1 hi).1
          simp [hlt]
        · rfl
      rw [hsame]
      exact hc

theorem fcinv_run (ident : O → I) {d : ℚ} {r0 w0 : Loc → Option (List O)} {rl0 wl0 : I → Option (O × Pos)}
    {ri0 wi0 : I → Option (O × Loc)} {ps : List (O × Pos)} (hd : (ps.map (fun p => ident p.1)).Nodup) (sched : List Nat) :
    ∀ {c : Conc O I}, CInv ident d r0 w0 rl0 wl0 ri0 wi0 ps c →
      ∃ c', c.runAll ident sched = some c' ∧ CInv ident d r0 w0 rl0 wl0 ri0 wi0 ps c' := by
  induction sched with
  | nil => intro c hc; exact ⟨c, rfl, hc⟩
  | cons i sched ih =>
    intro c hc
    obtain ⟨c1, h1, h2⟩ := fcinv_step ident hd hc i
    obtain ⟨c2, h3, h4⟩ := ih h2
    exact ⟨c2, by rw [Conc.runAll, h1]; exact h3, h4⟩

/-- An upper bound of the steps a thread still needs. -/
def remaining : Pc → Nat
  | .loc => 4
  | .index => 3
  | .bag => 2
  | .missing => 1
  | .done => 0

theorem fremaining_step (ident : O → I) {f f' : PField O I} {t : Thread O} {pc' : Pc} (h : threadStep ident f t = some (f', pc')) :
    remaining pc' ≤ remaining t.pc - 1 := by
  unfold threadStep at h
  cases hp : t.pc with
  | bag =>
    rw [hp] at h
    dsimp only at h
    cases hb : getWrite f.fbag (f.cellOf t.loc) with
    | none => rw [hb] at h; exact absurd h (by simp)
    | some b =>
      rw [hb, Option.bind_some] at h
      cases b with
      | none =>
        injection h with h
        injection h with _ h
        rw [← h]
        decide
      | some b =>
        rw [Option.map_eq_some_iff] at h
        obtain ⟨_, _, h⟩ := h
        injection h with _ h
        rw [← h]
        decide
  | done =>
    rw [hp] at h
    injection h with h
    injection h with _ h
    rw [← h]
    decide
  | loc =>
    rw [hp] at h
    rw [Option.map_eq_some_iff] at h
    obtain ⟨_, _, h⟩ := h
    injection h with _ h
    rw [← h]
    decide
  | index =>
    rw [hp] at h
    rw [Option.map_eq_some_iff] at h
    obtain ⟨_, _, h⟩ := h
    injection h with _ h
    rw [← h]
    decide
  | missing =>
    rw [hp] at h
    rw [Option.map_eq_some_iff] at h
    obtain ⟨_, _, h⟩ := h
    injection h with _ h
    rw [← h]
    decide

theorem frun_finishes (ident : O → I) (sched : List Nat) : ∀ {c c' : Conc O I}, c.runAll ident sched = some c' →
    (∀ (j : Nat) (t : Thread O), c.threads[j]? = some t → remaining t.pc ≤ sched.count j) →
    ∀ (j : Nat) (t : Thread O), c'.threads[j]? = some t → t.pc = .done := by
  induction sched with
  | nil =>
    intro c c' h hr j t ht
    injection h with h
    subst h
    have := hr j t ht
    cases hp : t.pc <;> rw [hp] at this <;> simp [remaining] at this
  | cons i sched ih =>
    intro c c' h hr
    rw [Conc.runAll] at h
    cases hs : c.step ident i with
    | none => rw [hs] at h; exact absurd h (by simp)
    | some c1 =>
      rw [hs] at h
      refine ih h ?_
      intro j t ht
      unfold Conc.step at hs
      cases hi : c.threads[i]? with
      | none =>
        rw [hi] at hs
        injection hs with hs
        subst hs
        have h1 := hr j t ht
        have : i ≠ j := by
          rintro rfl
          rw [hi] at ht
          exact absurd ht (by simp)
        rw [List.count_cons_of_ne this] at h1
        exact h1
      | some u =>
        rw [hi] at hs
        dsimp only at hs
        rw [Option.map_eq_some_iff] at hs
        obtain ⟨r, hs1, hs2⟩ := hs
        subst hs2
        rcases (fset_lookup hi r.2 j t).1 ht with ⟨rfl, rfl⟩ | ⟨hj, ht⟩
        · have h1 := hr j u hi
          have h2 := fremaining_step ident (f' := r.1) (pc' := r.2) hs1
          rw [List.count_cons_self] at h1
          show remaining r.2 ≤ _
          omega
        · have h1 := hr j t ht
          rw [List.count_cons_of_ne (Ne.symm hj)] at h1
          exact h1

end Verif.ParField2D
