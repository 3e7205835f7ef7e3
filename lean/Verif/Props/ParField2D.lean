import Verif.Lemmas.ParField2D

/-!
Properties of `Field2D` under the feature `parallel` (C109-C115). Programs are lists of calls, newest first, on a field made by
`Field2D::new(w, h, d, t)` with positive sizes. `cpus` is the number of processors, `hashO` and `hashL` the hash functions; every
statement holds for all of them. The hypothesis on `shardAmount` only says that the number of shards fits a machine word.
-/

set_option linter.unusedSectionVars false

namespace Verif.ParField2D

open Grid Torus DBDashMap Field2D ParField2DSpec

variable {O I : Type} [DecidableEq I]

/-! ### C109 -/

theorem getObjects_run {f : PField O I} {w h d : ℚ} {t : Bool} {rl wl : I → Option (O × Pos)} {wb : Loc → Option (List O)}
    (hd : 0 < d) {hist : List (ROp O)} (hs : FShows f w h d t rl wl (fun c => held (publishedIn d hist (notDiscretize d c))) wb)
    (p : Pos) :
    f.getObjects p = some (publishedIn d hist p) ∧ f.numObjectsAtLocation p = some (publishedIn d hist p).length := by
  have e : (getRead f.fbag (f.cellOf p)).map (fun b => b.getD []) = some (publishedIn d hist p) := by
    rw [ParGrid.getRead_abs hs.invL, hs.readL, cellOf_eq, hs.disc, Option.map_some, held_getD, (atCell hd hist p).1]
  refine ⟨e, ?_⟩
  unfold PField.numObjectsAtLocation
  rw [Option.map_eq_some_iff] at e
  obtain ⟨b, h1, h2⟩ := e
  rw [h1, Option.map_some, h2]

theorem searches_eq [BEq O] {f : PField O I} {g : Field2D.Field O} {w h d : ℚ} {t : Bool} {rl wl : I → Option (O × Pos)}
    {wb : Loc → Option (List O)} {pub cur : Loc → List O} (hw : 0 < w) (hh : 0 < h) (hd : 0 < d)
    (hs : FShows f w h d t rl wl (fun c => held (pub c)) wb) (hg : Shows g w h d t pub cur) (loc : Pos) (dist : ℚ)
    (keep : Loc → O → Bool) : f.scan keep (f.searchCells loc dist) = Field2D.scan g keep (Field2D.searchCells g loc dist) := by
  have hc : f.searchCells loc dist = Field2D.searchCells g loc dist := by
    unfold PField.searchCells Field2D.searchCells
    rw [cellOf_eq, hs.disc, hs.width, hs.height, hs.tor, hg.disc, hg.width, hg.height, hg.tor]
  rw [pscan_eq hs hw hh hd, Field2D.scan_eq hg.wf, hc]
  congr 2
  funext c
  rw [held_getD]
  have hwr : wrapped g c = ⟨tT c.x (w / d).ceil, tT c.y (h / d).ceil⟩ := by
    unfold wrapped
    rw [hg.disc, hg.width, hg.height]
  have hb : bagOf g (wrapped g c) = pub (wrapped g c) := by
    unfold bagOf
    rw [hg.read _ (wrapped_inRange hg.wf c)]
    rfl
  rw [hb, hwr]

/-- **C109**, for programs of placements inside the field and `lazy_update`s: the field with the feature and the one without
answer alike: `get_objects` and `num_objects_at_location` everywhere, and both neighbour searches as soon as something is
published, element by element. What is missing: `update`, and searches with nothing published (C110). -/
theorem C109_same_answers_as_sequential_partial [BEq O] {cpus : Nat} (hc : shardAmount cpus ≤ 2 ^ 64) (ident : O → I)
    (hashO : I → Nat) (hashL : Loc → Nat) (w h d : ℚ) (t : Bool) (hw : 0 < w) (hh : 0 < h) (hd : 0 < d) (hist : List (ROp O))
    (hp : ∀ op ∈ hist, PlaceLazy w h op) :
    ∃ f g, PField.run ident (PField.new cpus hashO hashL w h d t) hist = some f ∧
      Field2D.run (Field2D.new w h d t) (hist.map toSeq) = some g ∧
      (∀ p, InField w h p → f.getObjects p = Field2D.getObjects g p ∧
        f.numObjectsAtLocation p = Field2D.numObjectsAtLocation g p) ∧
      ((∃ i, publishedOf ident hist i ≠ none) → ∀ locOf loc dist,
        f.getNeighborsWithinDistance locOf loc dist = Field2D.getNeighborsWithinDistance g locOf loc dist ∧
        f.getNeighborsWithinRelaxDistance loc dist = Field2D.getNeighborsWithinRelaxDistance g loc dist) := by
  obtain ⟨f, h1, h2⟩ := fshows_run hc ident hashO hashL w h hd t hist
  obtain ⟨g, h3, h4⟩ := shows_run t hw hh hd (hist.map toSeq) (toSeq_inField hp)
  obtain ⟨g', h5, h6⟩ := C35_field_history w h d t hw hh hd (hist.map toSeq) (toSeq_inField hp)
  have : g' = g := by
    have := h5.symm.trans h3
    simpa using this
  subst this
  refine ⟨f, g', h1, h3, ?_, ?_⟩
  · intro p hin
    obtain ⟨k1, _, k2⟩ := h6 p hin
    obtain ⟨k3, k4⟩ := getObjects_run hd h2 p
    rw [k1, k2, k3, k4, objsPublished_eq d hist hp]
    exact ⟨rfl, rfl⟩
  · rintro ⟨i, hi⟩ locOf loc dist
    have hlen : rLen f.findex ≠ 0 := by
      intro h0
      have := (rLen_zero h2.invI).1 h0 i
      rw [h2.readI] at this
      exact hi (by simpa using this)
    have h2' : FShows f w h d t (publishedOf ident hist) (latest ident (placements hist))
        (fun c => held (objsPublished d (hist.map toSeq) (notDiscretize d c))) _ :=
      h2.congr rfl rfl (by funext c; rw [objsPublished_eq d hist hp]) rfl
    have hk : f.keepExact locOf loc dist = Field2D.keepExact g' locOf loc dist := by
      funext b e
      unfold PField.keepExact Field2D.keepExact
      rw [h2.disc, h2.width, h2.height, h2.tor, h4.disc, h4.width, h4.height, h4.tor]
    unfold PField.getNeighborsWithinDistance PField.getNeighborsWithinRelaxDistance Field2D.getNeighborsWithinDistance
      Field2D.getNeighborsWithinRelaxDistance
    rw [if_neg hlen, if_neg hlen, hk, searches_eq hw hh hd h2' h4, searches_eq hw hh hd h2' h4]
    exact ⟨rfl, rfl⟩

/-- **C109** is false with `update`: with the feature it publishes, without it it does nothing. -/
theorem C109_update_differs_partial :
    ((PField.run id (PField.new 1 id (fun _ => 0) 4 4 1 false) [.update, .place 7 ⟨1, 1⟩] : Option (PField Nat Nat)).bind
      (fun f => f.getObjects ⟨1, 1⟩)) = some [7] ∧
    ((Field2D.run (Field2D.new 4 4 1 false) (([.update, .place 7 ⟨1, 1⟩] : List (ROp Nat)).map toSeq) : Option (Field2D.Field Nat)).bind
      (fun f => Field2D.getObjects f ⟨1, 1⟩)) = some [] := by
  refine ⟨by decide +kernel, by decide +kernel⟩

example : (∀ op ∈ ([.lazyUpdate, .place 8 ⟨3, 1⟩, .place 7 ⟨1, 1⟩] : List (ROp Nat)), PlaceLazy 4 4 op) ∧
    publishedOf id ([.lazyUpdate, .place 8 ⟨3, 1⟩, .place 7 ⟨1, 1⟩] : List (ROp Nat)) 7 = some (7, ⟨1, 1⟩) := by
  refine ⟨?_, by decide +kernel⟩
  intro op hop
  simp only [List.mem_cons, List.not_mem_nil, or_false] at hop
  rcases hop with rfl | rfl | rfl
  · trivial
  · exact ⟨by decide +kernel, by decide +kernel, by decide +kernel, by decide +kernel⟩
  · exact ⟨by decide +kernel, by decide +kernel, by decide +kernel, by decide +kernel⟩

example : ((PField.run id (PField.new 1 id (fun _ => 0) 4 4 1 false) [.lazyUpdate, .place 8 ⟨3, 1⟩, .place 7 ⟨1, 1⟩] :
      Option (PField Nat Nat)).bind (fun f => f.getNeighborsWithinRelaxDistance ⟨1, 1⟩ 1)) = some [7] := by decide +kernel

/-! ### C110 -/

/-- **C110.** After any program, a neighbour search, exact or relaxed, panics exactly if no object is published, whatever the
position and the distance. The property is false of the code in that case. -/
theorem C110_search_panics_iff_nothing_published_partial {cpus : Nat} (hc : shardAmount cpus ≤ 2 ^ 64) (ident : O → I)
    (hashO : I → Nat) (hashL : Loc → Nat) (w h d : ℚ) (t : Bool) (hw : 0 < w) (hh : 0 < h) (hd : 0 < d) (hist : List (ROp O)) :
    ∃ f, PField.run ident (PField.new cpus hashO hashL w h d t) hist = some f ∧ ∀ locOf loc dist,
      (f.getNeighborsWithinDistance locOf loc dist = none ↔ ∀ i, publishedOf ident hist i = none) ∧
      (f.getNeighborsWithinRelaxDistance loc dist = none ↔ ∀ i, publishedOf ident hist i = none) := by
  obtain ⟨f, h1, h2⟩ := fshows_run hc ident hashO hashL w h hd t hist
  refine ⟨f, h1, fun locOf loc dist => ?_⟩
  have hz : rLen f.findex = 0 ↔ ∀ i, publishedOf ident hist i = none := by
    rw [rLen_zero h2.invI, h2.readI]
    simp
  rw [← hz]
  unfold PField.getNeighborsWithinDistance PField.getNeighborsWithinRelaxDistance
  by_cases h0 : rLen f.findex = 0
  · simp [h0]
  · rw [if_neg h0, if_neg h0]
    refine ⟨⟨fun hn => ?_, fun hn => absurd hn h0⟩, ⟨fun hn => ?_, fun hn => absurd hn h0⟩⟩
    · split at hn
      · exact absurd hn (by simp)
      · rw [pscan_eq h2 hw hh hd] at hn
        exact absurd hn (by simp)
    · split at hn
      · exact absurd hn (by simp)
      · rw [pscan_eq h2 hw hh hd] at hn
        exact absurd hn (by simp)

/-- **C110** is false: the search of the first step of a simulation, before the first `lazy_update`; the same search on the field
without the feature answers the empty list. -/
theorem C110_first_step_panics_partial :
    ((PField.run id (PField.new 1 id (fun _ => 0) 4 4 1 false) [.place 7 ⟨1, 1⟩] : Option (PField Nat Nat)).bind
      (fun f => f.getNeighborsWithinRelaxDistance ⟨1, 1⟩ 1)) = none ∧
    (PField.run id (PField.new 1 id (fun _ => 0) 4 4 1 false) [.place 7 ⟨1, 1⟩] : Option (PField Nat Nat)).isSome = true ∧
    ((Field2D.run (Field2D.new 4 4 1 false) (([.place 7 ⟨1, 1⟩] : List (ROp Nat)).map toSeq) : Option (Field2D.Field Nat)).bind
      (fun f => Field2D.getNeighborsWithinRelaxDistance f ⟨1, 1⟩ 1)) = some [] := by
  refine ⟨by decide +kernel, by decide +kernel, by decide +kernel⟩

/-! ### C111 -/

/-- **C111.** After any program, `get` and `get_location` answer the object and the position of the published placement. -/
theorem C111_get_location {cpus : Nat} (hc : shardAmount cpus ≤ 2 ^ 64) (ident : O → I) (hashO : I → Nat) (hashL : Loc → Nat)
    (w h d : ℚ) (t : Bool) (hd : 0 < d) (hist : List (ROp O)) :
    ∃ f, PField.run ident (PField.new cpus hashO hashL w h d t) hist = some f ∧ ∀ o,
      f.get ident o = some ((publishedOf ident hist (ident o)).map Prod.fst) ∧
      f.getLocation ident o = some ((publishedOf ident hist (ident o)).map Prod.snd) := by
  obtain ⟨f, h1, h2⟩ := fshows_run hc ident hashO hashL w h hd t hist
  refine ⟨f, h1, fun o => ?_⟩
  unfold PField.get PField.getLocation
  rw [ParGrid.getRead_abs h2.invO, h2.readO]
  exact ⟨rfl, rfl⟩

example : publishedOf id ([.place 7 ⟨2, 2⟩, .lazyUpdate, .place 7 ⟨3, 3⟩, .place 7 ⟨1, 1⟩] : List (ROp Nat)) 7 =
    some (7, ⟨3, 3⟩) := by decide +kernel

/-! ### C112 -/

/-- **C112.** After any program, `num_objects` is the number of distinct published objects. -/
theorem C112_num_objects {cpus : Nat} (hc : shardAmount cpus ≤ 2 ^ 64) (ident : O → I) (hashO : I → Nat) (hashL : Loc → Nat)
    (w h d : ℚ) (t : Bool) (hd : 0 < d) (hist : List (ROp O)) :
    ∃ f, ∃ l : List I, PField.run ident (PField.new cpus hashO hashL w h d t) hist = some f ∧ l.Nodup ∧
      (∀ i, i ∈ l ↔ publishedOf ident hist i ≠ none) ∧ f.numObjects = l.length := by
  obtain ⟨f, h1, h2⟩ := fshows_run hc ident hashO hashL w h hd t hist
  obtain ⟨l, k1, k2, k3⟩ := rLen_hasSize h2.invI
  refine ⟨f, l, h1, k1, fun i => ?_, k3.symm⟩
  rw [k2, h2.readI]
  simp

example : ((PField.run id (PField.new 1 id (fun _ => 0) 4 4 1 false)
      [.lazyUpdate, .place 8 ⟨3, 1⟩, .place 7 ⟨1, 1⟩, .place 7 ⟨2, 1⟩] : Option (PField Nat Nat)).map
      (fun f => f.numObjects)) = some 2 := by decide +kernel

/-! ### C113 -/

theorem published_eq {w h : ℚ} (d : ℚ) (ident : O → I) (hist : List (ROp O)) (hp : ∀ op ∈ hist, PlaceLazy w h op) :
    (∀ q, publishedIn d hist q = placedIn d (publishedPlacements hist) q) ∧
      ∀ i, publishedOf ident hist i = latest ident (publishedPlacements hist) i := by
  induction hist with
  | nil => exact ⟨fun q => rfl, fun i => rfl⟩
  | cons op hist ih =>
    have := hp op List.mem_cons_self
    cases op with
    | place o l => exact ih (fun o ho => hp o (List.mem_cons_of_mem _ ho))
    | update => exact absurd this (by simp [PlaceLazy])
    | lazyUpdate => exact ⟨fun q => rfl, fun i => rfl⟩

theorem latest_mem {ident : O → I} {ps : List (O × Pos)} {i : I} {e : O × Pos} (h : latest ident ps i = some e) :
    e ∈ ps ∧ ident e.1 = i := by
  unfold latest at h
  have h2 := List.find?_some h
  exact ⟨List.mem_reverse.1 (List.mem_of_find?_eq_some h), of_decide_eq_true h2⟩

theorem latest_of_mem {ident : O → I} {ps : List (O × Pos)} (hn : (ps.map (fun p => ident p.1)).Nodup) {e : O × Pos} (he : e ∈ ps) :
    latest ident ps (ident e.1) = some e := by
  cases hl : latest ident ps (ident e.1) with
  | none =>
    unfold latest at hl
    rw [List.find?_eq_none] at hl
    exact absurd (hl e (List.mem_reverse.2 he)) (by simp)
  | some e' =>
    obtain ⟨h1, h2⟩ := latest_mem hl
    exact congrArg some (List.inj_on_of_nodup_map hn h1 he h2)

/-- **C113**, for programs of placements and `lazy_update`s in which, in the published period, no object was placed twice:
`get_objects` at `p` shows `o` exactly if `get` answers `o` and `get_location` a position of the square of `p`, and it shows no
object twice. What is missing: objects placed more than once, and `update`. -/
theorem C113_one_bag_per_object_partial {cpus : Nat} (hc : shardAmount cpus ≤ 2 ^ 64) (ident : O → I) (hashO : I → Nat)
    (hashL : Loc → Nat) (w h d : ℚ) (t : Bool) (hd : 0 < d) (hist : List (ROp O)) (hp : ∀ op ∈ hist, PlaceLazy w h op)
    (honce : ((publishedPlacements hist).map (fun p => ident p.1)).Nodup) :
    ∃ f, PField.run ident (PField.new cpus hashO hashL w h d t) hist = some f ∧ ∀ p, ∃ b, f.getObjects p = some b ∧
      (b.map ident).Nodup ∧ ∀ o, o ∈ b ↔ f.get ident o = some (some o) ∧
        ∃ l, f.getLocation ident o = some (some l) ∧ SameSquare d l p := by
  obtain ⟨f, h1, h2⟩ := fshows_run hc ident hashO hashL w h hd t hist
  obtain ⟨e1, e2⟩ := published_eq d ident hist hp
  refine ⟨f, h1, fun p => ⟨_, (getObjects_run hd h2 p).1, ?_, ?_⟩⟩
  · rw [e1]
    unfold placedIn
    rw [List.map_map]
    exact honce.sublist (List.filter_sublist.map _)
  · intro o
    unfold PField.get PField.getLocation
    rw [ParGrid.getRead_abs h2.invO, h2.readO, e1, e2, Option.map_some, Option.map_some, Option.some_inj]
    simp only [← sameSquare_iff hd, Option.some_inj]
    constructor
    · intro ho
      obtain ⟨e, he, rfl⟩ := List.mem_map.1 ho
      obtain ⟨he1, he2⟩ := List.mem_filter.1 he
      rw [latest_of_mem honce he1]
      exact ⟨rfl, e.2, rfl, he2⟩
    · rintro ⟨ho, l, hl, hq⟩
      obtain ⟨e, he, rfl⟩ := Option.map_eq_some_iff.1 ho
      rw [he, Option.map_some, Option.some_inj] at hl
      subst hl
      exact List.mem_map.2 ⟨e, List.mem_filter.2 ⟨(latest_mem he).1, hq⟩, rfl⟩

theorem nodup_of_squares {ident : O → I} {d : ℚ} {ps : List (O × Pos)}
    (h1 : ∀ q, ((placedIn d ps q).map ident).Nodup)
    (h2 : ∀ e ∈ ps, ∃ e', latest ident ps (ident e.1) = some e' ∧ sameSquare d e'.2 e.2 = true) :
    (ps.map (fun p => ident p.1)).Nodup := by
  rw [List.nodup_iff_sublist]
  intro a ha
  obtain ⟨l, hl, hm⟩ := List.sublist_map_iff.1 ha
  obtain ⟨e1, l1, rfl, k1, hm1⟩ := List.map_eq_cons_iff.1 hm.symm
  obtain ⟨e2, l2, rfl, k2, hm2⟩ := List.map_eq_cons_iff.1 hm1
  obtain rfl := List.map_eq_nil_iff.1 hm2
  obtain ⟨f1, g1, s1⟩ := h2 e1 (hl.subset (by simp))
  obtain ⟨f2, g2, s2⟩ := h2 e2 (hl.subset (by simp))
  rw [k1] at g1
  rw [k2, g1, Option.some_inj] at g2
  subst g2
  have s12 : sameSquare d e2.2 e1.2 = true := by
    simp only [sameSquare, Bool.and_eq_true, beq_iff_eq] at s1 s2 ⊢
    exact ⟨s2.1.symm.trans s1.1, s2.2.symm.trans s1.2⟩
  have s11 : sameSquare d e1.2 e1.2 = true := by simp [sameSquare]
  have hf : [e1, e2].Sublist (ps.filter (fun e => sameSquare d e.2 e1.2)) := by
    have := hl.filter (fun e => sameSquare d e.2 e1.2)
    simpa [s11, s12] using this
  have := h1 e1.2
  rw [List.nodup_iff_sublist] at this
  refine this a ?_
  have hg := (hf.map Prod.fst).map ident
  simp only [List.map_cons, List.map_nil, k1, k2] at hg
  exact hg

/-- C113: the condition is the right one. For programs of placements and `lazy_update`s, no bag shows an object twice or an object whose
location is in another square exactly if no object was placed twice in the published period. -/
theorem C113_one_bag_exactly_partial {cpus : Nat} (hc : shardAmount cpus ≤ 2 ^ 64) (ident : O → I) (hashO : I → Nat)
    (hashL : Loc → Nat) (w h d : ℚ) (t : Bool) (hd : 0 < d) (hist : List (ROp O)) (hp : ∀ op ∈ hist, PlaceLazy w h op) :
    ∃ f, PField.run ident (PField.new cpus hashO hashL w h d t) hist = some f ∧
      ((∀ p b, f.getObjects p = some b → (b.map ident).Nodup ∧
          ∀ o ∈ b, ∃ l, f.getLocation ident o = some (some l) ∧ SameSquare d l p) ↔
        ((publishedPlacements hist).map (fun p => ident p.1)).Nodup) := by
  obtain ⟨f, h1, h2⟩ := fshows_run hc ident hashO hashL w h hd t hist
  obtain ⟨e1, e2⟩ := published_eq d ident hist hp
  refine ⟨f, h1, fun hall => ?_, fun honce p b hb => ?_⟩
  · refine nodup_of_squares (d := d) (fun q => ?_) (fun e he => ?_)
    · rw [← e1]
      exact (hall q _ (getObjects_run hd h2 q).1).1
    · have hm : e.1 ∈ publishedIn d hist e.2 := by
        rw [e1]
        exact List.mem_map.2 ⟨e, List.mem_filter.2 ⟨he, by simp [sameSquare]⟩, rfl⟩
      obtain ⟨l, hl, hs⟩ := (hall e.2 _ (getObjects_run hd h2 e.2).1).2 e.1 hm
      unfold PField.getLocation at hl
      rw [ParGrid.getRead_abs h2.invO, h2.readO, e2, Option.map_some, Option.some_inj, Option.map_eq_some_iff] at hl
      obtain ⟨e', g1, rfl⟩ := hl
      exact ⟨e', g1, (sameSquare_iff hd _ _).2 hs⟩
  · obtain ⟨f', k1, k2⟩ := C113_one_bag_per_object_partial hc ident hashO hashL w h d t hd hist hp honce
    rw [h1, Option.some_inj] at k1
    subst k1
    obtain ⟨b', k3, k4, k5⟩ := k2 p
    rw [hb, Option.some_inj] at k3
    subst k3
    exact ⟨k4, fun o ho => ((k5 o).1 ho).2⟩

/-- **C113** is false for an object placed twice before the `lazy_update`: it is in two bags, twice in one of them if the square is
the same, while `num_objects` counts one. -/
theorem C113_object_in_two_bags_partial :
    ((PField.run id (PField.new 1 id (fun _ => 0) 4 4 1 false) [.lazyUpdate, .place 7 ⟨3, 3⟩, .place 7 ⟨1, 1⟩, .place 7 ⟨1, 1⟩] :
      Option (PField Nat Nat)).bind (fun f => f.getObjects ⟨1, 1⟩)) = some [7, 7] ∧
    ((PField.run id (PField.new 1 id (fun _ => 0) 4 4 1 false) [.lazyUpdate, .place 7 ⟨3, 3⟩, .place 7 ⟨1, 1⟩, .place 7 ⟨1, 1⟩] :
      Option (PField Nat Nat)).bind (fun f => f.getNeighborsWithinRelaxDistance ⟨2, 2⟩ 1)) = some [7, 7, 7] ∧
    ((PField.run id (PField.new 1 id (fun _ => 0) 4 4 1 false) [.lazyUpdate, .place 7 ⟨3, 3⟩, .place 7 ⟨1, 1⟩, .place 7 ⟨1, 1⟩] :
      Option (PField Nat Nat)).map (fun f => f.numObjects)) = some 1 := by
  refine ⟨by decide +kernel, by decide +kernel, by decide +kernel⟩

/-- **C113** is false with `update`: the moved object is still shown at its old place, and an object that was not placed again is
missing where `get_location` sees it. -/
theorem C113_update_leaves_ghosts_partial :
    ((PField.run id (PField.new 1 id (fun _ => 0) 4 4 1 false) [.update, .place 7 ⟨3, 3⟩, .lazyUpdate, .place 7 ⟨1, 1⟩] :
      Option (PField Nat Nat)).bind (fun f => f.getObjects ⟨1, 1⟩)) = some [7] ∧
    ((PField.run id (PField.new 1 id (fun _ => 0) 4 4 1 false) [.update, .place 8 ⟨1, 1⟩, .lazyUpdate, .place 7 ⟨1, 1⟩] :
      Option (PField Nat Nat)).bind (fun f => f.getObjects ⟨1, 1⟩)) = some [8] ∧
    ((PField.run id (PField.new 1 id (fun _ => 0) 4 4 1 false) [.update, .place 8 ⟨1, 1⟩, .lazyUpdate, .place 7 ⟨1, 1⟩] :
      Option (PField Nat Nat)).bind (fun f => f.getLocation id 7)) = some (some ⟨1, 1⟩) := by
  refine ⟨by decide +kernel, by decide +kernel, by decide +kernel⟩

example : ((publishedPlacements ([.place 7 ⟨3, 3⟩, .lazyUpdate, .place 8 ⟨1, 1⟩, .place 7 ⟨1, 1⟩] : List (ROp Nat))).map
    (fun p => (id p.1 : Nat))).Nodup := by decide +kernel

/-! ### C114 -/

/-- The fields a program can have built. -/
def Reachable (ident : O → I) (f : PField O I) : Prop :=
  ∃ (cpus : Nat) (hashO : I → Nat) (hashL : Loc → Nat) (w h d : ℚ) (t : Bool) (hist : List (ROp O)),
    shardAmount cpus ≤ 2 ^ 64 ∧ 0 < d ∧ PField.run ident (PField.new cpus hashO hashL w h d t) hist = some f

/-- The threads of concurrent `set_object_location` calls, before their first step. -/
def startAll (ps : List (O × Pos)) : List (Thread O) := ps.map (fun p => ⟨p.1, p.2, .loc⟩)

/-- Every thread gets enough steps to finish. -/
def Complete (n : Nat) (sched : List Nat) : Prop := ∀ j, j < n → 4 ≤ sched.count j

/-- The bag that the next `lazy_update` publishes at `p`. -/
def pendingAt (f : PField O I) (p : Pos) : Option (List O) := f.lazyUpdate.getObjects p

theorem pendingAt_abs {f : PField O I} (hi : Inv f.fbag) (p : Pos) :
    pendingAt f p = some (((abs f.fbag).write (discretize f.discretization p)).getD []) := by
  unfold pendingAt PField.getObjects
  show (getRead (DBDashMap.lazyUpdate f.fbag) (discretize f.discretization p)).map _ = _
  rw [ParGrid.getRead_abs (ParGrid.lazyUpdate_sim hi).1, (ParGrid.lazyUpdate_sim hi).2]
  rfl

theorem fcinv_start (ident : O → I) {f : PField O I} (hf : Reachable ident f) (ps : List (O × Pos)) :
    CInv ident f.discretization (abs f.fbag).read (abs f.fbag).write (abs f.floc).read (abs f.floc).write (abs f.findex).read
      (abs f.findex).write ps ⟨f, startAll ps⟩ := by
  obtain ⟨cpus, hashO, hashL, w, h, d, t, hist, hc, hd, hr⟩ := hf
  obtain ⟨f', h1, h2⟩ := fshows_run hc ident hashO hashL w h hd t hist
  have : f' = f := by
    have := h1.symm.trans hr
    simpa using this
  subst this
  have hpc : ∀ (j : Nat) (t : Thread O), (startAll ps)[j]? = some t → t.pc = .loc := by
    intro j t ht
    unfold startAll at ht
    rw [List.getElem?_map, Option.map_eq_some_iff] at ht
    obtain ⟨p, _, rfl⟩ := ht
    rfl
  have hfin : ∀ l, finished f'.discretization (startAll ps) l = [] := by
    intro l
    unfold finished
    rw [List.map_eq_nil_iff, List.filter_eq_nil_iff]
    intro t ht
    obtain ⟨p, _, rfl⟩ := List.mem_map.1 ht
    simp
  refine ⟨rfl, h2.invO, h2.invI, h2.invL, rfl, rfl, rfl, ?_, ?_, fun i _ => rfl, ?_, fun i _ => rfl, fun l hl => hl, ?_, ?_, ?_, ?_⟩
  · show (startAll ps).map _ = ps
    unfold startAll
    rw [List.map_map]
    exact List.map_id ps
  · intro j t ht hn; exact absurd (hpc j t ht) hn
  · intro j t ht hn; exact absurd (hpc j t ht) hn
  · intro j t ht hm
    rw [hpc j t ht] at hm
    exact absurd hm (by decide)
  · intro l
    rw [hfin, List.append_nil]
  · intro l hl; exact absurd (hfin l) hl
  · intro l _
    rw [hfin, List.append_nil]

/-- **C114**, concurrent placements of different objects, in every interleaving in which all of them finish: none panics, what is
published does not change, the location of every placed object is right and of every other unchanged. A bag that existed before
the concurrent phase, or that receives one placement, loses nothing: it holds its old objects and the placed ones, each once. Any
other bag gains nothing else and is not left empty. What is missing: bags that do not exist yet and receive several placements. -/
theorem C114_concurrent_placements_partial (ident : O → I) (f : PField O I) (hf : Reachable ident f) (ps : List (O × Pos))
    (hn : (ps.map (fun p => ident p.1)).Nodup) (sched : List Nat) (hs : Complete ps.length sched) :
    ∃ c, Conc.runAll ident ⟨f, startAll ps⟩ sched = some c ∧
      (∀ p ∈ ps, c.field.getLocationUnbuffered ident p.1 = some (some p.2)) ∧
      (∀ x, ident x ∉ ps.map (fun p => ident p.1) →
        c.field.getLocationUnbuffered ident x = f.getLocationUnbuffered ident x) ∧
      (∀ q, c.field.getObjects q = f.getObjects q) ∧ (∀ x, c.field.getLocation ident x = f.getLocation ident x) ∧
      c.field.numObjects = f.numObjects ∧
      ∀ q, ∃ b0 b, pendingAt f q = some b0 ∧ pendingAt c.field q = some b ∧
        b.Subperm (b0 ++ placedIn f.discretization ps q) ∧ (placedIn f.discretization ps q ≠ [] → b ≠ []) ∧
        (b0 ≠ [] ∨ (placedIn f.discretization ps q).length ≤ 1 → b.Perm (b0 ++ placedIn f.discretization ps q)) := by
  obtain ⟨c, h1, h2⟩ := fcinv_run ident hn sched (fcinv_start ident hf ps)
  obtain ⟨cpus, hashO, hashL, w, h, d, t, hist, hc, hd, hr⟩ := hf
  obtain ⟨f', k1, k2⟩ := fshows_run hc ident hashO hashL w h hd t hist
  have : f' = f := by
    have := k1.symm.trans hr
    simpa using this
  subst this
  have hdone := frun_finishes ident sched h1 (by
    intro j t ht
    have ht' : (startAll ps)[j]? = some t := ht
    unfold startAll at ht'
    rw [List.getElem?_map, Option.map_eq_some_iff] at ht'
    obtain ⟨p, hp, rfl⟩ := ht'
    exact hs j (List.getElem?_eq_some_iff.1 hp).1)
  have hfin : ∀ q, finished f'.discretization c.threads (discretize f'.discretization q) = placedIn f'.discretization ps q := by
    intro q
    unfold finished placedIn
    have e1 : c.threads.filter (fun t => decide (discretize f'.discretization t.loc = discretize f'.discretization q) &&
        decide (t.pc = .done)) =
        c.threads.filter (fun t => decide (discretize f'.discretization t.loc = discretize f'.discretization q)) := by
      apply List.filter_congr
      intro t ht
      obtain ⟨j, hj⟩ := List.mem_iff_getElem?.1 ht
      simp [hdone j t hj]
    rw [e1, ← h2.threads, List.filter_map, List.map_map]
    congr 1
    apply List.filter_congr
    intro t _
    rw [Bool.eq_iff_iff, decide_eq_true_iff]
    show _ ↔ sameSquare f'.discretization t.loc q = true
    rw [sameSquare_discretize]
    exact eq_comm
  have thread : ∀ p ∈ ps, ∃ (j : Nat) (t : Thread O), c.threads[j]? = some t ∧ t.object = p.1 ∧ t.loc = p.2 := by
    intro p hp
    rw [← h2.threads] at hp
    obtain ⟨t, ht, rfl⟩ := List.mem_map.1 hp
    obtain ⟨j, hj⟩ := List.mem_iff_getElem?.1 ht
    exact ⟨j, t, hj, rfl, rfl⟩
  refine ⟨c, h1, ?_, ?_, ?_, ?_, ?_, ?_⟩
  · intro p hp
    obtain ⟨j, t, ht, e1, e2⟩ := thread p hp
    unfold PField.getLocationUnbuffered
    have := h2.locDone j t ht (by rw [hdone j t ht]; decide)
    rw [ParGrid.getWrite_abs h2.invO, ← e1, this, ← e2]
    rfl
  · intro x hx
    unfold PField.getLocationUnbuffered
    rw [ParGrid.getWrite_abs h2.invO, ParGrid.getWrite_abs k2.invO, h2.locOther (ident x) ?_]
    intro j t ht he
    apply hx
    rw [← h2.threads, List.map_map]
    exact List.mem_map.2 ⟨t, List.mem_iff_getElem?.2 ⟨j, ht⟩, he⟩
  · intro q
    unfold PField.getObjects
    rw [ParGrid.getRead_abs h2.invL, ParGrid.getRead_abs k2.invL, h2.readL, cellOf_eq, cellOf_eq, h2.disc]
  · intro x
    unfold PField.getLocation
    rw [ParGrid.getRead_abs h2.invO, ParGrid.getRead_abs k2.invO, h2.readO]
  · unfold PField.numObjects
    obtain ⟨l1, a1, a2, a3⟩ := rLen_hasSize h2.invI
    obtain ⟨l2, b1, b2, b3⟩ := rLen_hasSize k2.invI
    rw [← a3, ← b3]
    refine ((List.perm_ext_iff_of_nodup a1 b1).2 ?_).length_eq
    intro i
    rw [a2, b2, h2.readI]
  · intro q
    have hcd : c.field.discretization = f'.discretization := h2.disc
    refine ⟨_, _, pendingAt_abs k2.invL q, pendingAt_abs h2.invL q, ?_, ?_, ?_⟩
    · rw [hcd, ← hfin]
      exact h2.sub _
    · rw [hcd, ← hfin]
      exact h2.some _
    · rw [hcd, ← hfin]
      intro hor
      refine h2.exact _ ?_
      rcases hor with hor | hor
      · left
        intro hnone
        rw [hnone] at hor
        exact hor rfl
      · right
        rw [hfin] at hor
        unfold placedIn at hor
        rw [List.length_map] at hor
        refine le_trans (le_of_eq ?_) hor
        congr 1
        apply List.filter_congr
        intro p _
        rw [Bool.eq_iff_iff, decide_eq_true_iff, sameSquare_discretize]
        exact eq_comm

/-- **C114** is false: two threads create the bag of the same square and the first object is lost, although its location is
known. -/
theorem C114_lost_object_partial :
    ((Conc.runAll id ⟨PField.new 1 id (fun _ => 0) 4 4 1 false, startAll [(1, ⟨1, 1⟩), (2, ⟨1, 1⟩)]⟩ [0, 1, 0, 1, 0, 1, 0, 1] :
      Option (Conc Nat Nat)).bind (fun c => pendingAt c.field ⟨1, 1⟩)) = some [2] ∧
    ((Conc.runAll id ⟨PField.new 1 id (fun _ => 0) 4 4 1 false, startAll [(1, ⟨1, 1⟩), (2, ⟨1, 1⟩)]⟩ [0, 1, 0, 1, 0, 1, 0, 1] :
      Option (Conc Nat Nat)).bind (fun c => c.field.getLocationUnbuffered id 1)) = some (some ⟨1, 1⟩) ∧
    Complete 2 [0, 1, 0, 1, 0, 1, 0, 1] := by
  refine ⟨by decide +kernel, by decide +kernel, ?_⟩
  intro j hj
  rcases (by omega : j = 0 ∨ j = 1) with rfl | rfl <;> decide

example : Reachable (id : Nat → Nat) (PField.new 1 id (fun _ => 0) 4 4 1 false : PField Nat Nat) :=
  ⟨1, id, fun _ => 0, 4, 4, 1, false, [], by decide +kernel, by decide +kernel, rfl⟩

example : ((Conc.runAll id ⟨PField.new 1 id (fun _ => 0) 4 4 1 false, startAll [(1, ⟨1, 1⟩), (2, ⟨2, 1⟩)]⟩ [0, 1, 0, 1, 0, 1, 0, 1] :
      Option (Conc Nat Nat)).bind (fun c => pendingAt c.field ⟨1, 1⟩)) = some [1] := by decide +kernel

/-! ### C115 -/

/-- **C115**, after any program: `get_location_unbuffered` answers the position given last since the latest `lazy_update`,
`get_unbuffered` the first object with this identity among those placed in that square. Without such a placement the first one
panics (so the property is false) and the second one answers `None`. -/
theorem C115_unbuffered_reads_partial {cpus : Nat} (hc : shardAmount cpus ≤ 2 ^ 64) (ident : O → I) (hashO : I → Nat)
    (hashL : Loc → Nat) (w h d : ℚ) (t : Bool) (hd : 0 < d) (hist : List (ROp O)) :
    ∃ f, PField.run ident (PField.new cpus hashO hashL w h d t) hist = some f ∧ ∀ o,
      match latest ident (placements hist) (ident o) with
      | none => f.getLocationUnbuffered ident o = none ∧ f.getUnbuffered ident o = some none
      | some e => f.getLocationUnbuffered ident o = some (some e.2) ∧ ∃ x,
          f.getUnbuffered ident o = some (some x) ∧ ident x = ident o ∧ x ∈ placedIn d (placements hist) e.2 := by
  obtain ⟨f, h1, h2⟩ := fshows_run hc ident hashO hashL w h hd t hist
  refine ⟨f, h1, fun o => ?_⟩
  unfold PField.getLocationUnbuffered PField.getUnbuffered
  rw [ParGrid.getWrite_abs h2.invO, h2.writeO]
  cases hl : latest ident (placements hist) (ident o) with
  | none => exact ⟨rfl, rfl⟩
  | some e =>
    refine ⟨rfl, ?_⟩
    obtain ⟨he1, he2⟩ := latest_mem hl
    have hm : e.1 ∈ placedIn d (placements hist) e.2 :=
      List.mem_map.2 ⟨e, List.mem_filter.2 ⟨he1, (sameSquare_discretize d _ _).2 rfl⟩, rfl⟩
    have hb : (abs f.fbag).write (f.cellOf e.2) = some (placedIn d (placements hist) e.2) := by
      rw [h2.writeL, cellOf_eq, h2.disc]
      dsimp only
      rw [(atCell hd hist e.2).2]
      unfold held
      rw [if_neg (List.ne_nil_of_mem hm)]
    cases hx : (placedIn d (placements hist) e.2).find? (fun x => decide (ident x = ident o)) with
    | none =>
      rw [List.find?_eq_none] at hx
      exact absurd (hx e.1 hm) (by simp [he2])
    | some x =>
      have hx2 := List.find?_some hx
      refine ⟨x, ?_, of_decide_eq_true hx2, List.mem_of_find?_eq_some hx⟩
      show (getWrite f.fbag (f.cellOf e.2)).bind _ = _
      rw [ParGrid.getWrite_abs h2.invL, hb, Option.bind_some]
      dsimp only
      rw [hx]

/-- **C115** is false: after the `lazy_update` that starts a step, an object that is published has no unbuffered location and asking
for it panics. -/
theorem C115_panic_partial :
    ((PField.run id (PField.new 1 id (fun _ => 0) 4 4 1 false) [.lazyUpdate, .place 7 ⟨1, 1⟩] : Option (PField Nat Nat)).bind
      (fun f => f.getLocationUnbuffered id 7)) = none ∧
    ((PField.run id (PField.new 1 id (fun _ => 0) 4 4 1 false) [.lazyUpdate, .place 7 ⟨1, 1⟩] : Option (PField Nat Nat)).bind
      (fun f => f.getLocation id 7)) = some (some ⟨1, 1⟩) := by
  refine ⟨by decide +kernel, by decide +kernel⟩

example : latest id (placements ([.place 7 ⟨2, 2⟩, .place 7 ⟨1, 1⟩, .lazyUpdate] : List (ROp Nat))) 7 = some (7, ⟨2, 2⟩) := by
  decide +kernel

end Verif.ParField2D
