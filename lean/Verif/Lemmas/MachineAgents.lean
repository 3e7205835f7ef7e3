import Verif.Spec.MachineAgents
import Verif.Lemmas.Machine
import Verif.Lemmas.SynchronousFields

/-!
The field with machine floats is a lawful field for agents whose positions are numbers in it.
-/

set_option linter.unusedSectionVars false

namespace Verif.Machine

open Grid
open Torus (Pos)
open Single (Rounding image imageField cellOf)
open DenseI32 (Mode)
open Field2D (FieldOp InField Shows)

variable {B : Type} [DecidableEq B]

/-- The numbers in a position. -/
def numbers (p : PosF) : Pos := ⟨number p.x, number p.y⟩

theorem Inside.numbers {w h : Rat} {p : PosF} (hp : Inside w h p) : p = ofPos (numbers p) ∧ InField w h (numbers p) := by
  obtain ⟨x, y, rfl, h1, h2, h3, h4⟩ := hp
  exact ⟨rfl, h1, h2, h3, h4⟩

/-- The quotients of an agent. -/
def spot (rnd : Rat → Rat) (d : Rat) (loc : B → PosF) (b : B) : Pos := image rnd d (numbers (loc b))

/-- The field holds these agents, published and written. -/
def Holds (rnd : Rat → Rat) (w h d : Rat) (t : Bool) (loc : B → PosF) (f : FieldF B) (r wr : List B) : Prop :=
  (∀ b ∈ wr, Inside w h (loc b)) ∧ (∀ b ∈ r, Inside w h (loc b)) ∧ ∃ g : Field2D.Field B, f = ofField g ∧ Sized rnd w h d g ∧ g.toroidal = t ∧
    Shows (imageField rnd g) (rnd (w / d)) (rnd (h / d)) 1 t (Sync.inCell (spot rnd d loc) 1 r) (Sync.inCell (spot rnd d loc) 1 wr)

theorem holds_new {rnd : Rat → Rat} (hr : Rounding rnd) (m : Mode) {w h d : Rat} (ho : Ordinary rnd w h d) (t : Bool) (loc : B → PosF) :
    ∃ f, new rnd m (.fin w) (.fin h) (.fin d) t = some f ∧ Holds rnd w h d t loc f [] [] := by
  refine ⟨_, new_of hr m ho t, by simp, by simp, _, rfl, new_sized rnd w h d t, rfl, ?_⟩
  rw [Single.image_new hr t (lt_of_lt_of_le ho.pos ho.dw) (lt_of_lt_of_le ho.pos ho.dh) ho.pos ho.cells]
  exact Field2D.shows_new t (Single.width_pos hr ho.pos ho.dw) (Single.width_pos hr ho.pos ho.dh) (by norm_num)

theorem holds_place {rnd : Rat → Rat} (hr : Rounding rnd) (m : Mode) {w h d : Rat} (ho : Ordinary rnd w h d) {t : Bool} {loc : B → PosF} {f : FieldF B} {r wr : List B}
    (hh : Holds rnd w h d t loc f r wr) (b : B) (hb : Inside w h (loc b)) :
    ∃ f', setObjectLocation rnd m f b (loc b) = some f' ∧ Holds rnd w h d t loc f' r (wr ++ [b]) := by
  obtain ⟨h1, h2, g, rfl, hs, ht, hsh⟩ := hh
  obtain ⟨e, hin⟩ := hb.numbers
  obtain ⟨f', p1, p2⟩ := Sync.shows_places hsh b (Single.image_inField hr ho.pos hin)
  have hx := Single.exec_image rnd g (FieldOp.place b (numbers (loc b)))
  rw [hs.disc] at hx
  have hx : (Single.exec rnd g (FieldOp.place b (numbers (loc b)))).map (imageField rnd) = some f' := hx.trans p1
  obtain ⟨g', q1, rfl⟩ := Option.map_eq_some_iff.1 hx
  have hex := exec_of hr m ho hs (op := FieldOp.place b (numbers (loc b))) hin q1
  refine ⟨ofField g', ?_, ?_, h2, g', rfl, exec_sized hs q1, p2.tor, p2⟩
  · rw [show setObjectLocation rnd m (ofField g) b (loc b) = exec rnd m (ofField g) (ofOp (FieldOp.place b (numbers (loc b)))) by
      show _ = setObjectLocation rnd m (ofField g) b (ofPos (numbers (loc b)))
      rw [← e]]
    exact hex
  · intro x hx
    rcases List.mem_append.1 hx with hx | hx
    · exact h1 x hx
    · rw [List.mem_singleton] at hx; subst hx; exact hb

theorem holds_publish {rnd : Rat → Rat} (hr : Rounding rnd) (m : Mode) {w h d : Rat} (ho : Ordinary rnd w h d) {t : Bool} {loc : B → PosF} {f : FieldF B} {r wr : List B}
    (hh : Holds rnd w h d t loc f r wr) : ∃ f', lazyUpdate m f = some f' ∧ Holds rnd w h d t loc f' wr [] := by
  obtain ⟨h1, h2, g, rfl, hs, ht, hsh⟩ := hh
  obtain ⟨f', p1, _, _, p2⟩ := Field2D.shows_lazy hsh
  have hx := Single.exec_image rnd g (FieldOp.lazyUpdate)
  have hx : (Single.exec rnd g FieldOp.lazyUpdate).map (imageField rnd) = some f' := hx.trans p1
  obtain ⟨g', q1, rfl⟩ := Option.map_eq_some_iff.1 hx
  exact ⟨ofField g', exec_of hr m ho hs (op := FieldOp.lazyUpdate) trivial q1, by simp, h1, g', rfl, exec_sized hs q1, p2.tor, p2⟩

/-- The answer of the search, from the list of the published agents. -/
def seenM (rnd root : Rat → Rat) (w h d : Rat) (t : Bool) (loc : B → PosF) (reach : B → Rat) (r : List B) (b : B) : List B :=
  if reach b ≤ 0 then [] else
  (Single.searchCells rnd (Single.new rnd w h d t : Field2D.Field B) (numbers (loc b)) (reach b)).flatMap (fun q =>
    (Sync.inCell (spot rnd d loc) 1 r (Field2D.wrapped (imageField rnd (Single.new rnd w h d t : Field2D.Field B)) q)).filter
      (keepExact rnd root (ofField (Single.new rnd w h d t : Field2D.Field B)) loc (loc b) (.fin (reach b))
        (Field2D.wrapped (imageField rnd (Single.new rnd w h d t : Field2D.Field B)) q)))

theorem holds_look {rnd root : Rat → Rat} (hr : Rounding rnd) (m : Mode) {w h d : Rat} (ho : Ordinary rnd w h d) {t : Bool} {loc : B → PosF} {reach : B → Rat}
    {f : FieldF B} {r wr : List B} (hh : Holds rnd w h d t loc f r wr) (b : B) (hb : Inside w h (loc b)) (hreach : reach b / d ≤ 2 ^ 31 - 2 ^ 25) :
    getNeighborsWithinDistance rnd root m f loc (loc b) (.fin (reach b)) = some (seenM rnd root w h d t loc reach r b) := by
  obtain ⟨h1, h2, g, rfl, hs, ht, hsh⟩ := hh
  obtain ⟨e, hin⟩ := hb.numbers
  unfold getNeighborsWithinDistance seenM
  simp only [le, decide_eq_true_eq]
  by_cases hd : reach b ≤ 0
  · rw [if_pos hd, if_pos hd]
  rw [if_neg hd, if_neg hd]
  have hc : searchCells rnd m (ofField g) (loc b) (.fin (reach b)) =
      some (Single.searchCells rnd (Single.new rnd w h d t : Field2D.Field B) (numbers (loc b)) (reach b)) := by
    rw [e, searchCells_of hr m ho hs hin (lt_of_not_ge hd) (fits_of hr ho _ hin hreach)]
    unfold Single.searchCells
    rw [hs.disc, hs.width, hs.height, ht]
    rfl
  have hk : keepExact rnd root (ofField g) loc (loc b) (.fin (reach b)) =
      keepExact rnd root (ofField (Single.new rnd w h d t : Field2D.Field B)) loc (loc b) (.fin (reach b)) := by
    have a1 : (ofField g).discretization = (ofField (Single.new rnd w h d t : Field2D.Field B)).discretization := by
      show F.fin g.discretization = F.fin d; rw [hs.disc]
    have a2 : (ofField g).width = (ofField (Single.new rnd w h d t : Field2D.Field B)).width := by
      show F.fin g.width = F.fin w; rw [hs.width]
    have a3 : (ofField g).height = (ofField (Single.new rnd w h d t : Field2D.Field B)).height := by
      show F.fin g.height = F.fin h; rw [hs.height]
    have a4 : (ofField g).toroidal = (ofField (Single.new rnd w h d t : Field2D.Field B)).toroidal := ht
    funext q e
    unfold keepExact
    simp only [a1, a2, a3, a4]
  have hwr : ∀ q, Field2D.wrapped (imageField rnd g) q = Field2D.wrapped (imageField rnd (Single.new rnd w h d t : Field2D.Field B)) q := by
    intro q
    unfold Field2D.wrapped imageField
    simp only [hs.disc, hs.width, hs.height]
    rfl
  rw [hc, Option.bind_some, hk, scan_of hr m ho hs _ _ (fun _ _ _ _ _ _ => rfl), Single.scan_image, Field2D.scan_eq hsh.wf]
  congr 2
  funext q
  have hbag : Field2D.bagOf (imageField rnd g) (Field2D.wrapped (imageField rnd g) q) =
      Sync.inCell (spot rnd d loc) 1 r (Field2D.wrapped (imageField rnd g) q) := by
    unfold Field2D.bagOf
    rw [hsh.read _ (Field2D.wrapped_inRange hsh.wf q)]
    rfl
  rw [hbag, hwr]

theorem seenM_perm {rnd root : Rat → Rat} {w h d : Rat} {t : Bool} {loc : B → PosF} {reach : B → Rat} {r r' : List B} (hp : r.Perm r') (b : B) :
    (seenM rnd root w h d t loc reach r b).Perm (seenM rnd root w h d t loc reach r' b) := by
  unfold seenM
  split
  · exact List.Perm.refl _
  · exact List.Perm.flatMap_left _ (fun q _ => (hp.filter _).filter _)

theorem mem_seenM {rnd root : Rat → Rat} {w h d : Rat} {t : Bool} {loc : B → PosF} {reach : B → Rat} {r : List B} {b x : B}
    (hx : x ∈ seenM rnd root w h d t loc reach r b) : x ∈ r := by
  unfold seenM at hx
  split at hx
  · cases hx
  · obtain ⟨q, _, hq⟩ := List.mem_flatMap.1 hx
    exact (List.mem_filter.1 (List.mem_filter.1 hq).1).1

/-- In a torus the search visits no cell twice. -/
theorem nodup_cells_seen {rnd : Rat → Rat} (hr : Rounding rnd) {w h d : Rat} (ho : Ordinary rnd w h d) (loc : Pos) (dis : Rat) :
    ((Single.searchCells rnd (Single.new rnd w h d true : Field2D.Field B) loc dis).map
      (Field2D.wrapped (imageField rnd (Single.new rnd w h d true : Field2D.Field B)))).Nodup := by
  have p1 := one_le_cells hr ho.pos ho.dw
  have p2 := one_le_cells hr ho.pos ho.dh
  have hmem : ∀ c ∈ Single.searchCells rnd (Single.new rnd w h d true : Field2D.Field B) loc dis,
      (0 ≤ c.x ∧ c.x ≤ Single.cellsAlong rnd w d - 1) ∧ (0 ≤ c.y ∧ c.y ≤ Single.cellsAlong rnd h d - 1) := by
    intro c hc
    unfold Single.searchCells at hc
    obtain ⟨i, hi, hc⟩ := List.mem_flatMap.1 hc
    obtain ⟨j, hj, rfl⟩ := List.mem_map.1 hc
    have hi := Field2D.mem_irange.1 hi
    have hj := Field2D.mem_irange.1 hj
    simp only [Single.new, Field2D.window, if_true] at hi hj
    dsimp only
    omega
  refine List.Nodup.map_on ?_ ?_
  · intro a ha b hb hab
    have ha := hmem a ha
    have hb := hmem b hb
    have e : ∀ c : Loc, Field2D.wrapped (imageField rnd (Single.new rnd w h d true : Field2D.Field B)) c =
        ⟨Torus.tT c.x (Single.cellsAlong rnd w d), Torus.tT c.y (Single.cellsAlong rnd h d)⟩ := by
      intro c
      unfold Field2D.wrapped imageField Single.new Single.cellsAlong
      simp only [div_one]
    rw [e, e] at hab
    simp only [Loc.mk.injEq] at hab
    have e1 : a.x = b.x := Torus.tT_inj (by omega) hab.1 (by omega) (by omega)
    have e2 : a.y = b.y := Torus.tT_inj (by omega) hab.2 (by omega) (by omega)
    cases a; cases b
    simp only at e1 e2
    rw [e1, e2]
  · unfold Single.searchCells
    rw [List.nodup_flatMap]
    refine ⟨?_, ?_⟩
    · intro i _
      refine (Field2D.nodup_irange _ _).map ?_
      intro a b hab
      simpa using hab
    · refine List.Pairwise.imp ?_ (Field2D.nodup_irange _ _)
      intro a b hab l h1 h2
      obtain ⟨j, _, rfl⟩ := List.mem_map.1 h1
      obtain ⟨j', _, h'⟩ := List.mem_map.1 h2
      simp at h'
      exact hab h'.1.symm

/-- In a torus nobody is seen twice. -/
theorem seenM_nodup {rnd root : Rat → Rat} (hr : Rounding rnd) {w h d : Rat} (ho : Ordinary rnd w h d) {loc : B → PosF} {reach : B → Rat} {r : List B}
    (hn : r.Nodup) (b : B) : (seenM rnd root w h d true loc reach r b).Nodup := by
  unfold seenM
  split
  · exact List.nodup_nil
  · have hc := nodup_cells_seen (B := B) hr ho (numbers (loc b)) (reach b)
    rw [List.nodup_flatMap]
    refine ⟨fun q _ => (hn.filter _).filter _, ?_⟩
    rw [List.Nodup, List.pairwise_map] at hc
    refine hc.imp ?_
    intro p q hpq x h1 h2
    have h1 := (List.mem_filter.1 (List.mem_filter.1 h1).1).2
    have h2 := (List.mem_filter.1 (List.mem_filter.1 h2).1).2
    rw [decide_eq_true_iff] at h1 h2
    exact hpq (h1.trans h2.symm)

theorem holds_run {rnd : Rat → Rat} (hr : Rounding rnd) (m : Mode) {w h d : Rat} (ho : Ordinary rnd w h d) {t : Bool} {loc : B → PosF} {f : FieldF B}
    (hf : Holds rnd w h d t loc f [] []) : ∀ pop : List B, (∀ b ∈ pop, Inside w h (loc b)) →
      ∃ f', run rnd m f ((pop.map (fun b => .place b (loc b))).reverse) = some f' ∧ Holds rnd w h d t loc f' [] pop := by
  intro pop
  induction pop using List.reverseRecOn with
  | nil => intro _; exact ⟨f, rfl, hf⟩
  | append_singleton pop b ih =>
    intro hp
    obtain ⟨f1, h1, h2⟩ := ih (fun x hx => hp x (List.mem_append_left _ hx))
    obtain ⟨f2, h3, h4⟩ := holds_place hr m ho h2 b (hp b (by simp))
    refine ⟨f2, ?_, h4⟩
    rw [List.map_append, List.reverse_append]
    show (run rnd m f ((pop.map (fun b => OpF.place b (loc b))).reverse)).bind _ = _
    rw [h1]
    exact h3

theorem answer_eq {rnd root : Rat → Rat} (hr : Rounding rnd) (m : Mode) {w h d : Rat} (ho : Ordinary rnd w h d) {t : Bool} {loc : B → PosF} {reach : B → Rat}
    {pop : List B} (hp : ∀ b ∈ pop, Inside w h (loc b)) (b : B) (hb : Inside w h (loc b)) (hreach : reach b / d ≤ 2 ^ 31 - 2 ^ 25) :
    answer rnd root m w h d t loc (fun b => .fin (reach b)) pop b = seenM rnd root w h d t loc reach pop b := by
  obtain ⟨f, h1, h2⟩ := holds_new hr m ho t loc
  obtain ⟨f1, h3, h4⟩ := holds_run hr m ho h2 pop hp
  obtain ⟨f2, h5, h6⟩ := holds_publish hr m ho h4
  unfold answer
  rw [h1, Option.bind_some]
  have : run rnd m f (.lazyUpdate :: (pop.map (fun b => OpF.place b (loc b))).reverse) = some f2 := by
    show (run rnd m f ((pop.map (fun b => OpF.place b (loc b))).reverse)).bind _ = _
    rw [h3]
    exact h5
  rw [this, Option.bind_some, holds_look hr m ho h6 b hb hreach]
  rfl

theorem mem_answer {rnd root : Rat → Rat} (hr : Rounding rnd) (m : Mode) {w h d : Rat} (ho : Ordinary rnd w h d) {t : Bool} {loc : B → PosF} {reach : B → Rat}
    {pop : List B} (hp : ∀ b ∈ pop, Inside w h (loc b)) {b x : B} (hb : Inside w h (loc b)) (hreach : reach b / d ≤ 2 ^ 31 - 2 ^ 25)
    (hx : x ∈ answer rnd root m w h d t loc (fun b => .fin (reach b)) pop b) : x ∈ pop := by
  rw [answer_eq hr m ho hp b hb hreach] at hx
  exact mem_seenM hx

/-- The field with machine floats is lawful, for any notion of a proper agent that implies a position in the field. -/
theorem machineLaws {rnd root : Rat → Rat} (hr : Rounding rnd) (m : Mode) {w h d : Rat} (ho : Ordinary rnd w h d) (t : Bool) (ident : B → Nat) (ok : B → Prop)
    (loc : B → PosF) (hok : ∀ b, ok b → Inside w h (loc b)) (reach : B → Rat) (hreach : ∀ b, reach b / d ≤ 2 ^ 31 - 2 ^ 25) :
    Sync.Laws (agentOps rnd root m loc (fun b => .fin (reach b))) ident ok (answer rnd root m w h d t loc (fun b => .fin (reach b))) List.Perm
      (ShowsAll rnd m (cellOf rnd d) loc w h) (Holds rnd w h d t loc) where
  place {f r wr} b hh hb _ := holds_place hr m ho hh b (hok b hb)
  publish {f r wr} hh := holds_publish hr m ho hh
  look {f r wr} b hh _ hb := by
    refine ⟨_, holds_look hr m ho hh b (hok b hb) (hreach b), ?_⟩
    rw [answer_eq hr m ho hh.2.1 b (hok b hb) (hreach b)]
  shows {f r wr pop} hh hp := by
    intro x y hx hx' hy hy'
    obtain ⟨h1, h2, g, rfl, hs, ht, hsh⟩ := hh
    have hin : InField w h ⟨x, y⟩ := ⟨hx, hx', hy, hy'⟩
    obtain ⟨a, c⟩ := discretize_of hr ho hin
    refine ⟨_, ?_, hp.filter _⟩
    have := vecGet_of hr m ho g.rbags hin
    unfold getObjects
    simp only [ofField, hs.disc, hs.dh]
    refine this.trans ?_
    have hrd := hsh.read (Single.discretize rnd d ⟨x, y⟩) (by
      show InRange g.dw g.dh _
      rw [hs.dw, hs.dh]; exact c)
    simp only [imageField, hs.dh] at hrd
    rw [hrd]
    congr 1
    unfold Sync.inCell
    apply List.filter_congr
    intro b _
    rw [Single.discretize_image, Bool.eq_iff_iff, decide_eq_true_iff, decide_eq_true_iff]
    unfold cellOf spot
    rw [Single.discretize_image, Single.discretize_image]
    have hpair : ∀ A C : Loc, A = C ↔ (A.x, A.y) = (C.x, C.y) := by
      rintro ⟨a, b⟩ ⟨c, d⟩
      simp only [Loc.mk.injEq, Prod.mk.injEq]
    rw [eq_comm]
    exact hpair _ _
  perm {r r'} b hr' hb hp := by
    rw [answer_eq hr m ho (fun x hx => hok x (hr' x hx)) b (hok b hb) (hreach b),
      answer_eq hr m ho (fun x hx => hok x (hr' x (hp.mem_iff.2 hx))) b (hok b hb) (hreach b)]
    exact seenM_perm hp b

end Verif.Machine
