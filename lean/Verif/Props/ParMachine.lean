import Verif.Lemmas.ParMachine
import Verif.Props.Machine
import Verif.Props.MachineAgents

/-!
The continuous field of the feature `parallel` on every `f32` (C188–C191), and the flockers simulation in it (C186, C187). `cpus` is the number of processors, `hashO` and
`hashL` the hash functions; every statement holds for all of them. The hypothesis on `shardAmount` only says that the number of shards fits a machine word.
-/

set_option linter.unusedSectionVars false

namespace Verif.ParMachine

open Grid DBDashMap Machine Schedule
open Torus (Pos)
open Single (Rounding Root IsF32 Squares imageField)
open DenseI32 (Mode)
open Field2D (InField)
open ParField2D (held held_getD)
open Sync (Rule Rounds Follows numbered model sim)
open Flockers (ParSteps)

variable {O I : Type} [DecidableEq I]

/-! ### C188 -/

theorem near_cell {rnd : Rat → Rat} (hr : Rounding rnd) {d x : Rat} (hd : 0 < d) (hx : |x| ≤ 2 ^ 30 * d) :
    toI32 (floor (div rnd (.fin x) (.fin d))) = (rnd (x / d)).floor := by
  have h1 : |x / d| ≤ 2 ^ 30 := by
    rw [abs_div, abs_of_pos hd, div_le_iff₀ hd]
    exact hx
  have h2 := abs_le.1 (rnd_pow hr 30 h1)
  rw [div_of hr hd.ne' (le_trans h1 (by norm_num))]
  show toI32 (.fin ((rnd (x / d)).floor : Int)) = _
  have a : (-2 ^ 30 : Int) ≤ (rnd (x / d)).floor := Rat.le_floor_iff.2 (by push_cast; exact h2.1)
  have b : (rnd (x / d)).floor ≤ 2 ^ 30 := by
    have : ((rnd (x / d)).floor : Rat) ≤ ((2 ^ 30 : Int) : Rat) := by push_cast; exact le_trans (Rat.floor_le _) h2.2
    exact_mod_cast this
  exact toI32_int (by omega) (by omega)

/-- **C188 (partial).** Whatever the program and whatever `f32` positions it uses, no call of it panics; `get_location` gives exactly the published position; `get_objects`
gives, at every `f32` position, the objects published in its cell; and up to 2^30 cells from the origin, on either side, the cells are squares up to rounding. Missing:
positions farther away, infinite or not numbers, which share cells with others. -/
theorem C188_history_partial {rnd : Rat → Rat} (hr : Rounding rnd) {cpus : Nat} (hc : shardAmount cpus ≤ 2 ^ 64) (ident : O → I) (hashO : I → Nat) (hashL : Loc → Nat)
    (w h : F) (d : Rat) (hd : 0 < d) (t : Bool) :
    ∃ cell : PosF → Int × Int, (∃ sq, Squares sq d ∧ ∀ x y : Rat, |x| ≤ 2 ^ 30 * d → |y| ≤ 2 ^ 30 * d → cell ⟨.fin x, .fin y⟩ = sq ⟨x, y⟩) ∧
      ∀ hist : List (ROpF O), ∃ f, run rnd ident (new cpus hashO hashL w h (.fin d) t) hist = some f ∧
        (∀ p, getObjects rnd f p = some (publishedIn cell hist p) ∧ numObjectsAtLocation rnd f p = some (publishedIn cell hist p).length) ∧
        ∀ o, getLocation f ident o = some ((publishedOf ident hist (ident o)).map Prod.snd) := by
  refine ⟨cellPair rnd (.fin d), ⟨Single.cellOf rnd d, Single.squares_cellOf hr hd, ?_⟩, ?_⟩
  · intro x y hx hy
    unfold cellPair discretize Single.cellOf Single.discretize
    simp only [near_cell hr hd hx, near_cell hr hd hy]
  · intro hist
    obtain ⟨f, h1, h2⟩ := fshows_run rnd hc ident hashO hashL w h (.fin d) t hist
    refine ⟨f, h1, ?_, ?_⟩
    · intro p
      rw [publishedIn_shownIn]
      exact getObjects_of h2 p
    · intro o
      unfold getLocation
      rw [ParGrid.getRead_abs h2.invO, h2.readO, Option.map_some]

theorem shown_after {rnd : Rat → Rat} {cpus : Nat} (hc : shardAmount cpus ≤ 2 ^ 64) (ident : O → I) (hashO : I → Nat) (hashL : Loc → Nat) (w h d : F) (t : Bool)
    (hist : List (ROpF O)) (o : O) (p q : PosF) (hpq : discretize rnd d p = discretize rnd d q) :
    ∃ f l, run rnd ident (new cpus hashO hashL w h d t) (.lazyUpdate :: .place o p :: hist) = some f ∧ getObjects rnd f q = some l ∧ o ∈ l := by
  obtain ⟨f, h1, h2⟩ := fshows_run rnd hc ident hashO hashL w h d t (.lazyUpdate :: .place o p :: hist)
  refine ⟨f, _, h1, (getObjects_of h2 q).1, ?_⟩
  show o ∈ inBag rnd d (placements hist ++ [(o, p)]) (discretize rnd d q)
  rw [inBag_snoc, if_pos hpq.symm]
  simp

/-- **C188** is false of the code, first way: after every program an object placed at a coordinate that is NaN is shown at 0 in this coordinate. -/
theorem C188_nan_shown_partial {rnd : Rat → Rat} (hr : Rounding rnd) {cpus : Nat} (hc : shardAmount cpus ≤ 2 ^ 64) (ident : O → I) (hashO : I → Nat) (hashL : Loc → Nat)
    (w h : F) (d : Rat) (hd : 0 < d) (t : Bool) (hist : List (ROpF O)) (o : O) :
    ∃ f l, run rnd ident (new cpus hashO hashL w h (.fin d) t) (.lazyUpdate :: .place o ⟨.nan, .nan⟩ :: hist) = some f ∧
      getObjects rnd f ⟨.fin 0, .fin 0⟩ = some l ∧ o ∈ l := by
  refine shown_after hc ident hashO hashL w h _ t hist o _ _ ?_
  unfold discretize
  simp only [near_cell hr hd (show |(0 : Rat)| ≤ 2 ^ 30 * d by rw [abs_zero]; positivity), zero_div, hr.zero]
  rfl

/-- **C188** is false of the code, second way: all coordinates from 2^31 cells on are one cell; an object placed at one of them is shown at all others. -/
theorem C188_far_shown_partial {rnd : Rat → Rat} (hr : Rounding rnd) {cpus : Nat} (hc : shardAmount cpus ≤ 2 ^ 64) (ident : O → I) (hashO : I → Nat) (hashL : Loc → Nat)
    (w h : F) (d : Rat) (hd : 0 < d) (t : Bool) (hist : List (ROpF O)) (o : O) (x x' y : F) (hx : Huge d x) (hx' : Huge d x') :
    ∃ f l, run rnd ident (new cpus hashO hashL w h (.fin d) t) (.lazyUpdate :: .place o ⟨x, y⟩ :: hist) = some f ∧ getObjects rnd f ⟨x', y⟩ = some l ∧ o ∈ l := by
  refine shown_after hc ident hashO hashL w h _ t hist o _ _ ?_
  unfold discretize
  simp only [huge_cells hr hd hx, huge_cells hr hd hx']

/-- Objects at numbers on both sides of the origin, at infinity and nowhere. -/
example : ((run Single.single id (new 1 id (fun _ => 0) (.fin 10) (.fin 10) (.fin 1) true)
      [.lazyUpdate, .place 4 ⟨.nan, .fin 5⟩, .place 3 ⟨.inf false, .fin 5⟩, .place 2 ⟨.fin (-1 / 2), .fin 5⟩, .place 1 ⟨.fin (1 / 2), .fin 5⟩] : Option (PFieldF Nat Nat)).map
    (fun f => [getObjects Single.single f ⟨.fin 0, .fin 5⟩, getObjects Single.single f ⟨.fin (-1), .fin 5⟩, getObjects Single.single f ⟨.fin (2 ^ 40), .fin 5⟩])) =
    some [some [1, 4], some [2], some [3]] := by decide +kernel

/-! ### C189 -/

/-- **C189 (partial).** Programs of placements at numbers in the field and `lazy_update`s, on a field of at most 2^24 cells: the field with the feature and the field without
it answer alike: `get_objects` and `num_objects_at_location` everywhere in the field, and both searches around every number in the field, element by element, if something is
published, the distance is at most 2^30 cells and the capacity is affordable. Missing: the rest (C109, C110, C190, and positions out of the field). -/
theorem C189_same_answers_partial [BEq O] {rnd root : Rat → Rat} (hr : Rounding rnd) (m : Mode) (size : Nat) {w h d : Rat} (ho : Ordinary rnd w h d) (t : Bool)
    {cpus : Nat} (hc : shardAmount cpus ≤ 2 ^ 64) (ident : O → I) (hashO : I → Nat) (hashL : Loc → Nat) (hist : List (ROpF O)) (hp : ∀ op ∈ hist, PlaceLazy w h op) :
    ∃ f g, run rnd ident (new cpus hashO hashL (.fin w) (.fin h) (.fin d) t) hist = some f ∧
      session rnd m (.fin w) (.fin h) (.fin d) t (hist.map toSeq) = some g ∧
      (∀ p, Inside w h p → getObjects rnd f p = Machine.getObjects rnd m g p ∧ numObjectsAtLocation rnd f p = Machine.numObjectsAtLocation rnd m g p) ∧
      ((∃ i, publishedOf ident hist i ≠ none) → ∀ locOf loc, Inside w h loc → ∀ dis : Rat, |dis| / d ≤ 2 ^ 30 → Affordable rnd size w h dis →
        getNeighborsWithinDistance rnd root m size f locOf loc (.fin dis) = Machine.getNeighborsWithinDistance rnd root m g locOf loc (.fin dis) ∧
        getNeighborsWithinRelaxDistance rnd m size f loc (.fin dis) = Machine.getNeighborsWithinRelaxDistance rnd m g loc (.fin dis)) := by
  obtain ⟨f, g, pub, cur, h1, h2, h3, h4, h5, h6⟩ := same_run hr m ho t hc ident hashO hashL hist hp
  refine ⟨f, ofField g, h1, ?_, ?_, ?_⟩
  · unfold session
    rw [new_of hr m ho t]
    exact h2
  · intro p hpos
    obtain ⟨e, hin⟩ := hpos.numbers
    obtain ⟨a, b⟩ := discretize_of hr ho hin
    obtain ⟨k1, k2⟩ := getObjects_of h6 p
    have hv : DenseI32.vecGet m (ofField g).rbags (ofField g).dh (discretize rnd (ofField g).discretization p) = some (pub (discretize rnd (.fin d) p)) := by
      have := vecGet_of hr m ho g.rbags hin
      simp only [ofField, h3.disc, h3.dh]
      rw [e]
      refine this.trans ?_
      have hrd := h5.read (Single.discretize rnd d (numbers p)) (by
        show InRange g.dw g.dh _
        rw [h3.dw, h3.dh]; exact b)
      simp only [imageField, h3.dh] at hrd
      rw [hrd, a]
    rw [k1, k2]
    unfold Machine.getObjects Machine.numObjectsAtLocation
    rw [hv]
    exact ⟨rfl, rfl⟩
  · rintro ⟨i, hi⟩ locOf loc hloc dis hdis ha
    obtain ⟨e, hin⟩ := hloc.numbers
    have hlen : rLen f.findex ≠ 0 := by
      rw [Ne, rLen_pos h6]
      exact fun hz => hi (hz i)
    have hrb : dis / d ≤ 2 ^ 30 := le_trans (div_le_div_of_nonneg_right (le_abs_self _) ho.pos.le) hdis
    have habs : |dis| ≤ 2 ^ 60 := by
      have hd30 : d ≤ 2 ^ 30 := le_trans ho.dw ho.wide
      rw [div_le_iff₀ ho.pos] at hdis
      nlinarith
    have hcap := capacity_of hr m (size := size) (le_trans ho.pos.le ho.dw) (le_trans ho.pos.le ho.dh) ho.wide ho.high h6.width h6.height hlen ha habs
    have hk : keepExact rnd root f locOf loc (.fin dis) = Machine.keepExact rnd root (ofField g) locOf loc (.fin dis) := by
      have a1 : (ofField g).discretization = .fin d := by show F.fin g.discretization = F.fin d; rw [h3.disc]
      have a2 : (ofField g).width = .fin w := by show F.fin g.width = F.fin w; rw [h3.width]
      have a3 : (ofField g).height = .fin h := by show F.fin g.height = F.fin h; rw [h3.height]
      have a4 : (ofField g).toroidal = t := h4
      funext q x
      unfold keepExact Machine.keepExact
      rw [h6.disc, h6.width, h6.height, h6.tor, a1, a2, a3, a4]
    unfold getNeighborsWithinDistance getNeighborsWithinRelaxDistance Machine.getNeighborsWithinDistance Machine.getNeighborsWithinRelaxDistance
    rw [hcap, Option.bind_some, Option.bind_some]
    simp only [le, decide_eq_true_eq]
    by_cases hd : dis ≤ 0
    · simp only [if_pos hd]
      exact ⟨trivial, trivial⟩
    · simp only [if_neg hd]
      have e1 : searchCells rnd m f loc (.fin dis) = some (Single.searchCells rnd g (numbers loc) dis) := by
        rw [e, searchCells_of hr m ho h6.width h6.height h6.disc h6.tor hin (lt_of_not_ge hd) hrb]
        unfold Single.searchCells
        rw [h3.disc, h3.width, h3.height, h4]
        rfl
      have e2 : Machine.searchCells rnd m (ofField g) loc (.fin dis) = some (Single.searchCells rnd g (numbers loc) dis) := by
        rw [e, Machine.searchCells_of hr m ho h3 hin (lt_of_not_ge hd) (fits_of hr ho _ hin (le_trans hrb (by norm_num)))]
        rfl
      rw [e1, e2, hk]
      simp only [Option.bind_some]
      rw [scan_of hr m ho h6, scan_of hr m ho h6, seqScan_of hr m ho h3 h5, seqScan_of hr m ho h3 h5]
      exact ⟨rfl, rfl⟩

/-- **C189** is false of the code: an object placed outside of the field makes the field without the feature panic (debug), and is accepted by the field with it. -/
theorem C189_outside_partial :
    (run Single.single id (new 1 id (fun _ => 0) (.fin 10) (.fin 10) (.fin 1) true) [.lazyUpdate, .place 1 ⟨.fin 1000, .fin 5⟩] : Option (PFieldF Nat Nat)).isSome = true ∧
    (session Single.single .debug (.fin 10) (.fin 10) (.fin 1) true ([.lazyUpdate, .place 1 ⟨.fin 1000, .fin 5⟩].map toSeq) : Option (FieldF Nat)) = none := by
  refine ⟨by decide +kernel, by decide +kernel⟩

/-- A program the theorem applies to, with a search of it. -/
example : (∀ op ∈ ([.lazyUpdate, .place 2 ⟨.fin 10, .fin 3⟩, .place 1 ⟨.fin 1, .fin 3⟩] : List (ROpF Nat)), PlaceLazy 10 10 op) ∧
    publishedOf id ([.lazyUpdate, .place 2 ⟨.fin 10, .fin 3⟩, .place 1 ⟨.fin 1, .fin 3⟩] : List (ROpF Nat)) 2 ≠ none ∧ Affordable Single.single 32 10 10 3 ∧
    ((run Single.single id (new 1 id (fun _ => 0) (.fin 10) (.fin 10) (.fin (1 / 2)) true) [.lazyUpdate, .place 2 ⟨.fin 10, .fin 3⟩, .place 1 ⟨.fin 1, .fin 3⟩] :
      Option (PFieldF Nat Nat)).bind (fun f => getNeighborsWithinRelaxDistance Single.single .debug 32 f ⟨.fin 2, .fin 3⟩ (.fin 3))) = some [1] := by
  refine ⟨?_, by decide +kernel, by unfold Affordable; decide +kernel, by decide +kernel⟩
  intro op hop
  simp only [List.mem_cons, List.not_mem_nil, or_false] at hop
  rcases hop with rfl | rfl | rfl
  · trivial
  · exact ⟨10, 3, rfl, by norm_num, by norm_num, by norm_num, by norm_num⟩
  · exact ⟨1, 3, rfl, by norm_num, by norm_num, by norm_num, by norm_num⟩

/-! ### C190 -/

/-- **C190 (partial).** After every program that leaves something published, on a field of at most 2^24 cells, both searches around a number in the field answer, in both
builds, if the distance is at most 2^30 cells and the capacity affordable. Missing: larger distances and distances that are not numbers, for which it is false. -/
theorem C190_affordable_partial [BEq O] {rnd root : Rat → Rat} (hr : Rounding rnd) (m : Mode) (size : Nat) {w h d : Rat} (ho : Ordinary rnd w h d) (t : Bool)
    {cpus : Nat} (hc : shardAmount cpus ≤ 2 ^ 64) (ident : O → I) (hashO : I → Nat) (hashL : Loc → Nat) (hist : List (ROpF O)) (hp : ∃ i, publishedOf ident hist i ≠ none)
    (locOf : O → PosF) {loc : PosF} (hl : Inside w h loc) {dis : Rat} (hdis : |dis| / d ≤ 2 ^ 30) (ha : Affordable rnd size w h dis) :
    ∃ f l l', run rnd ident (new cpus hashO hashL (.fin w) (.fin h) (.fin d) t) hist = some f ∧
      getNeighborsWithinDistance rnd root m size f locOf loc (.fin dis) = some l ∧ getNeighborsWithinRelaxDistance rnd m size f loc (.fin dis) = some l' := by
  obtain ⟨f, h1, h6⟩ := fshows_run rnd hc ident hashO hashL (.fin w) (.fin h) (.fin d) t hist
  obtain ⟨i, hi⟩ := hp
  obtain ⟨e, hin⟩ := hl.numbers
  have hlen : rLen f.findex ≠ 0 := by
    rw [Ne, rLen_pos h6]
    exact fun hz => hi (hz i)
  have hrb : dis / d ≤ 2 ^ 30 := le_trans (div_le_div_of_nonneg_right (le_abs_self _) ho.pos.le) hdis
  have habs : |dis| ≤ 2 ^ 60 := by
    have hd30 : d ≤ 2 ^ 30 := le_trans ho.dw ho.wide
    rw [div_le_iff₀ ho.pos] at hdis
    nlinarith
  have hcap := capacity_of hr m (size := size) (le_trans ho.pos.le ho.dw) (le_trans ho.pos.le ho.dh) ho.wide ho.high h6.width h6.height hlen ha habs
  by_cases hd : dis ≤ 0
  · refine ⟨f, [], [], h1, ?_, ?_⟩
    · unfold getNeighborsWithinDistance
      rw [hcap, Option.bind_some]
      simp only [le, decide_eq_true_eq, if_pos hd]
    · unfold getNeighborsWithinRelaxDistance
      rw [hcap, Option.bind_some]
      simp only [le, decide_eq_true_eq, if_pos hd]
  · have hk : ∀ keep, ∃ l, (searchCells rnd m f loc (.fin dis)).bind (scan rnd m f keep) = some l := by
      intro keep
      rw [e, searchCells_of hr m ho h6.width h6.height h6.disc h6.tor hin (lt_of_not_ge hd) hrb, Option.bind_some, scan_of hr m ho h6]
      exact ⟨_, rfl⟩
    obtain ⟨l, k1⟩ := hk (keepExact rnd root f locOf loc (.fin dis))
    obtain ⟨l', k2⟩ := hk (fun _ _ => true)
    refine ⟨f, l, l', h1, ?_, ?_⟩
    · unfold getNeighborsWithinDistance
      rw [hcap, Option.bind_some]
      simp only [le, decide_eq_true_eq, if_neg hd]
      exact k1
    · unfold getNeighborsWithinRelaxDistance
      rw [hcap, Option.bind_some]
      simp only [le, decide_eq_true_eq, if_neg hd]
      exact k2

/-- The capacity of an infinite search is `usize::MAX` times the density, which never fits a vector. -/
theorem infinite_capacity {A size : Nat} (m : Mode) (hA : 1 ≤ A) (hA' : A ≤ 2 ^ 63) (hs : 1 ≤ size) : (umul m A (2 ^ 64 - 1)).bind (reserve size) = none := by
  have big : ∀ n, 2 ^ 63 ≤ n → reserve size n = none := by
    intro n hn
    rw [reserve, if_neg (not_lt.2 (le_trans hn (Nat.le_mul_of_pos_left n hs)))]
  cases m with
  | debug =>
    simp only [umul]
    split_ifs with hlt
    · rw [Option.bind_some]
      apply big
      omega
    · rfl
  | release =>
    simp only [umul]
    rw [Option.bind_some]
    apply big
    have : A * (2 ^ 64 - 1) = (2 ^ 64 - A) + 2 ^ 64 * (A - 1) := by
      zify [hA, show A ≤ 2 ^ 64 by omega]
      ring
    rw [this, Nat.add_mul_mod_self_left, Nat.mod_eq_of_lt (by omega)]
    omega

/-- **C190** is false of the code, first way: a search with an infinite distance panics in every field with at least one unit of area per object, in both builds. -/
theorem C190_infinite_partial (rnd root : Rat → Rat) (m : Mode) {size : Nat} (hs : 1 ≤ size) (f : PFieldF O I) (hA : 1 ≤ toUsize (mul rnd f.width f.height) / rLen f.findex)
    (hA' : toUsize (mul rnd f.width f.height) / rLen f.findex ≤ 2 ^ 63) (locOf : O → PosF) (loc : PosF) :
    getNeighborsWithinDistance rnd root m size f locOf loc (.inf false) = none ∧ getNeighborsWithinRelaxDistance rnd m size f loc (.inf false) = none := by
  have hc : (capacity rnd m f (.inf false)).bind (reserve size) = none := by
    unfold capacity
    rw [if_neg (by intro h0; rw [h0, Nat.div_zero] at hA; omega)]
    exact infinite_capacity m hA hA' hs
  unfold getNeighborsWithinDistance getNeighborsWithinRelaxDistance
  rw [hc]
  exact ⟨rfl, rfl⟩

/-- A field of 4 cells of 2^16 units with one object at (1, 1) in it. -/
def oneObject : Option (PFieldF Nat Nat) :=
  run Single.single id (new 1 id (fun _ => 0) (.fin (2 ^ 17)) (.fin (2 ^ 17)) (.fin (2 ^ 16)) false) [.lazyUpdate, .place 7 ⟨.fin 1, .fin 1⟩]

/-- **C190** is false of the code, second way: in a field of four cells, with one object of 32 bytes in it, a search as far as an eighth of the field panics in both builds, and
a search as far as a quarter of it panics in a debug build; in a release build the product wraps around to 0, and it answers. -/
theorem C190_wraps_partial :
    (∀ m, oneObject.bind (fun f => getNeighborsWithinRelaxDistance Single.single m 32 f ⟨.fin 1, .fin 1⟩ (.fin (2 ^ 14))) = none) ∧
    oneObject.bind (fun f => getNeighborsWithinRelaxDistance Single.single .debug 32 f ⟨.fin 1, .fin 1⟩ (.fin (2 ^ 15))) = none ∧
    oneObject.bind (fun f => getNeighborsWithinRelaxDistance Single.single .release 32 f ⟨.fin 1, .fin 1⟩ (.fin (2 ^ 15))) = some [7] := by
  refine ⟨fun m => ?_, by decide +kernel, by decide +kernel⟩
  cases m <;> decide +kernel

/-- **C190**, what is asked for: one object in a field of 1000 by 1000, a search as far as 100; room for ten thousand million objects. -/
theorem C190_asked_partial (m : Mode) :
    (run Single.single id (new 1 id (fun _ => 0) (.fin 1000) (.fin 1000) (.fin 1) false) [.lazyUpdate, .place 7 ⟨.fin 1, .fin 1⟩] : Option (PFieldF Nat Nat)).bind
      (fun f => capacity Single.single m f (.fin 100)) = some (10 ^ 10) := by
  cases m <;> decide +kernel

/-- The hypotheses of the first way. -/
example : oneObject.map (fun f => decide (1 ≤ toUsize (mul Single.single f.width f.height) / rLen f.findex ∧ toUsize (mul Single.single f.width f.height) / rLen f.findex ≤ 2 ^ 63)) =
    some true := by decide +kernel

/-! ### C191 -/

section Agents

variable {T B D : Type} [LinearOrder T] [DecidableEq B] {identB : B → Nat} {ok : B → Prop} {okD : D → Prop} {draws : Nat → D} {ord : Nat → Int}
  {act : D → B → List B → B × Bool}

/-- **C191.** Agents in a `Field2D` of the feature `parallel`, with the arithmetic of the code: if the rule keeps agents inside the field and their searches are affordable,
then for every number of threads and every interleaving, any number of completed steps leaves the population of as many rounds in which all agents act at once, each on the
answer of a field in which exactly the agents of the round before are, in some arrangement; the field shows this population. -/
theorem C191_parallel_machine_field {rnd root : Rat → Rat} (hr : Rounding rnd) (mode : Mode) (size : Nat) {w h d : Rat} (ho : Ordinary rnd w h d) (t : Bool) {loc : B → PosF}
    (hok : ∀ b, ok b → Inside w h (loc b)) {reach : B → Rat} (hreach : ∀ b, |reach b| / d ≤ 2 ^ 30) (ha : ∀ b, Affordable rnd size w h (reach b))
    (R : Rule act identB ok okD (answer rnd root mode w h d t loc (fun b => .fin (reach b))) List.Perm) (hD : ∀ k, okD (draws k)) {cpus : Nat}
    (hc : shardAmount cpus ≤ 2 ^ 64) (hashO : Nat → Nat) (hashL : Loc → Nat) (zero : T) (adv : T → T)
    (tb : TieBreak T (B × Bool)) (agents : List B) (hag : ∀ b ∈ agents, ok b) (hid : (agents.map identB).Nodup) (threads n : Nat)
    (wd : World T (B × Bool) (Sync.State (PFieldF B Nat)))
    (hs : ParSteps (model adv tb (agentOps rnd root mode size identB loc (fun b => .fin (reach b))) act draws) threads n
      (Driver.start (sim zero adv tb (agentOps rnd root mode size identB loc (fun b => .fin (reach b))) act draws agents ord)
        ⟨some (new cpus hashO hashL (.fin w) (.fin h) (.fin d) t), 0⟩) wd) :
    ∃ cell, Squares cell d ∧
    ∃ pops, Rounds act (answer rnd root mode w h d t loc (fun b => .fin (reach b))) List.Perm draws (numbered agents) 0 n pops ∧
      Follows (ParMachine.ShowsAll rnd cell loc w h) ord (adv^[n] zero) n (pops n) wd ∧ ∀ p ∈ pops n, ok p.2 :=
  ⟨Single.cellOf rnd d, Single.squares_cellOf hr ho.pos,
    Sync.C184_parallel_arranged (parLaws hr mode size ho t identB ok loc hok reach hreach ha) R hD (fun h h' => h.trans h') zero adv tb agents hag hid
      (s := ⟨some (new cpus hashO hashL (.fin w) (.fin h) (.fin d) t), 0⟩) (r := []) rfl (holds_new hc hashO hashL w h d t identB loc) threads n wd hs⟩

/-- **C191**, the steps can be completed as long as an agent lives. -/
theorem C191_steps_complete {rnd root : Rat → Rat} (hr : Rounding rnd) (mode : Mode) (size : Nat) {w h d : Rat} (ho : Ordinary rnd w h d) (t : Bool) {loc : B → PosF}
    (hok : ∀ b, ok b → Inside w h (loc b)) {reach : B → Rat} (hreach : ∀ b, |reach b| / d ≤ 2 ^ 30) (ha : ∀ b, Affordable rnd size w h (reach b))
    (R : Rule act identB ok okD (answer rnd root mode w h d t loc (fun b => .fin (reach b))) List.Perm) (hD : ∀ k, okD (draws k)) {cpus : Nat}
    (hc : shardAmount cpus ≤ 2 ^ 64) (hashO : Nat → Nat) (hashL : Loc → Nat) (zero : T) (adv : T → T)
    (tb : TieBreak T (B × Bool)) (agents : List B) (hag : ∀ b ∈ agents, ok b) (hid : (agents.map identB).Nodup) (threads n : Nat) (ht : 0 < threads)
    (hlive : ∀ k < n, ∀ pops, Rounds act (answer rnd root mode w h d t loc (fun b => .fin (reach b))) List.Perm draws (numbered agents) 0 k pops → pops k ≠ []) :
    ∃ wd, ParSteps (model adv tb (agentOps rnd root mode size identB loc (fun b => .fin (reach b))) act draws) threads n
      (Driver.start (sim zero adv tb (agentOps rnd root mode size identB loc (fun b => .fin (reach b))) act draws agents ord)
        ⟨some (new cpus hashO hashL (.fin w) (.fin h) (.fin d) t), 0⟩) wd :=
  Sync.C184_parallel_steps_complete (parLaws hr mode size ho t identB ok loc hok reach hreach ha) R hD (fun h h' => h.trans h') zero adv tb agents hag hid
    (s := ⟨some (new cpus hashO hashL (.fin w) (.fin h) (.fin d) t), 0⟩) (r := []) rfl (holds_new hc hashO hashL w h d t identB loc) threads n ht hlive

/-- Agents stay proper in all rounds. -/
theorem rounds_ok {V : Type} {actV : D → B → V → B × Bool} {view : List B → B → V} {same : V → V → Prop} (R : Rule actV identB ok okD view same) (hD : ∀ k, okD (draws k))
    {agents : List B} (hag : ∀ b ∈ agents, ok b) {k n : Nat} {pops : Nat → List (Nat × B)} (hp : Rounds actV view same draws (numbered agents) k n pops) :
    ∀ j ≤ n, ∀ p ∈ pops j, ok p.2 := by
  obtain ⟨σ, _, hR⟩ := hp.rounds
  intro j
  induction j with
  | zero =>
    intro _ p hpm
    rw [hp.first] at hpm
    apply hag
    have : p.2 ∈ (numbered agents).map Prod.snd := List.mem_map.2 ⟨p, hpm, rfl⟩
    have e : (numbered agents).map Prod.snd = agents := by
      apply List.ext_getElem
      · simp [numbered]
      · intro i h1 h2
        simp [numbered]
    rwa [e] at this
  | succ j ih =>
    intro hj p hpm
    obtain ⟨v, hv, en⟩ := hR j (by omega)
    rw [en] at hpm
    unfold Sync.nextSeen at hpm
    obtain ⟨q, hq, e⟩ := List.mem_filterMap.1 hpm
    dsimp only at e
    split_ifs at e with hlive
    cases e
    refine R.ok _ _ _ _ (hD _) (ih (by omega) q hq) ?_ (hv q hq) hlive
    intro c hc
    obtain ⟨c', hc', rfl⟩ := List.mem_map.1 hc
    exact ih (by omega) c' hc'

/-! ### C186 and C187 with the feature `parallel` -/

/-- **C186** (`_partial` as `C186_flock_stays_inside_partial`), with the feature `parallel`: any number of threads and processors, every interleaving. A bird looks 10 far, which
is affordable in every world of ordinary size up to 2^20 by 2^20 if a bird takes at most 2^15 bytes (`affordable_ten`). -/
theorem C186_parallel_flock_stays_inside_partial {rnd root : Rat → Rat} (hr : Rounding rnd) (hroot : Root root) (mode : Mode) (size : Nat) {w h : Rat}
    (ho : Ordinary rnd w h (1 / 2)) (ha : Affordable rnd size w h 10) (hwf : IsF32 w) (hwh : w ≤ h) {draws : Nat → Rat × Rat} (hD : ∀ k, Draw (draws k)) {cpus : Nat}
    (hc : shardAmount cpus ≤ 2 ^ 64) (hashO : Nat → Nat) (hashL : Loc → Nat) (zero : T) (adv : T → T) (tb : TieBreak T (BirdF × Bool))
    (birds : List BirdF) (hb : ∀ b ∈ birds, GoodBird w h b) (hid : (birds.map BirdF.id).Nodup) (threads n : Nat)
    (wd : World T (BirdF × Bool) (Sync.State (PFieldF BirdF Nat)))
    (hs : ParSteps (model adv tb (agentOps rnd root mode size BirdF.id BirdF.pos (fun _ => .fin 10)) (birdAct rnd root (.fin w) (.fin h)) draws) threads n
      (Driver.start (sim zero adv tb (agentOps rnd root mode size BirdF.id BirdF.pos (fun _ => .fin 10)) (birdAct rnd root (.fin w) (.fin h)) draws birds ord)
        ⟨some (new cpus hashO hashL (.fin w) (.fin h) (.fin (1 / 2)) true), 0⟩) wd) :
    ∃ cell, Squares cell (1 / 2) ∧
    ∃ pops, Rounds (birdAct rnd root (.fin w) (.fin h)) (answer rnd root mode w h (1 / 2) true BirdF.pos (fun _ => .fin 10)) List.Perm draws (numbered birds) 0 n pops ∧
      Follows (ParMachine.ShowsAll rnd cell BirdF.pos w h) ord (adv^[n] zero) n (pops n) wd ∧ ∀ p ∈ pops n, GoodBird w h p.2 :=
  C191_parallel_machine_field hr mode size ho true (fun _ hb => good_inside hb) (reach := fun _ => 10) (fun _ => by norm_num) (fun _ => ha)
    (bird_rule hr hroot mode ho hwf hwh) hD hc hashO hashL zero adv tb birds hb hid threads n wd hs

/-- **C187** (`_partial` as `C187_same_flock_partial`), with the feature `parallel`: up to three birds end alike for all numbers of threads and processors, all hash functions
and all interleavings, and as without the feature. -/
theorem C187_parallel_same_flock_partial {rnd root : Rat → Rat} (hr : Rounding rnd) (hroot : Root root) (mode : Mode) (size : Nat) {w h : Rat}
    (ho : Ordinary rnd w h (1 / 2)) (ha : Affordable rnd size w h 10) (hwf : IsF32 w) (hwh : w ≤ h) {r : Rat × Rat} (hD : Draw r) {cpus : Nat}
    (hc : shardAmount cpus ≤ 2 ^ 64) (hashO : Nat → Nat) (hashL : Loc → Nat) (zero : T) (adv : T → T) (tb tb' : TieBreak T (BirdF × Bool))
    (birds : List BirdF) (hb : ∀ b ∈ birds, GoodBird w h b) (hid : (birds.map BirdF.id).Nodup) (hfew : birds.length ≤ 3) (threads n : Nat)
    (wd : World T (BirdF × Bool) (Sync.State (PFieldF BirdF Nat)))
    (hs : ParSteps (model adv tb (agentOps rnd root mode size BirdF.id BirdF.pos (fun _ => .fin 10)) (birdAct rnd root (.fin w) (.fin h)) (fun _ => r)) threads n
      (Driver.start (sim zero adv tb (agentOps rnd root mode size BirdF.id BirdF.pos (fun _ => .fin 10)) (birdAct rnd root (.fin w) (.fin h)) (fun _ => r) birds ord)
        ⟨some (new cpus hashO hashL (.fin w) (.fin h) (.fin (1 / 2)) true), 0⟩) wd) :
    wd.sched.events.Perm
    (steps (model adv tb' (birdOps rnd root mode) (birdAct rnd root (.fin w) (.fin h)) (fun _ => r)) n
      (Driver.start (sim zero adv tb' (birdOps rnd root mode) (birdAct rnd root (.fin w) (.fin h)) (fun _ => r) birds ord)
        ⟨Machine.new rnd mode (.fin w) (.fin h) (.fin (1 / 2)) true, 0⟩)).sched.events := by
  obtain ⟨_, _, pops, hp, h1, _⟩ := C186_parallel_flock_stays_inside_partial (ord := ord) hr hroot mode size ho ha hwf hwh (draws := fun _ => r) (fun _ => hD) hc hashO hashL
    zero adv tb birds hb hid threads n wd hs
  obtain ⟨_, _, pops', hp', h1'⟩ := C186_flock_stays_inside_partial (ord := ord) hr hroot mode ho hwf hwh (draws := fun _ => r) (fun _ => hD) zero adv tb' birds hb hid n
  have a := h1.agents
  have a' := (h1' n (le_refl _)).1.agents
  rw [few_rounds_same hr mode ho hid hfew hp hp' (rounds_ok (bird_rule hr hroot mode ho hwf hwh) (draws := fun _ => r) (fun _ => hD) hb hp)] at a
  exact a.trans a'.symm

theorem affordable_ten {rnd : Rat → Rat} (hr : Rounding rnd) {size : Nat} (hs : size ≤ 2 ^ 15) {w h : Rat} (hw : 0 ≤ w) (hh : 0 ≤ h) (hw' : w ≤ 2 ^ 20) (hh' : h ≤ 2 ^ 20) :
    Affordable rnd size w h 10 := by
  have a : (rnd (w * h)).floor.toNat ≤ 2 ^ 40 := by
    have := (abs_le.1 (rnd_pow hr 40 (x := w * h) (by rw [abs_of_nonneg (mul_nonneg hw hh)]; nlinarith))).2
    have h2 : ((rnd (w * h)).floor : Rat) ≤ ((2 ^ 40 : Int) : Rat) := by push_cast; exact le_trans (Rat.floor_le _) this
    have h3 : (rnd (w * h)).floor ≤ 2 ^ 40 := by exact_mod_cast h2
    omega
  have b : (rnd (10 * 10)).floor.toNat ≤ 2 ^ 7 := by
    have := (abs_le.1 (rnd_pow hr 7 (x := 10 * 10) (by norm_num))).2
    have h2 : ((rnd (10 * 10)).floor : Rat) ≤ ((2 ^ 7 : Int) : Rat) := by push_cast; exact le_trans (Rat.floor_le _) this
    have h3 : (rnd (10 * 10)).floor ≤ 2 ^ 7 := by exact_mod_cast h2
    omega
  have c := Nat.mul_le_mul a b
  unfold Affordable
  generalize (rnd (w * h)).floor.toNat * (rnd (10 * 10)).floor.toNat = C at *
  exact ⟨lt_of_le_of_lt (Nat.mul_le_mul hs c) (by norm_num), lt_of_le_of_lt c (by norm_num)⟩

/-- A flock in a parallel run: steps of it exist. -/
example : ∃ wd, ParSteps (model (· + 1) (fun _ _ => 0) (agentOps Single.single Single.root .debug 32 BirdF.id BirdF.pos (fun _ => .fin 10))
      (birdAct Single.single Single.root (.fin 10) (.fin 10)) (fun _ => (1 / 4, 1 / 4))) 2 3
      (Driver.start (sim (0 : Nat) (· + 1) (fun _ _ => 0) (agentOps Single.single Single.root .debug 32 BirdF.id BirdF.pos (fun _ => .fin 10))
        (birdAct Single.single Single.root (.fin 10) (.fin 10)) (fun _ => (1 / 4, 1 / 4)) ((List.range 3).map (fun i => newBird Single.single (.fin 10) (.fin 10) i (1 / 3, 1 / 4)))
        (fun _ => 0)) ⟨some (new 4 id (fun l => l.x.toNat) (.fin 10) (.fin 10) (.fin (1 / 2)) true), 0⟩) wd := by
  have h10 : IsF32 10 := ⟨10, 0, by norm_num, by norm_num, by norm_num⟩
  have hg : ∀ b ∈ (List.range 3).map (fun i => newBird Single.single (.fin 10) (.fin 10) i (1 / 3, 1 / 4)), GoodBird 10 10 b := by
    intro b hb
    obtain ⟨i, _, rfl⟩ := List.mem_map.1 hb
    exact C186_new_birds_partial Single.rounding_single (by norm_num) (by norm_num) (by norm_num) (by norm_num) h10 h10 i (by norm_num) (by norm_num) (by norm_num) (by norm_num)
  refine C191_steps_complete Single.rounding_single .debug 32 ordinary_ten true (fun _ hb => good_inside hb) (reach := fun _ => 10) (fun _ => by norm_num)
    (fun _ => affordable_ten Single.rounding_single (by norm_num) (by norm_num) (by norm_num) (by norm_num) (by norm_num))
    (bird_rule Single.rounding_single Single.root_root .debug ordinary_ten h10 (le_refl _)) (draws := fun _ => (1 / 4, 1 / 4))
    (fun _ => ⟨2 ^ 22, 2 ^ 22, by norm_num, by norm_num, by norm_num, by norm_num⟩) (by decide +kernel) id (fun l => l.x.toNat) 0 (· + 1) (fun _ _ => 0) _ hg
    (by decide +kernel) 2 3 (by norm_num) ?_
  intro k _ pops hp
  obtain ⟨_, _, hR⟩ := hp.rounds
  have key : ∀ j ≤ k, (pops j).length = 3 := by
    intro j
    induction j with
    | zero => intro _; rw [hp.first]; simp [numbered]
    | succ j ih =>
      intro hj
      obtain ⟨v, _, en⟩ := hR j (by omega)
      rw [en]
      unfold Sync.nextSeen
      simp only [birdAct, if_true]
      have len : ∀ (g : Nat × BirdF → Nat × BirdF) (l : List (Nat × BirdF)), (l.filterMap (fun x => some (g x))).length = l.length := by
        intro g l
        induction l with
        | nil => rfl
        | cons a l ih => rw [List.filterMap_cons]; simp only [List.length_cons, ih]
      rw [len (fun x => (x.1, move Single.single Single.root (.fin 10) (.fin 10) (1 / 4, 1 / 4) x.2 (v x.1)))]
      exact ih (by omega)
  intro he
  have := key k (le_refl _)
  rw [he] at this
  cases this

end Agents

end Verif.ParMachine
