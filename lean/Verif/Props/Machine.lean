import Verif.Lemmas.Machine

/-!
C181–C183: the continuous field on every `f32`, with infinities, NaN, saturating casts and `i32` overflow.
-/

set_option linter.unusedSectionVars false

namespace Verif.Machine

open Grid
open Torus (Pos fmod)
open Single (Rounding Root Squares published written Singles allowance IsF32 single)
open Field2D (InField FieldOp Within CarriesLocation)
open DenseI32 (Mode fit)

variable {O : Type} [BEq O]

/-- The field after a program, from `new` on. -/
def session (rnd : Rat → Rat) (m : Mode) (w h d : F) (t : Bool) (hist : List (OpF O)) : Option (FieldF O) :=
  (new rnd m w h d t).bind (fun f => run rnd m f hist)

theorem session_of {rnd : Rat → Rat} (hr : Rounding rnd) (m : Mode) {w h d : Rat} (ho : Ordinary rnd w h d) (t : Bool) {hist : List (FieldOp O)}
    (hin : ∀ op ∈ hist, op.InField w h) {g : Field2D.Field O} (hg : Single.run rnd (Single.new rnd w h d t) hist = some g) :
    session rnd m (.fin w) (.fin h) (.fin d) t (hist.map ofOp) = some (ofField g) ∧ Sized rnd w h d g := by
  obtain ⟨a, b⟩ := run_of hr m ho (new_sized rnd w h d t) hist hin hg
  refine ⟨?_, b⟩
  unfold session
  rw [new_of hr m ho t]
  exact a

/-- **C181 (partial).** In both builds, on a field of at most 2^24 cells, a program that places objects at numbers in the field never panics, and every position
shows the objects placed in its cell. Missing: positions that are not numbers, which are not always refused. -/
theorem C181_numbers_partial (rnd : Rat → Rat) (hr : Rounding rnd) (m : Mode) (w h d : Rat) (t : Bool) (ho : Ordinary rnd w h d) :
    ∃ cell : Pos → Int × Int, Squares cell d ∧ ∀ hist : List (FieldOp O), (∀ op ∈ hist, op.InField w h) →
      ∃ f, session rnd m (.fin w) (.fin h) (.fin d) t (hist.map ofOp) = some f ∧ ∀ p, InField w h p →
        getObjects rnd m f (ofPos p) = some (published cell hist p) ∧
        getObjectsUnbuffered rnd m f (ofPos p) = some (written cell hist p) ∧
        numObjectsAtLocation rnd m f (ofPos p) = some (published cell hist p).length := by
  obtain ⟨cell, h1, h2⟩ := Single.C173_history_partial (O := O) rnd hr w h d t ho.pos ho.dw ho.dh ho.cells
  refine ⟨cell, h1, ?_⟩
  intro hist hin
  obtain ⟨g, h3, h4⟩ := h2 hist hin
  obtain ⟨a, b⟩ := session_of hr m ho t hin h3
  refine ⟨ofField g, a, ?_⟩
  intro p hp
  obtain ⟨c1, c2, c3⟩ := h4 p hp
  have e : ∀ v : List (List O), DenseI32.vecGet m v (ofField g).dh (discretize rnd (ofField g).discretization (ofPos p)) =
      Grid.vecGet v g.dh (Single.discretize rnd g.discretization p) := by
    intro v
    show DenseI32.vecGet m v g.dh (discretize rnd (.fin g.discretization) (ofPos p)) = _
    rw [b.dh, b.disc]
    exact vecGet_of hr m ho v hp
  unfold getObjects getObjectsUnbuffered numObjectsAtLocation
  rw [e, e]
  exact ⟨c1, c2, c3⟩

/-- The value a NaN is taken for. -/
def nanAsZero : F → F
  | .nan => .fin 0
  | v => v

theorem cell_nanAsZero {rnd : Rat → Rat} (hr : Rounding rnd) {d : Rat} (hd : d ≠ 0) (v : F) :
    toI32 (floor (div rnd (nanAsZero v) (.fin d))) = toI32 (floor (div rnd v (.fin d))) := by
  cases v with
  | nan =>
    show toI32 (floor (div rnd (.fin 0) (.fin d))) = 0
    rw [div_of hr hd (by rw [zero_div]; norm_num), zero_div, hr.zero]
    decide +kernel
  | inf s => rfl
  | fin q => rfl

/-- **C181** is false of the code, first way: on every field, and in both builds, a coordinate that is NaN is taken for 0 by `set_object_location`, so that the
object is stored on the border of the field. -/
theorem C181_nan_stored_partial (rnd : Rat → Rat) (hr : Rounding rnd) (m : Mode) (f : FieldF O) (d : Rat) (hd : d ≠ 0) (hf : f.discretization = .fin d) (o : O) (x y : F) :
    setObjectLocation rnd m f o ⟨x, y⟩ = setObjectLocation rnd m f o ⟨nanAsZero x, nanAsZero y⟩ ∧
      getObjects rnd m f ⟨x, y⟩ = getObjects rnd m f ⟨nanAsZero x, nanAsZero y⟩ := by
  have e : discretize rnd (.fin d) ⟨x, y⟩ = discretize rnd (.fin d) ⟨nanAsZero x, nanAsZero y⟩ := by
    unfold discretize
    rw [cell_nanAsZero hr hd x, cell_nanAsZero hr hd y]
  unfold setObjectLocation getObjects
  rw [hf, e]
  exact ⟨rfl, rfl⟩

/-- Neither out of the field nor a number that is. -/
def Proper (w : Rat) (v : F) : Prop := v = .nan ∨ (∃ s, v = .inf s) ∨ ∃ q, v = .fin q ∧ 0 ≤ q ∧ q ≤ w

theorem cell_proper {rnd : Rat → Rat} (hr : Rounding rnd) {w h d : Rat} (ho : Ordinary rnd w h d) {v : F} (hv : Proper w v) :
    (v = .inf false ∧ toI32 (floor (div rnd v (.fin d))) = 2 ^ 31 - 1) ∨ (v = .inf true ∧ toI32 (floor (div rnd v (.fin d))) = -2 ^ 31) ∨
      ((∀ s, v ≠ .inf s) ∧ 0 ≤ toI32 (floor (div rnd v (.fin d))) ∧ toI32 (floor (div rnd v (.fin d))) ≤ Single.cellsAlong rnd w d) := by
  have hnd : decide (d < 0) = false := decide_eq_false (not_lt.2 ho.pos.le)
  have hc := one_le_cells hr ho.pos ho.dw
  rcases hv with rfl | ⟨s, rfl⟩ | ⟨q, rfl, h1, h2⟩
  · right; right
    exact ⟨fun s => by simp, le_refl 0, by show (0 : Int) ≤ _; omega⟩
  · have e : div rnd (.inf s) (.fin d) = .inf s := by
      show F.inf (s != decide (d < 0)) = _
      rw [hnd]
      cases s <;> rfl
    rw [e]
    cases s
    · exact Or.inl ⟨rfl, rfl⟩
    · exact Or.inr (Or.inl ⟨rfl, rfl⟩)
  · right; right
    obtain ⟨a, b, c⟩ := cell_of hr ho h1 h2
    rw [a]
    exact ⟨fun s => by simp, b, c⟩

theorem index_debug_none {h : Int} {l : Loc} (hx : l.x * h < -2 ^ 31 ∨ 2 ^ 31 ≤ l.x * h) : DenseI32.index .debug h l = none := by
  unfold DenseI32.index
  have : fit .debug (l.x * h) = none := if_neg (by omega)
  rw [this]

theorem index_debug {h : Int} {l : Loc} (h1 : -2 ^ 31 ≤ l.x * h) (h2 : l.x * h < 2 ^ 31) : DenseI32.index .debug h l = fit .debug (l.x * h + l.y) := by
  unfold DenseI32.index
  rw [DenseI32.fit_of .debug h1 h2]

/-- **C181 (partial), debug builds.** In a debug build a position with an infinite coordinate, the other being in the field or not a number, makes
`set_object_location` panic, on every field of at most 2^24 cells after every program. Missing: release builds, and positions out of the field. -/
theorem C181_infinite_refused_partial (rnd : Rat → Rat) (hr : Rounding rnd) (w h d : Rat) (t : Bool) (ho : Ordinary rnd w h d) (hist : List (FieldOp O))
    (hin : ∀ op ∈ hist, op.InField w h) (o : O) (x y : F) (hx : Proper w x) (hy : Proper h y) (hinf : (∃ s, x = .inf s) ∨ ∃ s, y = .inf s) :
    ∃ f, session rnd .debug (.fin w) (.fin h) (.fin d) t (hist.map ofOp) = some f ∧ setObjectLocation rnd .debug f o ⟨x, y⟩ = none := by
  obtain ⟨g, h1, _, _, _, _, h6⟩ := Single.shows_image (O := O) hr t ho.pos ho.dw ho.dh ho.cells hist hin
  obtain ⟨a, b⟩ := session_of hr .debug ho t hin h1
  refine ⟨ofField g, a, ?_⟩
  have hw1 := one_le_cells hr ho.pos ho.dw
  have hh1 := one_le_cells hr ho.pos ho.dh
  have hw2 := cells_lt hr ho
  have hh2 := cells_lt hr ho.flip
  have hlen : (g.bags.length : Int) ≤ 2 ^ 24 := by
    have h7 : g.bags.length = (g.dw * g.dh).toNat := h6.wf.b
    rw [h7, b.dw, b.dh]
    have := ho.cells
    omega
  suffices hs : DenseI32.vecGet .debug g.bags (Single.cellsAlong rnd h d + 1) (discretize rnd (.fin d) ⟨x, y⟩) = none by
    unfold setObjectLocation
    have : DenseI32.vecGet .debug (ofField g).bags (ofField g).dh (discretize rnd (ofField g).discretization ⟨x, y⟩) = none := by
      show DenseI32.vecGet .debug g.bags g.dh (discretize rnd (.fin g.discretization) ⟨x, y⟩) = none
      rw [b.dh, b.disc]
      exact hs
    rw [this]
  have hcells := ho.cells
  have cx := cell_proper hr ho hx
  have cy := cell_proper hr ho.flip hy
  unfold discretize
  simp only
  generalize toI32 (floor (div rnd x (.fin d))) = X at *
  generalize toI32 (floor (div rnd y (.fin d))) = Y at *
  unfold DenseI32.vecGet
  generalize Single.cellsAlong rnd h d = H at *
  generalize Single.cellsAlong rnd w d = W at *
  rcases cx with ⟨_, rfl⟩ | ⟨_, rfl⟩ | ⟨nx, x0, x1⟩
  · rw [index_debug_none (Or.inr (by show (2 : Int) ^ 31 ≤ (2 ^ 31 - 1) * (H + 1); omega))]
  · rw [index_debug_none (Or.inl (by show (-2 ^ 31 : Int) * (H + 1) < -2 ^ 31; omega))]
  · have hle : X * (H + 1) ≤ (W + 1) * (H + 1) := Int.mul_le_mul_of_nonneg_right (by omega) (by omega)
    have hge : 0 ≤ X * (H + 1) := Int.mul_nonneg x0 (by omega)
    rw [index_debug (by show (-2 ^ 31 : Int) ≤ X * (H + 1); omega) (by show X * (H + 1) < 2 ^ 31; omega)]
    show (match fit .debug (X * (H + 1) + Y) with | none => none | some i => if 0 ≤ i then g.bags[i.toNat]? else none) = none
    generalize X * (H + 1) = Z at *
    rcases cy with ⟨_, rfl⟩ | ⟨_, rfl⟩ | ⟨ny, _, _⟩
    · by_cases hz : Z = 0
      · rw [DenseI32.fit_of .debug (by omega) (by omega), hz]
        show (if _ then _ else _) = _
        rw [if_pos (by omega), List.getElem?_eq_none (by omega)]
      · have : fit .debug (Z + (2 ^ 31 - 1)) = none := if_neg (by omega)
        rw [this]
    · rw [DenseI32.fit_of .debug (by omega) (by omega)]
      show (if _ then _ else _) = _
      rw [if_neg (by omega)]
    · rcases hinf with ⟨s, hs⟩ | ⟨s, hs⟩
      · exact absurd hs (nx s)
      · exact absurd hs (ny s)

theorem fit_release (z : Int) : fit .release z = some ((z + 2 ^ 31) % 2 ^ 32 - 2 ^ 31) := rfl

/-- **C181** is false of the code, second way: in a release build of a field with an even number of rows of bags, an object whose first coordinate is minus
infinity is stored as if that coordinate were 0. -/
theorem C181_infinity_stored_partial (rnd : Rat → Rat) (hr : Rounding rnd) (f : FieldF O) (d : Rat) (hd : 0 < d) (hf : f.discretization = .fin d)
    (heven : f.dh % 2 = 0) (o : O) (y : F) :
    setObjectLocation rnd .release f o ⟨.inf true, y⟩ = setObjectLocation rnd .release f o ⟨.fin 0, y⟩ := by
  have e1 : toI32 (floor (div rnd (.inf true) (.fin d))) = -2 ^ 31 := by
    have : div rnd (.inf true) (.fin d) = .inf true := by
      show F.inf (true != decide (d < 0)) = _
      rw [decide_eq_false (not_lt.2 hd.le)]
      rfl
    rw [this]
    rfl
  have e2 : toI32 (floor (div rnd (.fin 0) (.fin d))) = 0 := by
    rw [div_of hr hd.ne' (by rw [zero_div]; norm_num), zero_div, hr.zero]
    decide +kernel
  have e3 : ∀ Y : Int, DenseI32.index .release f.dh ⟨-2 ^ 31, Y⟩ = DenseI32.index .release f.dh ⟨0, Y⟩ := by
    intro Y
    unfold DenseI32.index
    simp only [fit_release]
    have : (-2 ^ 31 * f.dh + 2 ^ 31) % 2 ^ 32 - 2 ^ 31 = (0 * f.dh + 2 ^ 31) % 2 ^ 32 - 2 ^ 31 := by omega
    rw [this]
  unfold setObjectLocation discretize DenseI32.vecGet DenseI32.vecSet
  simp only [hf, e1, e2, e3]

/-- **C181** is false of the code, third way: the exact search returns an object that is nowhere, if the cell it was put in lies within the circle. -/
theorem C181_nan_found_partial :
    ((session single .debug (.fin 10) (.fin 10) (.fin 1) true [.lazyUpdate, .place (⟨.nan, .nan⟩ : PosF) ⟨.nan, .nan⟩]).bind fun f =>
      getNeighborsWithinDistance single Single.root .debug f id ⟨.fin (1 / 2), .fin (1 / 2)⟩ (.fin 3)) = some [⟨.nan, .nan⟩] ∧
    dist single Single.root ⟨.fin (1 / 2), .fin (1 / 2)⟩ ⟨.nan, .nan⟩ (.fin 10) (.fin 10) true = .nan := by
  decide +kernel

-- the hypotheses of the theorems hold for a field of 10 by 10 with cells of 0.7f32; objects at the border and inside
example : Ordinary single 10 10 (single (7 / 10)) :=
  ⟨by decide +kernel, by decide +kernel, by decide +kernel, by norm_num, by norm_num, by decide +kernel⟩

example : (session single .debug (.fin 10) (.fin 10) (.fin (single (7 / 10))) true [.lazyUpdate, .place 1 ⟨.fin 5, .fin 5⟩, .place 2 ⟨.fin 10, .fin 10⟩]).bind
    (fun f => (getObjects single .debug f ⟨.fin 5, .fin (single (55 / 10))⟩).bind (fun a => (getObjects single .debug f ⟨.fin 10, .fin 10⟩).map (fun b => (a, b)))) =
      some ([1], [2]) := by decide +kernel

-- minus infinity in a release build with 10 rows of bags, refused in a debug build
example : (session single .release (.fin 9) (.fin 9) (.fin 1) true [.lazyUpdate, .place 1 ⟨.inf true, .fin 5⟩]).bind
    (fun f => getObjects single .release f ⟨.fin 0, .fin 5⟩) = some [1] ∧
    session single .debug (.fin 9) (.fin 9) (.fin 1) true [.lazyUpdate, .place 1 ⟨.inf true, .fin 5⟩] = none := by decide +kernel

/-! ### searches -/

/-- **C182 (partial).** In both builds the exact search around a number in the field, with a distance of at most 2^31 - 2^25 cells, never panics, returns only published
objects, and every object it returns is within the distance up to the rounding allowance. Missing: larger distances, where it panics or returns nothing; as in
C174, exact distances and large distances on a torus. -/
theorem C182_sound_partial (rnd root : Rat → Rat) (hr : Rounding rnd) (hq : Root root) (m : Mode) (w h d : Rat) (t : Bool) (ho : Ordinary rnd w h d) (hd : 1 / 2 ^ 40 ≤ d) :
    ∃ cell : Pos → Int × Int, Squares cell d ∧ ∀ hist : List (FieldOp O), (∀ op ∈ hist, op.InField w h) → Singles w h hist →
      ∀ locOf : O → Pos, CarriesLocation locOf hist → ∀ loc : Pos, InField w h loc → IsF32 loc.x → IsF32 loc.y → ∀ dis : Rat, dis / d ≤ 2 ^ 31 - 2 ^ 25 →
      (t = true → 2 * (dis + allowance w h d dis) + d + allowance w h d dis < w ∧ 2 * (dis + allowance w h d dis) + d + allowance w h d dis < h) →
      ∃ f r, session rnd m (.fin w) (.fin h) (.fin d) t (hist.map ofOp) = some f ∧
        getNeighborsWithinDistance rnd root m f (fun o => ofPos (locOf o)) (ofPos loc) (.fin dis) = some r ∧
        ∀ o ∈ r, o ∈ published cell hist (locOf o) ∧ Within t w h (locOf o) loc (dis + allowance w h d dis) := by
  obtain ⟨cell, h1, h2⟩ := Single.C174_sound_partial (O := O) rnd root hr hq w h d t hd ho.dw ho.dh ho.cells
  refine ⟨cell, h1, ?_⟩
  intro hist hin hs locOf hcl loc hl hx hy dis hdis hsmall
  obtain ⟨g, r, h3, h4, h5⟩ := h2 hist hin hs locOf hcl loc hl hx hy dis hsmall
  obtain ⟨a, b⟩ := session_of hr m ho t hin h3
  refine ⟨ofField g, r, a, ?_, h5⟩
  rw [exact_of root hr m ho b ?_ hl (fun _ => fits_of hr ho _ hl hdis), h4]
  intro l hl o hol
  obtain ⟨p, hp⟩ := run_placed hist h3 l (Or.inr hl) o hol
  rw [hcl o p hp]
  exact Small.of_inField ho.wide ho.high (hin _ hp)

/-- **C182 (partial), guaranteed radius.** In both builds the exact search with a distance of at most 2^31 - 2^25 cells returns every published object that is clear of the
upper borders by the rounding allowance and nearer than `dis - 3 d / 2` less the allowance. Missing: larger distances; the rest as in C174. -/
theorem C182_guaranteed_radius_partial (rnd root : Rat → Rat) (hr : Rounding rnd) (hq : Root root) (m : Mode) (w h d : Rat) (t : Bool) (ho : Ordinary rnd w h d)
    (hd : 1 / 2 ^ 40 ≤ d) :
    ∃ cell : Pos → Int × Int, Squares cell d ∧ ∀ hist : List (FieldOp O), (∀ op ∈ hist, op.InField w h) → IsF32 w → IsF32 h →
      ∀ (locOf : O → Pos), CarriesLocation locOf hist → ∀ loc : Pos, InField w h loc → IsF32 loc.x → IsF32 loc.y → ∀ dis : Rat, IsF32 dis → dis / d ≤ 2 ^ 31 - 2 ^ 25 →
      0 ≤ dis - 3 * d / 2 - allowance w h d dis → ∃ f r, session rnd m (.fin w) (.fin h) (.fin d) t (hist.map ofOp) = some f ∧
        getNeighborsWithinDistance rnd root m f (fun o => ofPos (locOf o)) (ofPos loc) (.fin dis) = some r ∧
        ∀ o, o ∈ published cell hist (locOf o) → InField w h (locOf o) → IsF32 (locOf o).x → IsF32 (locOf o).y →
          (locOf o).x ≤ w - allowance w h d dis → (locOf o).y ≤ h - allowance w h d dis →
          Within false w h (locOf o) loc (dis - 3 * d / 2 - allowance w h d dis) → o ∈ r := by
  obtain ⟨cell, h1, h2⟩ := Single.C174_guaranteed_radius_partial (O := O) rnd root hr hq w h d t hd ho.dw ho.dh ho.cells
  refine ⟨cell, h1, ?_⟩
  intro hist hin fw fh locOf hcl loc hl hx hy dis fdis hdis hrad
  obtain ⟨g, r, h3, h4, h5⟩ := h2 hist hin fw fh locOf loc hl hx hy dis fdis hrad
  obtain ⟨a, b⟩ := session_of hr m ho t hin h3
  refine ⟨ofField g, r, a, ?_, h5⟩
  rw [exact_of root hr m ho b ?_ hl (fun _ => fits_of hr ho _ hl hdis), h4]
  intro l hl o hol
  obtain ⟨p, hp⟩ := run_placed hist h3 l (Or.inr hl) o hol
  rw [hcl o p hp]
  exact Small.of_inField ho.wide ho.high (hin _ hp)

/-- The distance in cells saturates: it is infinite, or at least 2^31 cells. -/
def Huge (d : Rat) (dis : F) : Prop := dis = .inf false ∨ ∃ q, dis = .fin q ∧ 2 ^ 31 * d ≤ q

theorem huge_cells {rnd : Rat → Rat} (hr : Rounding rnd) {d : Rat} (hd : 0 < d) {dis : F} (h : Huge d dis) : toI32 (floor (div rnd dis (.fin d))) = 2 ^ 31 - 1 := by
  rcases h with rfl | ⟨q, rfl, hq⟩
  · have : div rnd (.inf false) (.fin d) = .inf false := by
      show F.inf (false != decide (d < 0)) = _
      rw [decide_eq_false (not_lt.2 hd.le)]
      rfl
    rw [this]
    rfl
  · have h1 : (2 : Rat) ^ 31 ≤ q / d := by rw [le_div_iff₀ hd]; exact hq
    have h2 : (2 : Rat) ^ 31 ≤ rnd (q / d) := by
      have := hr.mono _ _ h1
      rwa [hr.keeps ⟨1, 31, by norm_num, by norm_num, by norm_num⟩] at this
    show toI32 (floor (if d = 0 then _ else ofRat rnd (q / d))) = _
    rw [if_neg hd.ne']
    unfold ofRat
    split_ifs with c1 c2
    · rfl
    · have : (0 : Rat) < largest := lt_of_lt_of_le (by norm_num) pow_le_largest
      linarith
    · show Max.max (-2 ^ 31) (Min.min (if (0 : Rat) ≤ ((rnd (q / d)).floor : Rat) then ((rnd (q / d)).floor : Rat).floor else ((rnd (q / d)).floor : Rat).ceil) (2 ^ 31 - 1)) = _
      have h3 : (2 : Int) ^ 31 ≤ (rnd (q / d)).floor := Rat.le_floor_iff.2 (by exact_mod_cast h2)
      rw [floor_int, ceil_int, ite_self]
      omega

theorem huge_not_le {d : Rat} (hd : 0 < d) {dis : F} (h : Huge d dis) : le dis (.fin 0) = false := by
  rcases h with rfl | ⟨q, rfl, hq⟩
  · rfl
  · show decide (q ≤ 0) = false
    rw [decide_eq_false]
    have : (0 : Rat) < 2 ^ 31 * d := by positivity
    linarith

theorem window_debug {t : Bool} {c k : Int} (hc : 1 ≤ c) : window .debug t c (2 ^ 31 - 1) k = none := by
  unfold window
  have : fit .debug (c + (2 ^ 31 - 1)) = none := if_neg (by omega)
  rw [this]
  cases fit .debug (c - (2 ^ 31 - 1)) <;> rfl

theorem window_release {t : Bool} {c k : Int} (hc : 1 ≤ c) (hc' : c < 2 ^ 31) : ∃ lo hi, window .release t c (2 ^ 31 - 1) k = some (lo, hi) ∧ hi < lo ∧ hi < 2 ^ 31 - 1 ∧ -2 ^ 31 ≤ hi := by
  unfold window
  simp only [fit_release]
  have e : (c + (2 ^ 31 - 1) + 2 ^ 31) % 2 ^ 32 - 2 ^ 31 = c - 1 - 2 ^ 31 := by omega
  have e' : (c - (2 ^ 31 - 1) + 2 ^ 31) % 2 ^ 32 - 2 ^ 31 = c - (2 ^ 31 - 1) := by omega
  rw [e, e']
  cases t
  · exact ⟨_, _, rfl, by omega, by omega, by omega⟩
  · refine ⟨_, _, rfl, ?_, ?_, ?_⟩
    · omega
    · omega
    · have := Int.emod_nonneg (k - 1 + 2 ^ 31) (show (2 : Int) ^ 32 ≠ 0 by norm_num)
      omega

theorem pairs_release_x {wx wy : Int × Int} (h1 : wx.2 < wx.1) (h2 : wx.2 < 2 ^ 31 - 1) (h3 : -2 ^ 31 ≤ wx.2) : pairs .release wx wy = some [] := by
  unfold pairs
  rw [DenseI32.fit_of .release (by omega) (by omega)]
  exact if_pos (by omega)

theorem pairs_release_y {wx wy : Int × Int} (h1 : wy.2 < wy.1) (h2 : wy.2 < 2 ^ 31 - 1) (h3 : -2 ^ 31 ≤ wy.2) : pairs .release wx wy = some [] := by
  unfold pairs
  rw [DenseI32.fit_of .release (show -2 ^ 31 ≤ wy.2 + 1 by omega) (by omega), fit_release]
  simp only [Option.map_some]
  split_ifs
  · rfl
  · have : upTo wy.1 (wy.2 + 1) = [] := by
      unfold upTo
      rw [show (wy.2 + 1 - wy.1).toNat = 0 by omega]
      rfl
    rw [this]
    simp

theorem window_release_some (t : Bool) (c e k : Int) : ∃ p, window .release t c e k = some p := by
  unfold window
  simp only [fit_release]
  cases t <;> exact ⟨_, rfl⟩

theorem window_not {c k maxC : Int} (t : Bool) (hc : 0 ≤ c) (hk : 0 ≤ k) (hc' : c ≤ 2 ^ 24) (hf : ¬ FitsAlong t c k) (hm : 1 ≤ maxC) (hm' : maxC ≤ 2 ^ 24) :
    (window .debug t c (Min.min k (2 ^ 31 - 1)) maxC = none ∨ ∃ lo hi, window .debug t c (Min.min k (2 ^ 31 - 1)) maxC = some (lo, hi) ∧ hi = 2 ^ 31 - 1 ∧ lo ≤ hi) ∧
      ∃ lo hi, window .release t c (Min.min k (2 ^ 31 - 1)) maxC = some (lo, hi) ∧ ((hi < lo ∧ hi < 2 ^ 31 - 1 ∧ -2 ^ 31 ≤ hi) ∨ (hi = 2 ^ 31 - 1 ∧ -2 ^ 31 ≤ lo)) := by
  have e1 : fit .debug (c - Min.min k (2 ^ 31 - 1)) = some (c - Min.min k (2 ^ 31 - 1)) := DenseI32.fit_of _ (by omega) (by omega)
  have e2 : fit .release (c - Min.min k (2 ^ 31 - 1)) = some (c - Min.min k (2 ^ 31 - 1)) := DenseI32.fit_of _ (by omega) (by omega)
  have e3 : ∀ m, fit m (maxC - 1) = some (maxC - 1) := fun m => DenseI32.fit_of _ (by omega) (by omega)
  unfold FitsAlong at hf
  unfold window
  rw [e1, e2, fit_release]
  by_cases hb : c + Min.min k (2 ^ 31 - 1) = 2 ^ 31 - 1
  · cases t
    · rw [hb, DenseI32.fit_of .debug (by omega) (by omega)]
      exact ⟨Or.inr ⟨_, _, rfl, rfl, by omega⟩, _, _, rfl, Or.inr ⟨rfl, by omega⟩⟩
    · simp only [if_true] at hf
      omega
  · have hbig : 2 ^ 31 ≤ c + Min.min k (2 ^ 31 - 1) := by
      cases t <;> simp only [Bool.false_eq_true, if_false, if_true] at hf <;> omega
    have e4 : fit .debug (c + Min.min k (2 ^ 31 - 1)) = none := if_neg (by omega)
    have e5 : (c + Min.min k (2 ^ 31 - 1) + 2 ^ 31) % 2 ^ 32 - 2 ^ 31 = c + Min.min k (2 ^ 31 - 1) - 2 ^ 32 := by omega
    rw [e4, e5]
    refine ⟨Or.inl rfl, ?_⟩
    cases t
    · exact ⟨_, _, rfl, Or.inl (by omega)⟩
    · rw [e3]
      exact ⟨_, _, rfl, Or.inl (by omega)⟩

/-- The searches that do not fit find no cell: a panic in a debug build, nothing in a release build. -/
theorem searchCells_not {rnd : Rat → Rat} (hr : Rounding rnd) {w h d : Rat} (ho : Ordinary rnd w h d) {f : Field2D.Field O} (hs : Sized rnd w h d f)
    {loc : Pos} (hl : InField w h loc) {dis : Rat} (h0 : 0 < dis) (hdis : ¬ Fits rnd f.toroidal d loc dis) :
    searchCells rnd .debug (ofField f) (ofPos loc) (.fin dis) = none ∧ searchCells rnd .release (ofField f) (ofPos loc) (.fin dis) = some [] := by
  obtain ⟨a, b⟩ := discretize_of hr ho hl
  have hw1 := one_le_cells hr ho.pos ho.dw
  have hh1 := one_le_cells hr ho.pos ho.dh
  have hw2 := cells_lt hr ho
  have hh2 := cells_lt hr ho.flip
  obtain ⟨e, hn⟩ := cells_of hr ho.pos h0.le
  obtain ⟨i1, i2, i3, i4⟩ := b
  have over : ∀ {wx : Int × Int}, wx.2 = 2 ^ 31 - 1 → fit .debug (wx.2 + 1) = none ∧ fit .release (wx.2 + 1) = some (-2 ^ 31) := by
    intro wx hw
    rw [hw]
    exact ⟨rfl, rfl⟩
  unfold searchCells
  simp only [ofField, hs.width, hs.height, hs.disc]
  rw [a, e, (cellsAlong_of hr ho).2, (cellsAlong_of hr ho.flip).2]
  by_cases hx : FitsAlong f.toroidal (Single.discretize rnd d loc).x (rnd (dis / d)).floor
  · have hy : ¬ FitsAlong f.toroidal (Single.discretize rnd d loc).y (rnd (dis / d)).floor := fun hy => hdis ⟨hx, hy⟩
    have x1 := fun m => window_of m f.toroidal i1 (by omega) hn hx hw1 hw2.le
    have hne : (Field2D.window f.toroidal (Single.discretize rnd d loc).x (rnd (dis / d)).floor (Single.cellsAlong rnd w d)).1 ≤
        (Field2D.window f.toroidal (Single.discretize rnd d loc).x (rnd (dis / d)).floor (Single.cellsAlong rnd w d)).2 := by
      have hbig : 1 ≤ (rnd (dis / d)).floor := by
        unfold FitsAlong at hy
        split_ifs at hy <;> omega
      unfold Field2D.window
      split_ifs <;> simp only <;> omega
    obtain ⟨y1, ylo, yhi, y2, y3⟩ := window_not f.toroidal i3 hn (by omega) hy hh1 hh2.le
    constructor
    · rw [(x1 .debug).1]
      rcases y1 with y1 | ⟨lo, hi, y1, rfl, y4⟩
      · rw [y1]
      · rw [y1]
        show pairs .debug _ _ = none
        unfold pairs
        rw [DenseI32.fit_of .debug (by have := (x1 .debug).2; omega) (by have := (x1 .debug).2; omega)]
        simp only
        rw [if_neg (by omega)]
        rfl
    · rw [(x1 .release).1, y2]
      rcases y3 with ⟨p1, p2, p3⟩ | ⟨rfl, p2⟩
      · exact pairs_release_y p1 p2 p3
      · show pairs .release _ _ = some []
        unfold pairs
        rw [DenseI32.fit_of .release (by have := (x1 .release).2; omega) (by have := (x1 .release).2; omega)]
        simp only
        rw [if_neg (by omega)]
        show some ((upTo _ _).flatMap (fun i => (upTo ylo (-2 ^ 31)).map (fun j => (⟨i, j⟩ : Loc)))) = some []
        have : upTo ylo (-2 ^ 31) = [] := by
          unfold upTo
          rw [show ((-2 ^ 31 : Int) - ylo).toNat = 0 by omega]
          rfl
        rw [this]
        simp
  · obtain ⟨x1, xlo, xhi, x2, x3⟩ := window_not f.toroidal i1 hn (by omega) hx hw1 hw2.le
    constructor
    · rcases x1 with x1 | ⟨lo, hi, x1, rfl, x4⟩
      · rw [x1]
      · rw [x1]
        cases window .debug f.toroidal (Single.discretize rnd d loc).y (Min.min (rnd (dis / d)).floor (2 ^ 31 - 1)) (Single.cellsAlong rnd h d) with
        | none => rfl
        | some wy => rfl
    · obtain ⟨p, hp⟩ := window_release_some f.toroidal (Single.discretize rnd d loc).y (Min.min (rnd (dis / d)).floor (2 ^ 31 - 1)) (Single.cellsAlong rnd h d)
      rw [x2, hp]
      rcases x3 with ⟨p1, p2, p3⟩ | ⟨rfl, p2⟩
      · exact pairs_release_x p1 p2 p3
      · show (if (-2 ^ 31 : Int) ≤ xlo then some [] else _) = some []
        exact if_pos p2

/-- **C182** is settled for every distance: if the ends of the search fit in an `i32`, both builds answer what the search with unbounded integers answers
(so that C174 applies); if they do not, both searches panic in a debug build and find nothing in a release build. -/
theorem C182_dividing_line_partial (rnd root : Rat → Rat) (hr : Rounding rnd) (w h d : Rat) (t : Bool) (ho : Ordinary rnd w h d) (hist : List (FieldOp O))
    (hin : ∀ op ∈ hist, op.InField w h) (locOf : O → Pos) (hcl : CarriesLocation locOf hist) :
    ∃ g, Single.run rnd (Single.new rnd w h d t) hist = some g ∧ ∀ (loc : Pos), InField w h loc → ∀ dis : Rat, 0 < dis →
    (Fits rnd t d loc dis → ∀ m, ∃ f, session rnd m (.fin w) (.fin h) (.fin d) t (hist.map ofOp) = some f ∧
      getNeighborsWithinDistance rnd root m f (fun o => ofPos (locOf o)) (ofPos loc) (.fin dis) = Single.getNeighborsWithinDistance rnd root g locOf loc dis ∧
      getNeighborsWithinRelaxDistance rnd m f (ofPos loc) (.fin dis) = Single.getNeighborsWithinRelaxDistance rnd g loc dis) ∧
    (¬ Fits rnd t d loc dis → ∃ f f', session rnd .debug (.fin w) (.fin h) (.fin d) t (hist.map ofOp) = some f ∧
      session rnd .release (.fin w) (.fin h) (.fin d) t (hist.map ofOp) = some f' ∧
      getNeighborsWithinDistance rnd root .debug f (fun o => ofPos (locOf o)) (ofPos loc) (.fin dis) = none ∧
      getNeighborsWithinRelaxDistance rnd .debug f (ofPos loc) (.fin dis) = none ∧
      getNeighborsWithinDistance rnd root .release f' (fun o => ofPos (locOf o)) (ofPos loc) (.fin dis) = some [] ∧
      getNeighborsWithinRelaxDistance rnd .release f' (ofPos loc) (.fin dis) = some []) := by
  obtain ⟨g, hg, -, -, -, ht, -⟩ := Single.shows_image hr t ho.pos ho.dw ho.dh ho.cells hist hin
  refine ⟨g, hg, fun loc hl dis h0 => ?_⟩
  constructor
  · intro hf m
    obtain ⟨a, b⟩ := session_of hr m ho t hin hg
    refine ⟨ofField g, a, exact_of root hr m ho b ?_ hl (fun _ => by rw [ht]; exact hf), relaxed_of hr m ho b hl (fun _ => by rw [ht]; exact hf)⟩
    intro l hl o hol
    obtain ⟨p, hp⟩ := run_placed hist hg l (Or.inr hl) o hol
    rw [hcl o p hp]
    exact Small.of_inField ho.wide ho.high (hin _ hp)
  · intro hf
    obtain ⟨a, b⟩ := session_of hr .debug ho t hin hg
    obtain ⟨a', b'⟩ := session_of hr .release ho t hin hg
    obtain ⟨c1, c2⟩ := searchCells_not hr ho b hl h0 (by rw [ht]; exact hf)
    have hn : le (.fin dis) (.fin 0) = false := by
      show decide (dis ≤ 0) = false
      rw [decide_eq_false]
      linarith
    refine ⟨ofField g, ofField g, a, a', ?_, ?_, ?_, ?_⟩
    all_goals
      first
      | unfold getNeighborsWithinDistance
      | unfold getNeighborsWithinRelaxDistance
      rw [hn]
      first
      | rw [c1]; rfl
      | rw [c2]; rfl

-- with 2^31 - 128 cells on cells of side 1: the cells up to 127 fit on a torus, up to 126 without; the first cell of a torus fits any distance
example : Fits single true 1 ⟨1, 1⟩ (2 ^ 31 - 128) ∧ Fits single true 1 ⟨127, 1⟩ (2 ^ 31 - 128) ∧ ¬ Fits single false 1 ⟨127, 1⟩ (2 ^ 31 - 128) ∧
    Fits single false 1 ⟨126, 1⟩ (2 ^ 31 - 128) ∧ ¬ Fits single true 1 ⟨128, 1⟩ (2 ^ 31 - 128) ∧ Fits single true 1 ⟨0, 0⟩ (2 ^ 40) := by
  unfold Fits FitsAlong
  decide +kernel

/-- **C182** is false of the code: on every field, around every position outside the first cell, a search with an infinite distance (or one of at least 2^31
cells) panics in a debug build and returns nothing at all in a release build. -/
theorem C182_huge_distance_partial (rnd root : Rat → Rat) (hr : Rounding rnd) (f : FieldF O) (d : Rat) (hd : 0 < d) (hf : f.discretization = .fin d) (locOf : O → PosF)
    (loc : PosF) (hx : 0 ≤ (discretize rnd f.discretization loc).x) (hx' : (discretize rnd f.discretization loc).x < 2 ^ 31)
    (hy : 0 ≤ (discretize rnd f.discretization loc).y) (hy' : (discretize rnd f.discretization loc).y < 2 ^ 31)
    (hcell : discretize rnd f.discretization loc ≠ ⟨0, 0⟩) (dis : F) (hdis : Huge d dis) :
    getNeighborsWithinDistance rnd root .debug f locOf loc dis = none ∧ getNeighborsWithinRelaxDistance rnd .debug f loc dis = none ∧
      getNeighborsWithinDistance rnd root .release f locOf loc dis = some [] ∧ getNeighborsWithinRelaxDistance rnd .release f loc dis = some [] := by
  have hk := huge_cells hr hd hdis
  have hn := huge_not_le hd hdis
  have hne : 1 ≤ (discretize rnd f.discretization loc).x ∨ 1 ≤ (discretize rnd f.discretization loc).y := by
    by_contra hc
    apply hcell
    generalize discretize rnd f.discretization loc = c at *
    obtain ⟨x, y⟩ := c
    simp only at hx hy hc
    obtain rfl : x = 0 := by omega
    obtain rfl : y = 0 := by omega
    rfl
  have hdebug : searchCells rnd .debug f loc dis = none := by
    unfold searchCells
    rw [hf] at *
    rw [hk]
    rcases hne with h | h
    · rw [window_debug h]
    · rw [window_debug h]
      cases window .debug f.toroidal (discretize rnd (.fin d) loc).x (2 ^ 31 - 1) (toI32 (cellsAlong rnd f.width (.fin d))) <;> rfl
  have hrelease : searchCells rnd .release f loc dis = some [] := by
    unfold searchCells
    rw [hf] at *
    rw [hk]
    rcases hne with h | h
    · obtain ⟨lo, hi, e, a, b, c⟩ := window_release (t := f.toroidal) (k := toI32 (cellsAlong rnd f.width (.fin d))) h hx'
      obtain ⟨p, hp⟩ := window_release_some f.toroidal (discretize rnd (.fin d) loc).y (2 ^ 31 - 1) (toI32 (cellsAlong rnd f.height (.fin d)))
      rw [e, hp]
      exact pairs_release_x a b c
    · obtain ⟨lo, hi, e, a, b, c⟩ := window_release (t := f.toroidal) (k := toI32 (cellsAlong rnd f.height (.fin d))) h hy'
      obtain ⟨p, hp⟩ := window_release_some f.toroidal (discretize rnd (.fin d) loc).x (2 ^ 31 - 1) (toI32 (cellsAlong rnd f.width (.fin d)))
      rw [e, hp]
      exact pairs_release_y a b c
  unfold getNeighborsWithinDistance getNeighborsWithinRelaxDistance
  rw [hn, hdebug, hrelease]
  exact ⟨rfl, rfl, rfl, rfl⟩

-- an infinite distance around an object, from its own location: outside and inside the first cell
example : (session single .release (.fin 10) (.fin 10) (.fin 1) true [.lazyUpdate, .place (⟨.fin 5, .fin 5⟩ : PosF) ⟨.fin 5, .fin 5⟩]).bind (fun f =>
      getNeighborsWithinDistance single Single.root .release f id ⟨.fin 5, .fin 5⟩ (.inf false)) = some [] ∧
    (session single .debug (.fin 10) (.fin 10) (.fin 1) true [.lazyUpdate, .place (⟨.fin 5, .fin 5⟩ : PosF) ⟨.fin 5, .fin 5⟩]).bind (fun f =>
      getNeighborsWithinDistance single Single.root .debug f id ⟨.fin 5, .fin 5⟩ (.inf false)) = none ∧
    (session single .debug (.fin 10) (.fin 10) (.fin 1) true [.lazyUpdate, .place (⟨.fin 5, .fin 5⟩ : PosF) ⟨.fin 5, .fin 5⟩]).bind (fun f =>
      getNeighborsWithinDistance single Single.root .debug f id ⟨.fin 0, .fin 0⟩ (.inf false)) = some [⟨.fin 5, .fin 5⟩] := by decide +kernel

/-! ### wrapping and distances -/


/-- **C183 (partial).** `toroidal_transform` of any number gives a number from 0 to the dimension. Missing: infinities. -/
theorem C183_wrap_partial (rnd : Rat → Rat) (hr : Rounding rnd) (v dim : Rat) (hv : IsF32 v) (hd : IsF32 dim) (h0 : 0 < dim) (hsmall : dim ≤ 2 ^ 126) :
    ∃ r, transform rnd (.fin v) (.fin dim) = .fin r ∧ 0 ≤ r ∧ r ≤ dim :=
  ⟨_, transform_of hr v h0 hsmall, Single.transform_range hr hv hd h0⟩

/-- **C183** is false of the code: `toroidal_transform` of an infinity, in whatever dimension, is NaN. -/
theorem C183_wrap_infinity_partial (rnd : Rat → Rat) (s : Bool) (dim : Rat) : transform rnd (.inf s) (.fin dim) = .nan := by
  cases s <;> rfl

/-- The distance that is not a number. -/
theorem dist_nan (rnd root : Rat → Rat) (p q : PosF) (w h : F) (t : Bool) (hq : q.x = .nan ∨ q.y = .nan) : dist rnd root p q w h t = .nan := by
  have hsub : ∀ v, sub rnd v .nan = .nan := by intro v; cases v <;> rfl
  have htr : ∀ dim, transform rnd .nan dim = .nan := by intro dim; rfl
  have hc : ∀ (v dim : F), coordDiff rnd t v .nan dim = .nan := by
    intro v dim
    cases t
    · exact hsub v
    · show toroidalDist rnd v .nan dim = .nan
      unfold toroidalDist
      have ha : apart rnd v .nan dim = .nan := by
        unfold apart
        rw [htr, hsub]
      rw [ha, hsub]
      cases dim <;> rfl
  have hadd : ∀ v, add rnd v .nan = .nan := by intro v; cases v <;> rfl
  unfold dist
  rcases hq with h | h
  · rw [h, hc]; rfl
  · rw [h, hc]
    show sqrt root (add rnd _ .nan) = _
    rw [hadd]; rfl

theorem dist_nan' (rnd root : Rat → Rat) (p q : PosF) (w h : F) (t : Bool) (hp : p.x = .nan ∨ p.y = .nan) : dist rnd root p q w h t = .nan := by
  have hsub : ∀ v, sub rnd .nan v = .nan := by intro v; cases v <;> rfl
  have htr : ∀ dim, transform rnd .nan dim = .nan := by intro dim; rfl
  have hc : ∀ (v dim : F), coordDiff rnd t .nan v dim = .nan := by
    intro v dim
    cases t
    · exact hsub v
    · show toroidalDist rnd .nan v dim = .nan
      unfold toroidalDist
      have ha : apart rnd .nan v dim = .nan := by
        unfold apart
        rw [htr, hsub]
      rw [ha, hsub]
      cases dim <;> rfl
  have hadd : ∀ v, add rnd v .nan = .nan := by intro v; cases v <;> rfl
  unfold dist
  rcases hp with h | h
  · rw [h, hc]; rfl
  · rw [h, hc]
    show sqrt root (add rnd _ .nan) = _
    rw [hadd]; rfl

theorem scan_nothing {rnd : Rat → Rat} {m : Mode} {f : FieldF O} {keep : Loc → O → Bool} (hk : ∀ b o, keep b o = false) :
    ∀ (cs : List Loc) {r : List O}, scan rnd m f keep cs = some r → r = [] := by
  intro cs
  induction cs with
  | nil => intro r h; exact (Option.some.inj h).symm
  | cons c cs ih =>
    intro r h
    unfold scan at h
    split at h
    · cases h
    · split at h
      · cases h
      · obtain ⟨r', h1, rfl⟩ := Option.map_eq_some_iff.1 h
        rw [ih h1, List.append_nil, List.filter_eq_nil_iff]
        intro o _
        rw [hk]
        simp

/-- **C183 (partial), searches.** The exact search around a position that is not a number returns nothing, whatever the field, the distance and the build. -/
theorem C183_search_nan_partial (rnd root : Rat → Rat) (m : Mode) (f : FieldF O) (locOf : O → PosF) (loc : PosF) (hl : loc.x = .nan ∨ loc.y = .nan) (dis : F)
    (r : List O) (hr : getNeighborsWithinDistance rnd root m f locOf loc dis = some r) : r = [] := by
  unfold getNeighborsWithinDistance at hr
  split at hr
  · exact (Option.some.inj hr).symm
  · obtain ⟨cs, _, h2⟩ := Option.bind_eq_some_iff.1 hr
    refine scan_nothing ?_ cs h2
    intro b o
    unfold keepExact checkCircle
    rw [dist_nan' rnd root loc _ _ _ _ hl]
    simp only [dist_nan rnd root _ loc _ _ _ hl]
    have hlt : lt dis .nan = false := by cases dis <;> rfl
    rw [hlt]
    rfl

/-- **C183** is false of the code, second way: the relaxed search around a position that is not a number returns the objects around the first cell. -/
theorem C183_relaxed_nan_partial (rnd : Rat → Rat) (hr : Rounding rnd) (m : Mode) (f : FieldF O) (d : Rat) (hd : d ≠ 0) (hf : f.discretization = .fin d) (x y dis : F) :
    getNeighborsWithinRelaxDistance rnd m f ⟨x, y⟩ dis = getNeighborsWithinRelaxDistance rnd m f ⟨nanAsZero x, nanAsZero y⟩ dis := by
  have e : discretize rnd (.fin d) ⟨x, y⟩ = discretize rnd (.fin d) ⟨nanAsZero x, nanAsZero y⟩ := by
    unfold discretize
    rw [cell_nanAsZero hr hd x, cell_nanAsZero hr hd y]
  unfold getNeighborsWithinRelaxDistance searchCells
  rw [hf, e]

-- an agent whose position overflows and is wrapped is stored in the first cell, found there by the relaxed search, and finds nobody itself
example : (session single .debug (.fin 10) (.fin 10) (.fin 1) true [.lazyUpdate,
      .place 1 ⟨transform single (add single (.fin largest) (.fin largest)) (.fin 10), .fin 5⟩, .place 2 ⟨.fin (1 / 2), .fin 5⟩]).bind (fun f =>
      (getObjects single .debug f ⟨.fin 0, .fin 5⟩).bind (fun a => (getNeighborsWithinRelaxDistance single .debug f ⟨.fin 1, .fin 5⟩ (.fin 2)).bind (fun b =>
        (getNeighborsWithinDistance single Single.root .debug f (fun o => if o = 2 then ⟨.fin (1 / 2), .fin 5⟩ else ⟨.nan, .fin 5⟩) ⟨.nan, .fin 5⟩ (.fin 2)).map
          (fun c => (a, b, c))))) = some ([2, 1], [2, 1], []) := by decide +kernel

end Verif.Machine
