import Verif.Model.KdTree
import Verif.Props.MutualMachine

/-!
C267: a search within a larger distance finds everything that the search within a smaller one finds, in the same order.
-/

set_option linter.unusedSectionVars false

namespace Verif

/-! ### Lists of cells -/

namespace Field2D

open Grid Torus

theorem range_grow {lo hi lo' hi' : Int} (h1 : lo' ≤ lo) (h2 : hi ≤ hi') :
    ((List.range (hi - lo).toNat).map (fun (k : Nat) => lo + k)).Sublist ((List.range (hi' - lo').toNat).map (fun (k : Nat) => lo' + k)) := by
  by_cases h : hi ≤ lo
  · rw [show (hi - lo).toNat = 0 by omega]
    exact List.nil_sublist _
  · have e : (hi' - lo').toNat = (lo - lo').toNat + ((hi - lo).toNat + (hi' - hi).toNat) := by omega
    rw [e, List.range_add, List.map_append, List.map_map, List.range_add, List.map_append]
    refine List.Sublist.trans ?_ (List.sublist_append_right _ _)
    refine List.Sublist.trans ?_ (List.sublist_append_left _ _)
    have e2 : (List.range (hi - lo).toNat).map (fun (k : Nat) => lo + (k : Int)) =
        (List.range (hi - lo).toNat).map ((fun (k : Nat) => lo' + (k : Int)) ∘ fun x => (lo - lo').toNat + x) := by
      apply List.map_congr_left
      intro k _
      simp only [Function.comp]
      push_cast
      omega
    rw [e2]

theorem flatMap_grow {α β : Type} {f g : α → List β} (h : ∀ a, (f a).Sublist (g a)) : ∀ {l l' : List α}, l.Sublist l' → (l.flatMap f).Sublist (l'.flatMap g)
  | _, _, .slnil => List.Sublist.refl _
  | _, _, .cons a hs => by
    rw [List.flatMap_cons]
    exact (flatMap_grow h hs).trans (List.sublist_append_right _ _)
  | _, _, .cons_cons a hs => by
    rw [List.flatMap_cons, List.flatMap_cons]
    exact (h a).append (flatMap_grow h hs)

theorem filter_grow {α : Type} {p q : α → Bool} (h : ∀ a, p a = true → q a = true) (l : List α) : (l.filter p).Sublist (l.filter q) := by
  have e : l.filter p = (l.filter q).filter p := by
    rw [List.filter_filter]
    congr 1
    funext a
    cases hp : p a
    · rfl
    · rw [h a hp]
      rfl
  rw [e]
  exact List.filter_sublist

/-! ### The field with exact arithmetic -/

variable {O : Type}

theorem window_grow (t : Bool) (c M : Int) {k k' : Int} (h : k ≤ k') : (window t c k' M).1 ≤ (window t c k M).1 ∧ (window t c k M).2 ≤ (window t c k' M).2 := by
  unfold window
  cases t <;> simp <;> omega

theorem irange_grow {lo hi lo' hi' : Int} (h1 : lo' ≤ lo) (h2 : hi ≤ hi') : (irange lo hi).Sublist (irange lo' hi') :=
  range_grow h1 (by omega)

theorem searchCells_grow (f : Field O) (hd : 0 < f.discretization) (loc : Pos) {r r' : Rat} (h : r ≤ r') : (searchCells f loc r).Sublist (searchCells f loc r') := by
  have hk : (r / f.discretization).floor ≤ (r' / f.discretization).floor :=
    Rat.le_floor_iff.2 (le_trans (Rat.floor_le _) (by gcongr))
  have wx := window_grow f.toroidal (discretize f.discretization loc).x (f.width / f.discretization).ceil hk
  have wy := window_grow f.toroidal (discretize f.discretization loc).y (f.height / f.discretization).ceil hk
  unfold searchCells
  exact flatMap_grow (fun i => (irange_grow wy.1 wy.2).map _) (irange_grow wx.1 wx.2)

theorem scan_grow (f : Field O) {keep keep' : Loc → O → Bool} (hk : ∀ b o, keep b o = true → keep' b o = true) : ∀ {cs cs' : List Loc}, cs.Sublist cs' →
    ∀ r', scan f keep' cs' = some r' → ∃ r, scan f keep cs = some r ∧ r.Sublist r'
  | _, _, .slnil, r', _ => ⟨[], rfl, List.nil_sublist _⟩
  | _, _, .cons c hs, r', h => by
    rw [scan] at h
    cases hb : bagId f c with
    | none => rw [hb] at h; cases h
    | some b =>
      rw [hb] at h
      dsimp only at h
      cases hv : vecGet f.rbags f.dh b with
      | none => rw [hv] at h; cases h
      | some bag =>
        rw [hv] at h
        dsimp only at h
        obtain ⟨r0, h0, rfl⟩ := Option.map_eq_some_iff.1 h
        obtain ⟨r, h1, h2⟩ := scan_grow f hk hs r0 h0
        exact ⟨r, h1, h2.trans (List.sublist_append_right _ _)⟩
  | _, _, .cons_cons c hs, r', h => by
    rw [scan] at h
    rw [scan]
    cases hb : bagId f c with
    | none => rw [hb] at h; cases h
    | some b =>
      rw [hb] at h
      dsimp only at h ⊢
      cases hv : vecGet f.rbags f.dh b with
      | none => rw [hv] at h; cases h
      | some bag =>
        rw [hv] at h
        dsimp only at h ⊢
        obtain ⟨r0, h0, rfl⟩ := Option.map_eq_some_iff.1 h
        obtain ⟨r, h1, h2⟩ := scan_grow f hk hs r0 h0
        exact ⟨_, by rw [h1]; rfl, (filter_grow (hk b) bag).append h2⟩

/-- The verdict of the circle on a cell, with the two tests it makes. -/
theorem verdict {A B A' B' : Prop} [Decidable A] [Decidable B] [Decidable A'] [Decidable B'] (hA : A → A') (hB : B' → B) :
    ((if A then 1 else if B then -1 else 0 : Int) = 1 → (if A' then 1 else if B' then -1 else 0 : Int) = 1) ∧
    ((if A then 1 else if B then -1 else 0 : Int) = 0 → (if A' then 1 else if B' then -1 else 0 : Int) = 1 ∨ (if A' then 1 else if B' then -1 else 0 : Int) = 0) := by
  by_cases a : A
  · rw [if_pos a, if_pos (hA a)]
    exact ⟨fun _ => rfl, fun h => absurd h (by decide)⟩
  · rw [if_neg a]
    by_cases b : B
    · rw [if_pos b]
      exact ⟨fun h => absurd h (by decide), fun h => absurd h (by decide)⟩
    · rw [if_neg b]
      refine ⟨fun h => absurd h (by decide), fun _ => ?_⟩
      by_cases a' : A'
      · exact Or.inl (if_pos a')
      · rw [if_neg a', if_neg (fun hb => b (hB hb))]
        exact Or.inr rfl

theorem keepExact_grow (f : Field O) (locOf : O → Pos) (loc : Pos) {r r' : Rat} (h0 : 0 ≤ r) (h : r ≤ r') (b : Loc) (o : O)
    (hk : keepExact f locOf loc r b o = true) : keepExact f locOf loc r' b o = true := by
  have hsq : r * r ≤ r' * r' := mul_le_mul h h h0 (h0.trans h)
  unfold keepExact at *
  rw [decide_eq_true_iff] at *
  have v := verdict (A := distSq (cornerNW b f.discretization) loc f.width f.height f.toroidal ≤ r * r ∧
      distSq (cornerNE b f.discretization f.height) loc f.width f.height f.toroidal ≤ r * r ∧
      distSq (cornerSW b f.discretization f.width) loc f.width f.height f.toroidal ≤ r * r ∧
      distSq (cornerSE b f.discretization f.width f.height) loc f.width f.height f.toroidal ≤ r * r)
    (B := distSq (cornerNW b f.discretization) loc f.width f.height f.toroidal > r * r ∧
      distSq (cornerNE b f.discretization f.height) loc f.width f.height f.toroidal > r * r ∧
      distSq (cornerSW b f.discretization f.width) loc f.width f.height f.toroidal > r * r ∧
      distSq (cornerSE b f.discretization f.width f.height) loc f.width f.height f.toroidal > r * r)
    (A' := distSq (cornerNW b f.discretization) loc f.width f.height f.toroidal ≤ r' * r' ∧
      distSq (cornerNE b f.discretization f.height) loc f.width f.height f.toroidal ≤ r' * r' ∧
      distSq (cornerSW b f.discretization f.width) loc f.width f.height f.toroidal ≤ r' * r' ∧
      distSq (cornerSE b f.discretization f.width f.height) loc f.width f.height f.toroidal ≤ r' * r')
    (B' := distSq (cornerNW b f.discretization) loc f.width f.height f.toroidal > r' * r' ∧
      distSq (cornerNE b f.discretization f.height) loc f.width f.height f.toroidal > r' * r' ∧
      distSq (cornerSW b f.discretization f.width) loc f.width f.height f.toroidal > r' * r' ∧
      distSq (cornerSE b f.discretization f.width f.height) loc f.width f.height f.toroidal > r' * r')
    (fun a => ⟨a.1.trans hsq, a.2.1.trans hsq, a.2.2.1.trans hsq, a.2.2.2.trans hsq⟩)
    (fun a => ⟨lt_of_le_of_lt hsq a.1, lt_of_le_of_lt hsq a.2.1, lt_of_le_of_lt hsq a.2.2.1, lt_of_le_of_lt hsq a.2.2.2⟩)
  rcases hk with ⟨h1, h2⟩ | h1
  · rcases v.2 h1 with h3 | h3
    · exact Or.inr h3
    · exact Or.inl ⟨h3, h2.trans hsq⟩
  · exact Or.inr (v.1 h1)

/-- **C267 (exact arithmetic).** If the search within the larger distance does not panic, then the search within the smaller one does not either, and what it
finds is part of what the other finds, in the same order; of both searches. -/
theorem C267_exact_partial (f : Field O) (hd : 0 < f.discretization) (loc : Pos) {r r' : Rat} (h : r ≤ r') :
    (∀ locOf l', getNeighborsWithinDistance f locOf loc r' = some l' → ∃ l, getNeighborsWithinDistance f locOf loc r = some l ∧ l.Sublist l') ∧
    (∀ l', getNeighborsWithinRelaxDistance f loc r' = some l' → ∃ l, getNeighborsWithinRelaxDistance f loc r = some l ∧ l.Sublist l') := by
  unfold getNeighborsWithinDistance getNeighborsWithinRelaxDistance
  by_cases h0 : r ≤ 0
  · exact ⟨fun _ l' _ => ⟨[], if_pos h0, List.nil_sublist _⟩, fun l' _ => ⟨[], if_pos h0, List.nil_sublist _⟩⟩
  · have h1 : ¬ r' ≤ 0 := fun hc => h0 (h.trans hc)
    have hr : 0 ≤ r := le_of_lt (not_le.1 h0)
    simp only [if_neg h0, if_neg h1]
    exact ⟨fun locOf l' hl => scan_grow f (keepExact_grow f locOf loc hr h) (searchCells_grow f hd loc h) l' hl,
      fun l' hl => scan_grow f (fun _ _ h => h) (searchCells_grow f hd loc h) l' hl⟩

end Field2D

/-! ### Machine floats -/

namespace Machine

open Grid
open DenseI32 (Mode fit vecGet)
open Single (Rounding)

theorem leF_trans {a b c : F} (h1 : le a b = true) (h2 : le b c = true) : le a c = true := by
  cases a with
  | nan => cases h1
  | inf s =>
    cases b with
    | nan => cases h1
    | inf t =>
      cases c with
      | nan => cases h2
      | inf u => cases s <;> cases t <;> cases u <;> simp_all [le]
      | fin z => cases s <;> cases t <;> simp_all [le]
    | fin y =>
      cases c with
      | nan => cases h2
      | inf u => cases s <;> cases u <;> simp_all [le]
      | fin z => exact h1
  | fin x =>
    cases b with
    | nan => cases h1
    | inf t =>
      cases c with
      | nan => cases h2
      | inf u => cases t <;> cases u <;> simp_all [le]
      | fin z => cases t <;> simp_all [le]
    | fin y =>
      cases c with
      | nan => cases h2
      | inf u => exact h2
      | fin z => simp only [le, decide_eq_true_iff] at *; exact h1.trans h2

theorem ltF_of_le {a b c : F} (h1 : le a b = true) (h2 : lt b c = true) : lt a c = true := by
  cases a with
  | nan => cases h1
  | inf s =>
    cases b with
    | nan => cases h1
    | inf t =>
      cases c with
      | nan => cases h2
      | inf u => cases s <;> cases t <;> cases u <;> simp_all [le, lt]
      | fin z => cases s <;> cases t <;> simp_all [le, lt]
    | fin y =>
      cases c with
      | nan => cases h2
      | inf u => cases s <;> cases u <;> simp_all [le, lt]
      | fin z => exact h1
  | fin x =>
    cases b with
    | nan => cases h1
    | inf t =>
      cases c with
      | nan => cases h2
      | inf u => cases t <;> cases u <;> simp_all [le, lt]
      | fin z => cases t <;> simp_all [le, lt]
    | fin y =>
      cases c with
      | nan => cases h2
      | inf u => exact h2
      | fin z => simp only [le, lt, decide_eq_true_iff] at *; exact lt_of_le_of_lt h1 h2

theorem ofRat_grow {rnd : Rat → Rat} (hr : Rounding rnd) {p q : Rat} (h : p ≤ q) : le (ofRat rnd p) (ofRat rnd q) = true := by
  have hm := hr.mono p q h
  have hl : -largest < largest := by decide +kernel
  unfold ofRat
  by_cases h1 : largest < rnd p
  · rw [if_pos h1, if_pos (lt_of_lt_of_le h1 hm)]
    rfl
  · rw [if_neg h1]
    by_cases h2 : rnd p < -largest
    · rw [if_pos h2]
      by_cases h3 : largest < rnd q
      · rw [if_pos h3]; rfl
      · rw [if_neg h3]
        by_cases h4 : rnd q < -largest
        · rw [if_pos h4]; rfl
        · rw [if_neg h4]; rfl
    · rw [if_neg h2]
      by_cases h3 : largest < rnd q
      · rw [if_pos h3]; rfl
      · rw [if_neg h3, if_neg (fun h4 => h2 (lt_of_le_of_lt hm h4))]
        exact decide_eq_true hm

theorem div_grow {rnd : Rat → Rat} (hr : Rounding rnd) {d : Rat} (hd : 0 < d) {a b : F} (h : le a b = true) : le (div rnd a (.fin d)) (div rnd b (.fin d)) = true := by
  have hnd : decide (d < 0) = false := decide_eq_false (not_lt.2 (le_of_lt hd))
  have hn : d ≠ 0 := ne_of_gt hd
  have bounded : ∀ q : Rat, le (.inf true) (ofRat rnd q) = true ∧ le (ofRat rnd q) (.inf false) = true := by
    intro q
    unfold ofRat
    split
    · exact ⟨rfl, rfl⟩
    · split
      · exact ⟨rfl, rfl⟩
      · exact ⟨rfl, rfl⟩
  cases a with
  | nan => cases h
  | inf s =>
    cases b with
    | nan => cases h
    | inf t =>
      show le (.inf (s != decide (d < 0))) (.inf (t != decide (d < 0))) = true
      rw [hnd, Bool.bne_false, Bool.bne_false]
      exact h
    | fin y =>
      show le (.inf (s != decide (d < 0))) (if d = 0 then _ else ofRat rnd (y / d)) = true
      rw [hnd, Bool.bne_false, if_neg hn]
      have hs : s = true := h
      rw [hs]
      exact (bounded _).1
  | fin x =>
    cases b with
    | nan => cases h
    | inf t =>
      show le (if d = 0 then _ else ofRat rnd (x / d)) (.inf (t != decide (d < 0))) = true
      rw [hnd, Bool.bne_false, if_neg hn]
      have ht : t = false := by
        have : (!t) = true := h
        simpa using this
      rw [ht]
      exact (bounded _).2
    | fin y =>
      show le (if d = 0 then _ else ofRat rnd (x / d)) (if d = 0 then _ else ofRat rnd (y / d)) = true
      rw [if_neg hn, if_neg hn]
      have hxy : x ≤ y := of_decide_eq_true h
      exact ofRat_grow hr (by gcongr)

theorem floorF_grow {a b : F} (h : le a b = true) : le (floor a) (floor b) = true := by
  cases a with
  | nan => cases h
  | inf s =>
    cases b with
    | nan => cases h
    | inf t => exact h
    | fin y => exact h
  | fin x =>
    cases b with
    | nan => cases h
    | inf t => exact h
    | fin y =>
      have hxy : x ≤ y := of_decide_eq_true h
      refine decide_eq_true ?_
      have : x.floor ≤ y.floor := Rat.le_floor_iff.2 ((Rat.floor_le x).trans hxy)
      exact_mod_cast this

theorem toI32_grow {a b : F} (h : le a b = true) : toI32 a ≤ toI32 b := by
  have lo : ∀ c, -2 ^ 31 ≤ toI32 c := fun c => (toI32_bounds c).1
  have hi : ∀ c, toI32 c ≤ 2 ^ 31 - 1 := fun c => (toI32_bounds c).2
  cases a with
  | nan => cases h
  | inf s =>
    cases b with
    | nan => cases h
    | inf t => cases s <;> cases t <;> simp_all [le, toI32]
    | fin y =>
      have hs : s = true := h
      rw [hs]
      exact lo _
  | fin x =>
    cases b with
    | nan => cases h
    | inf t =>
      have ht : t = false := by
        have : (!t) = true := h
        simpa using this
      rw [ht]
      exact hi _
    | fin y =>
      have hxy : x ≤ y := of_decide_eq_true h
      have hf : x.floor ≤ y.floor := Rat.le_floor_iff.2 ((Rat.floor_le x).trans hxy)
      have hc : x.ceil ≤ y.ceil := Rat.ceil_le_iff.2 (hxy.trans (Rat.le_ceil))
      have key : (if 0 ≤ x then x.floor else x.ceil) ≤ (if 0 ≤ y then y.floor else y.ceil) := by
        by_cases h0 : 0 ≤ x
        · rw [if_pos h0, if_pos (h0.trans hxy)]
          exact hf
        · rw [if_neg h0]
          by_cases h1 : 0 ≤ y
          · rw [if_pos h1]
            have a1 : x.ceil ≤ 0 := Rat.ceil_le_iff.2 (by exact_mod_cast le_of_lt (not_le.1 h0))
            have a2 : 0 ≤ y.floor := Rat.le_floor_iff.2 (by exact_mod_cast h1)
            omega
          · rw [if_neg h1]
            exact hc
      show Max.max (-2 ^ 31) (Min.min (if 0 ≤ x then x.floor else x.ceil) (2 ^ 31 - 1)) ≤ Max.max (-2 ^ 31) (Min.min (if 0 ≤ y then y.floor else y.ceil) (2 ^ 31 - 1))
      omega

/-- The number of cells a search goes to grows with the distance. -/
theorem reach_grow {rnd : Rat → Rat} (hr : Rounding rnd) {d : Rat} (hd : 0 < d) {a b : F} (h : le a b = true) :
    toI32 (floor (div rnd a (.fin d))) ≤ toI32 (floor (div rnd b (.fin d))) :=
  toI32_grow (floorF_grow (div_grow hr hd h))

theorem reach_zero {rnd : Rat → Rat} (hr : Rounding rnd) {d : Rat} (hd : 0 < d) : toI32 (floor (div rnd (.fin 0) (.fin d))) = 0 := by
  have h0 : rnd 0 = 0 := by
    have := hr.odd 0
    rw [neg_zero] at this
    linarith
  have e : div rnd (.fin 0) (.fin d) = .fin 0 := by
    show (if d = 0 then _ else ofRat rnd (0 / d)) = _
    rw [if_neg (ne_of_gt hd), zero_div]
    unfold ofRat
    rw [h0]
    decide +kernel
  rw [e]
  decide +kernel

/-- What does not overflow in a debug build is computed alike in a release build. -/
theorem fit_any (m : Mode) {z y : Int} (h : fit .debug z = some y) : y = z ∧ -2 ^ 31 ≤ z ∧ z < 2 ^ 31 ∧ fit m z = some y := by
  have h' : (if -2 ^ 31 ≤ z ∧ z < 2 ^ 31 then some z else none) = some y := h
  by_cases hz : -2 ^ 31 ≤ z ∧ z < 2 ^ 31
  · rw [if_pos hz] at h'
    have e := Option.some.inj h'
    exact ⟨e.symm, hz.1, hz.2, by rw [fit_in m hz.1 hz.2, e]⟩
  · rw [if_neg hz] at h'
    cases h'

theorem windowF_grow (m : Mode) (t : Bool) {c k k' M : Int} (h0 : 0 ≤ k) (hk : k ≤ k') {w' : Int × Int} (h : window .debug t c k' M = some w') :
    window m t c k' M = some w' ∧ -2 ^ 31 ≤ w'.2 ∧ ∃ w, window m t c k M = some w ∧ w'.1 ≤ w.1 ∧ w.2 ≤ w'.2 ∧ -2 ^ 31 ≤ w.2 := by
  unfold window at h ⊢
  cases h1 : fit .debug (c - k') with
  | none => rw [h1] at h; cases h
  | some lo =>
    cases h2 : fit .debug (c + k') with
    | none => rw [h1, h2] at h; cases h
    | some hi =>
      rw [h1, h2] at h
      obtain ⟨rfl, a1, a2, a3⟩ := fit_any m h1
      obtain ⟨rfl, b1, b2, b3⟩ := fit_any m h2
      rw [a3, b3, fit_in m (z := c - k) (by omega) (by omega), fit_in m (z := c + k) (by omega) (by omega)]
      cases t
      · dsimp only at h ⊢
        rw [if_neg (by decide)] at h ⊢
        have e := Option.some.inj h
        subst e
        exact ⟨rfl, b1, _, rfl, by dsimp only; omega, by dsimp only; omega, by dsimp only; omega⟩
      · dsimp only at h ⊢
        rw [if_pos rfl] at h ⊢
        cases h3 : fit .debug (M - 1) with
        | none => rw [h3] at h; cases h
        | some e =>
          rw [h3] at h
          obtain ⟨rfl, c1, c2, c3⟩ := fit_any m h3
          rw [c3]
          have e := Option.some.inj h
          subst e
          exact ⟨rfl, by dsimp only; omega, _, rfl, by dsimp only; omega, by dsimp only; omega, by dsimp only; omega⟩

theorem upTo_grow {lo hi lo' hi' : Int} (h1 : lo' ≤ lo) (h2 : hi ≤ hi') : (upTo lo hi).Sublist (upTo lo' hi') := Field2D.range_grow h1 h2

theorem pairs_grow (m : Mode) {wx wy wx' wy' : Int × Int} (hx1 : wx'.1 ≤ wx.1) (hx2 : wx.2 ≤ wx'.2) (hy1 : wy'.1 ≤ wy.1) (hy2 : wy.2 ≤ wy'.2)
    (hbx : -2 ^ 31 ≤ wx.2) (hby : -2 ^ 31 ≤ wy.2) {cs' : List Loc} (h : pairs .debug wx' wy' = some cs') :
    pairs m wx' wy' = some cs' ∧ ∃ cs, pairs m wx wy = some cs ∧ cs.Sublist cs' := by
  unfold pairs at h ⊢
  cases h1 : fit .debug (wx'.2 + 1) with
  | none => rw [h1] at h; cases h
  | some ex =>
    rw [h1] at h
    obtain ⟨rfl, a1, a2, a3⟩ := fit_any m h1
    rw [a3, fit_in m (z := wx.2 + 1) (by omega) (by omega)]
    dsimp only at h ⊢
    by_cases h2 : wx'.2 + 1 ≤ wx'.1
    · rw [if_pos h2] at h
      rw [if_pos h2, if_pos (by omega)]
      exact ⟨h, [], rfl, List.nil_sublist _⟩
    · rw [if_neg h2] at h
      rw [if_neg h2]
      cases h3 : fit .debug (wy'.2 + 1) with
      | none => rw [h3] at h; cases h
      | some ey =>
        rw [h3] at h
        obtain ⟨rfl, b1, b2, b3⟩ := fit_any m h3
        rw [b3, fit_in m (z := wy.2 + 1) (by omega) (by omega)]
        refine ⟨h, ?_⟩
        have e := Option.some.inj h
        by_cases h4 : wx.2 + 1 ≤ wx.1
        · rw [if_pos h4]
          exact ⟨[], rfl, List.nil_sublist _⟩
        · rw [if_neg h4]
          refine ⟨_, rfl, ?_⟩
          rw [← e]
          exact Field2D.flatMap_grow (fun i => (upTo_grow hy1 (by omega)).map _) (upTo_grow hx1 (by omega))

/-- The cells of a search, in numbers. -/
def cellsOf (m : Mode) (t : Bool) (cx cy k Mx My : Int) : Option (List Loc) :=
  match window m t cx k Mx, window m t cy k My with
  | some wx, some wy => pairs m wx wy
  | _, _ => none

theorem cellsOf_grow (m : Mode) (t : Bool) {cx cy k k' Mx My : Int} (h0 : 0 ≤ k) (hk : k ≤ k') {cs' : List Loc} (h : cellsOf .debug t cx cy k' Mx My = some cs') :
    cellsOf m t cx cy k' Mx My = some cs' ∧ ∃ cs, cellsOf m t cx cy k Mx My = some cs ∧ cs.Sublist cs' := by
  unfold cellsOf at h ⊢
  cases h1 : window .debug t cx k' Mx with
  | none => rw [h1] at h; cases h
  | some wx' =>
    cases h2 : window .debug t cy k' My with
    | none => rw [h1, h2] at h; cases h
    | some wy' =>
      rw [h1, h2] at h
      obtain ⟨a1, _, wx, a2, a3, a4, a5⟩ := windowF_grow m t h0 hk h1
      obtain ⟨b1, _, wy, b2, b3, b4, b5⟩ := windowF_grow m t h0 hk h2
      rw [a1, b1, a2, b2]
      exact pairs_grow m a3 a4 b3 b4 a5 b5 h

theorem tTransform_any (m : Mode) {n M y : Int} (h : tTransform .debug n M = some y) : tTransform m n M = some y := by
  unfold tTransform at *
  by_cases h1 : M = 0 ∨ (n = -2 ^ 31 ∧ M = -1)
  · rw [if_pos h1] at h; cases h
  · rw [if_neg h1] at h ⊢
    by_cases h2 : n ≥ 0
    · rw [if_pos h2] at h ⊢
      exact h
    · rw [if_neg h2] at h ⊢
      exact (fit_any m h).2.2.2

theorem checkCircle_grow (rnd root : Rat → Rat) (b : Loc) (d w h : F) (loc : PosF) (t : Bool) {a a' : F} (ha : le a a' = true) :
    (checkCircle rnd root b d w h loc a t = 1 → checkCircle rnd root b d w h loc a' t = 1) ∧
    (checkCircle rnd root b d w h loc a t = 0 → checkCircle rnd root b d w h loc a' t = 1 ∨ checkCircle rnd root b d w h loc a' t = 0) := by
  unfold checkCircle
  refine Field2D.verdict ?_ ?_
  · intro hA
    simp only [Bool.and_eq_true] at *
    exact ⟨⟨⟨leF_trans hA.1.1.1 ha, leF_trans hA.1.1.2 ha⟩, leF_trans hA.1.2 ha⟩, leF_trans hA.2 ha⟩
  · intro hB
    simp only [Bool.and_eq_true] at *
    exact ⟨⟨⟨ltF_of_le ha hB.1.1.1, ltF_of_le ha hB.1.1.2⟩, ltF_of_le ha hB.1.2⟩, ltF_of_le ha hB.2⟩

/-- The test on an object of a cell, in numbers. -/
theorem test_grow (rnd root : Rat → Rat) (b : Loc) (d w h : F) (loc : PosF) (t : Bool) {a a' : F} (ha : le a a' = true) (x : F)
    (hk : (decide (checkCircle rnd root b d w h loc a t = 0) && le x a || decide (checkCircle rnd root b d w h loc a t = 1)) = true) :
    (decide (checkCircle rnd root b d w h loc a' t = 0) && le x a' || decide (checkCircle rnd root b d w h loc a' t = 1)) = true := by
  obtain ⟨v1, v2⟩ := checkCircle_grow rnd root b d w h loc t ha
  rw [Bool.or_eq_true, Bool.and_eq_true, decide_eq_true_iff, decide_eq_true_iff] at *
  rcases hk with ⟨h1, h2⟩ | h1
  · rcases v2 h1 with h3 | h3
    · exact Or.inr h3
    · exact Or.inl ⟨h3, leF_trans h2 ha⟩
  · exact Or.inr (v1 h1)

variable {O : Type} [BEq O]

theorem vecGet_any {α : Type} (m : Mode) (v : List α) (k : Int) (b : Loc) {y : α} (h : DenseI32.vecGet .debug v k b = some y) : DenseI32.vecGet m v k b = some y := by
  unfold DenseI32.vecGet DenseI32.index at *
  cases h1 : fit .debug (b.x * k) with
  | none => rw [h1] at h; cases h
  | some a =>
    rw [h1] at h
    rw [(fit_any m h1).2.2.2]
    dsimp only at h ⊢
    cases h2 : fit .debug (a + b.y) with
    | none => rw [h2] at h; cases h
    | some i =>
      rw [h2] at h
      rw [(fit_any m h2).2.2.2]
      exact h

theorem bagId_any {rnd : Rat → Rat} (m : Mode) (f : FieldF O) {c b : Loc} (h : bagId rnd .debug f c = some b) : bagId rnd m f c = some b := by
  unfold bagId at *
  cases h1 : tTransform .debug c.x (toI32 (cellsAlong rnd f.width f.discretization)) with
  | none => rw [h1] at h; cases h
  | some x =>
    cases h2 : tTransform .debug c.y (toI32 (cellsAlong rnd f.height f.discretization)) with
    | none => rw [h1, h2] at h; cases h
    | some y =>
      rw [h1, h2] at h
      rw [tTransform_any m h1, tTransform_any m h2]
      exact h

theorem scanF_grow {rnd : Rat → Rat} (m : Mode) (f : FieldF O) {keep keep' : Loc → O → Bool} (hk : ∀ b o, keep b o = true → keep' b o = true) :
    ∀ {cs cs' : List Loc}, cs.Sublist cs' → ∀ r', scan rnd .debug f keep' cs' = some r' → ∃ r, scan rnd m f keep cs = some r ∧ r.Sublist r'
  | _, _, .slnil, r', _ => ⟨[], rfl, List.nil_sublist _⟩
  | _, _, .cons c hs, r', h => by
    rw [scan] at h
    cases hb : bagId rnd .debug f c with
    | none => rw [hb] at h; cases h
    | some b =>
      rw [hb] at h
      dsimp only at h
      cases hv : DenseI32.vecGet .debug f.rbags f.dh b with
      | none => rw [hv] at h; cases h
      | some bag =>
        rw [hv] at h
        dsimp only at h
        obtain ⟨r0, h0, rfl⟩ := Option.map_eq_some_iff.1 h
        obtain ⟨r, h1, h2⟩ := scanF_grow m f hk hs r0 h0
        exact ⟨r, h1, h2.trans (List.sublist_append_right _ _)⟩
  | _, _, .cons_cons c hs, r', h => by
    rw [scan] at h
    rw [scan]
    cases hb : bagId rnd .debug f c with
    | none => rw [hb] at h; cases h
    | some b =>
      rw [hb] at h
      rw [bagId_any m f hb]
      dsimp only at h ⊢
      cases hv : DenseI32.vecGet .debug f.rbags f.dh b with
      | none => rw [hv] at h; cases h
      | some bag =>
        rw [hv] at h
        rw [vecGet_any m _ _ _ hv]
        dsimp only at h ⊢
        obtain ⟨r0, h0, rfl⟩ := Option.map_eq_some_iff.1 h
        obtain ⟨r, h1, h2⟩ := scanF_grow m f hk hs r0 h0
        exact ⟨_, by rw [h1]; rfl, (Field2D.filter_grow (hk b) bag).append h2⟩

theorem scanF_any {rnd : Rat → Rat} (m : Mode) (f : FieldF O) (keep : Loc → O → Bool) : ∀ (cs : List Loc) (r : List O), scan rnd .debug f keep cs = some r →
    scan rnd m f keep cs = some r
  | [], _, h => h
  | c :: cs, r, h => by
    rw [scan] at h ⊢
    cases hb : bagId rnd .debug f c with
    | none => rw [hb] at h; cases h
    | some b =>
      rw [hb] at h
      rw [bagId_any m f hb]
      dsimp only at h ⊢
      cases hv : DenseI32.vecGet .debug f.rbags f.dh b with
      | none => rw [hv] at h; cases h
      | some bag =>
        rw [hv] at h
        rw [vecGet_any m _ _ _ hv]
        dsimp only at h ⊢
        obtain ⟨r0, h0, rfl⟩ := Option.map_eq_some_iff.1 h
        rw [scanF_any m f keep cs r0 h0]
        rfl

theorem not_le_zero {a a' : F} (ha : le a a' = true) (h : le a (.fin 0) = false) : le (.fin 0) a = true ∧ le a' (.fin 0) = false := by
  refine ⟨?_, ?_⟩
  · cases a with
    | nan => cases ha
    | inf s => cases s <;> simp_all [le]
    | fin x =>
      have : ¬ x ≤ 0 := of_decide_eq_false h
      exact decide_eq_true (le_of_lt (not_le.1 this))
  · cases hc : le a' (.fin 0) with
    | false => rfl
    | true => rw [leF_trans ha hc] at h; cases h

theorem search_grow {rnd : Rat → Rat} (hr : Rounding rnd) (m : Mode) (f : FieldF O) {d : Rat} (hd : 0 < d) (hf : f.discretization = .fin d) (loc : PosF) {a a' : F}
    (ha : le a a' = true) {keep keep' : Loc → O → Bool} (hk : ∀ b o, keep b o = true → keep' b o = true) {l' : List O}
    (h : (if le a' (.fin 0) then some [] else (searchCells rnd .debug f loc a').bind (scan rnd .debug f keep')) = some l') :
    (if le a' (.fin 0) then some [] else (searchCells rnd m f loc a').bind (scan rnd m f keep')) = some l' ∧
    ∃ l, (if le a (.fin 0) then some [] else (searchCells rnd m f loc a).bind (scan rnd m f keep)) = some l ∧ l.Sublist l' := by
  have any : (if le a' (.fin 0) then some [] else (searchCells rnd m f loc a').bind (scan rnd m f keep')) = some l' := by
    cases h1 : le a' (.fin 0) with
    | true => rw [h1] at h; exact h
    | false =>
      rw [h1, if_neg (by decide)] at h
      rw [if_neg (by decide)]
      obtain ⟨cs', h2, h3⟩ := Option.bind_eq_some_iff.1 h
      have hz : 0 ≤ toI32 (floor (div rnd a' f.discretization)) := by
        rw [hf, ← reach_zero hr hd]
        exact reach_grow hr hd (not_le_zero (a := a') (a' := a') (by
          cases a' with
          | nan => cases a <;> cases ha
          | inf s => cases s <;> rfl
          | fin x => exact decide_eq_true (le_refl _)) h1).1
      have e : cellsOf .debug f.toroidal (discretize rnd f.discretization loc).x (discretize rnd f.discretization loc).y (toI32 (floor (div rnd a' f.discretization)))
          (toI32 (cellsAlong rnd f.width f.discretization)) (toI32 (cellsAlong rnd f.height f.discretization)) = some cs' := h2
      have := (cellsOf_grow m f.toroidal hz (le_refl _) e).1
      have e2 : searchCells rnd m f loc a' = some cs' := this
      rw [e2]
      exact scanF_any m f keep' cs' l' h3
  refine ⟨any, ?_⟩
  cases h0 : le a (.fin 0) with
  | true => exact ⟨[], rfl, List.nil_sublist _⟩
  | false =>
    obtain ⟨g1, g2⟩ := not_le_zero ha h0
    rw [g2, if_neg (by decide)] at h
    rw [if_neg (by decide)]
    obtain ⟨cs', h2, h3⟩ := Option.bind_eq_some_iff.1 h
    have e : cellsOf .debug f.toroidal (discretize rnd f.discretization loc).x (discretize rnd f.discretization loc).y (toI32 (floor (div rnd a' f.discretization)))
        (toI32 (cellsAlong rnd f.width f.discretization)) (toI32 (cellsAlong rnd f.height f.discretization)) = some cs' := h2
    have hz : 0 ≤ toI32 (floor (div rnd a f.discretization)) := by
      rw [hf, ← reach_zero hr hd]
      exact reach_grow hr hd g1
    obtain ⟨cs, h4, h5⟩ := (cellsOf_grow m f.toroidal hz (by rw [hf]; exact reach_grow hr hd ha) e).2
    have e2 : searchCells rnd m f loc a = some cs := h4
    rw [e2]
    exact scanF_grow m f hk h5 l' h3

/-- **C267 (machine floats).** If the search within the larger distance does not panic in a debug build, then in both builds the search within the smaller one does not panic
and what it finds is part of what the other finds, in the same order; of both searches. -/
theorem C267_machine_partial (rnd root : Rat → Rat) (hr : Rounding rnd) (m : Mode) (f : FieldF O) (d : Rat) (hd : 0 < d) (hf : f.discretization = .fin d) (loc : PosF) (a a' : F)
    (ha : le a a' = true) :
    (∀ locOf l', getNeighborsWithinDistance rnd root .debug f locOf loc a' = some l' → getNeighborsWithinDistance rnd root m f locOf loc a' = some l' ∧
      ∃ l, getNeighborsWithinDistance rnd root m f locOf loc a = some l ∧ l.Sublist l') ∧
    (∀ l', getNeighborsWithinRelaxDistance rnd .debug f loc a' = some l' → getNeighborsWithinRelaxDistance rnd m f loc a' = some l' ∧
      ∃ l, getNeighborsWithinRelaxDistance rnd m f loc a = some l ∧ l.Sublist l') :=
  ⟨fun locOf _ h => search_grow hr m f hd hf loc ha (fun b o hk => test_grow rnd root b f.discretization f.width f.height loc f.toroidal ha
      (dist rnd root loc (locOf o) f.width f.height f.toroidal) hk) h,
    fun _ h => search_grow hr m f hd hf loc ha (fun _ _ hk => hk) h⟩

end Machine

end Verif

namespace Verif.ParMachine

open Grid DBDashMap Machine
open DenseI32 (Mode)
open Single (Rounding)

variable {O I : Type} [DecidableEq I]

theorem toUsize_grow {a b : F} (h : le a b = true) : toUsize a ≤ toUsize b := by
  have hi : ∀ c, toUsize c ≤ 2 ^ 64 - 1 := by
    intro c
    cases c with
    | nan => exact Nat.zero_le _
    | inf s => cases s <;> decide
    | fin q => exact Nat.min_le_right _ _
  cases a with
  | nan => cases h
  | inf s =>
    cases s
    · cases b with
      | nan => cases h
      | inf t => cases t <;> simp_all [le]
      | fin y => cases h
    · exact Nat.zero_le _
  | fin x =>
    cases b with
    | nan => cases h
    | inf t =>
      cases t
      · exact hi _
      · cases h
    | fin y =>
      have hxy : x ≤ y := of_decide_eq_true h
      have hf : x.floor ≤ y.floor := Rat.le_floor_iff.2 ((Rat.floor_le x).trans hxy)
      show Min.min x.floor.toNat (2 ^ 64 - 1) ≤ Min.min y.floor.toNat (2 ^ 64 - 1)
      omega

theorem square_grow {rnd : Rat → Rat} (hr : Rounding rnd) {a b : F} (h0 : le (.fin 0) a = true) (h : le a b = true) : le (mul rnd a a) (mul rnd b b) = true := by
  cases a with
  | nan => cases h
  | inf s =>
    cases s
    · cases b with
      | nan => cases h
      | inf t => cases t <;> simp_all [le, mul]
      | fin y => cases h
    · cases h0
  | fin x =>
    have hx : 0 ≤ x := of_decide_eq_true h0
    cases b with
    | nan => cases h
    | inf t =>
      show le (ofRat rnd (x * x)) (.inf (t != t)) = true
      rw [bne_self_eq_false]
      unfold ofRat
      split
      · rfl
      · split <;> rfl
    | fin y =>
      have hxy : x ≤ y := of_decide_eq_true h
      exact ofRat_grow hr (mul_le_mul hxy hxy hx (hx.trans hxy))

theorem capacity_grow {rnd : Rat → Rat} (hr : Rounding rnd) (m : Mode) (size : Nat) (f : PFieldF O I) {a a' : F} (h0 : le (.fin 0) a = true) (h : le a a' = true)
    (hc : (capacity rnd .debug f a').bind (reserve size) = some ()) :
    (capacity rnd m f a').bind (reserve size) = some () ∧ (capacity rnd m f a).bind (reserve size) = some () := by
  have hu := toUsize_grow (square_grow hr h0 h)
  obtain ⟨n, h1, h2⟩ := Option.bind_eq_some_iff.1 hc
  unfold capacity at h1 ⊢
  by_cases hz : rLen f.findex = 0
  · rw [if_pos hz] at h1
    cases h1
  · rw [if_neg hz] at h1 ⊢
    rw [if_neg hz]
    generalize toUsize (mul rnd f.width f.height) / rLen f.findex = q at *
    generalize toUsize (mul rnd a a) = u at *
    generalize toUsize (mul rnd a' a') = u' at *
    have h1' : (if q * u' < 2 ^ 64 then some (q * u') else none) = some n := h1
    by_cases hb : q * u' < 2 ^ 64
    · rw [if_pos hb] at h1'
      have e := Option.some.inj h1'
      have hle : q * u ≤ q * u' := Nat.mul_le_mul_left _ hu
      have fits : ∀ v, q * v < 2 ^ 64 → umul m q v = some (q * v) := by
        intro v hv
        cases m
        · exact if_pos hv
        · exact congrArg some (Nat.mod_eq_of_lt hv)
      have h2' : (if size * n < 2 ^ 63 then some () else none) = some () := h2
      have hs : size * n < 2 ^ 63 := by
        by_contra hc
        rw [if_neg hc] at h2'
        cases h2'
      rw [fits _ hb, fits _ (lt_of_le_of_lt hle hb)]
      subst e
      exact ⟨if_pos hs, if_pos (lt_of_le_of_lt (Nat.mul_le_mul_left _ hle) hs)⟩
    · rw [if_neg hb] at h1'
      cases h1'

theorem bagIdP_any {rnd : Rat → Rat} (m : Mode) (f : PFieldF O I) {c b : Loc} (h : bagId rnd .debug f c = some b) : bagId rnd m f c = some b := by
  unfold bagId at *
  cases h1 : tTransform .debug c.x (toI32 (ceil (div rnd f.width f.discretization))) with
  | none => rw [h1] at h; cases h
  | some x =>
    cases h2 : tTransform .debug c.y (toI32 (ceil (div rnd f.height f.discretization))) with
    | none => rw [h1, h2] at h; cases h
    | some y =>
      rw [h1, h2] at h
      rw [tTransform_any m h1, tTransform_any m h2]
      exact h

theorem scanP_grow {rnd : Rat → Rat} (m : Mode) (f : PFieldF O I) {keep keep' : Loc → O → Bool} (hk : ∀ b o, keep b o = true → keep' b o = true) :
    ∀ {cs cs' : List Loc}, cs.Sublist cs' → ∀ r', scan rnd .debug f keep' cs' = some r' → ∃ r, scan rnd m f keep cs = some r ∧ r.Sublist r'
  | _, _, .slnil, r', _ => ⟨[], rfl, List.nil_sublist _⟩
  | _, _, .cons c hs, r', h => by
    rw [scan] at h
    cases hb : bagId rnd .debug f c with
    | none => rw [hb] at h; cases h
    | some b =>
      rw [hb] at h
      dsimp only at h
      cases hv : getRead f.fbag b with
      | none => rw [hv] at h; cases h
      | some o =>
        rw [hv] at h
        cases o with
        | none => exact scanP_grow m f hk hs r' h
        | some bag =>
          dsimp only at h
          obtain ⟨r0, h0, rfl⟩ := Option.map_eq_some_iff.1 h
          obtain ⟨r, h1, h2⟩ := scanP_grow m f hk hs r0 h0
          exact ⟨r, h1, h2.trans (List.sublist_append_right _ _)⟩
  | _, _, .cons_cons c hs, r', h => by
    rw [scan] at h
    rw [scan]
    cases hb : bagId rnd .debug f c with
    | none => rw [hb] at h; cases h
    | some b =>
      rw [hb] at h
      rw [bagIdP_any m f hb]
      dsimp only at h ⊢
      cases hv : getRead f.fbag b with
      | none => rw [hv] at h; cases h
      | some o =>
        rw [hv] at h
        cases o with
        | none => exact scanP_grow m f hk hs r' h
        | some bag =>
          dsimp only at h ⊢
          obtain ⟨r0, h0, rfl⟩ := Option.map_eq_some_iff.1 h
          obtain ⟨r, h1, h2⟩ := scanP_grow m f hk hs r0 h0
          exact ⟨_, by rw [h1]; rfl, (Field2D.filter_grow (hk b) bag).append h2⟩

theorem scanP_any {rnd : Rat → Rat} (m : Mode) (f : PFieldF O I) (keep : Loc → O → Bool) : ∀ (cs : List Loc) (r : List O), scan rnd .debug f keep cs = some r →
    scan rnd m f keep cs = some r
  | [], _, h => h
  | c :: cs, r, h => by
    rw [scan] at h ⊢
    cases hb : bagId rnd .debug f c with
    | none => rw [hb] at h; cases h
    | some b =>
      rw [hb] at h
      rw [bagIdP_any m f hb]
      dsimp only at h ⊢
      cases hv : getRead f.fbag b with
      | none => rw [hv] at h; cases h
      | some o =>
        rw [hv] at h
        cases o with
        | none => exact scanP_any m f keep cs r h
        | some bag =>
          dsimp only at h ⊢
          obtain ⟨r0, h0, rfl⟩ := Option.map_eq_some_iff.1 h
          rw [scanP_any m f keep cs r0 h0]
          rfl

theorem searchP_grow {rnd : Rat → Rat} (hr : Rounding rnd) (m : Mode) (size : Nat) (f : PFieldF O I) {d : Rat} (hd : 0 < d) (hf : f.discretization = .fin d) (loc : PosF)
    {a a' : F} (hpos : le (.fin 0) a = true) (ha : le a a' = true) {keep keep' : Loc → O → Bool} (hk : ∀ b o, keep b o = true → keep' b o = true) {l' : List O}
    (h : ((capacity rnd .debug f a').bind (reserve size)).bind (fun _ =>
      if le a' (.fin 0) then some [] else (searchCells rnd .debug f loc a').bind (scan rnd .debug f keep')) = some l') :
    ((capacity rnd m f a').bind (reserve size)).bind (fun _ =>
      if le a' (.fin 0) then some [] else (searchCells rnd m f loc a').bind (scan rnd m f keep')) = some l' ∧
    ∃ l, ((capacity rnd m f a).bind (reserve size)).bind (fun _ =>
      if le a (.fin 0) then some [] else (searchCells rnd m f loc a).bind (scan rnd m f keep)) = some l ∧ l.Sublist l' := by
  obtain ⟨u, hc, h⟩ := Option.bind_eq_some_iff.1 h
  obtain ⟨c1, c2⟩ := capacity_grow hr m size f hpos ha hc
  rw [c1, c2, Option.bind_some, Option.bind_some]
  have hz : ∀ x : F, le (.fin 0) x = true → 0 ≤ toI32 (floor (div rnd x f.discretization)) := by
    intro x hx
    rw [hf, ← reach_zero hr hd]
    exact reach_grow hr hd hx
  constructor
  · cases h1 : le a' (.fin 0) with
    | true => rw [h1] at h; exact h
    | false =>
      rw [h1, if_neg (by decide)] at h
      rw [if_neg (by decide)]
      obtain ⟨cs', h2, h3⟩ := Option.bind_eq_some_iff.1 h
      have e : cellsOf .debug f.toroidal (cellOf rnd f loc).x (cellOf rnd f loc).y (toI32 (floor (div rnd a' f.discretization)))
          (toI32 (ceil (div rnd f.width f.discretization))) (toI32 (ceil (div rnd f.height f.discretization))) = some cs' := h2
      have e2 : searchCells rnd m f loc a' = some cs' := (cellsOf_grow m f.toroidal (hz a' (leF_trans hpos ha)) (le_refl _) e).1
      rw [e2]
      exact scanP_any m f keep' cs' l' h3
  · cases h0 : le a (.fin 0) with
    | true => exact ⟨[], rfl, List.nil_sublist _⟩
    | false =>
      rw [(not_le_zero ha h0).2, if_neg (by decide)] at h
      rw [if_neg (by decide)]
      obtain ⟨cs', h2, h3⟩ := Option.bind_eq_some_iff.1 h
      have e : cellsOf .debug f.toroidal (cellOf rnd f loc).x (cellOf rnd f loc).y (toI32 (floor (div rnd a' f.discretization)))
          (toI32 (ceil (div rnd f.width f.discretization))) (toI32 (ceil (div rnd f.height f.discretization))) = some cs' := h2
      obtain ⟨cs, h4, h5⟩ := (cellsOf_grow m f.toroidal (hz a hpos) (by rw [hf]; exact reach_grow hr hd ha) e).2
      have e2 : searchCells rnd m f loc a = some cs := h4
      rw [e2]
      exact scanP_grow m f hk h5 l' h3

/-- **C267 (machine floats, feature `parallel`).** As `C267_machine_partial`, of distances that are not negative. -/
theorem C267_parallel_partial (rnd root : Rat → Rat) (hr : Rounding rnd) (m : Mode) (size : Nat) (f : PFieldF O I) (d : Rat) (hd : 0 < d) (hf : f.discretization = .fin d)
    (loc : PosF) (a a' : F) (hpos : le (.fin 0) a = true) (ha : le a a' = true) :
    (∀ locOf l', getNeighborsWithinDistance rnd root .debug size f locOf loc a' = some l' → getNeighborsWithinDistance rnd root m size f locOf loc a' = some l' ∧
      ∃ l, getNeighborsWithinDistance rnd root m size f locOf loc a = some l ∧ l.Sublist l') ∧
    (∀ l', getNeighborsWithinRelaxDistance rnd .debug size f loc a' = some l' → getNeighborsWithinRelaxDistance rnd m size f loc a' = some l' ∧
      ∃ l, getNeighborsWithinRelaxDistance rnd m size f loc a = some l ∧ l.Sublist l') :=
  ⟨fun locOf _ h => searchP_grow hr m size f hd hf loc hpos ha (fun b o hk => test_grow rnd root b f.discretization f.width f.height loc f.toroidal ha
      (dist rnd root loc (locOf o) f.width f.height f.toroidal) hk) h,
    fun _ h => searchP_grow hr m size f hd hf loc hpos ha (fun _ _ hk => hk) h⟩

/-- **C267** is false of negative distances under the feature `parallel`: the capacity of the answer is computed from the square of the distance, so the search within a distance
far below 0 panics where the search within distance 1 finds the object. -/
theorem C267_negative_negation_partial :
    le (.fin (-2 ^ 40)) (.fin 1) = true ∧
    (run Single.single id (new 2 (fun _ => 0) (fun _ => 0) (.fin 8) (.fin 8) (.fin 2) false) [.lazyUpdate, .place 3 (Machine.diagonal 3)]).map (fun f : PFieldF Nat Nat =>
      (getNeighborsWithinRelaxDistance Single.single .debug 8 f (Machine.diagonal 3) (.fin (-2 ^ 40)),
        getNeighborsWithinRelaxDistance Single.single .debug 8 f (Machine.diagonal 3) (.fin 1))) = some (none, some [3]) := by
  constructor <;> decide +kernel

/-- The hypotheses of `C267_parallel_partial` hold: within 3/2 one object is found, within 4 both. -/
example : (run Single.single id (new 2 (fun _ => 0) (fun _ => 0) (.fin 8) (.fin 8) (.fin 2) true)
      [.lazyUpdate, .place 5 (Machine.diagonal 5), .place 3 (Machine.diagonal 3)]).map (fun f : PFieldF Nat Nat =>
    (f.discretization, getNeighborsWithinDistance Single.single Single.root .debug 8 f Machine.diagonal (Machine.diagonal 3) (.fin (3 / 2)),
      getNeighborsWithinDistance Single.single Single.root .debug 8 f Machine.diagonal (Machine.diagonal 3) (.fin 4))) =
    some (.fin 2, some [3], some [3, 5]) := by
  decide +kernel

end Verif.ParMachine

namespace Verif.Machine

open DenseI32 (Mode)

/-- **C267** is false of a release build once the window of the search overflows: within a huge distance nothing is found, within distance 3/2 the object is. -/
theorem C267_overflow_negation_partial :
    le (.fin (3 / 2)) (.fin (2 ^ 40)) = true ∧
    (session Single.single .release (.fin 8) (.fin 8) (.fin 2) false [.lazyUpdate, .place 3 (diagonal 3)]).map (fun f =>
      (getNeighborsWithinDistance Single.single Single.root .release f diagonal (diagonal 3) (.fin (3 / 2)),
        getNeighborsWithinDistance Single.single Single.root .release f diagonal (diagonal 3) (.fin (2 ^ 40)),
        getNeighborsWithinRelaxDistance Single.single .release f (diagonal 3) (.fin (3 / 2)),
        getNeighborsWithinRelaxDistance Single.single .release f (diagonal 3) (.fin (2 ^ 40)))) = some (some [3], some [], some [3], some []) := by
  constructor <;> decide +kernel

/-- The hypotheses of `C267_machine_partial` hold: within 3/2 one object is found, within 4 both. -/
example : (session Single.single .debug (.fin 8) (.fin 8) (.fin 2) true [.lazyUpdate, .place 5 (diagonal 5), .place 3 (diagonal 3)]).map (fun f =>
    (f.discretization, getNeighborsWithinDistance Single.single Single.root .debug f diagonal (diagonal 3) (.fin (3 / 2)),
      getNeighborsWithinDistance Single.single Single.root .debug f diagonal (diagonal 3) (.fin 4))) =
    some (.fin 2, some [3], some [3, 5]) := by
  decide +kernel

end Verif.Machine

namespace Verif.Field2D

/-- The hypotheses of `C267_exact_partial` hold: within 3/2 one object is found, within 4 both. -/
example : 0 < (Field2D.new 8 8 2 true : Field Nat).discretization ∧
    (Field2D.run (Field2D.new 8 8 2 true) [.lazyUpdate, .place 5 ⟨5, 5⟩, .place 3 ⟨3, 3⟩]).bind (fun f : Field Nat =>
      getNeighborsWithinDistance f (fun n => ⟨n, n⟩) ⟨3, 3⟩ (3 / 2)) = some [3] ∧
    (Field2D.run (Field2D.new 8 8 2 true) [.lazyUpdate, .place 5 ⟨5, 5⟩, .place 3 ⟨3, 3⟩]).bind (fun f : Field Nat =>
      getNeighborsWithinDistance f (fun n => ⟨n, n⟩) ⟨3, 3⟩ 4) = some [3, 5] := by
  refine ⟨?_, ?_, ?_⟩ <;> decide +kernel

end Verif.Field2D

namespace Verif.KdTree

open Grid Torus Field2D

variable {O : Type} [BEq O]

/-- **C267 (distributed field, exact arithmetic).** As `C267_exact_partial`, of both searches in the part of the field that a process holds. -/
theorem C267_distributed_partial (t : Tree O) (hd : 0 < t.bags.discretization) (locOf : O → Pos) (loc : Pos) {r r' : Rat} (h : r ≤ r') :
    (∀ l', getNeighborsWithinDistance t locOf loc r' = some l' → ∃ l, getNeighborsWithinDistance t locOf loc r = some l ∧ l.Sublist l') ∧
    (∀ l', getRelaxed t locOf loc r' = some l' → ∃ l, getRelaxed t locOf loc r = some l ∧ l.Sublist l') := by
  constructor
  · unfold getNeighborsWithinDistance
    intro l' hl
    by_cases h0 : r ≤ 0
    · exact ⟨[], if_pos h0, List.nil_sublist _⟩
    · rw [if_neg (fun hc => h0 (h.trans hc))] at hl
      rw [if_neg h0]
      refine scan_grow t.bags (fun b e hk => ?_) (searchCells_grow t.bags hd loc h) l' hl
      rw [Bool.and_eq_true] at *
      exact ⟨keepExact_grow t.bags locOf loc (le_of_lt (not_le.1 h0)) h b e hk.1, hk.2⟩
  · unfold getRelaxed
    intro l' hl
    have hm : min r t.layout.distance ≤ min r' t.layout.distance := min_le_min_right _ h
    by_cases h0 : min r t.layout.distance ≤ 0
    · exact ⟨[], if_pos h0, List.nil_sublist _⟩
    · rw [if_neg (fun hc => h0 (hm.trans hc))] at hl
      rw [if_neg h0]
      exact scan_grow t.bags (fun _ _ hk => hk) (searchCells_grow t.bags hd loc hm) l' hl

/-- The hypotheses of `C267_distributed_partial` hold: within 3/2 nobody else is found, within 4 the other object is. -/
example : ((Tree.create 0 1 0 ⟨0, 0, 8, 8⟩ 2 2).bind (fun t => (insert t 3 ⟨3, 3⟩).bind (fun t => (insert t 5 ⟨5, 5⟩).bind lazyUpdate))).map (fun t : Tree Nat =>
      (t.bags.discretization, getNeighborsWithinDistance t (fun n => ⟨n, n⟩) ⟨3, 3⟩ (3 / 2), getNeighborsWithinDistance t (fun n => ⟨n, n⟩) ⟨3, 3⟩ 4)) =
    some (2, some [], some [5]) := by
  decide +kernel

end Verif.KdTree
