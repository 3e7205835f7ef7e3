import Verif.Lemmas.MachineAgents
import Verif.Props.SingleTorus

/-!
Bounds on the arithmetic of a bird.
-/

namespace Verif.Machine

open Single (Rounding Root IsF32)
open DenseI32 (Mode)

variable {rnd root : Rat → Rat}

/-- A single of at most this size. -/
def Bdd (k : Nat) (v : F) : Prop := ∃ q, v = .fin q ∧ |q| ≤ 2 ^ k ∧ IsF32 q

/-- At least 1, perhaps infinite. -/
def AtLeast1 (v : F) : Prop := v = .inf false ∨ ∃ q, v = .fin q ∧ 1 ≤ q

/-- Not negative, perhaps infinite. -/
def NonNeg (v : F) : Prop := v = .inf false ∨ ∃ q, v = .fin q ∧ 0 ≤ q

theorem Bdd.mono {j k : Nat} {v : F} (h : Bdd j v) (hjk : j ≤ k) : Bdd k v := by
  obtain ⟨q, h1, h2, h3⟩ := h
  exact ⟨q, h1, le_trans h2 (pow_le_pow_right₀ (by norm_num) hjk), h3⟩

theorem ofRat_bdd (hr : Rounding rnd) {x : Rat} {k : Nat} (hk : k ≤ 127) (h : |x| ≤ 2 ^ k) : Bdd k (ofRat rnd x) :=
  ⟨rnd x, ofRat_of hr (le_trans h (pow_le_pow_right₀ (by norm_num) hk)), rnd_pow hr k h, hr.lands x⟩

theorem add_bdd (hr : Rounding rnd) {a b : F} {j : Nat} (hj : j + 1 ≤ 127) (ha : Bdd j a) (hb : Bdd j b) : Bdd (j + 1) (add rnd a b) := by
  obtain ⟨p, rfl, h1, _⟩ := ha
  obtain ⟨q, rfl, h2, _⟩ := hb
  refine ofRat_bdd hr hj (le_trans (abs_add_le' h1 h2) (le_of_eq ?_))
  rw [pow_succ]; ring

theorem mul_bdd (hr : Rounding rnd) {a b : F} {j k : Nat} (hj : j + k ≤ 127) (ha : Bdd j a) (hb : Bdd k b) : Bdd (j + k) (mul rnd a b) := by
  obtain ⟨p, rfl, h1, _⟩ := ha
  obtain ⟨q, rfl, h2, _⟩ := hb
  refine ofRat_bdd hr hj (le_trans (abs_mul_le' h1 h2) (le_of_eq ?_))
  rw [pow_add]

theorem neg_bdd {a : F} {k : Nat} (ha : Bdd k a) : Bdd k (neg a) := by
  obtain ⟨p, rfl, h1, h2⟩ := ha
  exact ⟨-p, rfl, by rwa [abs_neg], Single.isF32_neg h2⟩

theorem isF32_pow (k : Nat) : IsF32 ((2 : Rat) ^ k) := ⟨1, k, by norm_num, by omega, by simp⟩

theorem isF32_zpow {k : Int} (h : -149 ≤ k) : IsF32 ((2 : Rat) ^ k) := ⟨1, k, by norm_num, h, by simp⟩

/-- From 2^84 on, terms up to 2^59 are rounded away. -/
theorem round_back (hr : Rounding rnd) : rnd (2 ^ 84 + 2 ^ 59) ≤ 2 ^ 84 := by
  by_contra hc
  have hc := lt_of_not_ge hc
  have h1 := Single.gap (hr.lands _) (isF32_pow 84) (lt_trans (by norm_num) hc) hc
  have h2 := hr.nearest (2 ^ 84 + 2 ^ 59) _ (isF32_pow 84)
  rw [show (2 : Rat) ^ 84 - (2 ^ 84 + 2 ^ 59) = -2 ^ 59 by ring, abs_neg, abs_of_pos (show (0 : Rat) < 2 ^ 59 by norm_num), abs_le] at h2
  generalize rnd (2 ^ 84 + 2 ^ 59) = z at *
  have h3 := h2.2
  rw [div_le_iff₀ (by norm_num)] at h1
  norm_num at h1 h3 hc
  linarith

/-- A sum of arbitrarily many terms stays finite. -/
theorem sum_bdd (hr : Rounding rnd) {a b : F} (ha : Bdd 84 a) (hb : Bdd 59 b) : Bdd 84 (add rnd a b) := by
  obtain ⟨p, rfl, h1, _⟩ := ha
  obtain ⟨q, rfl, h2, _⟩ := hb
  have h3 : |p + q| ≤ 2 ^ 84 + 2 ^ 59 := abs_add_le' h1 h2
  refine ⟨rnd (p + q), ofRat_of hr (le_trans h3 (by norm_num)), ?_, hr.lands _⟩
  rw [abs_le] at h3 ⊢
  have a1 := hr.mono _ _ h3.1
  have a2 := hr.mono _ _ h3.2
  rw [hr.odd] at a1
  have := round_back hr
  constructor <;> linarith

theorem ofRat_nonneg (hr : Rounding rnd) {x : Rat} (h : 0 ≤ x) : ofRat rnd x = .inf false ∨ ofRat rnd x = .fin (rnd x) := by
  have := hr.nonneg h
  unfold ofRat
  split_ifs with h1 h2
  · exact .inl rfl
  · exact absurd h2 (not_lt.2 (le_trans (by unfold largest; norm_num) this))
  · exact .inr rfl

theorem nonNeg_ofRat (hr : Rounding rnd) {x : Rat} (h : 0 ≤ x) : NonNeg (ofRat rnd x) := by
  rcases ofRat_nonneg hr h with e | e
  · exact .inl e
  · exact .inr ⟨_, e, hr.nonneg h⟩

theorem atLeast_ofRat (hr : Rounding rnd) {x : Rat} (h : 1 ≤ x) : AtLeast1 (ofRat rnd x) := by
  rcases ofRat_nonneg hr (le_trans zero_le_one h) with e | e
  · exact .inl e
  · refine .inr ⟨_, e, ?_⟩
    have := hr.mono _ _ h
    rwa [hr.keeps (by simpa using isF32_pow 0)] at this

theorem nonNeg_add (hr : Rounding rnd) {a b : F} (ha : NonNeg a) (hb : NonNeg b) : NonNeg (add rnd a b) := by
  rcases ha with rfl | ⟨p, rfl, hp⟩ <;> rcases hb with rfl | ⟨q, rfl, hq⟩
  · exact .inl rfl
  · exact .inl rfl
  · exact .inl rfl
  · exact nonNeg_ofRat hr (add_nonneg hp hq)

theorem nonNeg_square (hr : Rounding rnd) {a b : F} {j k : Nat} (ha : Bdd j a) (hb : Bdd k b) : NonNeg (squareOf rnd a b) := by
  obtain ⟨p, rfl, _, _⟩ := ha
  obtain ⟨q, rfl, _, _⟩ := hb
  exact nonNeg_add hr (nonNeg_ofRat hr (mul_self_nonneg p)) (nonNeg_ofRat hr (mul_self_nonneg q))

theorem atLeast_repulsion (hr : Rounding rnd) {s : F} (hs : NonNeg s) : AtLeast1 (repulsion rnd s) := by
  rcases hs with rfl | ⟨q, rfl, hq⟩
  · exact .inl rfl
  · unfold repulsion
    show AtLeast1 (add rnd (ofRat rnd (q * q)) (.fin 1))
    rcases ofRat_nonneg hr (mul_self_nonneg q) with e | e
    · rw [e]; exact .inl rfl
    · rw [e]
      exact atLeast_ofRat hr (by have := hr.nonneg (mul_self_nonneg q); linarith)

theorem div_bdd (hr : Rounding rnd) {a b : F} {k : Nat} (hk : k ≤ 127) (ha : Bdd k a) (hb : AtLeast1 b) : Bdd k (div rnd a b) := by
  obtain ⟨p, rfl, h1, _⟩ := ha
  rcases hb with rfl | ⟨q, rfl, hq⟩
  · exact ⟨0, rfl, by rw [abs_zero]; positivity, Single.isF32_zero⟩
  · have h0 : 0 < q := lt_of_lt_of_le one_pos hq
    have : |p / q| ≤ 2 ^ k := by
      rw [abs_div, abs_of_pos h0, div_le_iff₀ h0]
      exact le_trans h1 (le_mul_of_one_le_right (by positivity) hq)
    rw [div_of hr h0.ne' (le_trans this (pow_le_pow_right₀ (by norm_num) hk))]
    exact ⟨_, rfl, rnd_pow hr k this, hr.lands _⟩

theorem mean_bdd (hr : Rounding rnd) (a : AccF) {s : F} {k : Nat} (hk : k ≤ 127) (hs : Bdd k s) : Bdd k (a.mean rnd s) := by
  unfold AccF.mean
  split_ifs with h
  · exact div_bdd hr hk hs (atLeast_ofRat hr (by exact_mod_cast h))
  · exact hs

/-- All sums are bounded. -/
structure AccBdd (a : AccF) : Prop where
  xa : Bdd 84 a.xAvoid
  ya : Bdd 84 a.yAvoid
  xc : Bdd 84 a.xCohe
  yc : Bdd 84 a.yCohe
  xs : Bdd 84 a.xCons
  ys : Bdd 84 a.yCons

theorem bdd_zero (k : Nat) : Bdd k (.fin 0) := ⟨0, rfl, by rw [abs_zero]; positivity, Single.isF32_zero⟩

theorem accBdd_zero : AccBdd AccF.zero := ⟨bdd_zero _, bdd_zero _, bdd_zero _, bdd_zero _, bdd_zero _, bdd_zero _⟩

theorem accBdd_plus (hr : Rounding rnd) {a : AccF} (ha : AccBdd a) {dx dy : F} {l : PosF} (hx : Bdd 59 dx) (hy : Bdd 59 dy) (hlx : Bdd 59 l.x) (hly : Bdd 59 l.y) :
    AccBdd (a.plus rnd dx dy l) := by
  have hq := atLeast_repulsion hr (nonNeg_square hr hx hy)
  exact ⟨sum_bdd hr ha.xa (div_bdd hr (by norm_num) hx hq), sum_bdd hr ha.ya (div_bdd hr (by norm_num) hy hq), sum_bdd hr ha.xc hx, sum_bdd hr ha.yc hy,
    sum_bdd hr ha.xs hlx, sum_bdd hr ha.ys hly⟩

theorem toroidalDist_f32 (hr : Rounding rnd) (u v dim : Rat) : IsF32 (Single.toroidalDist rnd u v dim) := by
  unfold Single.toroidalDist Single.apart
  split_ifs <;> exact hr.lands _

theorem dist_bdd (hr : Rounding rnd) {u v dim : Rat} (h0 : 0 < dim) (hd : dim ≤ 2 ^ 30) (hu0 : 0 ≤ u) (hu : u ≤ dim) (hv0 : 0 ≤ v) (hv : v ≤ dim) :
    Bdd 59 (toroidalDist rnd (.fin u) (.fin v) (.fin dim)) := by
  have h56 : dim ≤ 2 ^ 56 := le_trans hd (by norm_num)
  obtain ⟨a, b⟩ := toroidalDist_of hr h0 h56 (u := u) (v := v) (by rw [abs_of_nonneg hu0]; exact le_trans hu h56) (by rw [abs_of_nonneg hv0]; exact le_trans hv h56)
  exact ⟨_, a, b, toroidalDist_f32 hr _ _ _⟩

theorem good_last {w h : Rat} {b : BirdF} (hb : GoodBird w h b) : Bdd 5 b.lastD.x ∧ Bdd 5 b.lastD.y := by
  obtain ⟨x, y, u, v, e1, e2, _, _, _, _, hu, hv, _, _, fu, fv⟩ := hb
  rw [e2]
  exact ⟨⟨u, rfl, le_trans hu (by norm_num), fu⟩, ⟨v, rfl, le_trans hv (by norm_num), fv⟩⟩

theorem accBdd_add (hr : Rounding rnd) {w h : Rat} (hw0 : 0 < w) (hw : w ≤ 2 ^ 30) (hh0 : 0 < h) (hh : h ≤ 2 ^ 30) {self e : BirdF} (hs : GoodBird w h self)
    (he : GoodBird w h e) {a : AccF} (ha : AccBdd a) : AccBdd (addNeighbor rnd (.fin w) (.fin h) self a e) := by
  unfold addNeighbor
  split_ifs
  · obtain ⟨l1, l2⟩ := good_last he
    obtain ⟨x, y, _, _, e1, _, x1, x2, y1, y2, _⟩ := hs
    obtain ⟨x', y', _, _, e1', _, x1', x2', y1', y2', _⟩ := he
    rw [e1, e1']
    exact accBdd_plus hr ha (dist_bdd hr hw0 hw x1 x2 x1' x2') (dist_bdd hr hh0 hh y1 y2 y1' y2') (l1.mono (by norm_num)) (l2.mono (by norm_num))
  · exact ha

theorem accBdd_fold (hr : Rounding rnd) {w h : Rat} (hw0 : 0 < w) (hw : w ≤ 2 ^ 30) (hh0 : 0 < h) (hh : h ≤ 2 ^ 30) {self : BirdF} (hs : GoodBird w h self)
    (vec : List BirdF) (hv : ∀ e ∈ vec, GoodBird w h e) : ∀ {a : AccF}, AccBdd a → AccBdd (vec.foldl (addNeighbor rnd (.fin w) (.fin h) self) a) := by
  induction vec with
  | nil => intro a ha; exact ha
  | cons e vec ih =>
    intro a ha
    exact ih (fun x hx => hv x (List.mem_cons_of_mem _ hx)) (accBdd_add hr hw0 hw hh0 hh hs (hv e List.mem_cons_self) ha)

theorem bdd_one : Bdd 0 (.fin 1) := ⟨1, rfl, by norm_num, by simpa using isF32_pow 0⟩

theorem weight_bdd (hr : Rounding rnd) {a : F} {k : Nat} (hk : k ≤ 127) (ha : Bdd k a) : Bdd k (mul rnd (.fin 1) a) := by
  have := mul_bdd hr (show 0 + k ≤ 127 by omega) bdd_one ha
  rwa [Nat.zero_add] at this

theorem together_bdd (hr : Rounding rnd) {a b c d e : F} (ha : Bdd 93 a) (hb : Bdd 93 b) (hc : Bdd 93 c) (hd : Bdd 93 d) (he : Bdd 93 e) :
    Bdd 97 (together rnd a b c d e) := by
  have wa := weight_bdd hr (by norm_num) ha
  have wb := weight_bdd hr (by norm_num) hb
  have wc := weight_bdd hr (by norm_num) hc
  have wd := weight_bdd hr (by norm_num) hd
  have we := weight_bdd hr (by norm_num) he
  exact add_bdd hr (by norm_num) (add_bdd hr (by norm_num) (add_bdd hr (by norm_num) (add_bdd hr (by norm_num) wa wb) (wc.mono (by norm_num)))
    (wd.mono (by norm_num))) (we.mono (by norm_num))

/-! ### The random part -/

theorem spread_of (hr : Rounding rnd) {k : Nat} (hk : k < 2 ^ 24) : spread rnd ((k : Rat) / 2 ^ 24) = .fin (((k : Rat) - 2 ^ 23) / 2 ^ 23) := by
  have hk' : (k : Rat) < 2 ^ 24 := by exact_mod_cast hk
  have hk0 : (0 : Rat) ≤ k := Nat.cast_nonneg k
  have e1 : IsF32 ((k : Rat) / 2 ^ 24 * 2) := by
    refine ⟨k, -23, ?_, by norm_num, ?_⟩
    · rw [abs_of_nonneg (by omega)]; exact_mod_cast hk.le
    · rw [zpow_neg]; push_cast; norm_num; ring
  have e2 : IsF32 (((k : Rat) - 2 ^ 23) / 2 ^ 23) := by
    refine ⟨(k : Int) - 2 ^ 23, -23, ?_, by norm_num, ?_⟩
    · rw [abs_le]; omega
    · rw [zpow_neg]; push_cast; norm_num; ring
  unfold spread
  have b1 : |(k : Rat) / 2 ^ 24 * 2| ≤ 2 ^ 127 := by
    rw [abs_of_nonneg (by positivity)]
    have : (k : Rat) / 2 ^ 24 ≤ 1 := by rw [div_le_one (by positivity)]; exact hk'.le
    linarith [show (2 : Rat) ≤ 2 ^ 127 by norm_num]
  rw [mul_of hr b1, hr.keeps e1]
  have e3 : (k : Rat) / 2 ^ 24 * 2 - 1 = ((k : Rat) - 2 ^ 23) / 2 ^ 23 := by field_simp
  have b2 : |((k : Rat) - 2 ^ 23) / 2 ^ 23| ≤ 2 ^ 127 := by
    have h1 : |((k : Rat) - 2 ^ 23) / 2 ^ 23| ≤ 1 := by
      rw [abs_div, abs_of_pos (show (0 : Rat) < 2 ^ 23 by positivity), div_le_one (by positivity), abs_le]
      constructor <;> linarith [show (2 : Rat) ^ 24 = 2 ^ 23 + 2 ^ 23 by norm_num]
    exact le_trans h1 (by norm_num)
  rw [sub_of hr (by rw [e3]; exact b2), e3, hr.keeps e2]

theorem abs_spread {k : Nat} (hk : k < 2 ^ 24) : |((k : Rat) - 2 ^ 23) / 2 ^ 23| ≤ 1 := by
  have hk' : (k : Rat) < 2 ^ 24 := by exact_mod_cast hk
  have hk0 : (0 : Rat) ≤ k := Nat.cast_nonneg k
  rw [abs_div, abs_of_pos (show (0 : Rat) < 2 ^ 23 by positivity), div_le_one (by positivity), abs_le]
  constructor <;> linarith [show (2 : Rat) ^ 24 = 2 ^ 23 + 2 ^ 23 by norm_num]

theorem square_spread (hr : Rounding rnd) {k : Nat} (hk : k ≠ 2 ^ 23) : 1 / 2 ^ 46 ≤ rnd (((k : Rat) - 2 ^ 23) / 2 ^ 23 * (((k : Rat) - 2 ^ 23) / 2 ^ 23)) := by
  have hF : IsF32 (1 / 2 ^ 46 : Rat) := by
    have := isF32_zpow (k := -46) (by norm_num)
    rwa [show ((2 : Rat) ^ (-46 : Int)) = 1 / 2 ^ 46 by rw [zpow_neg]; norm_num] at this
  rw [← hr.keeps hF]
  apply hr.mono
  have h1 : (1 : Int) ≤ ((k : Int) - 2 ^ 23) * ((k : Int) - 2 ^ 23) := by
    have : (k : Int) - 2 ^ 23 ≠ 0 := by omega
    have := mul_self_pos.2 this
    omega
  have h2 : (1 : Rat) ≤ ((k : Rat) - 2 ^ 23) * ((k : Rat) - 2 ^ 23) := by exact_mod_cast h1
  rw [div_mul_div_comm, ← pow_add]
  exact div_le_div_of_nonneg_right h2 (by positivity)

theorem randomness_bdd (hr : Rounding rnd) (ho : Root root) {r : Rat × Rat} (hd : Draw r) : Bdd 23 (randomness rnd root r).x ∧ Bdd 23 (randomness rnd root r).y := by
  obtain ⟨k, l, hk, hl, rfl, hne⟩ := hd
  unfold randomness
  simp only [spread_of hr hk, spread_of hr hl]
  have ak := abs_spread hk
  have al := abs_spread hl
  have gk := @square_spread rnd hr k
  have gl := @square_spread rnd hr l
  generalize ((k : Rat) - 2 ^ 23) / 2 ^ 23 = x at *
  generalize ((l : Rat) - 2 ^ 23) / 2 ^ 23 = y at *
  have sq : ∀ {z : Rat}, |z| ≤ 1 → |z * z| ≤ 2 ^ 0 := fun {z} hz => by
    have := abs_mul_le' hz hz
    rwa [one_mul] at this
  have nx := hr.nonneg (mul_self_nonneg x)
  have ny := hr.nonneg (mul_self_nonneg y)
  have hs : squareOf rnd (.fin x) (.fin y) = .fin (rnd (rnd (x * x) + rnd (y * y))) := by
    unfold squareOf
    rw [mul_of hr (le_trans (sq ak) (by norm_num)), mul_of hr (le_trans (sq al) (by norm_num)), add_of hr]
    exact le_trans (abs_add_le' (rnd_pow hr 0 (sq ak)) (rnd_pow hr 0 (sq al))) (by norm_num)
  have hF : IsF32 (1 / 2 ^ 46 : Rat) := by
    have := isF32_zpow (k := -46) (by norm_num)
    rwa [show ((2 : Rat) ^ (-46 : Int)) = 1 / 2 ^ 46 by rw [zpow_neg]; norm_num] at this
  have hF' : IsF32 (1 / 2 ^ 23 : Rat) := by
    have := isF32_zpow (k := -23) (by norm_num)
    rwa [show ((2 : Rat) ^ (-23 : Int)) = 1 / 2 ^ 23 by rw [zpow_neg]; norm_num] at this
  have hge : 1 / 2 ^ 46 ≤ rnd (rnd (x * x) + rnd (y * y)) := by
    have h1 : 1 / 2 ^ 46 ≤ rnd (x * x) + rnd (y * y) := by
      by_cases h : k = 2 ^ 23
      · have := gl (fun h' => hne ⟨h, h'⟩)
        linarith
      · have := gk h
        linarith
    have := hr.mono _ _ h1
    rwa [hr.keeps hF] at this
  have hpos : (0 : Rat) ≤ rnd (rnd (x * x) + rnd (y * y)) := le_trans (by norm_num) hge
  have hroot : 1 / 2 ^ 23 ≤ root (rnd (rnd (x * x) + rnd (y * y))) := by
    refine ho.below _ _ hpos hF' (by norm_num) ?_
    refine le_trans (le_of_eq ?_) hge
    norm_num
  rw [hs]
  show Bdd 23 (div rnd _ (if rnd (rnd (x * x) + rnd (y * y)) < 0 then F.nan else .fin (root _))) ∧ Bdd 23 (div rnd _ (if rnd (rnd (x * x) + rnd (y * y)) < 0 then F.nan else .fin (root _)))
  rw [if_neg (not_lt.2 hpos)]
  generalize root (rnd (rnd (x * x) + rnd (y * y))) = t at *
  have t0 : 0 < t := lt_of_lt_of_le (by norm_num) hroot
  have h20 : |rnd (1 / 20)| ≤ 1 := by
    have := rnd_pow hr (x := 1 / 20) 0 (by rw [abs_of_pos] <;> norm_num)
    rwa [pow_zero] at this
  have fin : ∀ z : Rat, |z| ≤ 1 → Bdd 23 (div rnd (mul rnd (.fin (rnd (1 / 20))) (.fin z)) (.fin t)) := by
    intro z hz
    have hm : |rnd (1 / 20) * z| ≤ 2 ^ 0 := by
      have := abs_mul_le' h20 hz
      rwa [one_mul] at this
    rw [mul_of hr (le_trans hm (by norm_num))]
    have hm' := rnd_pow hr 0 hm
    have : |rnd (rnd (1 / 20) * z) / t| ≤ 2 ^ 23 := by
      rw [abs_div, abs_of_pos t0, div_le_iff₀ t0]
      rw [div_le_iff₀ (by positivity)] at hroot
      linarith
    rw [div_of hr t0.ne' (le_trans this (by norm_num))]
    exact ⟨_, rfl, rnd_pow hr 23 this, hr.lands _⟩
  exact ⟨fin x ak, fin y al⟩

/-! ### The move -/

theorem squareOf_cases (hr : Rounding rnd) (x y : Rat) :
    squareOf rnd (.fin x) (.fin y) = .inf false ∨ squareOf rnd (.fin x) (.fin y) = .fin (rnd (rnd (x * x) + rnd (y * y))) := by
  show add rnd (ofRat rnd (x * x)) (ofRat rnd (y * y)) = _ ∨ add rnd (ofRat rnd (x * x)) (ofRat rnd (y * y)) = _
  rcases ofRat_nonneg hr (mul_self_nonneg x) with e | e <;> rcases ofRat_nonneg hr (mul_self_nonneg y) with e' | e' <;> rw [e, e']
  · exact .inl rfl
  · exact .inl rfl
  · exact .inl rfl
  · exact ofRat_nonneg hr (add_nonneg (hr.nonneg (mul_self_nonneg x)) (hr.nonneg (mul_self_nonneg y)))

/-- The computed length is at least half of a coordinate, unless that is tiny. -/
theorem length_ge (hr : Rounding rnd) (ho : Root root) {x t : Rat} (ht : 0 ≤ t) (hx : 1 / 2 ^ 70 ≤ |x|) :
    |x| / 2 ≤ root (rnd (rnd (x * x) + t)) := by
  have hx0 : 0 < |x| := lt_of_lt_of_le (by norm_num) hx
  have h1 : (2 : Rat) ^ (Int.log 2 |x|) ≤ |x| := by
    have := Int.zpow_log_le_self (b := 2) (by norm_num) hx0
    exact_mod_cast this
  have h2 : |x| < (2 : Rat) ^ (Int.log 2 |x| + 1) := by
    have := Int.lt_zpow_succ_log_self (b := 2) (by norm_num) |x|
    exact_mod_cast this
  have hk : -70 ≤ Int.log 2 |x| := by
    have := Int.zpow_le_iff_le_log (b := 2) (by norm_num) (x := -70) hx0
    apply this.1
    refine le_trans (le_of_eq ?_) hx
    push_cast
    rw [zpow_neg]
    norm_num
  generalize Int.log 2 |x| = k at *
  have hp : (0 : Rat) < (2 : Rat) ^ k := Single.two_zpow_pos k
  have hsq : (2 : Rat) ^ k * 2 ^ k ≤ x * x := by
    rw [← abs_mul_abs_self x]
    exact mul_le_mul h1 h1 hp.le hx0.le
  have e : (2 : Rat) ^ k * 2 ^ k = 2 ^ (k + k) := (zpow_add₀ (by norm_num) k k).symm
  have hF : IsF32 ((2 : Rat) ^ k * 2 ^ k) := by rw [e]; exact isF32_zpow (by omega)
  have h3 : (2 : Rat) ^ k * 2 ^ k ≤ rnd (rnd (x * x) + t) := by
    have a := hr.mono _ _ hsq
    rw [hr.keeps hF] at a
    have b := hr.mono _ _ (show (2 : Rat) ^ k * 2 ^ k ≤ rnd (x * x) + t by linarith)
    rwa [hr.keeps hF] at b
  have h4 := ho.below _ _ (le_trans (by positivity) h3) (isF32_zpow (show -149 ≤ k by omega)) hp.le h3
  rw [zpow_add₀ (by norm_num), zpow_one] at h2
  linarith

/-- A positive length is not tiny. -/
theorem length_pos (hr : Rounding rnd) (ho : Root root) {s : Rat} (hs : 0 ≤ rnd s) (h : 0 < root (rnd s)) : 1 / 2 ^ 75 ≤ root (rnd s) := by
  have h0 : 0 < rnd s := by
    rcases lt_or_eq_of_le hs with h' | h'
    · exact h'
    · have := ho.above 0 0 (le_refl _) Single.isF32_zero (le_refl _) (by norm_num)
      rw [← h'] at h
      linarith
  have h1 : 1 / 2 ^ 149 ≤ rnd s := by
    obtain ⟨m, e, _, he, hm⟩ := hr.lands s
    rw [hm] at h0 ⊢
    have hp := Single.two_zpow_pos e
    have : 0 < m := by
      have := (mul_pos_iff_of_pos_right hp).1 h0
      exact_mod_cast this
    have h2 : (1 : Rat) ≤ m := by exact_mod_cast this
    have h3 : (1 / 2 ^ 149 : Rat) ≤ 2 ^ e := by
      have := zpow_le_zpow_right₀ (show (1 : Rat) ≤ 2 by norm_num) he
      refine le_trans (le_of_eq ?_) this
      rw [zpow_neg]
      norm_num
    exact le_trans h3 (le_mul_of_one_le_left hp.le h2)
  have hF : IsF32 (1 / 2 ^ 75 : Rat) := by
    have := isF32_zpow (k := -75) (by norm_num)
    rwa [show ((2 : Rat) ^ (-75 : Int)) = 1 / 2 ^ 75 by rw [zpow_neg]; norm_num] at this
  exact ho.below _ _ hs hF (by norm_num) (le_trans (by norm_num) h1)

theorem scaled_bdd (hr : Rounding rnd) (ho : Root root) {v : PosF} (hx : Bdd 97 v.x) (hy : Bdd 97 v.y) :
    Bdd 5 (scaled rnd root v).x ∧ Bdd 5 (scaled rnd root v).y := by
  obtain ⟨x, ex, bx, fx⟩ := hx
  obtain ⟨y, ey, by_, fy⟩ := hy
  unfold scaled
  rw [ex, ey]
  have h7 : |rnd (7 / 10)| ≤ 2 ^ 0 := rnd_pow hr 0 (by rw [abs_of_pos] <;> norm_num)
  have h7' : Bdd 0 (.fin (rnd (7 / 10))) := ⟨_, rfl, h7, hr.lands _⟩
  have tail : ∀ {a : F}, Bdd 5 a → Bdd 5 (mul rnd a (.fin (rnd (7 / 10)))) := fun ha => mul_bdd hr (show 5 + 0 ≤ 127 by norm_num) ha h7'
  rcases squareOf_cases hr x y with e | e
  · rw [e]
    show Bdd 5 (if true = true then _ else _ : PosF).x ∧ Bdd 5 (if true = true then _ else _ : PosF).y
    rw [if_pos rfl]
    exact ⟨tail (bdd_zero 5), tail (bdd_zero 5)⟩
  · rw [e]
    have hx0 := hr.nonneg (mul_self_nonneg x)
    have hy0 := hr.nonneg (mul_self_nonneg y)
    have hs0 : 0 ≤ rnd (rnd (x * x) + rnd (y * y)) := hr.nonneg (add_nonneg hx0 hy0)
    have gx := length_ge hr ho (x := x) hy0
    have gy := length_ge hr ho (x := y) hx0
    rw [add_comm (rnd (y * y))] at gy
    have gp := length_pos hr ho hs0
    have hsq : sqrt root (.fin (rnd (rnd (x * x) + rnd (y * y)))) = .fin (root (rnd (rnd (x * x) + rnd (y * y)))) := if_neg (not_lt.2 hs0)
    rw [hsq]
    generalize root (rnd (rnd (x * x) + rnd (y * y))) = t at *
    simp only [lt, decide_eq_true_eq]
    by_cases ht : 0 < t
    · rw [if_pos ht]
      have quot : ∀ z : Rat, (1 / 2 ^ 70 ≤ |z| → |z| / 2 ≤ t) → Bdd 5 (div rnd (.fin z) (.fin t)) := by
        intro z hz
        have : |z / t| ≤ 2 ^ 5 := by
          rw [abs_div, abs_of_pos ht, div_le_iff₀ ht]
          rcases le_or_gt (1 / 2 ^ 70) |z| with h | h
          · have := hz h
            linarith
          · have := gp ht
            have h' : (2 : Rat) ^ 5 * (1 / 2 ^ 75) ≤ 2 ^ 5 * t := mul_le_mul_of_nonneg_left this (by norm_num)
            refine le_trans h.le (le_trans (le_of_eq ?_) h')
            norm_num
        rw [div_of hr ht.ne' (le_trans this (by norm_num))]
        exact ⟨_, rfl, rnd_pow hr 5 this, hr.lands _⟩
      exact ⟨tail (quot x gx), tail (quot y gy)⟩
    · rw [if_neg ht]
      have small : ∀ z : Rat, (1 / 2 ^ 70 ≤ |z| → |z| / 2 ≤ t) → |z| ≤ 2 ^ 5 := by
        intro z hz
        rcases le_or_gt (1 / 2 ^ 70) |z| with h | h
        · have := hz h
          have h' : (0 : Rat) < 1 / 2 ^ 70 := by norm_num
          exact absurd (lt_of_lt_of_le (show 0 < |z| / 2 by linarith) this) ht
        · exact le_trans h.le (by norm_num)
      rw [ex, ey]
      exact ⟨⟨x, rfl, small x gx, fx⟩, ⟨y, rfl, small y gy, fy⟩⟩

theorem direction_bdd (hr : Rounding rnd) (ho : Root root) {w h : Rat} (hw0 : 0 < w) (hw : w ≤ 2 ^ 30) (hh0 : 0 < h) (hh : h ≤ 2 ^ 30) {self : BirdF}
    (hs : GoodBird w h self) {r : Rat × Rat} (hd : Draw r) (vec : List BirdF) (hv : ∀ e ∈ vec, GoodBird w h e) :
    Bdd 97 (direction rnd root (.fin w) (.fin h) r self vec).x ∧ Bdd 97 (direction rnd root (.fin w) (.fin h) r self vec).y := by
  obtain ⟨m1, m2⟩ := good_last hs
  have m1 := m1.mono (show 5 ≤ 93 by norm_num)
  have m2 := m2.mono (show 5 ≤ 93 by norm_num)
  unfold direction
  split_ifs
  · exact ⟨together_bdd hr (bdd_zero _) (bdd_zero _) (bdd_zero _) (bdd_zero _) m1, together_bdd hr (bdd_zero _) (bdd_zero _) (bdd_zero _) (bdd_zero _) m2⟩
  · have ha := accBdd_fold hr hw0 hw hh0 hh hs vec hv accBdd_zero
    generalize vec.foldl (addNeighbor rnd (.fin w) (.fin h) self) AccF.zero = a at *
    obtain ⟨r1, r2⟩ := randomness_bdd hr ho hd
    have r1 := r1.mono (show 23 ≤ 93 by norm_num)
    have r2 := r2.mono (show 23 ≤ 93 by norm_num)
    have h10 : AtLeast1 (.fin 10) := .inr ⟨10, rfl, by norm_num⟩
    have h400 : Bdd 9 (.fin 400) := ⟨400, rfl, by rw [abs_of_pos] <;> norm_num, ⟨400, 0, by norm_num, by norm_num, by norm_num⟩⟩
    have mn : ∀ {s : F}, Bdd 84 s → Bdd 84 (a.mean rnd s) := fun hs => mean_bdd hr a (by norm_num) hs
    have co : ∀ {s : F}, Bdd 84 s → Bdd 93 (div rnd (neg (a.mean rnd s)) (.fin 10)) := fun hs =>
      (div_bdd hr (by norm_num) (neg_bdd (mn hs)) h10).mono (by norm_num)
    have av : ∀ {s : F}, Bdd 84 s → Bdd 93 (mul rnd (.fin 400) (a.mean rnd s)) := fun hs => mul_bdd hr (show 9 + 84 ≤ 127 by norm_num) h400 (mn hs)
    have cs : ∀ {s : F}, Bdd 84 s → Bdd 93 (a.mean rnd (a.mean rnd s)) := fun hs => (mn (mn hs)).mono (by norm_num)
    exact ⟨together_bdd hr (co ha.xc) (av ha.xa) (cs ha.xs) r1 m1, together_bdd hr (co ha.yc) (av ha.ya) (cs ha.ys) r2 m2⟩

theorem transform_f32 (hr : Rounding rnd) {v dim : Rat} (hv : IsF32 v) (hd : IsF32 dim) (h0 : 0 < dim) : IsF32 (Single.transform rnd v dim) := by
  rw [Single.transform_eq hr hv hd h0]
  exact hr.lands _

/-- A bird that sees good birds stays good. -/
theorem move_good (hr : Rounding rnd) (ho : Root root) {w h : Rat} (hw0 : 0 < w) (hwf : IsF32 w) (hwh : w ≤ h) (hh : h ≤ 2 ^ 30) {self : BirdF}
    (hs : GoodBird w h self) {r : Rat × Rat} (hd : Draw r) (vec : List BirdF) (hv : ∀ e ∈ vec, GoodBird w h e) :
    GoodBird w h (move rnd root (.fin w) (.fin h) r self vec) := by
  have hw : w ≤ 2 ^ 30 := le_trans hwh hh
  obtain ⟨d1, d2⟩ := direction_bdd hr ho hw0 hw (lt_of_lt_of_le hw0 hwh) hh hs hd vec hv
  obtain ⟨s1, s2⟩ := scaled_bdd hr ho d1 d2
  obtain ⟨x, y, _, _, e1, _, x1, x2, y1, y2, _⟩ := hs
  obtain ⟨u, eu, bu, fu⟩ := s1
  obtain ⟨v, ev, bv, fv⟩ := s2
  have step : ∀ {p q : Rat}, 0 ≤ p → p ≤ h → |q| ≤ 2 ^ 5 → ∃ z, transform rnd (add rnd (.fin p) (.fin q)) (.fin w) = .fin z ∧ 0 ≤ z ∧ z ≤ w ∧ IsF32 z := by
    intro p q hp hp' hq
    have hb : |p + q| ≤ 2 ^ 127 := by
      have : |p| ≤ 2 ^ 30 := by rw [abs_of_nonneg hp]; exact le_trans hp' hh
      exact le_trans (abs_add_le' this hq) (by norm_num)
    rw [add_of hr hb, transform_of hr _ hw0 (le_trans hw (by norm_num))]
    have hl := hr.lands (p + q)
    obtain ⟨a, b⟩ := Single.transform_range hr hl hwf hw0
    exact ⟨_, rfl, a, b, transform_f32 hr hl hwf hw0⟩
  obtain ⟨zx, ex, zx0, zxw, fx⟩ := step x1 (le_trans x2 hwh) bu
  obtain ⟨zy, ey, zy0, zyw, fy⟩ := step y1 y2 bv
  refine ⟨zx, zy, u, v, ?_, ?_, zx0, zxw, zy0, le_trans zyw hwh, le_trans bu (by norm_num), le_trans bv (by norm_num), fx, fy, fu, fv⟩
  · unfold move
    dsimp only
    rw [eu, ev, e1]
    show PosF.mk (transform rnd (add rnd (.fin x) (.fin u)) (.fin w)) (transform rnd (add rnd (.fin y) (.fin v)) (.fin w)) = _
    rw [ex, ey]
  · show scaled rnd root _ = _
    generalize scaled rnd root (direction rnd root (.fin w) (.fin h) r self vec) = sc at *
    cases sc
    simp only [PosF.mk.injEq]
    exact ⟨eu, ev⟩

/-! ### Not a number -/

theorem add_nan_left (b : F) : add rnd .nan b = .nan := by cases b <;> rfl

theorem add_nan_right (a : F) : add rnd a .nan = .nan := by cases a <;> rfl

theorem mul_nan_right (a : F) : mul rnd a .nan = .nan := by cases a <;> rfl

theorem div_nan_left (b : F) : div rnd .nan b = .nan := by cases b <;> rfl

theorem rem_nan (b : F) : rem .nan b = .nan := by cases b <;> rfl

theorem transform_nan (dim : F) : transform rnd .nan dim = .nan := by
  unfold transform
  rw [rem_nan]
  rfl

/-- A bird whose direction is not a number is nowhere. -/
theorem move_nan (w h : F) (r : Rat × Rat) (self : BirdF) (vec : List BirdF) (hd : direction rnd root w h r self vec = ⟨.nan, .nan⟩) :
    move rnd root w h r self vec = ⟨self.id, ⟨.nan, .nan⟩, ⟨.nan, .nan⟩⟩ := by
  unfold move
  rw [hd]
  have : scaled rnd root ⟨.nan, .nan⟩ = ⟨.nan, .nan⟩ := rfl
  rw [this]
  simp only [add_nan_right, transform_nan]

theorem together_nan (a b c d e : F) (h : c = .nan ∨ d = .nan ∨ e = .nan) : together rnd a b c d e = .nan := by
  unfold together
  rcases h with rfl | rfl | rfl
  · simp only [mul_nan_right, add_nan_right, add_nan_left]
  · simp only [mul_nan_right, add_nan_right, add_nan_left]
  · simp only [mul_nan_right, add_nan_right]

theorem mean_nan (a : AccF) : a.mean rnd .nan = .nan := by
  unfold AccF.mean
  split_ifs
  · exact div_nan_left _
  · rfl

theorem cons_nan_keeps (w h : F) (self : BirdF) (vec : List BirdF) : ∀ {a : AccF}, a.xCons = .nan ∧ a.yCons = .nan →
    (vec.foldl (addNeighbor rnd w h self) a).xCons = .nan ∧ (vec.foldl (addNeighbor rnd w h self) a).yCons = .nan := by
  induction vec with
  | nil => intro a ha; exact ha
  | cons e vec ih =>
    intro a ha
    apply ih
    unfold addNeighbor
    split_ifs
    · simp only [AccF.plus, ha.1, ha.2, add_nan_left, and_self]
    · exact ha

theorem cons_nan (w h : F) (self : BirdF) (vec : List BirdF) {e : BirdF} (he : e ∈ vec) (hid : self.id ≠ e.id) (hn : e.lastD = ⟨.nan, .nan⟩) (a : AccF) :
    (vec.foldl (addNeighbor rnd w h self) a).xCons = .nan ∧ (vec.foldl (addNeighbor rnd w h self) a).yCons = .nan := by
  induction vec generalizing a with
  | nil => cases he
  | cons f vec ih =>
    rcases List.mem_cons.1 he with rfl | he
    · refine cons_nan_keeps (rnd := rnd) w h self vec ?_
      unfold addNeighbor
      rw [if_pos hid, hn]
      simp only [AccF.plus, add_nan_right, and_self]
    · exact ih he _

theorem randomness_nan (hr : Rounding rnd) (ho : Root root) : randomness rnd root (1 / 2, 1 / 2) = ⟨.nan, .nan⟩ := by
  have hs := spread_of hr (k := 2 ^ 23) (by norm_num)
  rw [show (((2 ^ 23 : Nat) : Rat) / 2 ^ 24) = 1 / 2 by norm_num, show ((((2 ^ 23 : Nat) : Rat) - 2 ^ 23) / 2 ^ 23) = 0 by norm_num] at hs
  have h0 : ofRat rnd 0 = .fin 0 := by rw [ofRat_of hr (by norm_num), hr.zero]
  have hroot : root 0 = 0 := le_antisymm (ho.above 0 0 (le_refl _) Single.isF32_zero (le_refl _) (by norm_num))
    (ho.below 0 0 (le_refl _) Single.isF32_zero (le_refl _) (by norm_num))
  have hm : ∀ c : Rat, mul rnd (.fin c) (.fin 0) = .fin 0 := fun c => by
    show ofRat rnd (c * 0) = _
    rw [mul_zero, h0]
  have hq : sqrt root (squareOf rnd (.fin 0) (.fin 0)) = .fin 0 := by
    unfold squareOf
    rw [hm]
    show sqrt root (ofRat rnd (0 + 0)) = _
    rw [add_zero, h0]
    show (if (0 : Rat) < 0 then F.nan else .fin (root 0)) = _
    rw [if_neg (lt_irrefl _), hroot]
  unfold randomness
  simp only [hs, hm, hq]
  rfl

/-! ### The order of the neighbours -/

theorem fold_others (w h : F) (self : BirdF) (vec : List BirdF) (a : AccF) :
    vec.foldl (addNeighbor rnd w h self) a = (vec.filter (fun e => decide (self.id ≠ e.id))).foldl (addNeighbor rnd w h self) a := by
  induction vec generalizing a with
  | nil => rfl
  | cons e vec ih =>
    by_cases hid : self.id ≠ e.id
    · rw [List.filter_cons_of_pos (by simpa using hid), List.foldl_cons, List.foldl_cons, ih]
    · rw [List.filter_cons_of_neg (by simpa using hid), List.foldl_cons, ih]
      congr 1
      unfold addNeighbor
      rw [if_neg hid]

theorem add_swap (hr : Rounding rnd) {a b : F} {k : Nat} (hk : k ≤ 127) (ha : Bdd k a) (hb : Bdd k b) :
    add rnd (add rnd (.fin 0) a) b = add rnd (add rnd (.fin 0) b) a := by
  obtain ⟨p, rfl, p1, p2⟩ := ha
  obtain ⟨q, rfl, q1, q2⟩ := hb
  have h127 : (2 : Rat) ^ k ≤ 2 ^ 127 := pow_le_pow_right₀ (by norm_num) hk
  have e : ∀ {z : Rat}, |z| ≤ 2 ^ k → IsF32 z → add rnd (.fin 0) (.fin z) = .fin z := by
    intro z hz hf
    rw [add_of hr (by rw [zero_add]; exact le_trans hz h127), zero_add, hr.keeps hf]
  rw [e p1 p2, e q1 q2]
  show ofRat rnd (p + q) = ofRat rnd (q + p)
  rw [add_comm]

theorem fold_swap (hr : Rounding rnd) {w h : Rat} (hw0 : 0 < w) (hw : w ≤ 2 ^ 30) (hh0 : 0 < h) (hh : h ≤ 2 ^ 30) {self e f : BirdF} (hs : GoodBird w h self)
    (he : GoodBird w h e) (hf : GoodBird w h f) :
    addNeighbor rnd (.fin w) (.fin h) self (addNeighbor rnd (.fin w) (.fin h) self AccF.zero e) f =
      addNeighbor rnd (.fin w) (.fin h) self (addNeighbor rnd (.fin w) (.fin h) self AccF.zero f) e := by
  obtain ⟨le1, le2⟩ := good_last he
  obtain ⟨lf1, lf2⟩ := good_last hf
  have le1 := le1.mono (show 5 ≤ 59 by norm_num)
  have le2 := le2.mono (show 5 ≤ 59 by norm_num)
  have lf1 := lf1.mono (show 5 ≤ 59 by norm_num)
  have lf2 := lf2.mono (show 5 ≤ 59 by norm_num)
  have dist : ∀ {g : BirdF}, GoodBird w h g → Bdd 59 (toroidalDist rnd self.pos.x g.pos.x (.fin w)) ∧ Bdd 59 (toroidalDist rnd self.pos.y g.pos.y (.fin h)) := by
    intro g hg
    obtain ⟨x, y, _, _, e1, _, x1, x2, y1, y2, _⟩ := hs
    obtain ⟨x', y', _, _, e1', _, x1', x2', y1', y2', _⟩ := hg
    rw [e1, e1']
    exact ⟨dist_bdd hr hw0 hw x1 x2 x1' x2', dist_bdd hr hh0 hh y1 y2 y1' y2'⟩
  obtain ⟨ex, ey⟩ := dist he
  obtain ⟨fx, fy⟩ := dist hf
  have eq := atLeast_repulsion hr (nonNeg_square hr ex ey)
  have fq := atLeast_repulsion hr (nonNeg_square hr fx fy)
  have h59 : 59 ≤ 127 := by norm_num
  unfold addNeighbor
  split_ifs
  · simp only [AccF.plus, AccF.zero]
    rw [add_swap hr h59 (div_bdd hr h59 ex eq) (div_bdd hr h59 fx fq), add_swap hr h59 (div_bdd hr h59 ey eq) (div_bdd hr h59 fy fq), add_swap hr h59 ex fx,
      add_swap hr h59 ey fy, add_swap hr h59 le1 lf1, add_swap hr h59 le2 lf2]
  · rfl
  · rfl
  · rfl

/-- Two lists of at most two elements with the same elements. -/
theorem perm_two {α : Type} {l l' : List α} (hp : l.Perm l') (hl : l.length ≤ 2) : l = l' ∨ ∃ a b, l = [a, b] ∧ l' = [b, a] := by
  have hlen := hp.length_eq
  match l, l', hl with
  | [], l', _ => left; exact (hp.nil_eq)
  | [a], l', _ => left; exact hp.singleton_eq
  | [a, b], [], _ => simp at hlen
  | [a, b], [c], _ => simp at hlen
  | [a, b], c :: d :: e :: l, _ => simp at hlen
  | [a, b], [c, d], _ =>
    have ha : c = a ∨ c = b := by
      have := hp.mem_iff.2 (show c ∈ [c, d] by simp)
      simpa using this
    rcases ha with rfl | rfl
    · left
      have := (List.perm_cons c).1 hp
      have := this.singleton_eq
      rw [this]
    · right
      have := (List.perm_cons c).1 ((List.Perm.swap a c []).trans hp)
      have := this.singleton_eq
      simp at this
      exact ⟨a, c, rfl, by rw [this]⟩

/-- With at most two others the order in which a bird sees them makes no difference. -/
theorem move_perm (hr : Rounding rnd) {w h : Rat} (hw0 : 0 < w) (hw : w ≤ 2 ^ 30) (hh0 : 0 < h) (hh : h ≤ 2 ^ 30) {self : BirdF} (hs : GoodBird w h self)
    (r : Rat × Rat) {vec vec' : List BirdF} (hp : vec.Perm vec') (hv : ∀ e ∈ vec, GoodBird w h e)
    (hl : (vec.filter (fun e => decide (self.id ≠ e.id))).length ≤ 2) :
    move rnd root (.fin w) (.fin h) r self vec = move rnd root (.fin w) (.fin h) r self vec' := by
  have hfold : vec.foldl (addNeighbor rnd (.fin w) (.fin h) self) AccF.zero = vec'.foldl (addNeighbor rnd (.fin w) (.fin h) self) AccF.zero := by
    rw [fold_others, fold_others (vec := vec')]
    rcases perm_two (hp.filter _) hl with e | ⟨a, b, e1, e2⟩
    · rw [e]
    · have ha : GoodBird w h a := hv a (List.mem_filter.1 (show a ∈ vec.filter (fun e => decide (self.id ≠ e.id)) by rw [e1]; simp)).1
      have hb : GoodBird w h b := hv b (List.mem_filter.1 (show b ∈ vec.filter (fun e => decide (self.id ≠ e.id)) by rw [e1]; simp)).1
      rw [e1, e2]
      exact fold_swap hr hw0 hw hh0 hh hs ha hb
  have hdir : direction rnd root (.fin w) (.fin h) r self vec = direction rnd root (.fin w) (.fin h) r self vec' := by
    unfold direction
    rw [hfold, Bool.eq_iff_iff.2 (show vec.isEmpty = true ↔ vec'.isEmpty = true by
      rw [List.isEmpty_iff, List.isEmpty_iff]
      constructor
      · rintro rfl; exact hp.nil_eq.symm
      · rintro rfl; exact hp.eq_nil)]
  unfold move
  rw [hdir]

end Verif.Machine
