import Verif.Lemmas.Field2D

/-! Wrap-around arithmetic of the continuous fields (C41, C42). -/

namespace Verif.Torus

/-- **C41.** `toroidal_transform` is the representative of its argument in `[0, dim)`, and the only one. -/
theorem C41_toroidal_transform (val dim : ℚ) (hd : 0 < dim) :
    0 ≤ toroidalTransform val dim ∧ toroidalTransform val dim < dim ∧
      (∃ k : ℤ, toroidalTransform val dim = val + k * dim) ∧
      ∀ r : ℚ, 0 ≤ r → r < dim → (∃ k : ℤ, r = val + k * dim) → r = toroidalTransform val dim :=
  ⟨(toroidalTransform_range hd).1, (toroidalTransform_range hd).2, toroidalTransform_cong hd,
    fun _ h0 h1 hc => toroidalTransform_unique hd h0 h1 hc⟩

/-- **C41.** `toroidal_distance` is a difference of representatives, of absolute value at most `dim / 2`. -/
theorem C41_toroidal_distance (a b dim : ℚ) (hd : 0 < dim) :
    (∃ k : ℤ, toroidalDistance a b dim = a - b + k * dim) ∧
      -(dim / 2) ≤ toroidalDistance a b dim ∧ toroidalDistance a b dim ≤ dim / 2 :=
  ⟨toroidalDistance_cong hd, toroidalDistance_bound hd⟩

/-- **C41.** No difference of representatives is shorter than `toroidal_distance`. -/
theorem C41_toroidal_distance_minimal (a b dim : ℚ) (hd : 0 < dim) (k : ℤ) :
    toroidalDistance a b dim * toroidalDistance a b dim ≤ (a - b + k * dim) * (a - b + k * dim) :=
  toroidalDistance_min hd k

/-- **C41.** Antisymmetry: swapping the arguments changes the sign, also at the half-way tie. -/
theorem C41_toroidal_distance_antisymmetric (a b dim : ℚ) (hd : 0 < dim) :
    toroidalDistance b a dim = -toroidalDistance a b dim := by
  unfold toroidalDistance
  by_cases h : -(dim / 2) ≤ a - b ∧ a - b ≤ dim / 2
  · rw [if_pos h, if_pos ⟨by linarith [h.2], by linarith [h.1]⟩]; ring
  · rw [if_neg h, if_neg (fun hc => h ⟨by linarith [hc.2], by linarith [hc.1]⟩)]
    split_ifs <;> linarith

/-- **C41.** Moving both arguments by the same whole number of turns does not change the distance. -/
theorem C41_toroidal_distance_shift (a b dim : ℚ) (hd : 0 < dim) (k : ℤ) :
    toroidalDistance (a + k * dim) (b + k * dim) dim = toroidalDistance a b dim := by
  have e1 : toroidalTransform (a + k * dim) dim = toroidalTransform a dim :=
    toroidalTransform_congr hd ⟨k, rfl⟩
  have e2 : toroidalTransform (b + k * dim) dim = toroidalTransform b dim :=
    toroidalTransform_congr hd ⟨k, rfl⟩
  unfold toroidalDistance
  rw [e1, e2, show a + k * dim - (b + k * dim) = a - b by ring]

/-- **C42.** `t_transform` never panics on a positive size, is congruent to its argument, and lies in
`[0, size]`; it is `size` itself exactly on the negative multiples of `size`, elsewhere it is the remainder. -/
theorem C42_t_transform_exact_partial (n size : ℤ) (hs : 0 < size) :
    ∃ r, tTransform n size = some r ∧ 0 ≤ r ∧ r ≤ size ∧ (r - n) % size = 0 ∧
      (r = size ↔ n < 0 ∧ n % size = 0) ∧ (¬ (n < 0 ∧ n % size = 0) → r = n % size) := by
  obtain ⟨h1, h2, h3, h4, h5⟩ := tT_spec (n := n) hs
  refine ⟨tT n size, tTransform_eq (by omega), h1, h2, h3, h4, ?_⟩
  intro hn
  have hlt : tT n size < size := by
    rcases lt_or_eq_of_le h2 with h | h
    · exact h
    · exact absurd (h4.1 h) hn
  rw [← Int.emod_eq_of_lt h1 hlt]
  exact Int.emod_eq_emod_iff_emod_sub_eq_zero.2 h3

/-- **C42** is false as stated: at `-size` the result is `size`, which is outside `[0, size)`. -/
theorem C42_negative_multiple_negation_partial :
    ¬ ∀ n size : ℤ, 0 < size → ∃ r, tTransform n size = some r ∧ 0 ≤ r ∧ r < size ∧ (r - n) % size = 0 := by
  intro h
  obtain ⟨r, h1, _, h2, _⟩ := h (-3) 3 (by decide)
  have : tTransform (-3) 3 = some 3 := by decide
  rw [this] at h1
  have := Option.some.inj h1
  omega

example : toroidalTransform (-3) 10 = 7 ∧ toroidalDistance 1 9 10 = 2 ∧ toroidalDistance 9 1 10 = -2 ∧
    toroidalDistance 7 2 10 = 5 ∧ toroidalDistance 2 7 10 = -5 ∧ toroidalDistance 17 2 10 = 5 ∧
    toroidalDistance 2 17 10 = -5 := by decide +kernel

example : tTransform (-4) 3 = some 2 ∧ tTransform 4 3 = some 1 ∧ tTransform (-6) 3 = some 3 := by decide

end Verif.Torus
