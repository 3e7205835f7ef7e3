import Verif.Spec.Popup

/-!
C252 "The popup is on the screen and centred".
-/

namespace Verif.Popup

theorem middle_eq {split : Split} (hs : ByShares split) (k start length : Nat) (hk : 2 * k ≤ 100) (hf : 100 * length < 65536) :
    middle split (2 * k) start length = some (start + (50 - k) * length / 100, 2 * k * length / 100) := by
  have e : (100 - 2 * k) / 2 = 50 - k := by omega
  have hp : ∀ p ∈ [50 - k, 2 * k, 50 - k], p * length < 65536 := by
    intro p hp
    have : p ≤ 100 := by simp at hp; omega
    exact Nat.lt_of_le_of_lt (Nat.mul_le_mul_right _ this) hf
  have hsum : ([50 - k, 2 * k, 50 - k] : List Nat).sum = 100 := by simp; omega
  obtain ⟨pieces, h1, h2⟩ := hs start length _ hsum hp
  unfold middle constraints
  rw [if_neg (by omega), e]
  show (match split start length [50 - k, 2 * k, 50 - k] with
    | none => none
    | some pieces => pieces[1]?) = _
  rw [h1]
  show pieces[1]? = _
  have h3 : (pieces.take 2)[1]? = pieces[1]? := by rw [List.getElem?_take]; rfl
  rw [← h3]
  have h4 : pieces.take 2 = (shares start length 0 [50 - k, 2 * k, 50 - k]).take 2 := h2
  rw [h4]
  show some (start + (0 + (50 - k)) * length / 100, 2 * k * length / 100) = _
  rw [Nat.zero_add]

theorem centred_shares (k start length : Nat) (hk : 2 * k ≤ 100) :
    Centred (start + (50 - k) * length / 100) (2 * k * length / 100) start length := by
  have e : 2 * ((50 - k) * length) + 2 * k * length = 100 * length := by
    rw [← Nat.mul_assoc, ← Nat.add_mul]
    congr 1
    omega
  unfold Centred
  generalize (50 - k) * length = a at *
  generalize 2 * k * length = b at *
  omega

/-- C252: for even percentages up to 100 the rectangle is within the area, centred in both directions up to two cells, and as large
as its share. -/
theorem C252_centred {split : Split} (hs : ByShares split) (i j : Nat) (hi : 2 * i ≤ 100) (hj : 2 * j ≤ 100) (r : Rect)
    (hw : 100 * r.width < 65536) (hh : 100 * r.height < 65536) :
    ∃ a, centeredRect split (2 * i) (2 * j) r = some a ∧
      Centred a.x a.width r.x r.width ∧ Centred a.y a.height r.y r.height ∧
      a.width = 2 * i * r.width / 100 ∧ a.height = 2 * j * r.height / 100 := by
  refine ⟨⟨r.x + (50 - i) * r.width / 100, r.y + (50 - j) * r.height / 100, 2 * i * r.width / 100, 2 * j * r.height / 100⟩,
    ?_, centred_shares i r.x r.width hi, centred_shares j r.y r.height hj, rfl, rfl⟩
  unfold centeredRect
  rw [middle_eq hs j r.y r.height hj hh, middle_eq hs i r.x r.width hi hw]

/-- C252: percentages over 100 panic. -/
theorem C252_panics (split : Split) (i j : Nat) (h : 100 < i ∨ 100 < j) (r : Rect) : centeredRect split i j r = none := by
  have hm : ∀ p s l, 100 < p → middle split p s l = none := by
    intro p s l hp
    unfold middle constraints
    rw [if_pos hp]
  unfold centeredRect
  rcases h with h | h
  · cases middle split j r.y r.height with
    | none => rfl
    | some v =>
      show (match middle split i r.x r.width with
        | none => none
        | some h => some (Rect.mk h.1 v.1 h.2 v.2)) = none
      rw [hm i _ _ h]
  · rw [hm j _ _ h]

/-- C252: the popup is painted exactly when the description is switched on and not empty; it is never a panic on a screen of at most
655 columns and rows, shows the description, takes three fifths of the columns and one fifth of the rows, and is centred. -/
theorem C252_popup {split : Split} (hs : ByShares split) (size : Rect) (hw : size.width ≤ 655) (hh : size.height ≤ 655) (on : Bool)
    (descr : String) :
    ((on = false ∨ descr = "") → popup split size on descr = some none) ∧
    (on = true → descr ≠ "" → ∃ a, popup split size on descr = some (some (a, descr)) ∧
      a.width = size.width * 3 / 5 ∧ a.height = size.height / 5 ∧
      Centred a.x a.width size.x size.width ∧ Centred a.y a.height size.y size.height) := by
  constructor
  · intro h
    unfold popup
    rw [if_neg]
    rintro ⟨h1, h2⟩
    rcases h with h | h
    · rw [h1] at h; cases h
    · exact h2 h
  · intro h1 h2
    obtain ⟨a, ha, hx, hy, hw', hh'⟩ := C252_centred hs 30 10 (by decide) (by decide) size (by omega) (by omega)
    refine ⟨a, ?_, by rw [hw']; omega, by rw [hh']; omega, hx, hy⟩
    unfold popup
    rw [if_pos ⟨h1, h2⟩]
    show (centeredRect split 60 20 size).map _ = _
    rw [show centeredRect split 60 20 size = some a from ha]
    rfl

/-- A layout that satisfies the assumption. -/
example : ByShares (fun start length ps => some (shares start length 0 ps)) :=
  fun _ _ _ _ _ => ⟨_, rfl, rfl⟩

/-- A usual terminal: 80 columns and 24 rows. -/
example : popup (fun start length ps => some (shares start length 0 ps)) ⟨0, 0, 80, 24⟩ true "A model" =
    some (some (⟨16, 9, 48, 4⟩, "A model")) := by decide

/-- The rows cannot always be exactly centred: nine before, eleven after. -/
example : Centred 9 4 0 24 := by unfold Centred; omega

end Verif.Popup
