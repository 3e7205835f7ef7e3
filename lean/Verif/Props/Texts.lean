import Verif.Model.Texts
import Mathlib.Tactic.Linarith
import Mathlib.Data.Rat.Encodable

/-!
Property C206: what is printed tells values apart, and only values that differ.
-/

namespace Verif.Texts

/-- What is used of the decimal text of a float that is not negative: it reads back as the same number, it begins with a digit and has no space. -/
structure Decimal (dec : Rat → List Char) : Prop where
  inj : ∀ p q, dec p = dec q → p = q
  digit : ∀ q, ∃ c r, dec q = c :: r ∧ c.isDigit
  space : ∀ q, ' ' ∉ dec q

theorem digits_inj {m n : Nat} (h : Nat.toDigits 10 m = Nat.toDigits 10 n) : m = n := by
  rw [← Nat.ofDigitChars_ten_toDigits (n := m), h, Nat.ofDigitChars_ten_toDigits]

theorem digits_head (n : Nat) : ∃ c r, Nat.toDigits 10 n = c :: r ∧ c.isDigit := by
  cases h : Nat.toDigits 10 n with
  | nil => exact absurd h Nat.toDigits_ne_nil
  | cons c r =>
    exact ⟨c, r, rfl, Nat.isDigit_of_mem_toDigits (b := 10) (n := n) (by omega) (by omega) (by rw [h]; exact List.mem_cons_self ..)⟩

theorem digits_space (n : Nat) : ' ' ∉ Nat.toDigits 10 n := fun h =>
  absurd (Nat.isDigit_of_mem_toDigits (b := 10) (n := n) (by omega) (by omega) h) (by decide)

theorem sign_inj {s t : Bool} {a b : List Char} (ha : ∃ c r, a = c :: r ∧ c ≠ '-') (hb : ∃ c r, b = c :: r ∧ c ≠ '-')
    (h : sign s a = sign t b) : s = t ∧ a = b := by
  obtain ⟨c, r, rfl, hc⟩ := ha
  obtain ⟨d, r', rfl, hd⟩ := hb
  cases s <;> cases t
  · exact ⟨rfl, h⟩
  · exact absurd (List.cons.inj h).1 hc
  · exact absurd (List.cons.inj h).1.symm hd
  · exact ⟨rfl, (List.cons.inj h).2⟩

theorem digit_ne {c : Char} (h : c.isDigit) : c ≠ '-' ∧ c ≠ 'N' ∧ c ≠ 'i' := by
  refine ⟨?_, ?_, ?_⟩ <;> (rintro rfl; revert h; decide)

theorem ofInt_inj {i j : Int} (h : ofInt i = ofInt j) : i = j := by
  obtain ⟨c, r, h1, h2⟩ := digits_head i.natAbs
  obtain ⟨d, r', h3, h4⟩ := digits_head j.natAbs
  obtain ⟨e1, e2⟩ := sign_inj ⟨c, r, h1, (digit_ne h2).1⟩ ⟨d, r', h3, (digit_ne h4).1⟩ h
  have := digits_inj e2
  have e3 : (i < 0) ↔ (j < 0) := decide_eq_decide.1 e1
  omega

theorem ofInt_space (i : Int) : ' ' ∉ ofInt i := by
  unfold ofInt sign
  split
  · intro h
    rcases List.mem_cons.1 h with h | h
    · exact absurd h (by decide)
    · exact digits_space _ h
  · exact digits_space _

theorem ofFloat_space {dec : Rat → List Char} (hd : Decimal dec) (x : Float32) : ' ' ∉ ofFloat dec x := by
  cases x with
  | nan => show ' ' ∉ "NaN".toList; decide
  | inf s => show ' ' ∉ sign s "inf".toList; cases s <;> decide
  | num s q =>
    have := hd.space q
    cases s
    · exact this
    · intro h
      rcases List.mem_cons.1 h with h | h
      · exact absurd h (by decide)
      · exact this h

theorem ofFloat_inj {dec : Rat → List Char} (hd : Decimal dec) {x y : Float32} (h : ofFloat dec x = ofFloat dec y) : x = y := by
  have key : ∀ s q, (∃ c r, ofFloat dec (.num s q) = c :: r ∧ c ≠ 'N' ∧ c ≠ 'i' ∧ (c = '-' → ∃ c' r', r = c' :: r' ∧ c'.isDigit)) := by
    intro s q
    obtain ⟨c, r, h1, h2⟩ := hd.digit q
    obtain ⟨n1, n2, n3⟩ := digit_ne h2
    cases s
    · exact ⟨c, r, h1, n2, n3, fun e => absurd e n1⟩
    · exact ⟨'-', dec q, rfl, by decide, by decide, fun _ => ⟨c, r, h1, h2⟩⟩
  cases x with
  | nan =>
    cases y with
    | nan => rfl
    | inf s =>
      have h' : "NaN".toList = sign s "inf".toList := h
      cases s <;> exact absurd h' (by decide)
    | num s q =>
      obtain ⟨c, r, h1, h2, _⟩ := key s q
      rw [h1] at h
      exact absurd (List.cons.inj h).1.symm h2
  | inf s =>
    cases y with
    | nan =>
      have h' : sign s "inf".toList = "NaN".toList := h
      cases s <;> exact absurd h' (by decide)
    | inf t =>
      have h' : sign s "inf".toList = sign t "inf".toList := h
      cases s <;> cases t <;> first | rfl | exact absurd h' (by decide)
    | num t q =>
      obtain ⟨c, r, h1, h2, h3, h4⟩ := key t q
      rw [h1] at h
      cases s
      · exact absurd (List.cons.inj h).1.symm h3
      · obtain ⟨c', r', e1, e2⟩ := h4 (List.cons.inj h).1.symm
        have := (List.cons.inj h).2
        rw [e1] at this
        exact absurd (List.cons.inj this).1.symm (digit_ne e2).2.2
  | num s p =>
    cases y with
    | nan =>
      obtain ⟨c, r, h1, h2, _⟩ := key s p
      rw [h1] at h
      exact absurd (List.cons.inj h).1 h2
    | inf t =>
      obtain ⟨c, r, h1, h2, h3, h4⟩ := key s p
      rw [h1] at h
      cases t
      · exact absurd (List.cons.inj h).1 h3
      · obtain ⟨c', r', e1, e2⟩ := h4 (List.cons.inj h).1
        have := (List.cons.inj h).2
        rw [e1] at this
        exact absurd (List.cons.inj this).1 (digit_ne e2).2.2
    | num t q =>
      obtain ⟨c, r, h1, h2⟩ := hd.digit p
      obtain ⟨d, r', h3, h4⟩ := hd.digit q
      obtain ⟨e1, e2⟩ := sign_inj ⟨c, r, h1, (digit_ne h2).1⟩ ⟨d, r', h3, (digit_ne h4).1⟩ h
      rw [e1, hd.inj _ _ e2]

/-- Two words joined by a space are known from the text, if the first has no space. -/
theorem two_inj {a b c d : List Char} (ha : ' ' ∉ a) (hc : ' ' ∉ c) (h : two a b = two c d) : a = c ∧ b = d := by
  induction a generalizing c with
  | nil =>
    cases c with
    | nil => exact ⟨rfl, (List.cons.inj h).2⟩
    | cons x c => exact absurd (List.cons.inj h).1 (fun e => hc (by rw [← e]; exact List.mem_cons_self ..))
  | cons x a ih =>
    cases c with
    | nil => exact absurd (List.cons.inj h).1 (fun e => ha (by rw [e]; exact List.mem_cons_self ..))
    | cons y c =>
      obtain ⟨e1, e2⟩ := List.cons.inj h
      obtain ⟨e3, e4⟩ := ih (fun m => ha (List.mem_cons_of_mem _ m)) (fun m => hc (List.mem_cons_of_mem _ m)) e2
      exact ⟨by rw [e1, e3], e4⟩

/-- **C206** for grid cells: they print the same if and only if they are equal. -/
theorem C206_cells_partial (p q : Int × Int) : int2D p = int2D q ↔ p = q := by
  refine ⟨fun h => ?_, fun h => by rw [h]⟩
  obtain ⟨h1, h2⟩ := two_inj (ofInt_space _) (ofInt_space _) h
  exact Prod.ext (ofInt_inj h1) (ofInt_inj h2)

/-- C206 for locations. Full statement: they print the same if and only if they are equal. Proved: they print the same if and only if they are the
same bits, all NaN counted as one. -/
theorem C206_locations_partial {dec : Rat → List Char} (hd : Decimal dec) (p q : Float32 × Float32) :
    real2D dec p = real2D dec q ↔ p = q := by
  refine ⟨fun h => ?_, fun h => by rw [h]⟩
  obtain ⟨h1, h2⟩ := two_inj (ofFloat_space hd _) (ofFloat_space hd _) h
  exact Prod.ext (ofFloat_inj hd h1) (ofFloat_inj hd h2)

/-- C206 for priorities, as for locations. -/
theorem C206_priorities_partial {dec : Rat → List Char} (hd : Decimal dec) (p q : Float32 × Int) :
    priority dec p = priority dec q ↔ p = q := by
  refine ⟨fun h => ?_, fun h => by rw [h]⟩
  obtain ⟨h1, h2⟩ := two_inj (ofFloat_space hd _) (ofFloat_space hd _) h
  exact Prod.ext (ofFloat_inj hd h1) (ofInt_inj h2)

/-- C206 for scheduled agents: id, repeating, time and ordering can be read off. -/
theorem C206_agents_partial {dec : Rat → List Char} (hd : Decimal dec) (a b : Nat × Bool) (p q : Float32 × Int) :
    pair dec a p = pair dec b q ↔ a = b ∧ p = q := by
  refine ⟨fun h => ?_, fun h => by rw [h.1, h.2]⟩
  unfold pair agentImpl at h
  have h0 : ∀ x : Nat × Bool, ∀ r : Float32 × Int, "agent: ".toList ++ two (ofNat x.1) (ofBool x.2) ++ " priority: ".toList ++ priority dec r =
      "agent: ".toList ++ two (ofNat x.1) (two (ofBool x.2) ("priority: ".toList ++ priority dec r)) := by
    intro x r
    simp [two]
  rw [h0, h0] at h
  have h1 := List.append_cancel_left h
  obtain ⟨e1, e2⟩ := two_inj (digits_space _) (digits_space _) h1
  have hb : ∀ b : Bool, ' ' ∉ ofBool b := by decide
  obtain ⟨e3, e4⟩ := two_inj (hb _) (hb _) e2
  have e5 := List.append_cancel_left e4
  have hbi : ∀ b c : Bool, ofBool b = ofBool c → b = c := by decide
  exact ⟨Prod.ext (digits_inj e1) (hbi _ _ e3), (C206_priorities_partial hd p q).1 e5⟩

/-- C206: numbers that are not zero. Locations whose coordinates are neither NaN nor zero print the same if and only if they are equal. -/
theorem C206_numbers_partial {dec : Rat → List Char} (hd : Decimal dec) (p q : Float32 × Float32)
    (ok : ∀ x ∈ [p.1, p.2, q.1, q.2], x ≠ .nan ∧ ∀ s r, x = .num s r → 0 < r) :
    real2D dec p = real2D dec q ↔ real2DEq p q = true := by
  rw [C206_locations_partial hd]
  have one : ∀ x y : Float32, (x ≠ .nan ∧ ∀ s r, x = .num s r → 0 < r) → (y ≠ .nan ∧ ∀ s r, y = .num s r → 0 < r) →
      (x.eq y = true ↔ x = y) := by
    intro x y hx hy
    cases x with
    | nan => exact absurd rfl hx.1
    | inf s => cases y with
      | nan => exact absurd rfl hy.1
      | inf t => simp [Float32.eq]
      | num t q => simp [Float32.eq]
    | num s r => cases y with
      | nan => exact absurd rfl hy.1
      | inf t => simp [Float32.eq]
      | num t u =>
        have h1 := hx.2 s r rfl
        have h2 := hy.2 t u rfl
        cases s <;> cases t <;> simp [Float32.eq, Float32.value]
        · intro h; linarith
        · intro h; linarith
  unfold real2DEq
  rw [Bool.and_eq_true, one p.1 q.1 (ok _ (by simp)) (ok _ (by simp)), one p.2 q.2 (ok _ (by simp)) (ok _ (by simp))]
  exact ⟨fun h => by rw [h]; exact ⟨rfl, rfl⟩, fun h => Prod.ext h.1 h.2⟩

/-- C206 is false for locations and priorities: zero and minus zero are equal and print differently, NaN prints as NaN and differs from it. -/
theorem C206_zero_nan_negation_partial {dec : Rat → List Char} (hd : Decimal dec) :
    (∃ p q, real2DEq p q = true ∧ real2D dec p ≠ real2D dec q) ∧ (∃ p q, real2DEq p q = false ∧ real2D dec p = real2D dec q) ∧
    (∃ p q, priorityEq p q = true ∧ priority dec p ≠ priority dec q) ∧ (∃ p q, priorityEq p q = false ∧ priority dec p = priority dec q) := by
  refine ⟨⟨(.num true 0, .num false 1), (.num false 0, .num false 1), by decide, ?_⟩,
    ⟨(.nan, .num false 1), (.nan, .num false 1), by decide, rfl⟩,
    ⟨(.num true 0, 3), (.num false 0, 3), by decide, ?_⟩, ⟨(.nan, 3), (.nan, 3), by decide, rfl⟩⟩
  · rw [ne_eq, C206_locations_partial hd]; decide
  · rw [ne_eq, C206_priorities_partial hd]; decide

/-- C206 is false for scheduled agents without their priority: equality is that of the ids, the text also says whether the agent repeats. -/
theorem C206_agent_negation_partial : ∃ a b : Nat × Bool, a.1 = b.1 ∧ agentImpl a ≠ agentImpl b :=
  ⟨(7, true), (7, false), rfl, by decide⟩

/-- C206: what the text of a number says. A minus sign is before the negative numbers only (and before minus zero), and the text of an agent ends
with `true` exactly if it repeats. -/
theorem C206_reading_partial {dec : Rat → List Char} (hd : Decimal dec) :
    (∀ i : Int, (ofInt i).head? = some '-' ↔ i < 0) ∧
    (∀ s q, 0 < q → ((ofFloat dec (.num s q)).head? = some '-' ↔ Float32.value s q < 0)) ∧
    (∀ a : Nat × Bool, "true".toList <:+ agentImpl a ↔ a.2 = true) := by
  refine ⟨fun i => ?_, fun s q hq => ?_, fun a => ?_⟩
  · obtain ⟨c, r, h1, h2⟩ := digits_head i.natAbs
    unfold ofInt sign
    rw [h1]
    by_cases hi : i < 0
    · simp [hi]
    · simp [hi, (digit_ne h2).1]
  · obtain ⟨c, r, h1, h2⟩ := hd.digit q
    cases s
    · simp only [ofFloat, sign, Float32.value, h1, Bool.false_eq_true, if_false, List.head?_cons, Option.some.injEq]
      exact ⟨fun h => absurd h (digit_ne h2).1, fun h => absurd h (not_lt.2 hq.le)⟩
    · simp only [ofFloat, sign, Float32.value, if_true, List.head?_cons, true_iff]
      linarith
  · obtain ⟨n, b⟩ := a
    cases b
    · refine ⟨fun h => ?_, fun h => by cases h⟩
      have h1 : "false".toList <:+ agentImpl (n, false) := ⟨ofNat n ++ [' '], by simp [agentImpl, two, ofBool]⟩
      have := List.suffix_of_suffix_length_le h h1 (by decide)
      exact absurd this (by decide)
    · exact ⟨fun _ => rfl, fun _ => ⟨ofNat n ++ [' '], by simp [agentImpl, two, ofBool]⟩⟩

/-- A text as wanted, the digits of a code of the number. -/
def code (q : Rat) : List Char := Nat.toDigits 10 (Encodable.encode q)

/-- The assumptions can be met. -/
example : Decimal code where
  inj _ _ h := Encodable.encode_injective (digits_inj h)
  digit _ := digits_head _
  space _ := digits_space _

example : int2D (-12, 305) = "-12 305".toList ∧
    pair (fun q => Nat.toDigits 10 q.num.natAbs) (4, true) (.num false 2, -100) = "agent: 4 true priority: 2 -100".toList := by
  decide

end Verif.Texts
