import Verif.Model.CsvText
import Verif.Spec.CsvText
import Verif.Props.Search
import Verif.Props.Frame

/-!
C229: what the csv file of a genetic search says when it is read with `load_csv!`.
-/

namespace Verif.CsvText

open Verif.Genetic (Row)

/-! ### Numbers -/

theorem digitValue_digitChar {d : Nat} (h : d < 10) : digitValue (digitChar d) = some d := by
  have : ∀ d : Fin 10, digitValue (digitChar d) = some d.1 := by decide
  exact this ⟨d, h⟩

theorem readDigits_showNat (top : Nat) (n : Nat) : ∀ rest : List Char,
    readDigits top (showNat n ++ rest) 0 = if n ≤ top then readDigits top rest n else none := by
  induction n using Nat.strongRecOn with
  | _ n ih =>
    intro rest
    rw [showNat]
    by_cases h : n < 10
    · rw [if_pos h, List.singleton_append, readDigits, digitValue_digitChar h]
      simp only [Nat.mul_zero, Nat.zero_add]
    · rw [if_neg h, List.append_assoc, ih (n / 10) (by omega), List.singleton_append]
      have e : 10 * (n / 10) + n % 10 = n := Nat.div_add_mod n 10
      by_cases hn : n / 10 ≤ top
      · rw [if_pos hn, readDigits, digitValue_digitChar (Nat.mod_lt _ (by decide))]
        simp only [e]
      · rw [if_neg hn, if_neg (by omega)]

theorem showNat_head (n : Nat) : ∃ c cs, showNat n = c :: cs ∧ c ≠ '+' ∧ c ≠ '-' := by
  induction n using Nat.strongRecOn with
  | _ n ih =>
    rw [showNat]
    by_cases h : n < 10
    · rw [if_pos h]
      have : ∀ d : Fin 10, digitChar d ≠ '+' ∧ digitChar d ≠ '-' := by decide
      exact ⟨_, _, rfl, this ⟨n, h⟩⟩
    · rw [if_neg h]
      obtain ⟨c, cs, e, h1, h2⟩ := ih (n / 10) (by omega)
      exact ⟨c, cs ++ [digitChar (n % 10)], by rw [e]; rfl, h1, h2⟩

theorem readNat_digits (top : Nat) {c : Char} {cs : List Char} (h : c ≠ '+') : readNat top (c :: cs) = readDigits top (c :: cs) 0 := by
  unfold readNat
  split
  · exact absurd (by assumption) (by simp)
  · rename_i e; exact absurd (List.cons.inj e).1 h
  · rename_i e; exact absurd (List.cons.inj e).1 h
  · rfl

theorem readNat_showNat (top n : Nat) : readNat top (showNat n) = if n ≤ top then some n else none := by
  obtain ⟨c, cs, e, h1, _⟩ := showNat_head n
  rw [e, readNat_digits top h1, ← e, ← List.append_nil (showNat n), readDigits_showNat]
  rfl

theorem readInt_showInt (top : Nat) (i : Int) :
    readInt top (showInt i) = if - (top : Int) - 1 ≤ i ∧ i ≤ top then some i else none := by
  obtain ⟨c, cs, e, h1, h2⟩ := showNat_head i.natAbs
  unfold showInt
  by_cases hi : i < 0
  · rw [if_pos hi, e]
    show (readDigits (top + 1) (c :: cs) 0).map (fun n : Nat => - (n : Int)) = _
    rw [← e, ← List.append_nil (showNat i.natAbs), readDigits_showNat]
    by_cases hn : i.natAbs ≤ top + 1
    · rw [if_pos hn, if_pos (by omega)]
      show some (- (i.natAbs : Int)) = some i
      congr 1; omega
    · rw [if_neg hn, if_neg (by omega)]; rfl
  · rw [if_neg hi]
    have hr : readInt top (showNat i.natAbs) = (readNat top (showNat i.natAbs)).map (fun n : Nat => (n : Int)) := by
      rw [e]
      unfold readInt
      split
      · rename_i e'; exact absurd (List.cons.inj e').1 h2
      · rename_i e'; exact absurd (List.cons.inj e').1 h2
      · rfl
    rw [hr, readNat_showNat]
    by_cases hn : i.natAbs ≤ top
    · rw [if_pos hn, if_pos (by omega)]
      show some (i.natAbs : Int) = some i
      congr 1; omega
    · rw [if_neg hn, if_neg (by omega)]; rfl

/-- C229: integers are read as they have been written, just if the type has them: of every width, with and without sign. -/
theorem C229_numbers_partial (top n : Nat) (i : Int) :
    (readNat top (showNat n) = some n ↔ n ≤ top) ∧
    (readInt top (showInt i) = some i ↔ - (top : Int) - 1 ≤ i ∧ i ≤ top) := by
  rw [readNat_showNat, readInt_showInt]
  constructor
  · by_cases h : n ≤ top <;> simp [h]
  · by_cases h : - (top : Int) - 1 ≤ i ∧ i ≤ top
    · simp [h]
    · rw [if_neg h]; exact ⟨fun e => absurd e (by simp), fun e => absurd e h⟩

example : showNat 1007 = ['1', '0', '0', '7'] ∧ showInt (-128) = ['-', '1', '2', '8'] ∧
    readInt 127 ['-', '1', '2', '8'] = some (-128) ∧ readInt 127 ['1', '2', '8'] = none ∧ readNat 255 ['+', '9'] = some 9 ∧
    readNat 255 ['-', '9'] = none ∧ readNat 255 [] = none := by
  refine ⟨?_, ?_, ?_, ?_, ?_, ?_, ?_⟩ <;> decide +kernel

/-! ### Texts -/

theorem escapeChar_ne (unicode : Char → Option (List Char)) (c : Char) : escapeChar unicode c ≠ [] := by
  unfold escapeChar
  split
  · simp
  · split <;> simp

/-! ### What is read -/

theorem digitValue_iff (c : Char) (d : Nat) : digitValue c = some d ↔ d < 10 ∧ c = ['0', '1', '2', '3', '4', '5', '6', '7', '8', '9'].getD d '?' := by
  constructor
  · intro h
    unfold digitValue at h
    by_cases hc : 48 ≤ c.toNat ∧ c.toNat ≤ 57
    · rw [if_pos hc] at h
      obtain rfl := Option.some.inj h
      refine ⟨by omega, ?_⟩
      have e : ∀ k : Fin 10, Char.ofNat (48 + k.1) = ['0', '1', '2', '3', '4', '5', '6', '7', '8', '9'].getD k.1 '?' := by decide
      have := e ⟨c.toNat - 48, by omega⟩
      rw [← this]
      show c = Char.ofNat (48 + (c.toNat - 48))
      rw [show 48 + (c.toNat - 48) = c.toNat by omega, Char.ofNat_toNat]
    · rw [if_neg hc] at h; cases h
  · rintro ⟨h, rfl⟩
    have e : ∀ k : Fin 10, digitValue (['0', '1', '2', '3', '4', '5', '6', '7', '8', '9'].getD k.1 '?') = some k.1 := by decide
    exact e ⟨d, h⟩

theorem foldl_ge (ds : List Nat) (n : Nat) : n ≤ ds.foldl (fun n d => 10 * n + d) n := by
  induction ds generalizing n with
  | nil => exact Nat.le_refl _
  | cons d ds ih => exact Nat.le_trans (by omega) (ih (10 * n + d))

theorem readDigits_iff (top : Nat) (cs : List Char) (n m : Nat) (hn : n ≤ top) :
    readDigits top cs n = some m ↔
      ∃ ds : List Nat, cs = digitsText ds ∧ (∀ d ∈ ds, d < 10) ∧ ds.foldl (fun n d => 10 * n + d) n = m ∧ m ≤ top := by
  induction cs generalizing n with
  | nil =>
    constructor
    · intro h
      obtain rfl := Option.some.inj h
      exact ⟨[], rfl, by simp, rfl, hn⟩
    · rintro ⟨ds, h1, h2, h3, h4⟩
      cases ds with
      | nil => exact congrArg some h3
      | cons d ds => cases h1
  | cons c cs ih =>
    rw [readDigits]
    constructor
    · intro h
      cases hd : digitValue c with
      | none => rw [hd] at h; cases h
      | some d =>
        rw [hd] at h
        dsimp only at h
        by_cases ht : 10 * n + d ≤ top
        · rw [if_pos ht] at h
          obtain ⟨ds, h1, h2, h3, h4⟩ := (ih _ ht).1 h
          obtain ⟨g1, g2⟩ := (digitValue_iff c d).1 hd
          refine ⟨d :: ds, by rw [h1, g2]; rfl, ?_, h3, h4⟩
          intro x hx
          rcases List.mem_cons.1 hx with rfl | hx
          · exact g1
          · exact h2 x hx
        · rw [if_neg ht] at h; cases h
    · rintro ⟨ds, h1, h2, h3, h4⟩
      cases ds with
      | nil => cases h1
      | cons d ds =>
        obtain ⟨e1, e2⟩ := List.cons.inj h1
        rw [(digitValue_iff c d).2 ⟨h2 d List.mem_cons_self, e1⟩]
        dsimp only
        have ht : 10 * n + d ≤ top := by
          have := foldl_ge ds (10 * n + d)
          rw [show ds.foldl (fun n d => 10 * n + d) (10 * n + d) = m from h3] at this
          omega
        rw [if_pos ht]
        exact (ih _ ht).2 ⟨ds, e2, fun x hx => h2 x (List.mem_cons_of_mem _ hx), h3, h4⟩

theorem digitsText_head {ds : List Nat} (h : ∀ d ∈ ds, d < 10) {c : Char} {cs : List Char} (e : digitsText ds = c :: cs) :
    c ≠ '+' ∧ c ≠ '-' := by
  cases ds with
  | nil => cases e
  | cons d ds =>
    have := (List.cons.inj e).1
    have g : ∀ k : Fin 10, ['0', '1', '2', '3', '4', '5', '6', '7', '8', '9'].getD k.1 '?' ≠ '+' ∧
      ['0', '1', '2', '3', '4', '5', '6', '7', '8', '9'].getD k.1 '?' ≠ '-' := by decide
    rw [← this]
    exact g ⟨d, h d List.mem_cons_self⟩

/-- C229: exactly the texts of numbers that the type has are read as numbers, and as these numbers; any other text is refused. -/
theorem C229_reading_partial (top : Nat) (s : List Char) :
    (∀ n : Nat, readNat top s = some n ↔ UnsignedText s n ∧ n ≤ top) ∧
    (∀ i : Int, readInt top s = some i ↔ SignedText s i ∧ - (top : Int) - 1 ≤ i ∧ i ≤ top) := by
  have hN : ∀ n : Nat, readNat top s = some n ↔ UnsignedText s n ∧ n ≤ top := by
    intro n
    cases s with
    | nil =>
      constructor
      · intro h; cases h
      · rintro ⟨⟨ds, h1, _, _, h | h⟩, _⟩
        · cases ds with
          | nil => exact absurd rfl h1
          | cons d ds => cases h
        · cases h
    | cons c cs =>
      by_cases hc : c = '+'
      · subst hc
        cases cs with
        | nil =>
          constructor
          · intro h; cases h
          · rintro ⟨⟨ds, h1, h2, _, h | h⟩, _⟩
            · exact absurd rfl (digitsText_head h2 h.symm).1
            · cases ds with
              | nil => exact absurd rfl h1
              | cons d ds => cases h
        | cons c cs =>
          show readDigits top (c :: cs) 0 = some n ↔ _
          rw [readDigits_iff top _ 0 n (Nat.zero_le _)]
          constructor
          · rintro ⟨ds, h1, h2, h3, h4⟩
            exact ⟨⟨ds, (by rintro rfl; cases h1), h2, h3, Or.inr (by rw [h1])⟩, h4⟩
          · rintro ⟨⟨ds, h1, h2, h3, h | h⟩, h4⟩
            · exact absurd rfl (digitsText_head h2 h.symm).1
            · exact ⟨ds, (List.cons.inj h).2, h2, h3, h4⟩
      · rw [readNat_digits top hc, readDigits_iff top _ 0 n (Nat.zero_le _)]
        constructor
        · rintro ⟨ds, h1, h2, h3, h4⟩
          exact ⟨⟨ds, (by rintro rfl; cases h1), h2, h3, Or.inl h1⟩, h4⟩
        · rintro ⟨⟨ds, h1, h2, h3, h | h⟩, h4⟩
          · exact ⟨ds, h, h2, h3, h4⟩
          · exact absurd (List.cons.inj h).1 hc
  refine ⟨hN, ?_⟩
  intro i
  have plain : (∀ cs, s ≠ '-' :: cs) → readInt top s = (readNat top s).map (fun n : Nat => (n : Int)) := by
    intro h
    unfold readInt
    split
    · exact absurd rfl (h _)
    · exact absurd rfl (h _)
    · rfl
  by_cases hm : ∃ cs, s = '-' :: cs
  · obtain ⟨cs, rfl⟩ := hm
    have noU : ∀ n, ¬ UnsignedText ('-' :: cs) n := by
      rintro n ⟨ds, _, h2, _, h | h⟩
      · exact absurd rfl (digitsText_head h2 h.symm).2
      · exact absurd (List.cons.inj h).1 (by decide)
    cases cs with
    | nil =>
      constructor
      · intro h; cases h
      · rintro ⟨⟨n, h, _⟩ | ⟨ds, h1, _, _, h⟩, _⟩
        · exact absurd h (noU n)
        · cases ds with
          | nil => exact absurd rfl h1
          | cons d ds => cases h
    | cons c cs =>
      show (readDigits (top + 1) (c :: cs) 0).map (fun n : Nat => - (n : Int)) = some i ↔ _
      rw [Option.map_eq_some_iff]
      constructor
      · rintro ⟨n, h, rfl⟩
        obtain ⟨ds, h1, h2, h3, h4⟩ := (readDigits_iff (top + 1) _ 0 n (Nat.zero_le _)).1 h
        refine ⟨Or.inr ⟨ds, (by rintro rfl; cases h1), h2, (by rw [← h3]; rfl), (by rw [h1])⟩, by omega, by omega⟩
      · rintro ⟨⟨n, h, _⟩ | ⟨ds, _, h2, h3, h⟩, h4, h5⟩
        · exact absurd h (noU n)
        · exact ⟨decimal ds, (readDigits_iff (top + 1) _ 0 _ (Nat.zero_le _)).2
            ⟨ds, (List.cons.inj h).2, h2, rfl, (by show decimal ds ≤ top + 1; omega)⟩, h3.symm⟩
  · have hp := plain (fun cs h => hm ⟨cs, h⟩)
    rw [hp, Option.map_eq_some_iff]
    constructor
    · rintro ⟨n, h, rfl⟩
      obtain ⟨h1, h2⟩ := (hN n).1 h
      exact ⟨Or.inl ⟨n, h1, rfl⟩, by omega, by omega⟩
    · rintro ⟨⟨n, h, rfl⟩ | ⟨ds, _, _, _, h⟩, h4, h5⟩
      · exact ⟨n, (hN n).2 ⟨h, by omega⟩, rfl⟩
      · exact absurd ⟨_, h⟩ hm

/-- A text with a plus and a zero in front; a text with a space is refused. -/
example : UnsignedText ['+', '0', '7'] 7 ∧ SignedText ['-', '4', '2'] (-42) ∧ readNat 255 ['+', '0', '7'] = some 7 ∧
    readNat 255 ['7', ' '] = none := by
  refine ⟨⟨[0, 7], by decide, by decide, by decide, Or.inr rfl⟩, Or.inr ⟨[4, 2], by decide, by decide, by decide, rfl⟩, ?_, ?_⟩ <;> decide +kernel

theorem flatMap_length {f : Char → List Char} (hf : ∀ c, f c ≠ []) : ∀ s : List Char, s.length ≤ (s.flatMap f).length
  | [] => by simp
  | c :: s => by
    rw [List.flatMap_cons, List.length_append, List.length_cons]
    have := flatMap_length hf s
    have := List.length_pos_iff.2 (hf c)
    omega

/-- C229 is false: no text at all is read as it has been written, not even a text of digits. -/
theorem C229_texts_partial (unicode : Char → Option (List Char)) (s : List Char) : showText unicode s ≠ s := by
  intro h
  have h1 := congrArg List.length h
  unfold showText at h1
  have h2 := flatMap_length (escapeChar_ne unicode) s
  simp only [List.length_cons, List.length_append, List.length_nil] at h1
  omega

theorem hex_inj {a b r r' : List Char} (ha : '}' ∉ a) (hb : '}' ∉ b) (h : a ++ '}' :: r = b ++ '}' :: r') : a = b ∧ r = r' := by
  induction a generalizing b with
  | nil =>
    cases b with
    | nil => exact ⟨rfl, by simpa using h⟩
    | cons y b =>
      have := (List.cons.inj h).1
      exact absurd (this ▸ List.mem_cons_self) hb
  | cons x a ih =>
    cases b with
    | nil =>
      have := (List.cons.inj h).1
      exact absurd (this.symm ▸ List.mem_cons_self) ha
    | cons y b =>
      obtain ⟨e1, e2⟩ := List.cons.inj h
      obtain ⟨e3, e4⟩ := ih (fun hm => ha (List.mem_cons_of_mem _ hm)) (fun hm => hb (List.mem_cons_of_mem _ hm)) e2
      exact ⟨by rw [e1, e3], e4⟩

theorem shortEscape_inj {c d e : Char} (hc : shortEscape c = some e) (hd : shortEscape d = some e) : c = d := by
  unfold shortEscape at hc hd
  split_ifs at hc hd <;> first | exact absurd (hc.trans hd.symm) (by decide) | simp_all

theorem shortEscape_u {c : Char} : shortEscape c ≠ some 'u' := by
  unfold shortEscape
  split_ifs <;> simp <;> decide

theorem shortEscape_slash : shortEscape '\\' = some '\\' := by decide
theorem shortEscape_quote : shortEscape '"' = some '"' := by decide

/-- What must hold of the escapes of characters that cannot be printed: digits of the number of the character, without a brace. -/
structure Escapes (unicode : Char → Option (List Char)) : Prop where
  brace : ∀ c h, unicode c = some h → '}' ∉ h
  inj : ∀ c d h, unicode c = some h → unicode d = some h → c = d

theorem escapeChar_inj {unicode : Char → Option (List Char)} (hu : Escapes unicode) {c d : Char} {r r' : List Char}
    (h : escapeChar unicode c ++ r = escapeChar unicode d ++ r') : c = d ∧ r = r' := by
  unfold escapeChar at h
  cases hc : shortEscape c with
  | some e =>
    cases hd : shortEscape d with
    | some e' =>
      rw [hc, hd] at h
      simp only [List.cons_append, List.nil_append, List.cons.injEq] at h
      obtain ⟨_, rfl, h2⟩ := h
      exact ⟨shortEscape_inj hc hd, h2⟩
    | none =>
      rw [hc, hd] at h
      cases hd' : unicode d with
      | some hex =>
        rw [hd'] at h
        simp only [List.cons_append, List.nil_append, List.cons.injEq] at h
        exact absurd (h.2.1 ▸ hc) shortEscape_u
      | none =>
        rw [hd'] at h
        simp only [List.cons_append, List.nil_append, List.cons.injEq] at h
        rw [← h.1, shortEscape_slash] at hd
        simp at hd
  | none =>
    cases hd : shortEscape d with
    | some e' =>
      rw [hc, hd] at h
      cases hc' : unicode c with
      | some hex =>
        rw [hc'] at h
        simp only [List.cons_append, List.nil_append, List.cons.injEq] at h
        exact absurd (h.2.1.symm ▸ hd) shortEscape_u
      | none =>
        rw [hc'] at h
        simp only [List.cons_append, List.nil_append, List.cons.injEq] at h
        rw [h.1, shortEscape_slash] at hc
        simp at hc
    | none =>
      rw [hc, hd] at h
      cases hc' : unicode c with
      | some hex =>
        cases hd' : unicode d with
        | some hex' =>
          rw [hc', hd'] at h
          simp only [List.cons_append, List.append_assoc, List.nil_append, List.cons.injEq, true_and] at h
          obtain ⟨e1, e2⟩ := hex_inj (hu.brace c hex hc') (hu.brace d hex' hd') h
          exact ⟨hu.inj c d hex hc' (e1 ▸ hd'), e2⟩
        | none =>
          rw [hc', hd'] at h
          simp only [List.cons_append, List.nil_append, List.cons.injEq] at h
          rw [← h.1, shortEscape_slash] at hd
          simp at hd
      | none =>
        cases hd' : unicode d with
        | some hex' =>
          rw [hc', hd'] at h
          simp only [List.cons_append, List.nil_append, List.cons.injEq] at h
          rw [h.1, shortEscape_slash] at hc
          simp at hc
        | none =>
          rw [hc', hd'] at h
          simpa using h

theorem escapeChar_quote (unicode : Char → Option (List Char)) (c : Char) (r r' : List Char) :
    escapeChar unicode c ++ r ≠ '"' :: r' := by
  intro h
  unfold escapeChar at h
  cases hc : shortEscape c with
  | some e =>
    rw [hc] at h
    simp at h
  | none =>
    rw [hc] at h
    cases hc' : unicode c with
    | some hex => rw [hc'] at h; simp at h
    | none =>
      rw [hc'] at h
      simp only [List.cons_append, List.nil_append, List.cons.injEq] at h
      rw [h.1, shortEscape_quote] at hc
      simp at hc

/-- C229: nothing is lost, though: different texts are written differently, so the text can be found from what is written. -/
theorem C229_distinct_partial {unicode : Char → Option (List Char)} (hu : Escapes unicode) {s t : List Char}
    (h : showText unicode s = showText unicode t) : s = t := by
  unfold showText at h
  replace h := (List.cons.inj h).2
  induction s generalizing t with
  | nil =>
    cases t with
    | nil => rfl
    | cons d t =>
      rw [List.flatMap_cons, List.append_assoc] at h
      exact absurd h.symm (escapeChar_quote unicode d _ _)
  | cons c s ih =>
    cases t with
    | nil =>
      rw [List.flatMap_cons, List.append_assoc] at h
      exact absurd h (escapeChar_quote unicode c _ _)
    | cons d t =>
      rw [List.flatMap_cons, List.flatMap_cons, List.append_assoc, List.append_assoc] at h
      obtain ⟨e1, e2⟩ := escapeChar_inj hu h
      rw [e1, ih e2]

/-- C229: what is written for a text is a literal of Rust that stands for this text. -/
theorem C229_literal_partial {unicode : Char → Option (List Char)} {hex : List Char → Char → Prop}
    (hu : ∀ c h, unicode c = some h → hex h c) (s : List Char) :
    ∃ body, showText unicode s = '"' :: (body ++ ['"']) ∧ Literal hex body s := by
  refine ⟨s.flatMap (escapeChar unicode), rfl, ?_⟩
  induction s with
  | nil => exact .nil
  | cons c s ih =>
    rw [List.flatMap_cons]
    unfold escapeChar at ih ⊢
    cases hc : shortEscape c with
    | some e =>
      refine .short ?_ ih
      unfold shortEscape at hc
      split_ifs at hc with h1 h2 h3 h4 h5 h6 <;> obtain rfl := Option.some.inj hc <;> subst_vars <;> decide
    | none =>
      cases hx : unicode c with
      | some h =>
        have := Literal.unicode (hu c h hx) ih
        simpa using this
      | none =>
        have : c ≠ '"' ∧ c ≠ '\\' ∧ c ≠ '\r' := by
          refine ⟨?_, ?_, ?_⟩ <;> (rintro rfl; exact absurd hc (by decide))
        exact .plain this.1 this.2.1 this.2.2 ih

/-- A text with a line break and a quote. -/
example : showText (fun _ => none) ['a', '\n', '"'] = ['"', 'a', '\\', 'n', '\\', '"', '"'] ∧
    Literal (fun _ _ => False) ['a', '\\', 'n', '\\', '"'] ['a', '\n', '"'] :=
  ⟨by decide, .plain (by decide) (by decide) (by decide) (.short (by decide) (.short (by decide) .nil))⟩

example : Escapes (fun c => if c = Char.ofNat 7 then some ['7'] else none) ∧
    showText (fun c => if c = Char.ofNat 7 then some ['7'] else none) ['a', '"', Char.ofNat 7] =
      ['"', 'a', '\\', '"', '\\', 'u', '{', '7', '}', '"'] := by
  refine ⟨⟨?_, ?_⟩, by decide +kernel⟩
  · intro c h hh
    split_ifs at hh
    cases hh; decide
  · intro c d h h1 h2
    split_ifs at h1 h2 with a b
    exact a.trans b.symm

/-! ### The file of a search -/

variable {F : Type}

/-- The values that are read for a row of the search: those of the row, but for the individual. -/
def readRow (unicode : Char → Option (List Char)) (r : Row (List Char) F) : List (Val F) :=
  [.u32 r.generation, .i32 r.index, .f32 r.fitness, .text (showText unicode r.individual)]

theorem texts_eq (unicode : Char → Option (List Char)) (showF : F → List Char) (r : Row (List Char) F) :
    texts unicode showF r = (values r).map (pretty unicode showF) := by
  obtain ⟨s, h1, _, h3⟩ := Frame.C147_explore_row (pretty unicode showF) columns [] (values r) (by decide) rfl
  unfold texts
  rw [h1, Option.bind_some, h3]
  rfl

/-- The records of the file are the texts of the rows. -/
theorem written_eq (unicode : Char → Option (List Char)) (showF : F → List Char) (rows : List (Row (List Char) F)) :
    written unicode showF rows = some (rows.map (texts unicode showF)) := by
  unfold written
  induction rows with
  | nil => rfl
  | cons r rs ih =>
    rw [Search.writeCsv, if_pos (by rw [texts_eq]; rfl), ih]
    rfl

/-- C229, the header names the columns: in the record of every row the cell under each name is the text of that value. -/
theorem C229_header_partial (unicode : Char → Option (List Char)) (showF : F → List Char) (rows : List (Row (List Char) F)) :
    ∃ records, written unicode showF rows = some records ∧ records.length = rows.length ∧
      ∀ (k : Nat) (r : Row (List Char) F), rows[k]? = some r → ∃ cells, records[k]? = some cells ∧
        (columns.zip cells).lookup "generation" = some (String.ofList (showNat r.generation)) ∧
        (columns.zip cells).lookup "index" = some (String.ofList (showInt r.index)) ∧
        (columns.zip cells).lookup "fitness" = some (String.ofList (showF r.fitness)) ∧
        (columns.zip cells).lookup "individual" = some (String.ofList (showText unicode r.individual)) := by
  refine ⟨_, written_eq unicode showF rows, List.length_map _, ?_⟩
  intro k r hk
  refine ⟨texts unicode showF r, by rw [List.getElem?_map, hk]; rfl, ?_, ?_, ?_, ?_⟩ <;> rw [texts_eq] <;> rfl

/-- C229 is false: the file of a genetic search can be written, and read with `load_csv!`; generations, indexes and fitness are
those of the rows, but every individual is another text than the one that was evaluated: it is in quotes, with escapes. A search that
starts with the individuals read starts with other ones. (`showF`, `readF`: the text of an `f32` is read as the same `f32`.) -/
theorem C229_file_partial (unicode : Char → Option (List Char)) {showF : F → List Char} {readF : List Char → Option F}
    (hF : ∀ x, readF (showF x) = some x) (rows : List (Row (List Char) F))
    (hg : ∀ r ∈ rows, r.generation < 2 ^ 32) (hi : ∀ r ∈ rows, r.index < 2 ^ 31) :
    ∃ records cols, written unicode showF rows = some records ∧
      Search.loadCsv columns records (columns.zip (parsers readF)) = some cols ∧ cols.length = 4 ∧
      cols[0]? = some (rows.map (fun r => .u32 r.generation)) ∧ cols[1]? = some (rows.map (fun r => .i32 r.index)) ∧
      cols[2]? = some (rows.map (fun r => .f32 r.fitness)) ∧
      cols[3]? = some (rows.map (fun r => .text (showText unicode r.individual))) ∧
      ∀ r ∈ rows, showText unicode r.individual ≠ r.individual := by
  obtain ⟨records, h1, cols, h2, h3, h4⟩ := Search.C98_roundtrip (names := columns) (toStrings := texts unicode showF) (rows := rows)
    (parsers := parsers readF) (value := fun j r => (readRow unicode r).getD j (.u32 0))
    (by intro r _; rw [texts_eq]; rfl) rfl (by
      intro r hr j p s hp hs
      rw [texts_eq] at hs
      match j, hp, hs with
      | 0, hp, hs =>
        cases hp; cases hs
        show (readNat (2 ^ 32 - 1) (String.ofList (showNat r.generation)).toList).map Val.u32 = _
        rw [String.toList_ofList, readNat_showNat, if_pos (by have := hg r hr; omega)]
        rfl
      | 1, hp, hs =>
        cases hp; cases hs
        show (readInt (2 ^ 31 - 1) (String.ofList (showInt r.index)).toList).map Val.i32 = _
        rw [String.toList_ofList, readInt_showInt, if_pos (by have := hi r hr; omega)]
        rfl
      | 2, hp, hs =>
        cases hp; cases hs
        show (readF (String.ofList (showF r.fitness)).toList).map Val.f32 = _
        rw [String.toList_ofList, hF]
        rfl
      | 3, hp, hs =>
        cases hp; cases hs
        show some (Val.text (String.ofList (showText unicode r.individual)).toList) = _
        rw [String.toList_ofList]
        rfl
      | j + 4, hp, _ => exact absurd hp (by simp [parsers]))
  exact ⟨records, cols, h1, h2, h3, h4 0 (by decide), h4 1 (by decide), h4 2 (by decide), h4 3 (by decide),
    fun r _ => C229_texts_partial unicode r.individual⟩

/-- The individual `01` of a search is read as a text of four characters. -/
example : written (fun _ => none) (fun n : Nat => showNat n) [⟨1, 0, 7, ['0', '1']⟩] = some [["1", "0", "7", "\"01\""]] ∧
    Search.loadCsv columns [["1", "0", "7", "\"01\""]] (columns.zip (parsers (readNat 100))) =
      some [[.u32 1], [.i32 0], [.f32 7], [.text ['"', '0', '1', '"']]] := by
  refine ⟨?_, ?_⟩ <;> decide +kernel

end Verif.CsvText
