import Verif.Model.Search
import Verif.Spec.Search
import Verif.Lemmas.Fl
import Mathlib.Tactic.Linarith
import Mathlib.Logic.Function.Iterate

/-! Lemmas for the searches. -/

set_option linter.unusedSectionVars false

namespace Verif.Search

open SearchSpec

variable {S X : Type}

theorem minLoop_spec (l : List (S × Fl)) : ∀ (i : Nat) (m : Fl × Option Nat),
    (minLoop l i m = m ∧ ∀ r ∈ l, r.2.lt m.1 = false) ∨
    ∃ (k : Nat) (r : S × Fl), l[k]? = some r ∧ minLoop l i m = (r.2, some (i + k)) ∧ r.2.lt m.1 = true ∧ (∀ r' ∈ l, r'.2.lt r.2 = false) ∧
      ∀ j < k, ∀ r' : S × Fl, l[j]? = some r' → r'.2 ≠ r.2 := by
  induction l with
  | nil => intro i m; exact Or.inl ⟨rfl, by simp⟩
  | cons r rs ih =>
    intro i m
    rw [minLoop]
    by_cases h : r.2.lt m.1 = true
    · rw [if_pos h]
      rcases ih (i + 1) (r.2, some i) with ⟨h1, h2⟩ | ⟨k, r', h1, h2, h3, h4, h5⟩
      · refine Or.inr ⟨0, r, rfl, h1, h, ?_, by simp⟩
        intro r' hr'
        rcases List.mem_cons.1 hr' with rfl | hr'
        · exact Fl.lt_irrefl _
        · exact h2 r' hr'
      · refine Or.inr ⟨k + 1, r', h1, ?_, Fl.lt_trans h3 h, ?_, ?_⟩
        · rw [h2, show i + 1 + k = i + (k + 1) by omega]
        · intro r'' hr''
          rcases List.mem_cons.1 hr'' with rfl | hr''
          · exact Fl.lt_asymm h3
          · exact h4 r'' hr''
        · intro j hj r'' hr''
          cases j with
          | zero =>
            injection hr'' with hr''
            subst hr''
            intro he
            rw [← he, Fl.lt_irrefl] at h3
            cases h3
          | succ j => exact h5 j (by omega) r'' hr''
    · rw [if_neg h]
      have h : r.2.lt m.1 = false := eq_false_of_ne_true h
      rcases ih (i + 1) m with ⟨h1, h2⟩ | ⟨k, r', h1, h2, h3, h4, h5⟩
      · refine Or.inl ⟨h1, ?_⟩
        intro r' hr'
        rcases List.mem_cons.1 hr' with rfl | hr'
        · exact h
        · exact h2 r' hr'
      · refine Or.inr ⟨k + 1, r', h1, ?_, h3, ?_, ?_⟩
        · rw [h2, show i + 1 + k = i + (k + 1) by omega]
        · intro r'' hr''
          rcases List.mem_cons.1 hr'' with rfl | hr''
          · exact Fl.not_lt_of_lt h3 h
          · exact h4 r'' hr''
        · intro j hj r'' hr''
          cases j with
          | zero =>
            injection hr'' with hr''
            subst hr''
            intro he
            rw [he, h3] at h
            cases h
          | succ j => exact h5 j (by omega) r'' hr''

theorem maxLoop_spec (l : List Fl) : ∀ (i : Nat) (m : Fl × Nat),
    (maxLoop l i m = m ∧ ∀ y ∈ l, m.1.lt y = false) ∨
    ∃ (k : Nat) (y : Fl), l[k]? = some y ∧ maxLoop l i m = (y, i + k) ∧ m.1.lt y = true ∧ (∀ y' ∈ l, y.lt y' = false) ∧
      ∀ j < k, ∀ y' : Fl, l[j]? = some y' → y' ≠ y := by
  induction l with
  | nil => intro i m; exact Or.inl ⟨rfl, by simp⟩
  | cons r rs ih =>
    intro i m
    rw [maxLoop]
    by_cases h : m.1.lt r = true
    · rw [if_pos h]
      rcases ih (i + 1) (r, i) with ⟨h1, h2⟩ | ⟨k, r', h1, h2, h3, h4, h5⟩
      · refine Or.inr ⟨0, r, rfl, h1, h, ?_, by simp⟩
        intro r' hr'
        rcases List.mem_cons.1 hr' with rfl | hr'
        · exact Fl.lt_irrefl _
        · exact h2 r' hr'
      · refine Or.inr ⟨k + 1, r', h1, ?_, Fl.lt_trans h h3, ?_, ?_⟩
        · rw [h2, show i + 1 + k = i + (k + 1) by omega]
        · intro r'' hr''
          rcases List.mem_cons.1 hr'' with rfl | hr''
          · exact Fl.lt_asymm h3
          · exact h4 r'' hr''
        · intro j hj r'' hr''
          cases j with
          | zero =>
            injection hr'' with hr''
            subst hr''
            intro he
            rw [← he, Fl.lt_irrefl] at h3
            cases h3
          | succ j => exact h5 j (by omega) r'' hr''
    · rw [if_neg h]
      have h : m.1.lt r = false := eq_false_of_ne_true h
      rcases ih (i + 1) m with ⟨h1, h2⟩ | ⟨k, r', h1, h2, h3, h4, h5⟩
      · refine Or.inl ⟨h1, ?_⟩
        intro r' hr'
        rcases List.mem_cons.1 hr' with rfl | hr'
        · exact h
        · exact h2 r' hr'
      · refine Or.inr ⟨k + 1, r', h1, ?_, h3, ?_, ?_⟩
        · rw [h2, show i + 1 + k = i + (k + 1) by omega]
        · intro r'' hr''
          rcases List.mem_cons.1 hr'' with rfl | hr''
          · exact Fl.not_lt_of_lt' h3 h
          · exact h4 r'' hr''
        · intro j hj r'' hr''
          cases j with
          | zero =>
            injection hr'' with hr''
            subst hr''
            intro he
            rw [he, h3] at h
            cases h
          | succ j => exact h5 j (by omega) r'' hr''

theorem isFirstMin_nil (init : S × Fl) : IsFirstMin init [] init := Or.inl ⟨rfl, by simp⟩

theorem isFirstMin_append {init b1 b2 : S × Fl} {l1 l2 : List (S × Fl)} (h1 : IsFirstMin init l1 b1)
    (h2 : IsFirstMin b1 l2 b2) : IsFirstMin init (l1 ++ l2) b2 := by
  rcases h2 with ⟨rfl, h2⟩ | ⟨k, hk, hl, hm, hf⟩
  · rcases h1 with ⟨rfl, h1⟩ | ⟨k, hk, hl, hm, hf⟩
    · refine Or.inl ⟨rfl, ?_⟩
      intro e he
      rcases List.mem_append.1 he with he | he
      · exact h1 e he
      · exact h2 e he
    · have hkl : k < l1.length := (List.getElem?_eq_some_iff.1 hk).1
      refine Or.inr ⟨k, ?_, hl, ?_, ?_⟩
      · rw [List.getElem?_append_left hkl]; exact hk
      · intro e he
        rcases List.mem_append.1 he with he | he
        · exact hm e he
        · exact h2 e he
      · intro j hj e he
        rw [List.getElem?_append_left (by omega)] at he
        exact hf j hj e he
  · have key : b2.2.lt init.2 = true ∧ ∀ e ∈ l1, e.2.lt b2.2 = false ∧ e.2 ≠ b2.2 := by
      rcases h1 with ⟨rfl, h1⟩ | ⟨k', _, hl', hm', _⟩
      · refine ⟨hl, fun e he => ⟨Fl.not_lt_of_lt hl (h1 e he), ?_⟩⟩
        intro heq
        have := h1 e he
        rw [heq, hl] at this
        cases this
      · refine ⟨Fl.lt_trans hl hl', fun e he => ⟨Fl.not_lt_of_lt hl (hm' e he), ?_⟩⟩
        intro heq
        have := hm' e he
        rw [heq, hl] at this
        cases this
    refine Or.inr ⟨l1.length + k, ?_, key.1, ?_, ?_⟩
    · rw [List.getElem?_append_right (by omega), Nat.add_sub_cancel_left]
      exact hk
    · intro e he
      rcases List.mem_append.1 he with he | he
      · exact (key.2 e he).1
      · exact hm e he
    · intro j hj e he
      by_cases hjl : j < l1.length
      · rw [List.getElem?_append_left hjl] at he
        exact (key.2 e (List.mem_of_getElem? he)).2
      · rw [List.getElem?_append_right (by omega)] at he
        exact hf (j - l1.length) (by omega) e he

theorem isFirstMin_unique {init b1 b2 : S × Fl} {l : List (S × Fl)} (h1 : IsFirstMin init l b1) (h2 : IsFirstMin init l b2) :
    b1 = b2 := by
  rcases h1 with ⟨rfl, h1⟩ | ⟨k, hk, hl, hm, hf⟩
  · rcases h2 with ⟨rfl, _⟩ | ⟨k', hk', hl', _, _⟩
    · rfl
    · rw [h1 b2 (List.mem_of_getElem? hk')] at hl'
      cases hl'
  · rcases h2 with ⟨rfl, h2⟩ | ⟨k', hk', hl', hm', hf'⟩
    · rw [h2 b1 (List.mem_of_getElem? hk)] at hl
      cases hl
    · have heq : b1.2 = b2.2 := by
        have e1 := hm b2 (List.mem_of_getElem? hk')
        have e2 := hm' b1 (List.mem_of_getElem? hk)
        revert e1 e2 hl hl'
        generalize b1.2 = x
        generalize b2.2 = y
        generalize init.2 = z
        intro hl hl' e1 e2
        cases x <;> cases y <;> simp_all [Fl.lt]
        · exact le_antisymm e1 e2
      rcases Nat.lt_trichotomy k k' with hlt | rfl | hlt
      · exact absurd heq (hf' k hlt b1 hk)
      · rw [hk] at hk'
        injection hk'
      · exact absurd heq.symm (hf k' hlt b2 hk')

/-- One iteration. -/
theorem newBest_spec (l : List (S × Fl)) (best : S × Fl) :
    ∃ best', newBest l (minLoop l 0 (best.2, none)) best = some best' ∧ (minLoop l 0 (best.2, none)).1 = best'.2 ∧
      IsFirstMin best l best' := by
  rcases minLoop_spec l 0 (best.2, none) with ⟨h1, h2⟩ | ⟨k, r, h1, h2, h3, h4, h5⟩
  · exact ⟨best, by rw [h1]; rfl, by rw [h1], Or.inl ⟨rfl, h2⟩⟩
  · rw [Nat.zero_add] at h2
    refine ⟨r, ?_, by rw [h2], Or.inr ⟨k, h1, h3, h4, h5⟩⟩
    rw [h2]
    show (l[k]?).map (fun r' => (r'.1, r.2)) = some r
    rw [h1]
    rfl

theorem iterate_spec (gen : Nat → Nat → S → S) (eval : Nat → Nat → S → S × Fl) (batchSize : Nat) (target : Fl) (init : S × Fl) :
    ∀ (k i : Nat) (done : List (S × Fl)) (best : S × Fl), IsFirstMin init done best →
    ∃ (best' : S × Fl) (bs : List (List (S × Fl))), iterate gen eval batchSize target k i best best.2 = some (best', bs) ∧
      IsFirstMin init (done ++ bs.flatten) best' ∧ bs.length ≤ k ∧
      (∀ m l, bs[m]? = some l → ∃ b, IsFirstMin init (done ++ (bs.take m).flatten) b ∧
        l = (List.range batchSize).map (fun j => eval (i + m) j (gen (i + m) j b.1))) ∧
      (bs.length = k ∨ best'.2.le target = true) ∧
      (∀ m, 0 < m → m < bs.length → ∀ b, IsFirstMin init (done ++ (bs.take m).flatten) b → b.2.le target = false) := by
  intro k
  induction k with
  | zero =>
    intro i done best h
    refine ⟨best, [], rfl, ?_, Nat.le_refl _, ?_, Or.inl rfl, ?_⟩
    · simpa using h
    · intro m l hl
      simp at hl
    · intro m _ hm
      simp at hm
  | succ k ih =>
    intro i done best h
    obtain ⟨b1, e1, e2, e3⟩ := newBest_spec (batch gen eval batchSize i best.1) best
    rw [iterate, e1]
    dsimp only
    rw [e2]
    have happ := isFirstMin_append h e3
    by_cases ht : b1.2.le target = true
    · rw [if_pos ht]
      refine ⟨b1, [batch gen eval batchSize i best.1], rfl, ?_, ?_, ?_, Or.inr ht, ?_⟩
      · simpa using happ
      · simp
      · intro m l hl
        cases m with
        | zero =>
          injection hl with hl
          refine ⟨best, by simpa using h, ?_⟩
          rw [← hl]
          rfl
        | succ m => simp at hl
      · intro m h0 hm
        simp at hm
        omega
    · rw [if_neg ht]
      obtain ⟨b2, bs, f1, f2, f3, f4, f5, f6⟩ := ih (i + 1) (done ++ batch gen eval batchSize i best.1) b1 happ
      rw [f1]
      refine ⟨b2, batch gen eval batchSize i best.1 :: bs, rfl, ?_, ?_, ?_, ?_, ?_⟩
      · rw [List.flatten_cons, ← List.append_assoc]
        exact f2
      · rw [List.length_cons]; omega
      · intro m l hl
        cases m with
        | zero =>
          injection hl with hl
          refine ⟨best, by simpa using h, ?_⟩
          rw [← hl]
          rfl
        | succ m =>
          obtain ⟨b, g1, g2⟩ := f4 m l hl
          refine ⟨b, ?_, ?_⟩
          · rw [List.take_succ_cons, List.flatten_cons, ← List.append_assoc]
            exact g1
          · rw [g2, show i + 1 + m = i + (m + 1) by omega]
      · rcases f5 with f5 | f5
        · exact Or.inl (by rw [List.length_cons, f5])
        · exact Or.inr f5
      · intro m h0 hm b hb
        cases m with
        | zero => omega
        | succ m =>
          rw [List.take_succ_cons, List.flatten_cons, ← List.append_assoc] at hb
          by_cases hm0 : m = 0
          · subst hm0
            rw [List.take_zero, List.flatten_nil, List.append_nil] at hb
            rw [isFirstMin_unique hb happ]
            exact eq_false_of_ne_true ht
          · exact f6 m (by omega) (by rw [List.length_cons] at hm; omega) b hb

/-! ### Evaluation -/

theorem evalLoop_spec (run : S → S) (cost : S → Fl) (add : Fl → Fl → Fl) : ∀ (r : Nat) (s : S) (c : Fl),
    evalLoop run cost add r s c =
      (run^[r] s, ((List.range r).map (fun k => cost (run^[k + 1] s))).foldl add c) := by
  intro r
  induction r with
  | zero => intro s c; rfl
  | succ r ih =>
    intro s c
    rw [evalLoop, ih, List.range_succ_eq_map, List.map_cons, List.foldl_cons, List.map_map]
    rfl

/-! ### Bayesian search -/

theorem maxLoop_pairs {l : List (X × Fl)} (h : ∃ e ∈ l, Fl.minF64.lt e.2 = true) :
    ∃ best : X × Fl, l[(maxLoop (l.map Prod.snd) 0 (Fl.minF64, 0)).2]? = some best ∧
      (maxLoop (l.map Prod.snd) 0 (Fl.minF64, 0)).1 = best.2 ∧ Fl.minF64.lt best.2 = true ∧ IsFirstMax l best := by
  rcases maxLoop_spec (l.map Prod.snd) 0 (Fl.minF64, 0) with ⟨_, h2⟩ | ⟨k, y, h1, h2, h3, h4, h5⟩
  · obtain ⟨e, he, hlt⟩ := h
    have := h2 e.2 (List.mem_map_of_mem he)
    rw [hlt] at this
    cases this
  · rw [List.getElem?_map] at h1
    obtain ⟨best, hb, rfl⟩ := Option.map_eq_some_iff.1 h1
    rw [Nat.zero_add] at h2
    refine ⟨best, by rw [h2]; exact hb, by rw [h2], h3, k, hb, ?_, ?_⟩
    · intro e he
      exact h4 e.2 (List.mem_map_of_mem he)
    · intro j hj e he
      exact h5 j hj e.2 (by rw [List.getElem?_map, he]; rfl)

theorem maxLoop_none {l : List Fl} (h : ∀ y ∈ l, Fl.minF64.lt y = false) : maxLoop l 0 (Fl.minF64, 0) = (Fl.minF64, 0) := by
  rcases maxLoop_spec l 0 (Fl.minF64, 0) with ⟨h1, _⟩ | ⟨k, y, h1, _, h3, _⟩
  · exact h1
  · rw [h y (List.mem_of_getElem? h1)] at h3
    cases h3

/-- What the search keeps: the best so far, or the start value while nothing beats `f64::MIN`. -/
def Keeps (x0 : X) (l : List (X × Fl)) (best : X × Fl) : Prop :=
  (best = (x0, Fl.minF64) ∧ ∀ e ∈ l, Fl.minF64.lt e.2 = false) ∨ (Fl.minF64.lt best.2 = true ∧ IsFirstMax l best)

theorem keeps_snoc {x0 : X} {l : List (X × Fl)} {best e : X × Fl} (h : Keeps x0 l best) :
    Keeps x0 (l ++ [e]) (if best.2.lt e.2 then e else best) := by
  rcases h with ⟨rfl, h⟩ | ⟨h0, k, h1, h2, h3⟩
  · by_cases hl : Fl.minF64.lt e.2 = true
    · rw [if_pos hl]
      refine Or.inr ⟨hl, l.length, by simp, ?_, ?_⟩
      · intro e' he'
        rcases List.mem_append.1 he' with he' | he'
        · exact Fl.not_lt_of_lt' hl (h e' he')
        · rw [List.mem_singleton.1 he']
          exact Fl.lt_irrefl _
      · intro j hj e' he'
        rw [List.getElem?_append_left hj] at he'
        intro heq
        have := h e' (List.mem_of_getElem? he')
        rw [heq, hl] at this
        cases this
    · rw [if_neg hl]
      refine Or.inl ⟨rfl, ?_⟩
      intro e' he'
      rcases List.mem_append.1 he' with he' | he'
      · exact h e' he'
      · rw [List.mem_singleton.1 he']
        exact eq_false_of_ne_true hl
  · by_cases hl : best.2.lt e.2 = true
    · rw [if_pos hl]
      refine Or.inr ⟨Fl.lt_trans h0 hl, l.length, by simp, ?_, ?_⟩
      · intro e' he'
        rcases List.mem_append.1 he' with he' | he'
        · exact Fl.not_lt_of_lt' hl (h2 e' he')
        · rw [List.mem_singleton.1 he']
          exact Fl.lt_irrefl _
      · intro j hj e' he'
        rw [List.getElem?_append_left hj] at he'
        intro heq
        have := h2 e' (List.mem_of_getElem? he')
        rw [heq, hl] at this
        cases this
    · rw [if_neg hl]
      have hk : k < l.length := (List.getElem?_eq_some_iff.1 h1).1
      refine Or.inr ⟨h0, k, by rw [List.getElem?_append_left hk]; exact h1, ?_, ?_⟩
      · intro e' he'
        rcases List.mem_append.1 he' with he' | he'
        · exact h2 e' he'
        · rw [List.mem_singleton.1 he']
          exact eq_false_of_ne_true hl
      · intro j hj e' he'
        rw [List.getElem?_append_left (by omega)] at he'
        exact h3 j hj e' he'

theorem acquisition_some (score : X → Fl) {samples : List X} (h : samples ≠ []) : ∃ x, acquisition score samples = some x := by
  unfold acquisition
  rcases maxLoop_spec (samples.map score) 0 (Fl.minF64, 0) with ⟨h1, _⟩ | ⟨k, y, h1, h2, _⟩
  · rw [h1]
    cases samples with
    | nil => exact absurd rfl h
    | cons x xs => exact ⟨x, rfl⟩
  · rw [h2, Nat.zero_add]
    rw [List.getElem?_map] at h1
    obtain ⟨x, hx, _⟩ := Option.map_eq_some_iff.1 h1
    exact ⟨x, hx⟩

theorem bayesLoop_spec (objective : Nat → X → Fl) (gen : Nat → List X → List X) (score : List (X × Fl) → X → Fl)
    (hg : ∀ i xs, gen i xs ≠ []) (x0 : X) : ∀ (k i : Nat) (hist : List (X × Fl)) (best : X × Fl), Keeps x0 hist best →
    ∃ (best' : X × Fl) (more : List (X × Fl)), bayesLoop objective gen score k i hist best = some (best', hist ++ more) ∧
      Keeps x0 (hist ++ more) best' ∧ more.length = k ∧
      ∀ m e, more[m]? = some e → acquisition (score (hist ++ more.take m)) (gen (i + m) ((hist ++ more.take m).map Prod.fst)) =
        some e.1 ∧ e.2 = objective (hist.length + m) e.1 := by
  intro k
  induction k with
  | zero =>
    intro i hist best h
    refine ⟨best, [], by rw [List.append_nil]; rfl, by rw [List.append_nil]; exact h, rfl, ?_⟩
    intro m e he
    simp at he
  | succ k ih =>
    intro i hist best h
    obtain ⟨x, hx⟩ := acquisition_some (score hist) (hg i (hist.map Prod.fst))
    rw [bayesLoop, hx]
    dsimp only
    obtain ⟨b, more, h1, h2, h3, h4⟩ := ih (i + 1) (hist ++ [(x, objective hist.length x)]) _ (keeps_snoc h)
    rw [h1]
    refine ⟨b, (x, objective hist.length x) :: more, by rw [List.append_assoc]; rfl, ?_, by rw [List.length_cons, h3], ?_⟩
    · rw [List.append_assoc] at h2
      exact h2
    · intro m e he
      cases m with
      | zero =>
        injection he with he
        subst he
        rw [List.take_zero, List.append_nil]
        exact ⟨hx, rfl⟩
      | succ m =>
        obtain ⟨g1, g2⟩ := h4 m e he
        rw [List.take_succ_cons]
        rw [List.append_assoc] at g1
        rw [show i + (m + 1) = i + 1 + m by omega, show hist.length + (m + 1) = (hist.length + 1) + m by omega]
        rw [List.length_append] at g2
        exact ⟨g1, g2⟩

/-! ### `load_csv!` -/

theorem parseRecord_spec {V : Type} (record : List String) (ps : List (String → Option V)) : ∀ (i : Nat) (vs : List V),
    parseRecord record i ps = some vs ↔
      vs.length = ps.length ∧ ∀ j p v, ps[j]? = some p → vs[j]? = some v → (record[i + j]?).bind p = some v := by
  induction ps with
  | nil =>
    intro i vs
    rw [parseRecord]
    constructor
    · intro h
      injection h with h
      subst h
      exact ⟨rfl, by intro j p v hp; simp at hp⟩
    · rintro ⟨h, _⟩
      rw [List.eq_nil_of_length_eq_zero h]
  | cons p ps ih =>
    intro i vs
    rw [parseRecord]
    constructor
    · intro h
      split at h
      · rename_i v vs' hv hvs
        injection h with h
        subst h
        obtain ⟨h1, h2⟩ := (ih (i + 1) vs').1 hvs
        refine ⟨by rw [List.length_cons, List.length_cons, h1], ?_⟩
        intro j p' v' hp hv'
        cases j with
        | zero =>
          injection hp with hp
          injection hv' with hv'
          rw [← hp, ← hv']
          exact hv
        | succ j =>
          rw [show i + (j + 1) = i + 1 + j by omega]
          exact h2 j p' v' hp hv'
      · exact absurd h (by simp)
    · rintro ⟨h1, h2⟩
      cases vs with
      | nil => simp at h1
      | cons v vs =>
        have e1 := h2 0 p v rfl rfl
        rw [Nat.add_zero] at e1
        have e2 : parseRecord record (i + 1) ps = some vs := by
          refine (ih (i + 1) vs).2 ⟨by simpa using h1, ?_⟩
          intro j p' v' hp hv'
          rw [show i + 1 + j = i + (j + 1) by omega]
          exact h2 (j + 1) p' v' hp hv'
        rw [e1, e2]

theorem pushAll_length {V : Type} (cs : List (List V)) : ∀ vs, (pushAll cs vs).length = cs.length := by
  induction cs with
  | nil => intro vs; cases vs <;> rfl
  | cons c cs ih =>
    intro vs
    cases vs with
    | nil => rfl
    | cons v vs => rw [pushAll, List.length_cons, List.length_cons, ih]

theorem pushAll_get {V : Type} (cs : List (List V)) : ∀ (vs : List V), vs.length = cs.length → ∀ (j : Nat) (c : List V) (v : V),
    cs[j]? = some c → vs[j]? = some v → (pushAll cs vs)[j]? = some (c ++ [v]) := by
  induction cs with
  | nil => intro vs _ j c v hc; simp at hc
  | cons c cs ih =>
    intro vs hl j c' v' hc hv
    cases vs with
    | nil => simp at hl
    | cons v vs =>
      rw [pushAll]
      cases j with
      | zero =>
        injection hc with hc
        injection hv with hv
        rw [← hc, ← hv]
        rfl
      | succ j => exact ih vs (by simpa using hl) j c' v' hc hv

theorem readRecords_spec {V : Type} (width : Nat) (ps : List (String → Option V)) (rs : List (List String)) :
    ∀ (cols : List (List V)), cols.length = ps.length →
    (∀ r ∈ rs, r.length = width) → ∀ (rows : List (List V)), rows.length = rs.length →
    (∀ (k : Nat) r vs, rs[k]? = some r → rows[k]? = some vs → parseRecord r 0 ps = some vs) →
    ∃ cols', readRecords width ps rs cols = some cols' ∧ cols'.length = ps.length ∧
      ∀ (j : Nat) c, cols[j]? = some c → cols'[j]? = some (c ++ rows.filterMap (fun vs => vs[j]?)) := by
  induction rs with
  | nil =>
    intro cols hc _ rows hr _
    refine ⟨cols, rfl, hc, ?_⟩
    intro j c hjc
    rw [List.eq_nil_of_length_eq_zero hr, List.filterMap_nil, List.append_nil]
    exact hjc
  | cons r rs ih =>
    intro cols hc hw rows hr hp
    cases rows with
    | nil => simp at hr
    | cons vs rows =>
      have e := hp 0 r vs rfl rfl
      have hl : vs.length = ps.length := ((parseRecord_spec r ps 0 vs).1 e).1
      rw [readRecords, if_pos (hw r List.mem_cons_self), e]
      dsimp only
      obtain ⟨cols', h1, h2, h3⟩ := ih (pushAll cols vs) (by rw [pushAll_length, hc])
        (fun r hr => hw r (List.mem_cons_of_mem _ hr)) rows (by simpa using hr) (fun k r' vs' hr' hvs' => hp (k + 1) r' vs' hr' hvs')
      refine ⟨cols', h1, h2, ?_⟩
      intro j c hjc
      have hj : j < vs.length := by
        have := (List.getElem?_eq_some_iff.1 hjc).1
        omega
      have hv : vs[j]? = some vs[j] := List.getElem?_eq_getElem hj
      rw [h3 j _ (pushAll_get cols vs (by omega) j c vs[j] hjc hv), List.filterMap_cons_some (f := fun vs : List V => vs[j]?) hv, List.append_assoc]
      rfl

theorem parseRecord_some {V : Type} (record : List String) (ps : List (String → Option V)) : ∀ (i : Nat),
    (∀ (j : Nat) p, ps[j]? = some p → ∃ v, (record[i + j]?).bind p = some v) → ∃ vs, parseRecord record i ps = some vs := by
  induction ps with
  | nil => intro i _; exact ⟨[], rfl⟩
  | cons p ps ih =>
    intro i h
    obtain ⟨v, hv⟩ := h 0 p rfl
    rw [Nat.add_zero] at hv
    obtain ⟨vs, hvs⟩ := ih (i + 1) (fun j p hp => by
      rw [show i + 1 + j = i + (j + 1) by omega]
      exact h (j + 1) p hp)
    exact ⟨v :: vs, by rw [parseRecord, hv, hvs]⟩

theorem rows_exist {V : Type} (ps : List (String → Option V)) (rs : List (List String))
    (h : ∀ r ∈ rs, ∃ vs, parseRecord r 0 ps = some vs) :
    ∃ rows : List (List V), rows.length = rs.length ∧
      (∀ (k : Nat) r vs, rs[k]? = some r → rows[k]? = some vs → parseRecord r 0 ps = some vs) ∧
      ∀ (j : Nat) p, ps[j]? = some p →
        (rows.filterMap (fun vs => vs[j]?)).map some = rs.map (fun r => (r[j]?).bind p) := by
  induction rs with
  | nil => exact ⟨[], rfl, by intro k r vs hr; simp at hr, by intro j p _; rfl⟩
  | cons r rs ih =>
    obtain ⟨vs, hvs⟩ := h r List.mem_cons_self
    obtain ⟨rows, h1, h2, h3⟩ := ih (fun r hr => h r (List.mem_cons_of_mem _ hr))
    refine ⟨vs :: rows, by rw [List.length_cons, List.length_cons, h1], ?_, ?_⟩
    · intro k r' vs' hr' hvs'
      cases k with
      | zero =>
        injection hr' with hr'
        injection hvs' with hvs'
        rw [← hr', ← hvs']
        exact hvs
      | succ k => exact h2 k r' vs' hr' hvs'
    · intro j p hp
      obtain ⟨hl, hs⟩ := (parseRecord_spec r ps 0 vs).1 hvs
      have hj : j < vs.length := by
        have := (List.getElem?_eq_some_iff.1 hp).1
        omega
      have hv : vs[j]? = some vs[j] := List.getElem?_eq_getElem hj
      rw [List.filterMap_cons_some (f := fun vs : List V => vs[j]?) hv, List.map_cons, List.map_cons, h3 j p hp]
      have := hs j p vs[j] hp hv
      rw [Nat.zero_add] at this
      rw [this]

theorem readRecords_none {V : Type} (width : Nat) (ps : List (String → Option V)) (rs : List (List String)) :
    ∀ (cols : List (List V)), (∃ r ∈ rs, r.length ≠ width ∨ parseRecord r 0 ps = none) →
    readRecords width ps rs cols = none := by
  induction rs with
  | nil => rintro cols ⟨r, hr, _⟩; simp at hr
  | cons r rs ih =>
    rintro cols ⟨r', hr', h⟩
    rw [readRecords]
    rcases List.mem_cons.1 hr' with rfl | hr'
    · rcases h with h | h
      · rw [if_neg h]
      · rw [h]
        split <;> rfl
    · split
      · split
        · exact ih _ ⟨r', hr', h⟩
        · rfl
      · rfl

end Verif.Search
