import Verif.Spec.Chance
import Mathlib.Tactic.Ring
import Mathlib.Tactic.Linarith
import Mathlib.Tactic.FieldSimp
import Mathlib.Algebra.Order.Archimedean.Basic
import Mathlib.Data.Rat.Floor
import Mathlib.Data.List.Perm.Basic

/-!
Counting draws: choosing an index of a list, and drawing until a condition holds.
-/

namespace Verif.Chance

open Grid

theorem Lists.length_eq {A : Type} {l m : List A} {P : A → Prop} (hl : Lists l P) (hm : Lists m P) : l.length = m.length :=
  ((List.perm_ext_iff_of_nodup hl.once hm.once).2 (fun a => (hl.mem a).trans (hm.mem a).symm)).length_eq

theorem filter_one {A : Type} (p : A → Bool) (x : A) : ∀ (l : List A), l.Nodup → x ∈ l → p x = true →
    (∀ y ∈ l, p y = true → y = x) → (l.filter p).length = 1
  | [], _, hx, _, _ => absurd hx (by simp)
  | a :: l, hn, hx, hp, hu => by
    rw [List.nodup_cons] at hn
    by_cases ha : a = x
    · subst ha
      have hnil : l.filter p = [] := by
        rw [List.filter_eq_nil_iff]
        intro y hy hpy
        exact hn.1 (hu y (List.mem_cons_of_mem _ hy) hpy ▸ hy)
      rw [List.filter_cons_of_pos hp, hnil]
      rfl
    · have hpa : ¬ p a = true := fun h => ha (hu a List.mem_cons_self h)
      rw [List.filter_cons_of_neg hpa]
      refine filter_one p x l hn.2 ?_ hp (fun y hy => hu y (List.mem_cons_of_mem _ hy))
      rcases List.mem_cons.1 hx with h | h
      · exact absurd h.symm ha
      · exact h

/-- A uniform index gives every element of a list without repetitions the same chance. -/
theorem index {A R : Type} [DecidableEq R] {es : List A} (hn : es.Nodup) (f : Nat → R) (mk : A → R)
    (hinj : ∀ a b, mk a = mk b → a = b) (hf : ∀ i (hi : i < es.length), f i = mk es[i]) {a : A} (ha : a ∈ es) :
    chance f (List.range es.length) (mk a) = 1 / (es.length : ℚ) := by
  obtain ⟨i, hi, hia⟩ := List.getElem_of_mem ha
  unfold chance favourable
  rw [List.length_range, filter_one _ i (List.range es.length) List.nodup_range (by simpa using hi)]
  · simp
  · simp only [decide_eq_true_eq]
    rw [hf i hi, hia]
  · intro j hj hp
    simp only [decide_eq_true_eq] at hp
    have hj' : j < es.length := by simpa using hj
    rw [hf j hj', ← hia] at hp
    exact (List.getElem_inj hn).1 (hinj _ _ hp)

theorem sequences_length {A : Type} (all : List A) (k : Nat) : (sequences all k).length = all.length ^ k := by
  induction k with
  | zero => rfl
  | succ k ih =>
    rw [sequences, List.length_flatMap]
    simp only [List.length_map, ih]
    rw [List.map_const', List.sum_replicate, pow_succ]
    ring

theorem mem_sequences {A : Type} (all : List A) : ∀ (k : Nat) (s : List A), s ∈ sequences all k → ∀ c ∈ s, c ∈ all
  | 0, s, hs, c, hc => by
    rw [sequences, List.mem_singleton] at hs
    rw [hs] at hc
    exact absurd hc (by simp)
  | k + 1, s, hs, c, hc => by
    rw [sequences, List.mem_flatMap] at hs
    obtain ⟨a, ha, hs⟩ := hs
    obtain ⟨t, ht, rfl⟩ := List.mem_map.1 hs
    rcases List.mem_cons.1 hc with h | h
    · exact h ▸ ha
    · exact mem_sequences all k t ht c h

variable {R : Type} [DecidableEq R]

theorem favourable_append {D : Type} (f : D → R) (a b : List D) (r : R) :
    favourable f (a ++ b) r = favourable f a r + favourable f b r := by
  unfold favourable
  rw [List.filter_append, List.length_append]

theorem favourable_map {D E : Type} (f : D → R) (g : E → D) (a : List E) (r : R) :
    favourable f (a.map g) r = favourable (fun e => f (g e)) a r := by
  unfold favourable
  rw [List.filter_map, List.length_map]
  rfl

/-- A search by rejection: the locations drawn are tried one after another. -/
structure Rejection {A : Type} (loop : List A → R) (ok : A → Bool) (ret : A → R) (go : R) : Prop where
  nil : loop [] = go
  cons : ∀ d ds, loop (d :: ds) = if ok d = true then ret d else loop ds
  inj : ∀ a b, ret a = ret b → a = b
  ne : ∀ a, ret a ≠ go

variable {A : Type} [DecidableEq A] {loop : List A → R} {ok : A → Bool} {ret : A → R} {go : R}

theorem round_ret (h : Rejection loop ok ret go) (S : List (List A)) {a : A} (ha : ok a = true) : ∀ cs : List A, cs.Nodup →
    favourable loop (cs.flatMap (fun c => S.map (fun s => c :: s))) (ret a) =
      (if a ∈ cs then S.length else 0) + (cs.filter (fun c => !ok c)).length * favourable loop S (ret a)
  | [], _ => by simp [favourable]
  | c :: cs, hn => by
    rw [List.nodup_cons] at hn
    rw [List.flatMap_cons, favourable_append, round_ret h S ha cs hn.2, favourable_map]
    by_cases hc : ok c = true
    · rw [List.filter_cons_of_neg (by simp [hc])]
      have hconst : (fun s => loop (c :: s)) = (fun _ => ret c) := by
        funext s
        rw [h.cons, if_pos hc]
      rw [hconst]
      by_cases hac : a = c
      · subst hac
        rw [if_neg hn.1, if_pos List.mem_cons_self]
        have : favourable (fun _ : List A => ret a) S (ret a) = S.length := by simp [favourable]
        rw [this]
        ring
      · have h0 : favourable (fun _ : List A => ret c) S (ret a) = 0 := by
          have : ret c ≠ ret a := fun e => hac (h.inj _ _ e).symm
          simp [favourable, this]
        have hmem : (a ∈ c :: cs) = (a ∈ cs) := by simp [hac]
        rw [h0]
        simp only [hmem]
        ring
    · have hac : a ≠ c := fun e => hc (e ▸ ha)
      rw [List.filter_cons_of_pos (by simp [hc])]
      have hsame : (fun s => loop (c :: s)) = loop := by
        funext s
        rw [h.cons, if_neg hc]
      have hmem : (a ∈ c :: cs) = (a ∈ cs) := by simp [hac]
      rw [hsame, List.length_cons]
      simp only [hmem]
      ring

omit [DecidableEq A] in
theorem round_go (h : Rejection loop ok ret go) (S : List (List A)) : ∀ cs : List A,
    favourable loop (cs.flatMap (fun c => S.map (fun s => c :: s))) go =
      (cs.filter (fun c => !ok c)).length * favourable loop S go
  | [] => by simp [favourable]
  | c :: cs => by
    rw [List.flatMap_cons, favourable_append, round_go h S cs, favourable_map]
    by_cases hc : ok c = true
    · rw [List.filter_cons_of_neg (by simp [hc])]
      have h0 : favourable (fun s => loop (c :: s)) S go = 0 := by
        have : (fun s => loop (c :: s)) = (fun _ => ret c) := by
          funext s
          rw [h.cons, if_pos hc]
        rw [this]
        simp [favourable, h.ne c]
      rw [h0]
      ring
    · rw [List.filter_cons_of_pos (by simp [hc])]
      have hsame : (fun s => loop (c :: s)) = loop := by
        funext s
        rw [h.cons, if_neg hc]
      rw [hsame, List.length_cons]
      ring

omit [DecidableEq A] in
theorem favourable_go (h : Rejection loop ok ret go) (all : List A) (k : Nat) :
    favourable loop (sequences all k) go = (all.filter (fun c => !ok c)).length ^ k := by
  induction k with
  | zero => simp [favourable, sequences, h.nil]
  | succ k ih =>
    rw [sequences, round_go h, ih, pow_succ]
    ring

theorem favourable_ret (h : Rejection loop ok ret go) {all : List A} (hn : all.Nodup) {a : A} (hm : a ∈ all)
    (ha : ok a = true) (k : Nat) :
    (all.filter ok).length * favourable loop (sequences all k) (ret a) + (all.filter (fun c => !ok c)).length ^ k =
      all.length ^ k := by
  have hsplit : all.length = (all.filter ok).length + (all.filter (fun c => !ok c)).length :=
    List.length_eq_length_filter_add ok
  induction k with
  | zero =>
    have : (go = ret a) = False := by simpa using fun e => h.ne a e.symm
    simp [favourable, sequences, h.nil, this]
  | succ k ih =>
    rw [sequences, round_ret h _ ha all hn, if_pos hm, sequences_length]
    generalize favourable loop (sequences all k) (ret a) = x at *
    generalize (all.filter ok).length = e at *
    generalize (all.filter (fun c => !ok c)).length = f at *
    rw [pow_succ, pow_succ]
    calc e * (all.length ^ k + f * x) + f ^ k * f = e * all.length ^ k + f * (e * x + f ^ k) := by ring
      _ = e * all.length ^ k + f * all.length ^ k := by rw [ih]
      _ = all.length ^ k * all.length := by
        generalize all.length ^ k = y
        rw [hsplit]
        ring

/-- The chances of a search by rejection. -/
theorem rejection (h : Rejection loop ok ret go) {all es : List A} {P : A → Prop} (ha : Lists all P)
    (he : Lists es (fun a => P a ∧ ok a = true)) (k : Nat) :
    (∀ a ∈ es, chance loop (sequences all k) (ret a) =
      (1 - (((all.length : ℚ) - es.length) / all.length) ^ k) / es.length) ∧
    (all ≠ [] → chance loop (sequences all k) go = (((all.length : ℚ) - es.length) / all.length) ^ k) := by
  have hlen : (all.filter ok).length = es.length :=
    Lists.length_eq (P := fun a => P a ∧ ok a = true)
      ⟨ha.once.filter _, fun a => by rw [List.mem_filter, ha.mem]⟩ he
  have hsplit : all.length = (all.filter ok).length + (all.filter (fun c => !ok c)).length :=
    List.length_eq_length_filter_add ok
  have hf : ((all.filter (fun c => !ok c)).length : ℚ) = (all.length : ℚ) - es.length := by
    rw [hlen] at hsplit
    rw [eq_sub_iff_add_eq, add_comm]
    exact_mod_cast hsplit.symm
  constructor
  · intro a hae
    obtain ⟨hP, hok⟩ := (he.mem a).1 hae
    have hm : a ∈ all := (ha.mem a).2 hP
    have hpos : (0 : ℚ) < all.length := by exact_mod_cast List.length_pos_of_mem hm
    have hepos : (0 : ℚ) < es.length := by exact_mod_cast List.length_pos_of_mem hae
    have key := favourable_ret h ha.once hm hok k
    rw [hlen] at key
    have key' : (es.length : ℚ) * favourable loop (sequences all k) (ret a) + ((all.length : ℚ) - es.length) ^ k =
        (all.length : ℚ) ^ k := by
      rw [← hf]
      exact_mod_cast key
    unfold chance
    rw [sequences_length, div_pow]
    push_cast
    have hk : (0 : ℚ) < (all.length : ℚ) ^ k := pow_pos hpos k
    rw [div_eq_div_iff hk.ne' hepos.ne', sub_mul, one_mul, div_mul_cancel₀ _ hk.ne']
    linarith
  · intro hne
    unfold chance
    rw [sequences_length, favourable_go h, div_pow]
    push_cast
    rw [hf]

/-- The chances get as close as wanted to equal shares. -/
theorem settles {e n : ℚ} (he : 0 < e) (hn : e ≤ n) (ε : ℚ) (hε : 0 < ε) :
    ∃ K : Nat, ∀ k, K ≤ k → |(1 - ((n - e) / n) ^ k) / e - 1 / e| < ε := by
  have hnpos : 0 < n := lt_of_lt_of_le he hn
  have h0 : 0 ≤ (n - e) / n := div_nonneg (by linarith) hnpos.le
  have h1 : (n - e) / n < 1 := by rw [div_lt_one hnpos]; linarith
  obtain ⟨K, hK⟩ := exists_pow_lt_of_lt_one (mul_pos hε he) h1
  refine ⟨K, fun k hk => ?_⟩
  have hle : ((n - e) / n) ^ k ≤ ((n - e) / n) ^ K := pow_le_pow_of_le_one h0 h1.le hk
  have heq : (1 - ((n - e) / n) ^ k) / e - 1 / e = -(((n - e) / n) ^ k / e) := by ring
  rw [heq, abs_neg, abs_of_nonneg (div_nonneg (pow_nonneg h0 k) he.le), div_lt_iff₀ he]
  exact lt_of_le_of_lt hle hK

end Verif.Chance
