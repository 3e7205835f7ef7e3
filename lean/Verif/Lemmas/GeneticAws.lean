import Verif.Model.GeneticAws
import Verif.Lemmas.Explore
import Mathlib.Algebra.Order.Ring.Rat
import Mathlib.Data.List.Perm.Basic

namespace Verif.GeneticAws

set_option linter.unusedSectionVars false

variable {I : Type}

theorem positions_eq {rem per i remained size d : Nat}
    (h : ∀ j, (if rem = 0 then i * size + j else if i < rem then i * size + j else rem * (per + 1) + remained * per + j) = j + d) :
    positions rem per i remained size = (List.range size).map (fun j => j + d) := by
  unfold positions
  apply List.map_congr_left
  intro j _
  exact h j

theorem range_shift (a b d : Nat) : (List.range (a + b)).map (fun j => j + d) =
    (List.range a).map (fun j => j + d) ++ (List.range b).map (fun j => j + (d + a)) := by
  rw [List.range_add, List.map_append, List.map_map]
  congr 1
  apply List.map_congr_left
  intro j _
  show a + j + d = j + (d + a)
  omega

theorem shares_tail (rem per : Nat) : ∀ (k i remained : Nat), (rem = 0 ∨ (¬ i < rem ∧ (per = 0 ∨ i = rem + remained))) →
    (shares rem per k i 0 remained).flatten = (List.range (k * per)).map (fun j => j + (rem + i * per)) := by
  intro k
  induction k with
  | zero => intro i remained _; simp [shares]
  | succ k ih =>
    intro i remained h
    rw [shares, if_neg (by omega), List.flatten_cons, ih]
    · rw [positions_eq (d := rem + i * per), show (k + 1) * per = per + k * per by ring, range_shift]
      · congr 1
        apply List.map_congr_left
        intro j _
        ring
      · intro j
        rcases h with h | ⟨h1, h2⟩
        · rw [if_pos h, h]; omega
        · by_cases h0 : rem = 0
          · rw [if_pos h0, h0]; omega
          · rw [if_neg h0, if_neg h1]
            rcases h2 with h2 | h2
            · subst h2; simp; omega
            · subst h2; ring
    · by_cases h0 : rem = 0
      · exact Or.inl h0
      rcases h with h | ⟨h1, h2⟩
      · exact Or.inl h
      · right
        refine ⟨by omega, ?_⟩
        by_cases hp : per = 0
        · exact Or.inl hp
        · right
          rw [if_pos ⟨h0, h1, by omega⟩]
          omega

theorem shares_head (rem per : Nat) : ∀ (remainder k i : Nat), i + remainder = rem → remainder ≤ k →
    (shares rem per k i remainder 0).flatten = (List.range (k * per + remainder)).map (fun j => j + i * (per + 1)) := by
  intro remainder
  induction remainder with
  | zero =>
    intro k i h _
    rw [shares_tail]
    · apply List.map_congr_left
      intro j _
      rw [Nat.add_zero] at h
      subst h
      ring
    · by_cases h0 : rem = 0
      · exact Or.inl h0
      · exact Or.inr ⟨by omega, Or.inr (by omega)⟩
  | succ m ih =>
    intro k i h hk
    obtain ⟨k', rfl⟩ : ∃ k', k = k' + 1 := ⟨k - 1, by omega⟩
    rw [shares, if_pos (by omega), List.flatten_cons, if_neg (by omega), Nat.add_sub_cancel, ih k' (i + 1) (by omega) (by omega),
      positions_eq (d := i * (per + 1)), show (k' + 1) * per + (m + 1) = (per + 1) + (k' * per + m) by ring, range_shift (per + 1) (k' * per + m)]
    · congr 1
      apply List.map_congr_left
      intro j _
      ring
    · intro j
      rw [if_neg (by omega), if_pos (by omega)]
      omega

theorem shares_length (rem per : Nat) : ∀ (k i remainder remained : Nat),
    (shares rem per k i remainder remained).length = k := by
  intro k
  induction k with
  | zero => intro i _ _; rfl
  | succ k ih => intro i _ _; rw [shares]; split <;> rw [List.length_cons, ih]

/-- The lengths of the lists. -/
theorem shares_size (rem per : Nat) : ∀ (k i remainder remained : Nat), ∀ ks ∈ shares rem per k i remainder remained,
    ks.length = per ∨ ks.length = per + 1 := by
  intro k
  induction k with
  | zero => intro i _ _ ks h; simp [shares] at h
  | succ k ih =>
    intro i remainder remained ks h
    rw [shares] at h
    split at h
    · rcases List.mem_cons.1 h with rfl | h
      · right; simp [positions]
      · exact ih _ _ _ _ h
    · rcases List.mem_cons.1 h with rfl | h
      · left; simp [positions]
      · exact ih _ _ _ _ h

theorem individuals_eq {pop : List I} (hp : pop ≠ []) : ∀ ks : List Nat, ∃ xs, individuals pop ks = some xs ∧
    xs.map some = ks.map (fun k => pop[k % pop.length]?) := by
  intro ks
  induction ks with
  | nil => exact ⟨[], rfl, rfl⟩
  | cons k ks ih =>
    obtain ⟨xs, h1, h2⟩ := ih
    have hk : k % pop.length < pop.length := Nat.mod_lt _ (List.length_pos_of_ne_nil hp)
    exact ⟨pop[k % pop.length] :: xs, by rw [individuals, h1, List.getElem?_eq_getElem hk],
      by rw [List.map_cons, List.map_cons, h2, List.getElem?_eq_getElem hk]⟩

theorem allIndividuals_eq {pop : List I} : ∀ kss : List (List Nat), (pop ≠ [] ∨ kss.flatten = []) →
    ∃ xss, allIndividuals pop kss = some xss ∧ xss.map List.length = kss.map List.length ∧
      xss.flatten.map some = kss.flatten.map (fun k => pop[k % pop.length]?) := by
  intro kss
  induction kss with
  | nil => intro _; exact ⟨[], rfl, rfl, rfl⟩
  | cons ks kss ih =>
    intro hp
    have h0 : ∃ xs, individuals pop ks = some xs ∧ xs.map some = ks.map (fun k => pop[k % pop.length]?) := by
      rcases hp with hp | hp
      · exact individuals_eq hp ks
      · rw [List.flatten_cons, List.append_eq_nil_iff] at hp
        rw [hp.1]
        exact ⟨[], rfl, rfl⟩
    obtain ⟨xs, h1, h2⟩ := h0
    obtain ⟨xss, h3, h4, h5⟩ := ih (by
      rcases hp with hp | hp
      · exact Or.inl hp
      · rw [List.flatten_cons, List.append_eq_nil_iff] at hp; exact Or.inr hp.2)
    refine ⟨xs :: xss, by rw [allIndividuals, h1, h3], ?_, ?_⟩
    · rw [List.map_cons, List.map_cons, h4]
      congr 1
      have := congrArg List.length h2
      simpa using this
    · rw [List.flatten_cons, List.flatten_cons, List.map_append, List.map_append, h2, h5]

theorem cycle (pop : List I) (reps : Nat) :
    (List.range (reps * pop.length)).map (fun k => pop[k % pop.length]?) = ((List.replicate reps pop).flatten).map some := by
  rw [Explore.range_mul, List.map_flatMap, List.map_flatten, List.map_replicate]
  have : ∀ i ∈ List.range reps, ((List.range pop.length).map (fun j => i * pop.length + j)).map (fun k => pop[k % pop.length]?) =
      pop.map some := by
    intro i _
    rw [List.map_map]
    apply List.ext_getElem?
    intro j
    rw [List.getElem?_map, List.getElem?_map]
    by_cases hj : j < pop.length
    · rw [List.getElem?_range hj, List.getElem?_eq_getElem hj]
      show some (pop[(i * pop.length + j) % pop.length]?) = _
      rw [Nat.mul_add_mod', Nat.mod_eq_of_lt hj, List.getElem?_eq_getElem hj]
      rfl
    · rw [List.getElem?_eq_none (by simpa using hj), List.getElem?_eq_none (by simpa using hj)]
      rfl
  rw [List.flatMap_congr this, List.flatMap_def, List.map_const', List.length_range]

theorem workload_spec (pop : List I) (reps : Nat) {numFunc : Nat} (hf : 0 < numFunc) :
    ∃ lists, workload pop reps numFunc = some lists ∧ lists.length = numFunc ∧
      lists.flatten = (List.replicate reps pop).flatten ∧
      ∀ l ∈ lists, l.length = pop.length * reps / numFunc ∨ l.length = pop.length * reps / numFunc + 1 := by
  have hmod : pop.length * reps % numFunc < numFunc := Nat.mod_lt _ hf
  have hfl := shares_head (pop.length * reps % numFunc) (pop.length * reps / numFunc) (pop.length * reps % numFunc) numFunc 0
    (by omega) (by omega)
  rw [Nat.div_add_mod] at hfl
  have hfl' : (shares (pop.length * reps % numFunc) (pop.length * reps / numFunc) numFunc 0
      (pop.length * reps % numFunc) 0).flatten = List.range (reps * pop.length) := by
    rw [hfl, Nat.mul_comm pop.length reps]
    simp
  obtain ⟨lists, h1, h2, h3⟩ := allIndividuals_eq (pop := pop) (shares (pop.length * reps % numFunc)
    (pop.length * reps / numFunc) numFunc 0 (pop.length * reps % numFunc) 0) (by
      by_cases hp : pop = []
      · right; rw [hfl', hp]; simp
      · exact Or.inl hp)
  refine ⟨lists, ?_, ?_, ?_, ?_⟩
  · unfold workload; rw [if_neg (by omega), h1]
  · have := congrArg List.length h2
    rwa [List.length_map, List.length_map, shares_length] at this
  · rw [hfl', cycle] at h3
    exact List.map_injective_iff.2 (Option.some_injective _) h3
  · intro l hl
    have : l.length ∈ lists.map List.length := List.mem_map.2 ⟨l, hl, rfl⟩
    rw [h2] at this
    obtain ⟨ks, hks, h⟩ := List.mem_map.1 this
    rw [← h]
    exact shares_size _ _ _ _ _ _ ks hks

/-! ### The answers -/

theorem parse_none {ms : List (Option (List (Row I)))} (h : none ∈ ms) : parse ms = none := by
  induction ms with
  | nil => simp at h
  | cons m ms ih =>
    cases m with
    | none => rfl
    | some r =>
      rcases List.mem_cons.1 h with h | h
      · simp at h
      · rw [parse, ih h]; rfl

theorem parse_some (rss : List (List (Row I))) : parse (rss.map some) = some rss.flatten := by
  induction rss with
  | nil => rfl
  | cons r rss ih => rw [List.map_cons, parse, ih]; rfl

theorem messages_eq (fit : Nat → Nat → I → Rat) (g : Nat) : ∀ (lists : List (List I)) (i : Nat), (∀ l ∈ lists, l ≠ []) →
    ∃ rss : List (List (Row I)), messages fit g i lists = rss.map some ∧
      rss.map (List.map (fun r => r.individual)) = lists ∧
      ∀ r ∈ rss.flatten, r.generation = g ∧ ∃ i j, r.fitness = fit i j r.individual := by
  intro lists
  induction lists with
  | nil => intro i _; exact ⟨[], rfl, rfl, by simp⟩
  | cons xs xss ih =>
    intro i h
    obtain ⟨rss, h1, h2, h3⟩ := ih (i + 1) (fun l hl => h l (List.mem_cons_of_mem _ hl))
    have hx := h xs List.mem_cons_self
    have ha : ∀ (xs : List I) (j : Nat), (answer (fit i) g j xs).map (fun r => r.individual) = xs ∧
        ∀ r ∈ answer (fit i) g j xs, r.generation = g ∧ ∃ i j, r.fitness = fit i j r.individual := by
      intro xs
      induction xs with
      | nil => intro j; exact ⟨rfl, by simp [answer]⟩
      | cons x xs ih =>
        intro j
        rw [answer]
        refine ⟨by rw [List.map_cons, (ih (j + 1)).1], ?_⟩
        intro r hr
        rcases List.mem_cons.1 hr with rfl | hr
        · exact ⟨rfl, i, j, rfl⟩
        · exact (ih (j + 1)).2 r hr
    refine ⟨answer (fit i) g 0 xs :: rss, ?_, ?_, ?_⟩
    · rw [messages, h1, if_neg (by simpa using hx)]; rfl
    · rw [List.map_cons, h2, (ha xs 0).1]
    · intro r hr
      rw [List.flatten_cons] at hr
      rcases List.mem_append.1 hr with hr | hr
      · exact (ha xs 0).2 r hr
      · exact h3 r hr

theorem messages_none (fit : Nat → Nat → I → Rat) (g : Nat) : ∀ (lists : List (List I)) (i : Nat), [] ∈ lists →
    none ∈ messages fit g i lists := by
  intro lists
  induction lists with
  | nil => intro i h; simp at h
  | cons xs xss ih =>
    intro i h
    rw [messages]
    rcases List.mem_cons.1 h with h | h
    · subst h; exact List.mem_cons_self
    · exact List.mem_cons_of_mem _ (ih _ h)

theorem bestFold (rows : List (Row I)) : ∀ (b : Rat × Option I),
    (b.1 ≤ (rows.foldl bestStep b).1) ∧ (∀ r ∈ rows, r.fitness ≤ (rows.foldl bestStep b).1) ∧
    (rows.foldl bestStep b = b ∨ ∃ r ∈ rows, rows.foldl bestStep b = (r.fitness, some r.individual)) := by
  induction rows with
  | nil => intro b; exact ⟨le_refl _, by simp, Or.inl rfl⟩
  | cons r rows ih =>
    intro b
    rw [List.foldl_cons]
    obtain ⟨h1, h2, h3⟩ := ih (bestStep b r)
    have hb : b.1 ≤ (bestStep b r).1 ∧ r.fitness ≤ (bestStep b r).1 ∧
        (bestStep b r = b ∨ bestStep b r = (r.fitness, some r.individual)) := by
      unfold bestStep
      by_cases h : r.fitness > b.1
      · rw [if_pos h]; exact ⟨le_of_lt h, le_refl _, Or.inr rfl⟩
      · rw [if_neg h]; exact ⟨le_refl _, not_lt.1 h, Or.inl rfl⟩
    refine ⟨le_trans hb.1 h1, ?_, ?_⟩
    · intro r' hr'
      rcases List.mem_cons.1 hr' with rfl | hr'
      · exact le_trans hb.2.1 h1
      · exact h2 r' hr'
    · rcases h3 with h3 | ⟨r', hr', h3⟩
      · rcases hb.2.2 with h4 | h4
        · exact Or.inl (h3.trans h4)
        · exact Or.inr ⟨r, List.mem_cons_self, h3.trans h4⟩
      · exact Or.inr ⟨r', List.mem_cons_of_mem _ hr', h3⟩

end Verif.GeneticAws
