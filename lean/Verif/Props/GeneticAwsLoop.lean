import Verif.Props.GeneticAws
import Verif.Spec.GeneticAws

/-!
Properties of the cloud genetic search as a whole: C93, C94, C201, and of the text of its messages: C202.
-/

namespace Verif.GeneticAws

variable {I : Type}

/-! ### The loop -/

theorem mutateAll_eq (cb : Callbacks I) (g : Nat) (xs : List I) : ∀ k,
    mutateAll cb g k xs = (xs.zipIdx k).map (fun p => cb.mutate g p.2 p.1) := by
  induction xs with
  | nil => intro k; rfl
  | cons x xs ih => intro k; rw [mutateAll, ih, List.zipIdx_cons, List.map_cons]

theorem generation_rows {fit : Nat → Nat → I → Rat} {arrive : List (Option (List (Row I))) → List (Option (List (Row I)))}
    (ha : ∀ l, (arrive l).Perm l) {desired : Rat} {pop : List I} {reps numFunc g : Nat} {best best' : Rat × Option I}
    {rows : List (Row I)} {flag : Bool} (h : generation fit arrive desired pop reps numFunc g best = some (rows, best', flag)) :
    (rows.map (fun r => r.individual)).Perm (List.replicate reps pop).flatten ∧
      (∀ r ∈ rows, r.generation = g ∧ ∃ i j, r.fitness = fit i j r.individual) ∧
      (flag = true ↔ ∃ r ∈ rows, desired ≤ r.fitness) := by
  by_cases hn : numFunc ≤ pop.length * reps
  · by_cases hf : 0 < numFunc
    · obtain ⟨rows1, best1, flag1, h1, h2, h3, h4⟩ := C94_rows_partial fit ha desired pop hf hn g best
      rw [h1] at h
      injection h with h
      injection h with e1 h
      injection h with e2 e3
      subst e1
      subst e3
      exact ⟨h2, h3, h4⟩
    · have h0 : numFunc = 0 := by omega
      subst h0
      simp [generation, workload] at h
  · rw [C94_negation_partial fit ha desired pop (by omega) g best] at h
    simp at h

/-- The best so far. -/
def BestSoFar (rows : List (Row I)) (best : Rat × Option I) : Prop :=
  0 ≤ best.1 ∧ (∀ r ∈ rows, r.fitness ≤ best.1) ∧ (best = (0, none) ∨ ∃ r ∈ rows, best = (r.fitness, some r.individual))

theorem loop_search {cb : Callbacks I} {arrive : Nat → List (Option (List (Row I))) → List (Option (List (Row I)))}
    (ha : ∀ g l, (arrive g l).Perm l) (limit reps numFunc : Nat) :
    ∀ (fuel : Nat) (s : State I) (rows : List (Row I)) (best : Rat × Option I), BestSoFar s.rows s.best →
    (limit ≠ 0 → s.generation ≤ limit) → loop cb arrive limit reps numFunc fuel s = .finished rows best →
    ∃ gens, rows = s.rows ++ gens.flatten ∧ Descends cb (mutatedFirst cb) reps (s.generation + 1) s.population gens ∧
      (limit ≠ 0 → s.generation + gens.length ≤ limit) ∧ Stops cb limit s.generation gens ∧ BestSoFar rows best := by
  intro fuel
  induction fuel with
  | zero => intro s rows best _ _ h; simp [loop] at h
  | succ fuel ih =>
    intro s rows best hb hl h
    rw [loop, round] at h
    by_cases hlim : limit ≠ 0 ∧ s.generation = limit
    · rw [if_pos hlim] at h
      dsimp only at h
      injection h with h1 h2
      subst h1
      subst h2
      exact ⟨[], by simp, trivial, by simpa using hl, hlim, hb⟩
    · rw [if_neg hlim] at h
      cases hg : generation (cb.fit (s.generation + 1)) (arrive (s.generation + 1)) cb.desired s.population reps numFunc
          (s.generation + 1) s.best with
      | none => rw [hg] at h; simp at h
      | some res =>
        obtain ⟨new, best', flag⟩ := res
        rw [hg] at h
        dsimp only at h
        obtain ⟨g1, g2, g3⟩ := generation_rows (ha _) hg
        obtain ⟨b1, b2, b3⟩ := C93_best_partial hg hb.1
        have hbest : BestSoFar (s.rows ++ new) best' := by
          refine ⟨le_trans hb.1 b1, ?_, ?_⟩
          · intro r hr
            rcases List.mem_append.1 hr with hr | hr
            · exact le_trans (hb.2.1 r hr) b1
            · exact b2 r hr
          · rcases b3 with b3 | ⟨r, hr, b3⟩
            · rw [b3]
              rcases hb.2.2 with h0 | ⟨r, hr, h0⟩
              · exact Or.inl h0
              · exact Or.inr ⟨r, List.mem_append_left _ hr, h0⟩
            · exact Or.inr ⟨r, List.mem_append_right _ hr, b3⟩
        have hlt : limit ≠ 0 → s.generation + 1 ≤ limit := by
          intro h0
          have h1 := hl h0
          have h2 : s.generation ≠ limit := fun h => hlim ⟨h0, h⟩
          omega
        by_cases hf : flag = true
        · rw [if_pos hf] at h
          dsimp only at h
          injection h with h1 h2
          subst h1
          subst h2
          exact ⟨[new], by simp, ⟨g1, g2, fun h => absurd rfl h, trivial⟩, by simpa using hlt, Or.inr (Or.inl (g3.1 hf)), hbest⟩
        · rw [if_neg hf] at h
          by_cases hs : (cb.select (s.generation + 1) (new.map (fun r => (r.individual, r.fitness)))).length ≤ 1
          · rw [if_pos hs] at h
            dsimp only at h
            injection h with h1 h2
            subst h1
            subst h2
            refine ⟨[new], by simp, ⟨g1, g2, fun h => absurd rfl h, trivial⟩, by simpa using hlt, Or.inr (Or.inr ?_), hbest⟩
            rw [selected, List.length_map]
            exact hs
          · rw [if_neg hs] at h
            dsimp only at h
            obtain ⟨gens, h1, h2, h3, h4, h5⟩ := ih _ _ _ hbest hlt h
            dsimp only at h1 h2 h3 h4
            refine ⟨new :: gens, ?_, ⟨g1, g2, ?_, ?_⟩, ?_, ?_, h5⟩
            · rw [h1, List.flatten_cons, List.append_assoc]
            · intro _ r hr
              by_contra hc
              exact hf (g3.2 ⟨r, hr, not_lt.1 hc⟩)
            · rw [mutateAll_eq] at h2
              exact h2
            · intro h0
              have := h3 h0
              rw [List.length_cons]
              omega
            · cases gens with
              | nil => exact Or.inl h4
              | cons _ _ => exact h4

/-- C201. Full statement: the populations follow each other as in the other modes and the selection gets each individual once.
Proved for every order in which the messages arrive: the rows are those of at most `limit` generations, each with `reps` rows for each
individual of its population, each but the first population made from the rows before it, with the mutation *before* the crossover;
the search stopped at the limit, at the desired fitness or at a selection of at most one. -/
theorem C201_search_partial {cb : Callbacks I} {arrive : Nat → List (Option (List (Row I))) → List (Option (List (Row I)))}
    (ha : ∀ g l, (arrive g l).Perm l) {init : List I} {limit reps numFunc fuel : Nat} {rows : List (Row I)}
    {best : Rat × Option I} (h : gaAws cb arrive init limit reps numFunc fuel = .finished rows best) :
    ∃ gens, rows = gens.flatten ∧ Descends cb (mutatedFirst cb) reps 1 init gens ∧
      (limit ≠ 0 → gens.length ≤ limit) ∧ Stops cb limit 0 gens := by
  obtain ⟨gens, h1, h2, h3, h4, _⟩ := loop_search ha limit reps numFunc fuel ⟨0, init, [], (0, none)⟩ rows best
    ⟨le_refl _, by simp, Or.inl rfl⟩ (fun _ => Nat.zero_le _) h
  exact ⟨gens, by simpa using h1, h2, by simpa using h3, h4⟩

/-- C93 for the whole search: no row beats the best that is reported, and it is a row as soon as one row has a positive fitness. -/
theorem C93_search_partial {cb : Callbacks I} {arrive : Nat → List (Option (List (Row I))) → List (Option (List (Row I)))}
    (ha : ∀ g l, (arrive g l).Perm l) {init : List I} {limit reps numFunc fuel : Nat} {rows : List (Row I)}
    {best : Rat × Option I} (h : gaAws cb arrive init limit reps numFunc fuel = .finished rows best) :
    (∀ r ∈ rows, r.fitness ≤ best.1) ∧
      ((∃ r ∈ rows, 0 < r.fitness) → ∃ r ∈ rows, best = (r.fitness, some r.individual)) := by
  obtain ⟨_, _, _, _, _, _, h1, h2⟩ := loop_search ha limit reps numFunc fuel ⟨0, init, [], (0, none)⟩ rows best
    ⟨le_refl _, by simp, Or.inl rfl⟩ (fun _ => Nat.zero_le _) h
  refine ⟨h1, fun ⟨r, hr, hp⟩ => ?_⟩
  rcases h2 with h2 | h2
  · have := h1 r hr
    rw [h2] at this
    exact absurd hp (not_lt.2 this)
  · exact h2

/-- C201: with a limit the search ends, and it does not panic if no population is too small for the functions. -/
theorem C201_ends_partial {cb : Callbacks I} {arrive : Nat → List (Option (List (Row I))) → List (Option (List (Row I)))}
    (ha : ∀ g l, (arrive g l).Perm l) {init : List I} {limit reps numFunc fuel : Nat} (h0 : limit ≠ 0) (hf : limit < fuel)
    (hn : 0 < numFunc) (hi : numFunc ≤ init.length * reps) (hc : ∀ g l, 1 < l.length → numFunc ≤ (cb.cross g l).length * reps) :
    ∃ rows best, gaAws cb arrive init limit reps numFunc fuel = .finished rows best := by
  have key : ∀ (fuel : Nat) (s : State I), s.generation ≤ limit → limit < s.generation + fuel →
      numFunc ≤ s.population.length * reps → ∃ rows best, loop cb arrive limit reps numFunc fuel s = .finished rows best := by
    intro fuel
    induction fuel with
    | zero => intro s h1 h2; omega
    | succ fuel ih =>
      intro s h1 h2 h3
      rw [loop, round]
      by_cases hlim : limit ≠ 0 ∧ s.generation = limit
      · rw [if_pos hlim]
        exact ⟨_, _, rfl⟩
      · rw [if_neg hlim]
        obtain ⟨new, best', flag, hg, _⟩ := C94_rows_partial (cb.fit (s.generation + 1)) (ha (s.generation + 1)) cb.desired
          s.population hn h3 (s.generation + 1) s.best
        rw [hg]
        dsimp only
        by_cases hf : flag = true
        · rw [if_pos hf]; exact ⟨_, _, rfl⟩
        · rw [if_neg hf]
          by_cases hs : (cb.select (s.generation + 1) (new.map (fun r => (r.individual, r.fitness)))).length ≤ 1
          · rw [if_pos hs]; exact ⟨_, _, rfl⟩
          · rw [if_neg hs]
            refine ih _ ?_ ?_ (hc _ _ ?_)
            · show s.generation + 1 ≤ limit
              have : s.generation ≠ limit := fun h => hlim ⟨h0, h⟩
              omega
            · show limit < s.generation + 1 + fuel
              omega
            · rw [mutateAll_eq, List.length_map, List.length_zipIdx, List.length_map]
              omega
  exact key fuel _ (Nat.zero_le _) (by simpa using hf) hi

/-- A search for large numbers: the crossover reverses, the mutation adds the position. -/
def climb : Callbacks Nat where
  fit _ _ _ x := x
  select _ l := l.dropLast
  mutate _ k x := x + k
  cross _ l := l.reverse
  desired := 9

example : gaAws climb (fun _ => id) [1, 2, 3] 3 1 2 5 = .finished
    [⟨1, 0, 1, 1⟩, ⟨1, 1, 2, 2⟩, ⟨1, 0, 3, 3⟩, ⟨2, 0, 3, 3⟩, ⟨2, 0, 1, 1⟩] (3, some 3) := by decide +kernel

/-- C201 is false: the generation after the first is not what the other modes make of the same rows, with the same functions. -/
theorem C201_order_negation_partial : ∃ (gen1 gen2 : List (Row Nat)) (best : Rat × Option Nat),
    gaAws climb (fun _ => id) [1, 2, 3] 2 1 1 5 = .finished (gen1 ++ gen2) best ∧ (∀ r ∈ gen2, r.generation = 2) ∧
    ¬ (gen2.map (fun r => r.individual)).Perm (offspring climb 1 gen1) :=
  ⟨[⟨1, 0, 1, 1⟩, ⟨1, 1, 2, 2⟩, ⟨1, 2, 3, 3⟩], [⟨2, 0, 3, 3⟩, ⟨2, 1, 1, 1⟩], (3, some 3), by decide +kernel, by decide,
    by decide⟩

/-- C201 is false: the selection gets every individual `reps` times, so with functions that keep the size the populations grow by
the factor `reps` from generation to generation. -/
theorem C201_growth_negation_partial {cb : Callbacks I} {reps : Nat} (hs : ∀ g l, (cb.select g l).length = l.length)
    (hc : ∀ g l, (cb.cross g l).length = l.length) : ∀ (gens : List (List (Row I))) (g : Nat) (pop : List I),
    Descends cb (mutatedFirst cb) reps g pop gens → ∀ k rows, gens[k]? = some rows →
      rows.length = pop.length * reps ^ (k + 1) := by
  have hlen : ∀ (pop : List I), (List.replicate reps pop).flatten.length = pop.length * reps := by
    intro pop
    rw [List.length_flatten, List.map_replicate]
    clear * -
    induction reps with
    | zero => simp
    | succ r ih => rw [List.replicate_succ, List.sum_cons, ih]; ring
  intro gens
  induction gens with
  | nil => intro g pop _ k rows h; simp at h
  | cons new gens ih =>
    intro g pop h k rows hk
    obtain ⟨h1, _, _, h4⟩ := h
    have hn : new.length = pop.length * reps := by
      rw [← hlen, ← h1.length_eq, List.length_map]
    cases k with
    | zero =>
      simp only [List.getElem?_cons_zero, Option.some.injEq] at hk
      rw [← hk, hn, Nat.zero_add, pow_one]
    | succ k =>
      rw [List.getElem?_cons_succ] at hk
      rw [ih _ _ h4 k rows hk, mutatedFirst, hc, List.length_map, List.length_zipIdx, selected, List.length_map, hs,
        List.length_map, hn, pow_succ reps (k + 1)]
      ring

/-- Two individuals, two repetitions: the generations have four, eight and sixteen rows. -/
example : (match gaAws { climb with select := fun _ l => l } (fun _ => id) [1, 2] 3 2 1 5 with
    | .finished rows _ => some ((rows.filter (fun r => r.generation = 1)).length, (rows.filter (fun r => r.generation = 2)).length,
        (rows.filter (fun r => r.generation = 3)).length)
    | _ => none) = some (4, 8, 16) := by decide +kernel

/-! ### The text -/

theorem readString_cons (unicode : List Char → Option (Char × List Char)) (fuel : Nat) (c : Char) (rest : List Char) :
    readString unicode (fuel + 1) (c :: rest) =
      if c = '"' then some ([], rest)
      else if c = '\\' then
        match rest with
        | [] => none
        | e :: rest' =>
          if e = 'u' then
            match unicode rest' with
            | none => none
            | some (u, rest'') => (readString unicode fuel rest'').map (fun r => (u :: r.1, r.2))
          else
            match unescape e with
            | none => none
            | some u => (readString unicode fuel rest').map (fun r => (u :: r.1, r.2))
      else if c.toNat < 32 then none
      else (readString unicode fuel rest).map (fun r => (c :: r.1, r.2)) := by
  cases rest <;> rfl

theorem readString_length {unicode : List Char → Option (Char × List Char)}
    (hu : ∀ l c rest, unicode l = some (c, rest) → rest.length ≤ l.length) : ∀ (fuel : Nat) (text s rest : List Char),
    readString unicode fuel text = some (s, rest) →
    s.length + rest.length + 1 ≤ text.length ∧
      (s.length + rest.length + 1 = text.length → text = s ++ '"' :: rest ∧ ∀ c ∈ s, Plain c) := by
  intro fuel
  induction fuel with
  | zero => intro text s rest h; simp [readString] at h
  | succ fuel ih =>
    intro text s rest h
    cases text with
    | nil => simp [readString] at h
    | cons c text =>
      rw [readString_cons] at h
      by_cases h1 : c = '"'
      · rw [if_pos h1] at h
        injection h with h
        injection h with e1 e2
        subst e1
        subst e2
        subst h1
        simp
      · rw [if_neg h1] at h
        by_cases h2 : c = '\\'
        · rw [if_pos h2] at h
          cases text with
          | nil => simp at h
          | cons e text =>
            dsimp only at h
            by_cases h3 : e = 'u'
            · rw [if_pos h3] at h
              cases hx : unicode text with
              | none => rw [hx] at h; simp at h
              | some p =>
                obtain ⟨u, text'⟩ := p
                rw [hx] at h
                dsimp only at h
                obtain ⟨p, hp, he⟩ := Option.map_eq_some_iff.1 h
                injection he with e1 e2
                subst e1
                subst e2
                have := (ih _ _ _ hp).1
                have := hu _ _ _ hx
                simp only [List.length_cons]
                refine ⟨by omega, fun _ => by omega⟩
            · rw [if_neg h3] at h
              cases hx : unescape e with
              | none => rw [hx] at h; simp at h
              | some u =>
                rw [hx] at h
                dsimp only at h
                obtain ⟨p, hp, he⟩ := Option.map_eq_some_iff.1 h
                injection he with e1 e2
                subst e1
                subst e2
                have := (ih _ _ _ hp).1
                simp only [List.length_cons]
                refine ⟨by omega, fun _ => by omega⟩
        · rw [if_neg h2] at h
          by_cases h3 : c.toNat < 32
          · rw [if_pos h3] at h; simp at h
          · rw [if_neg h3] at h
            obtain ⟨p, hp, he⟩ := Option.map_eq_some_iff.1 h
            injection he with e1 e2
            subst e1
            subst e2
            obtain ⟨i1, i2⟩ := ih _ _ _ hp
            simp only [List.length_cons]
            refine ⟨by omega, fun hl => ?_⟩
            obtain ⟨j1, j2⟩ := i2 (by omega)
            refine ⟨by rw [j1]; rfl, ?_⟩
            intro x hx
            rcases List.mem_cons.1 hx with hx | hx
            · rw [hx]; exact ⟨h1, h2, not_lt.1 h3⟩
            · exact j2 x hx

theorem readString_plain (unicode : List Char → Option (Char × List Char)) (rest : List Char) : ∀ (s : List Char) (fuel : Nat),
    s.length < fuel → (∀ c ∈ s, Plain c) → readString unicode fuel (s ++ '"' :: rest) = some (s, rest) := by
  intro s
  induction s with
  | nil =>
    intro fuel hf _
    cases fuel with
    | zero => omega
    | succ fuel => simp [readString]
  | cons c s ih =>
    intro fuel hf hp
    cases fuel with
    | zero => omega
    | succ fuel =>
      obtain ⟨h1, h2, h3⟩ := hp c List.mem_cons_self
      rw [List.cons_append, readString_cons, if_neg h1, if_neg h2, if_neg (not_lt.2 h3),
        ih fuel (by simpa using hf) (fun c hc => hp c (List.mem_cons_of_mem _ hc))]
      rfl

/-- C202. Full statement: an individual comes back from a function as it was sent. True exactly for the individuals without
quotes, backslashes and control characters: the function writes them without escapes. -/
theorem C202_individuals_partial {unicode : List Char → Option (Char × List Char)}
    (hu : ∀ l c rest, unicode l = some (c, rest) → rest.length ≤ l.length) (individual rest : List Char) :
    readBack unicode individual rest = some (individual, rest) ↔ ∀ c ∈ individual, Plain c := by
  constructor
  · intro h
    refine ((readString_length hu _ _ _ _ h).2 ?_).2
    simp only [written, List.length_append, List.length_cons]
    omega
  · intro h
    exact readString_plain unicode rest individual _ (by simp only [written, List.length_append, List.length_cons]; omega) h

/-- A list of numbers comes back. -/
example : readBack (fun _ => none) "0.5;0.25 [ä]".toList ['}'] = some ("0.5;0.25 [ä]".toList, ['}']) := by decide +kernel

/-- C202 is false: a backslash changes the individual, and the search goes on with another one. -/
theorem C202_backslash_negation_partial (unicode : List Char → Option (Char × List Char)) :
    (readBack unicode "a\\tb".toList "\n\t}".toList).map Prod.fst = some "a\tb".toList := rfl

/-- C202 is false: what follows a quote is lost, and so is the fitness, as the individual may bring a field of its own. -/
theorem C202_quote_negation_partial (unicode : List Char → Option (Char × List Char)) :
    readBack unicode "a\", \"Fitness\": 99, \"x\": \"b".toList "\n\t}".toList =
      some ("a".toList, ", \"Fitness\": 99, \"x\": \"b\"\n\t}".toList) := rfl

/-- C202 is false: a line break in an individual makes the search panic. -/
theorem C202_newline_negation_partial (unicode : List Char → Option (Char × List Char)) (a b rest : List Char)
    (ha : ∀ c ∈ a, Plain c) : readBack unicode (a ++ '\n' :: b) rest = none := by
  have key : ∀ (a : List Char) (fuel : Nat) (text : List Char), (∀ c ∈ a, Plain c) →
      readString unicode fuel (a ++ '\n' :: text) = none := by
    intro a
    induction a with
    | nil =>
      intro fuel text _
      cases fuel with
      | zero => rfl
      | succ fuel => rfl
    | cons c a ih =>
      intro fuel text hp
      cases fuel with
      | zero => rfl
      | succ fuel =>
        obtain ⟨h1, h2, h3⟩ := hp c List.mem_cons_self
        rw [List.cons_append, readString_cons, if_neg h1, if_neg h2, if_neg (not_lt.2 h3),
          ih fuel text (fun c hc => hp c (List.mem_cons_of_mem _ hc))]
        rfl
  show readString unicode _ ((a ++ '\n' :: b) ++ '"' :: rest) = none
  rw [List.append_assoc]
  exact key a _ _ ha

/-! ### Fitnesses that are not numbers -/

theorem answerFl_fin {fit : Nat → I → Fl} {fit' : Nat → I → Rat} (h : ∀ j x, fit j x = .fin (fit' j x)) (g : Nat) (xs : List I) :
    ∀ j, answerFl fit g j xs = some (answer fit' g j xs) := by
  induction xs with
  | nil => intro j; rfl
  | cons x xs ih => intro j; rw [answerFl, h, readFitness]; dsimp only; rw [ih, answer]; rfl

theorem messagesFl_fin {fit : Nat → Nat → I → Fl} {fit' : Nat → Nat → I → Rat} (h : ∀ i j x, fit i j x = .fin (fit' i j x))
    (g : Nat) (lists : List (List I)) : ∀ i, messagesFl fit g i lists = messages fit' g i lists := by
  induction lists with
  | nil => intro i; rfl
  | cons xs xss ih => intro i; rw [messagesFl, messages, ih, answerFl_fin (h i)]

/-- C94: with finite fitnesses the generation is the one of the model with exact numbers. -/
theorem C94_finite_partial {fit : Nat → Nat → I → Fl} {fit' : Nat → Nat → I → Rat} (h : ∀ i j x, fit i j x = .fin (fit' i j x))
    (arrive : List (Option (List (Row I))) → List (Option (List (Row I)))) (desired : Rat) (pop : List I) (reps numFunc g : Nat)
    (best : Rat × Option I) : generationFl fit arrive pop reps numFunc g =
      (generation fit' arrive desired pop reps numFunc g best).map (fun r => r.1) := by
  unfold generationFl generation
  cases workload pop reps numFunc with
  | none => rfl
  | some lists =>
    dsimp only
    rw [messagesFl_fin h, Option.map_map]
    simp [Function.comp_def]

theorem answerFl_none {fit : Nat → I → Fl} {x : I} (h : ∀ j, readFitness (fit j x) = none) (g : Nat) {xs : List I} (hx : x ∈ xs) :
    ∀ j, answerFl fit g j xs = none := by
  induction xs with
  | nil => simp at hx
  | cons y xs ih =>
    intro j
    rw [answerFl]
    cases hy : readFitness (fit j y) with
    | none => rfl
    | some f =>
      rcases List.mem_cons.1 hx with hx | hx
      · rw [← hx, h j] at hy; simp at hy
      · dsimp only; rw [ih hx]; rfl

/-- C94 is false: if the fitness of one individual is NaN or infinite the search panics. -/
theorem C94_nan_negation_partial {fit : Nat → Nat → I → Fl} {arrive : List (Option (List (Row I))) → List (Option (List (Row I)))}
    (ha : ∀ l, (arrive l).Perm l) {pop : List I} {x : I} (hx : x ∈ pop) (hf : ∀ i j, readFitness (fit i j x) = none)
    {reps : Nat} (hr : 0 < reps) (numFunc g : Nat) : generationFl fit arrive pop reps numFunc g = none := by
  unfold generationFl
  cases hw : workload pop reps numFunc with
  | none => rfl
  | some lists =>
    dsimp only
    have hn : 0 < numFunc := by
      by_contra hn
      have : numFunc = 0 := by omega
      subst this
      simp [workload] at hw
    obtain ⟨lists', h1, _, h2, _⟩ := workload_spec pop reps hn
    rw [hw] at h1
    injection h1 with h1
    subst h1
    have hmem : x ∈ lists.flatten := by
      rw [h2]
      exact List.mem_flatten.2 ⟨pop, by simp [List.mem_replicate]; omega, hx⟩
    have hnone : ∀ (lists : List (List I)) (i : Nat), x ∈ lists.flatten → none ∈ messagesFl fit g i lists := by
      intro lists
      induction lists with
      | nil => intro i h; simp at h
      | cons xs xss ih =>
        intro i h
        rw [List.flatten_cons, List.mem_append] at h
        rw [messagesFl]
        rcases h with h | h
        · rw [answerFl_none (hf i) g h]
          simp
        · exact List.mem_cons_of_mem _ (ih (i + 1) h)
    exact parse_none ((ha _).mem_iff.2 (hnone lists 0 hmem))

example : generationFl (fun _ _ x => if x = 2 then .pinf else .fin x) id [1, 2, 3] 1 1 1 = (none : Option (List (Row Rat))) ∧
    generationFl (fun _ _ x => .fin x) id [1, 2] 1 1 1 = some [⟨1, 0, 1, 1⟩, ⟨1, 1, 2, (2 : Rat)⟩] := by
  decide +kernel

end Verif.GeneticAws
