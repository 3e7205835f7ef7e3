import Verif.Props.Genetic
import Verif.Model.Fl

/-!
Properties of the genetic searches: C199 (the two searches compared) and C200 (a fitness that is not a number).
-/

namespace Verif.Genetic

variable {I F : Type}

/-! ### C199 -/

theorem upTo_prefix {α : Type} (good : α → Bool) (l : List α) : ∃ more, l = upTo good l ++ more := by
  induction l with
  | nil => exact ⟨[], rfl⟩
  | cons x l ih =>
    rw [upTo]
    by_cases hx : good x = true
    · rw [if_pos hx]; exact ⟨l, rfl⟩
    · rw [if_neg hx]
      obtain ⟨more, h⟩ := ih
      exact ⟨more, by rw [List.cons_append, ← h]⟩

theorem updateBest_some {cmp : F → F → Bool} {rows : List (Row I F)} (h : rows ≠ []) (g : Nat) (b : Option (Best I F)) :
    ∃ b', updateBest cmp g b (bestGen cmp rows) = some b' := by
  obtain ⟨f, x, h1, _⟩ := bestGen_some cmp h
  rw [h1]
  unfold updateBest
  dsimp only
  cases b with
  | none => exact ⟨_, rfl⟩
  | some o => dsimp only; split <;> exact ⟨_, rfl⟩

theorem loop_compare {cb : Callbacks I F} (hs : ∀ g l, (cb.select g l).length ≠ 1) (limit : Nat) :
    ∀ (fuel : Nat) (s : State I F) (rows : List (Row I F)) (b : Best I F),
    loop cb (evalSeq cb) 1 limit fuel s = .finished rows b →
    ∃ more b', loop cb (evalPar cb) 0 limit fuel s = .finished (rows ++ more) b' ∧
      ((∀ r ∈ rows, Good cb r = false) → more = [] ∧ b' = b) ∧
      (∀ r ∈ more, ∃ l, rows.getLast? = some l ∧ Good cb l = true ∧ l.generation = r.generation) := by
  intro fuel
  induction fuel with
  | zero => intro s rows b h; simp [loop] at h
  | succ fuel ih =>
    intro s rows b h
    rw [loop, round] at h ⊢
    by_cases hlim : limit ≠ 0 ∧ s.generation = limit
    · rw [if_pos hlim] at h ⊢
      exact ⟨[], b, by simpa using h, fun _ => ⟨rfl, rfl⟩, by simp⟩
    · rw [if_neg hlim] at h ⊢
      rw [(evalSeq_eq cb _ _).1, (evalSeq_eq cb _ _).2] at h
      rw [(evalPar_eq cb _ _).1, (evalPar_eq cb _ _).2]
      simp only [id]
      by_cases hf : (fullRows cb (s.generation + 1) s.population).any (Good cb) = true
      · have hne : fullRows cb (s.generation + 1) s.population ≠ [] := by
          intro h0; rw [h0] at hf; simp at hf
        obtain ⟨b', hb'⟩ := updateBest_some (cmp := cb.cmp) hne (s.generation + 1) s.best
        rw [hb']
        simp only [hf, if_true] at h ⊢
        cases hu : updateBest cb.cmp (s.generation + 1) s.best
            (bestGen cb.cmp (upTo (Good cb) (fullRows cb (s.generation + 1) s.population))) with
        | none => rw [hu] at h; simp at h
        | some b0 =>
          rw [hu] at h
          dsimp only at h
          injection h with h1 h2
          obtain ⟨more, hm⟩ := upTo_prefix (Good cb) (fullRows cb (s.generation + 1) s.population)
          obtain ⟨x, hx, hgx⟩ := upTo_any hf
          refine ⟨more, b', by rw [← h1, List.append_assoc, ← hm], ?_, ?_⟩
          · intro hall
            have := hall x (by rw [← h1]; exact List.mem_append_right _ hx)
            rw [hgx] at this
            simp at this
          · intro r hr
            have hlast : ∀ l : List (Row I F), l.any (Good cb) = true →
                ∃ y, (upTo (Good cb) l).getLast? = some y ∧ Good cb y = true := by
              intro l
              induction l with
              | nil => intro h; simp at h
              | cons z l ih2 =>
                intro h
                rw [upTo]
                by_cases hz : Good cb z = true
                · rw [if_pos hz]; exact ⟨z, rfl, hz⟩
                · rw [if_neg hz]
                  simp only [List.any_cons, hz, Bool.false_or] at h
                  obtain ⟨y, hy, hg⟩ := ih2 h
                  refine ⟨y, ?_, hg⟩
                  rw [List.getLast?_cons, hy]
                  rfl
            obtain ⟨y, hy, hgy⟩ := hlast _ hf
            refine ⟨y, ?_, hgy, ?_⟩
            · rw [← h1, List.getLast?_append, hy]; rfl
            · have hyf : y ∈ fullRows cb (s.generation + 1) s.population := upTo_mem (List.mem_of_getLast? hy)
              have hrf : r ∈ fullRows cb (s.generation + 1) s.population := by rw [hm]; exact List.mem_append_right _ hr
              rw [fullRows_generation hyf, fullRows_generation hrf]
      · have hff : (fullRows cb (s.generation + 1) s.population).any (Good cb) = false := by simpa using hf
        have hup : upTo (Good cb) (fullRows cb (s.generation + 1) s.population) =
            fullRows cb (s.generation + 1) s.population :=
          upTo_none (fun x hx => by
            rw [List.any_eq_false] at hff
            exact Bool.not_eq_true _ ▸ hff x hx)
        rw [hup] at h
        cases hu : updateBest cb.cmp (s.generation + 1) s.best
            (bestGen cb.cmp (fullRows cb (s.generation + 1) s.population)) with
        | none => rw [hu] at h; simp at h
        | some b0 =>
          rw [hu] at h
          simp only [hff, Bool.false_eq_true, if_false] at h ⊢
          have hsel := hs (s.generation + 1)
            ((fullRows cb (s.generation + 1) s.population).map (fun r => (r.individual, r.fitness)))
          by_cases hle : (cb.select (s.generation + 1)
              ((fullRows cb (s.generation + 1) s.population).map (fun r => (r.individual, r.fitness)))).length ≤ 1
          · rw [if_pos hle] at h
            rw [if_pos (by omega)]
            exact ⟨[], b, by simpa using h, fun _ => ⟨rfl, rfl⟩, by simp⟩
          · rw [if_neg hle] at h
            rw [if_neg (by omega)]
            exact ih _ _ _ h

/-- C199 where the selection never leaves exactly one individual: the parallel search ends too. Its rows are those of the
sequential search, followed only by rows of the generation in which the sequential search stopped at a good individual; it
reports the same best if no individual was good, and one that the best of the sequential search does not beat if `cmp` is a
strict order. -/
theorem C199_compare_partial {cb : Callbacks I F} (hs : ∀ g l, (cb.select g l).length ≠ 1) {init : List I} {limit fuel : Nat}
    {rows : List (Row I F)} {b : Best I F} (h : gaSequential cb init limit fuel = .finished rows b) :
    ∃ more b', gaParallel cb init limit fuel = .finished (rows ++ more) b' ∧
      ((∀ r ∈ rows, Good cb r = false) → more = [] ∧ b' = b) ∧
      (∀ r ∈ more, ∃ l, rows.getLast? = some l ∧ Good cb l = true ∧ l.generation = r.generation) ∧
      (StrictWeak cb.cmp → cb.cmp b.fitness b'.fitness = false) := by
  obtain ⟨more, b', h1, h2, h3⟩ := loop_compare hs limit fuel _ rows b h
  refine ⟨more, b', h1, h2, h3, fun hw => ?_⟩
  obtain ⟨_, _, _, _, _, _, ⟨r, hr, hf, _⟩, _, _⟩ := C62_sequential h
  obtain ⟨_, _, _, _, _, _, _, hp, _⟩ := C62_parallel h1
  rw [← hf]
  exact hp hw r (List.mem_append_left _ hr)

/-- A search whose selection keeps the better half, for numbers of at least `goal`. -/
def halve (goal : Nat) : Callbacks Nat Nat where
  fitness _ _ x := x
  select _ l := (l.mergeSort (fun a b => decide (a.2 ≥ b.2))).take (l.length / 2)
  cross _ l := l
  mutate _ _ x := x + 1
  cmp a b := decide (a > b)
  desired := goal

/-- The selection of a search that keeps all but the last individual, or none. -/
def keepSome (goal : Nat) : Callbacks Nat Nat :=
  { halve goal with select := fun _ l => if l.length ≤ 2 then [] else l.dropLast }

example : (∀ g l, ((keepSome 6).select g l).length ≠ 1) ∧
    (match gaSequential (keepSome 6) [1, 5, 6, 3, 2] 10 20 with
      | .finished rows b => some (rows.length, b.individual)
      | _ => none) = some (8, 7) ∧
    (match gaParallel (keepSome 6) [1, 5, 6, 3, 2] 10 20 with
      | .finished rows b => some (rows.length, b.individual)
      | _ => none) = some (9, 7) := by
  refine ⟨fun g l => ?_, by decide, by decide⟩
  show (if l.length ≤ 2 then [] else l.dropLast).length ≠ 1
  split
  · simp
  · rw [List.length_dropLast]; omega

/-- C199 is false: after the first good individual the sequential search stops, the parallel one looks at the rest of the
generation and reports a better one. -/
theorem C199_good_negation_partial :
    ∃ (cb : Callbacks Nat Nat) (init : List Nat) (rows rows' : List (Row Nat Nat)) (b b' : Best Nat Nat),
      gaSequential cb init 5 10 = .finished rows b ∧ gaParallel cb init 5 10 = .finished rows' b' ∧
      cb.cmp b'.fitness b.fitness = true ∧ rows.length < rows'.length :=
  ⟨keepSome 6, [1, 7, 9], [⟨1, 0, 1, 1⟩, ⟨1, 1, 7, 7⟩], [⟨1, 0, 1, 1⟩, ⟨1, 1, 7, 7⟩, ⟨1, 2, 9, 9⟩], ⟨7, 7, 1⟩, ⟨9, 9, 1⟩,
    rfl, rfl, by decide, by decide⟩

/-- Keeps the first of the individuals. -/
def keepOne (goal : Nat) : Callbacks Nat Nat := { halve goal with select := fun _ l => l.take 1 }

/-- C199 is false: if the selection leaves one individual the sequential search ends and the parallel search goes on with it,
and finds the desired fitness. -/
theorem C199_one_left_negation_partial :
    ∃ (cb : Callbacks Nat Nat) (init : List Nat) (rows rows' : List (Row Nat Nat)) (b b' : Best Nat Nat),
      gaSequential cb init 5 10 = .finished rows b ∧ gaParallel cb init 5 10 = .finished rows' b' ∧
      (∀ r ∈ rows, Good cb r = false) ∧ cb.cmp b'.fitness cb.desired = true :=
  ⟨keepOne 5, [4, 2], [⟨1, 0, 4, 4⟩, ⟨1, 1, 2, 2⟩], [⟨1, 0, 4, 4⟩, ⟨1, 1, 2, 2⟩, ⟨2, 0, 5, 5⟩, ⟨3, 0, 6, 6⟩], ⟨4, 4, 1⟩,
    ⟨6, 6, 3⟩, rfl, rfl, by decide, by decide⟩

/-! ### C200 -/

/-- A comparison of floats: false if one is not a number (`nan`), and a strict weak order of the others. -/
structure NanOrder (nan : F → Bool) (cmp : F → F → Bool) : Prop where
  numbers : ∀ a b, cmp a b = true → nan a = false ∧ nan b = false
  irrefl : ∀ a, cmp a a = false
  trans : ∀ a b c, cmp a b = true → cmp b c = true → cmp a c = true
  incomp : ∀ a b c, nan c = false → cmp a b = true → cmp a c = true ∨ cmp c b = true

theorem NanOrder.nan_right {nan : F → Bool} {cmp : F → F → Bool} (h : NanOrder nan cmp) {b : F} (hb : nan b = true) (a : F) :
    cmp a b = false := by
  cases hc : cmp a b with
  | false => rfl
  | true => rw [(h.numbers a b hc).2] at hb; simp at hb

theorem foldl_nan {nan : F → Bool} {cmp : F → F → Bool} (h : NanOrder nan cmp) {f : F} (hf : nan f = true) (x : I)
    (rows : List (Row I F)) : rows.foldl (bestStep cmp) (some (f, x)) = some (f, x) := by
  induction rows with
  | nil => rfl
  | cons r rows ih =>
    rw [List.foldl_cons, bestStep, if_neg (by rw [h.nan_right hf]; simp)]
    exact ih

theorem foldl_number {nan : F → Bool} {cmp : F → F → Bool} (h : NanOrder nan cmp) (rows : List (Row I F)) :
    ∀ (seen : List (Row I F)) (f : F) (x : I), nan f = false → (∀ r ∈ seen, cmp r.fitness f = false) →
    (∃ r ∈ seen, r.fitness = f ∧ r.individual = x) →
    ∃ f' x', rows.foldl (bestStep cmp) (some (f, x)) = some (f', x') ∧ nan f' = false ∧
      (∀ r ∈ seen ++ rows, cmp r.fitness f' = false) ∧ ∃ r ∈ seen ++ rows, r.fitness = f' ∧ r.individual = x' := by
  induction rows with
  | nil => intro seen f x h1 h2 h3; exact ⟨f, x, rfl, h1, by simpa using h2, by simpa using h3⟩
  | cons r rows ih =>
    intro seen f x h1 h2 h3
    rw [List.foldl_cons, bestStep]
    by_cases hc : cmp r.fitness f = true
    · rw [if_pos hc]
      obtain ⟨f', x', e1, e2, e3, e4⟩ := ih (seen ++ [r]) r.fitness r.individual (h.numbers _ _ hc).1 (by
        intro r' hr'
        rcases List.mem_append.1 hr' with hr' | hr'
        · cases hb : cmp r'.fitness r.fitness with
          | false => rfl
          | true => rw [← h2 r' hr']; exact (h.trans _ _ _ hb hc).symm
        · rw [List.mem_singleton.1 hr']; exact h.irrefl _) ⟨r, by simp, rfl, rfl⟩
      exact ⟨f', x', e1, e2, by simpa using e3, by simpa using e4⟩
    · rw [if_neg hc]
      obtain ⟨f', x', e1, e2, e3, e4⟩ := ih (seen ++ [r]) f x h1 (by
        intro r' hr'
        rcases List.mem_append.1 hr' with hr' | hr'
        · exact h2 r' hr'
        · rw [List.mem_singleton.1 hr']; simpa using hc) (by
        obtain ⟨r', hr', hh⟩ := h3
        exact ⟨r', List.mem_append_left _ hr', hh⟩)
      exact ⟨f', x', e1, e2, by simpa using e3, by simpa using e4⟩

/-- What the best is worth when some fitnesses are not numbers. -/
def NanInv (nan : F → Bool) (cmp : F → F → Bool) (g : Nat) (rows : List (Row I F)) : Option (Best I F) → Prop
  | none => rows = []
  | some b => (∀ r ∈ rows, r.generation ≤ g) ∧ ∃ h t, rows = h :: t ∧
      (nan h.fitness = true → b.fitness = h.fitness ∧ b.individual = h.individual ∧ b.generation = h.generation) ∧
      (nan h.fitness = false → nan b.fitness = false ∧
        (∀ r ∈ rows, (∀ f ∈ rows, f.generation = r.generation → f.index = 0 → nan f.fitness = false) →
          cmp r.fitness b.fitness = false))

theorem fullRows_head {cb : Callbacks I F} {g : Nat} {pop : List I} {h : Row I F} {t : List (Row I F)}
    (e : fullRows cb g pop = h :: t) : h.index = 0 := by
  cases pop with
  | nil => simp [fullRows] at e
  | cons x xs =>
    simp only [fullRows, List.zipIdx_cons, List.map_cons] at e
    injection e with e1 e2
    rw [← e1]

theorem nanInv_step {nan : F → Bool} {cb : Callbacks I F} (ho : NanOrder nan cb.cmp)
    {part : List (Row I F) → List (Row I F)} (hmem : ∀ l, ∀ r ∈ part l, r ∈ l)
    (hhead : ∀ x l, ∃ t, part (x :: l) = x :: t) (hnil : part [] = []) {g : Nat} {pop : List I} {old : List (Row I F)}
    {b : Option (Best I F)} {b' : Best I F} (h : NanInv nan cb.cmp g old b)
    (hu : updateBest cb.cmp (g + 1) b (bestGen cb.cmp (part (fullRows cb (g + 1) pop))) = some b') :
    NanInv nan cb.cmp (g + 1) (old ++ part (fullRows cb (g + 1) pop)) (some b') := by
  have hgen : ∀ r ∈ part (fullRows cb (g + 1) pop), r.generation = g + 1 := fun r hr => fullRows_generation (hmem _ _ hr)
  cases hfull : fullRows cb (g + 1) pop with
  | nil => rw [hfull, hnil] at hu; simp [bestGen, updateBest] at hu
  | cons x l =>
    have hx0 := fullRows_head hfull
    rw [hfull] at hu hgen
    obtain ⟨t, ht⟩ := hhead x l
    rw [ht] at hu hgen ⊢
    have hxg : x.generation = g + 1 := hgen x List.mem_cons_self
    have hbest : bestGen cb.cmp (x :: t) = t.foldl (bestStep cb.cmp) (some (x.fitness, x.individual)) := rfl
    rw [hbest] at hu
    cases hnx : nan x.fitness with
    | true =>
      rw [foldl_nan ho hnx] at hu
      cases b with
      | none =>
        have h0 : old = [] := h
        subst h0
        simp only [updateBest] at hu
        injection hu with hu
        subst hu
        refine ⟨fun r hr => le_of_eq (hgen r hr), x, t, rfl, fun _ => ⟨rfl, rfl, hxg.symm⟩, fun hc => ?_⟩
        rw [hnx] at hc; simp at hc
      | some o =>
        have hc : ¬ cb.cmp x.fitness o.fitness = true := by
          intro hc
          rw [(ho.numbers _ _ hc).1] at hnx
          simp at hnx
        simp only [updateBest, if_neg hc] at hu
        injection hu with hu
        subst hu
        obtain ⟨h1, y, s, rfl, h2, h3⟩ := h
        refine ⟨?_, y, s ++ x :: t, rfl, h2, fun hy => ⟨(h3 hy).1, ?_⟩⟩
        · intro r hr
          rcases List.mem_append.1 hr with hr | hr
          · exact le_trans (h1 r hr) (Nat.le_succ g)
          · exact le_of_eq (hgen r hr)
        · intro r hr hall
          rcases List.mem_append.1 hr with hr | hr
          · exact (h3 hy).2 r hr (fun f hf => hall f (List.mem_append_left _ hf))
          · have := hall x (by simp) (by rw [hxg, hgen r hr]) hx0
            rw [hnx] at this
            simp at this
    | false =>
      obtain ⟨f, i, e1, e2, e3, e4⟩ := foldl_number ho t [x] x.fitness x.individual hnx (by
        intro r hr; rw [List.mem_singleton.1 hr]; exact ho.irrefl _) ⟨x, by simp, rfl, rfl⟩
      rw [e1] at hu
      have e3' : ∀ r ∈ x :: t, cb.cmp r.fitness f = false := by simpa using e3
      cases b with
      | none =>
        have h0 : old = [] := h
        subst h0
        simp only [updateBest] at hu
        injection hu with hu
        subst hu
        refine ⟨fun r hr => le_of_eq (hgen r hr), x, t, rfl, fun hc => ?_, fun _ => ⟨e2, fun r hr _ => e3' r hr⟩⟩
        rw [hnx] at hc; simp at hc
      | some o =>
        obtain ⟨h1, y, s, rfl, h2, h3⟩ := h
        have hle : ∀ r ∈ y :: s ++ x :: t, r.generation ≤ g + 1 := by
          intro r hr
          rcases List.mem_append.1 hr with hr | hr
          · exact le_trans (h1 r hr) (Nat.le_succ g)
          · exact le_of_eq (hgen r hr)
        by_cases hc : cb.cmp f o.fitness = true
        · simp only [updateBest, if_pos hc] at hu
          injection hu with hu
          subst hu
          have hny : nan y.fitness = false := by
            cases hny : nan y.fitness with
            | false => rfl
            | true =>
              have := (ho.numbers _ _ hc).2
              rw [(h2 hny).1, hny] at this
              simp at this
          refine ⟨hle, y, s ++ x :: t, rfl, fun hy => by rw [hny] at hy; simp at hy, fun _ => ⟨e2, ?_⟩⟩
          intro r hr hall
          rcases List.mem_append.1 hr with hr | hr
          · have := (h3 hny).2 r hr (fun f hf => hall f (List.mem_append_left _ hf))
            cases hb : cb.cmp r.fitness f with
            | false => rfl
            | true => rw [ho.trans _ _ _ hb hc] at this; simp at this
          · exact e3' r hr
        · simp only [updateBest, if_neg hc] at hu
          injection hu with hu
          subst hu
          refine ⟨hle, y, s ++ x :: t, rfl, h2, fun hy => ⟨(h3 hy).1, ?_⟩⟩
          intro r hr hall
          rcases List.mem_append.1 hr with hr | hr
          · exact (h3 hy).2 r hr (fun f hf => hall f (List.mem_append_left _ hf))
          · cases hb : cb.cmp r.fitness o.fitness with
            | false => rfl
            | true =>
              rcases ho.incomp _ _ f e2 hb with h4 | h4
              · rw [e3' r hr] at h4; simp at h4
              · exact absurd h4 hc

theorem loop_nan {nan : F → Bool} {cb : Callbacks I F} (ho : NanOrder nan cb.cmp)
    {eval : Nat → Nat → List I → List (Row I F) × Bool} {part : List (Row I F) → List (Row I F)} (he : Evaluates cb eval part)
    (hhead : ∀ x l, ∃ t, part (x :: l) = x :: t) (hnil : part [] = []) (small limit : Nat) :
    ∀ (fuel : Nat) (s : State I F) (rows : List (Row I F)) (b : Best I F), NanInv nan cb.cmp s.generation s.rows s.best →
    loop cb eval small limit fuel s = .finished rows b → ∃ g, NanInv nan cb.cmp g rows (some b) := by
  intro fuel
  induction fuel with
  | zero => intro s rows b _ h; simp [loop] at h
  | succ fuel ih =>
    intro s rows b hb h
    rw [loop, round] at h
    by_cases hlim : limit ≠ 0 ∧ s.generation = limit
    · rw [if_pos hlim] at h
      dsimp only at h
      cases hbs : s.best with
      | none => rw [hbs] at h; simp at h
      | some b0 =>
        rw [hbs] at h
        dsimp only at h
        injection h with h1 h2
        rw [hbs, h1, h2] at hb
        exact ⟨_, hb⟩
    · rw [if_neg hlim] at h
      cases hu : updateBest cb.cmp (s.generation + 1) s.best (bestGen cb.cmp (eval (s.generation + 1) 0 s.population).1) with
      | none => rw [hu] at h; simp at h
      | some b0 =>
        rw [hu] at h
        have hrows := he.rows (s.generation + 1) s.population
        rw [hrows] at hu
        have hinv := nanInv_step ho he.mem hhead hnil hb hu
        rw [← hrows] at hinv
        dsimp only at h
        split at h
        · simp at h
        · next heq =>
          split at heq
          · simp at heq
          · split at heq
            · simp at heq
            · injection heq with heq
              subst heq
              exact ih _ _ _ hinv h
        · next heq =>
          have hst : ∀ s' : State I F, s' = ⟨s.generation + 1, s.population,
              s.rows ++ (eval (s.generation + 1) 0 s.population).1, some b0⟩ →
              (match s'.best with
                | none => Outcome.panic
                | some b => Outcome.finished s'.rows b) = Outcome.finished rows b →
              ∃ g, NanInv nan cb.cmp g rows (some b) := by
            intro s' hs' h'
            subst hs'
            dsimp only at h'
            injection h' with h1 h2
            rw [h1, h2] at hinv
            exact ⟨_, hinv⟩
          split at heq
          · injection heq with heq
            exact hst _ heq.symm h
          · split at heq
            · injection heq with heq
              exact hst _ heq.symm h
            · simp at heq

/-- What both searches guarantee when fitnesses may be no numbers. -/
def BestOfNumbers (nan : F → Bool) (cmp : F → F → Bool) (rows : List (Row I F)) (b : Best I F) : Prop :=
  (∀ h, rows.head? = some h → nan h.fitness = true → b.fitness = h.fitness ∧ b.individual = h.individual) ∧
  ((∀ h, rows.head? = some h → nan h.fitness = false) → nan b.fitness = false ∧
    ∀ r ∈ rows, (∀ f ∈ rows, f.generation = r.generation → f.index = 0 → nan f.fitness = false) →
      cmp r.fitness b.fitness = false)

theorem NanInv.best {nan : F → Bool} {cmp : F → F → Bool} {g : Nat} {rows : List (Row I F)} {b : Best I F}
    (h : NanInv nan cmp g rows (some b)) : BestOfNumbers nan cmp rows b := by
  obtain ⟨_, x, t, rfl, h2, h3⟩ := h
  refine ⟨fun y hy hn => ?_, fun hn => h3 (hn x rfl)⟩
  injection hy with hy
  subst hy
  exact ⟨(h2 hn).1, (h2 hn).2.1⟩

/-- C200: if the very first individual has a number for its fitness, so has the best, and no individual beats it except those of a
generation whose first individual has none. If the very first has none, it is reported as the best whatever comes later. -/
theorem C200_best_partial {nan : F → Bool} {cb : Callbacks I F} (ho : NanOrder nan cb.cmp) {init : List I} {limit fuel : Nat}
    {rows : List (Row I F)} {b : Best I F} :
    (gaSequential cb init limit fuel = .finished rows b → BestOfNumbers nan cb.cmp rows b) ∧
    (gaParallel cb init limit fuel = .finished rows b → BestOfNumbers nan cb.cmp rows b) := by
  constructor
  · intro h
    obtain ⟨g, hg⟩ := loop_nan ho (evaluatesSeq cb) (fun x l => by
      rw [upTo]
      split
      · exact ⟨[], rfl⟩
      · exact ⟨_, rfl⟩) rfl 1 limit fuel ⟨0, init, [], none⟩ rows b rfl h
    exact hg.best
  · intro h
    obtain ⟨g, hg⟩ := loop_nan ho (evaluatesPar cb) (fun x l => ⟨l, rfl⟩) rfl 0 limit fuel ⟨0, init, [], none⟩ rows b rfl h
    exact hg.best

/-- The comparisons of floats `>` and `<` are such orders. -/
theorem C200_floats_partial : NanOrder (fun f : Fl => decide (f = .nan)) (fun a b => Fl.lt b a) ∧
    NanOrder (fun f : Fl => decide (f = .nan)) Fl.lt := by
  have hlt : NanOrder (fun f : Fl => decide (f = .nan)) Fl.lt := by
    constructor
    · intro a b; cases a <;> cases b <;> simp [Fl.lt]
    · intro a; cases a <;> simp [Fl.lt]
    · intro a b c
      cases a <;> cases b <;> cases c <;> simp [Fl.lt]
      exact fun h1 h2 => lt_trans h1 h2
    · intro a b c
      cases a <;> cases b <;> cases c <;> simp [Fl.lt]
      next x y z => exact fun h => (lt_or_ge x z).imp_right (fun h2 => lt_of_le_of_lt h2 h)
  refine ⟨⟨fun a b h => (hlt.numbers b a h).symm, hlt.irrefl, fun a b c h1 h2 => hlt.trans c b a h2 h1,
    fun a b c hc h => (hlt.incomp b a c hc h).symm⟩, hlt⟩

/-- A search for the largest float among the individuals. -/
def largest : Callbacks Fl Fl where
  fitness _ _ x := x
  select _ l := l
  cross _ l := l.reverse
  mutate _ _ x := x
  cmp a b := Fl.lt b a
  desired := .pinf

/-- C200 is false: the first individual is not a number, the fitness 5 was evaluated, NaN is reported. -/
theorem C200_first_negation_partial :
    ∃ (rows : List (Row Fl Fl)) (b : Best Fl Fl), gaSequential largest [.nan, .fin 5] 2 5 = .finished rows b ∧
      gaParallel largest [.nan, .fin 5] 2 5 = .finished rows b ∧ b.fitness = .nan ∧ (∃ r ∈ rows, r.fitness = .fin 5) :=
  ⟨[⟨1, 0, .nan, .nan⟩, ⟨1, 1, .fin 5, .fin 5⟩, ⟨2, 0, .fin 5, .fin 5⟩, ⟨2, 1, .nan, .nan⟩], ⟨.nan, .nan, 1⟩, rfl, rfl, rfl,
    ⟨1, 1, .fin 5, .fin 5⟩, by simp, rfl⟩

/-- A search in which the later generations are better. -/
def growing : Callbacks Fl Fl :=
  { largest with fitness := fun g k x => if g = 2 then (if k = 0 then .nan else .fin 9) else x }

/-- C200 is false: a generation whose first individual has no number for its fitness is overlooked, also its better
individuals. -/
theorem C200_later_negation_partial :
    ∃ (rows : List (Row Fl Fl)) (b : Best Fl Fl), gaSequential growing [.fin 1, .fin 5] 2 5 = .finished rows b ∧
      gaParallel growing [.fin 1, .fin 5] 2 5 = .finished rows b ∧ b.fitness = .fin 5 ∧
      (∃ r ∈ rows, growing.cmp r.fitness b.fitness = true) :=
  ⟨[⟨1, 0, .fin 1, .fin 1⟩, ⟨1, 1, .fin 5, .fin 5⟩, ⟨2, 0, .nan, .fin 5⟩, ⟨2, 1, .fin 9, .fin 1⟩], ⟨.fin 5, .fin 5, 1⟩,
    rfl, rfl, rfl, ⟨2, 1, .fin 9, .fin 1⟩, by simp, by decide +kernel⟩

/-- A NaN that is not first does no harm. -/
example : (match gaParallel largest [.fin 1, .nan, .fin 5] 1 5 with
    | .finished rows b => some (rows.map (fun r => r.fitness), b.fitness)
    | _ => none) = some ([.fin 1, .nan, .fin 5], .fin 5) := by decide +kernel

end Verif.Genetic
