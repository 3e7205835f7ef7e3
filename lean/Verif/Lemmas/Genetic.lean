import Verif.Spec.Genetic
import Mathlib.Data.List.Basic

namespace Verif.Genetic

set_option linter.unusedSectionVars false

variable {I F : Type}

/-! ### Evaluation -/

theorem rows_from (cb : Callbacks I F) (g : Nat) : ∀ (pop : List I) (k : Nat),
    (pop.zipIdx k).map (fun p => (⟨g, p.2, cb.fitness g p.2 p.1, p.1⟩ : Row I F)) =
      match pop with
      | [] => []
      | x :: xs => rowOf cb g k x :: (xs.zipIdx (k + 1)).map (fun p => (⟨g, p.2, cb.fitness g p.2 p.1, p.1⟩ : Row I F)) := by
  intro pop k
  cases pop with
  | nil => rfl
  | cons x xs => rfl

theorem evalSeq_from (cb : Callbacks I F) (g : Nat) (pop : List I) : ∀ k,
    (evalSeq cb g k pop).1 =
      upTo (Good cb) ((pop.zipIdx k).map (fun p => (⟨g, p.2, cb.fitness g p.2 p.1, p.1⟩ : Row I F))) ∧
    (evalSeq cb g k pop).2 =
      ((pop.zipIdx k).map (fun p => (⟨g, p.2, cb.fitness g p.2 p.1, p.1⟩ : Row I F))).any (Good cb) := by
  induction pop with
  | nil => intro k; exact ⟨rfl, rfl⟩
  | cons x xs ih =>
    intro k
    rw [rows_from]
    dsimp only
    rw [evalSeq, upTo, List.any_cons]
    by_cases h : cb.cmp (cb.fitness g k x) cb.desired = true
    · rw [if_pos h]
      have hg : Good cb (rowOf cb g k x) = true := h
      rw [if_pos hg, hg]
      exact ⟨rfl, rfl⟩
    · rw [if_neg h]
      have hg : ¬ Good cb (rowOf cb g k x) = true := h
      rw [if_neg hg, eq_false_of_ne_true hg]
      exact ⟨by rw [(ih (k + 1)).1], by rw [(ih (k + 1)).2, Bool.false_or]⟩

theorem evalSeq_eq (cb : Callbacks I F) (g : Nat) (pop : List I) :
    (evalSeq cb g 0 pop).1 = upTo (Good cb) (fullRows cb g pop) ∧
    (evalSeq cb g 0 pop).2 = (fullRows cb g pop).any (Good cb) := evalSeq_from cb g pop 0

theorem evalPar_from (cb : Callbacks I F) (g : Nat) (pop : List I) : ∀ k,
    (evalPar cb g k pop).1 =
      (pop.zipIdx k).map (fun p => (⟨g, p.2, cb.fitness g p.2 p.1, p.1⟩ : Row I F)) ∧
    (evalPar cb g k pop).2 =
      ((pop.zipIdx k).map (fun p => (⟨g, p.2, cb.fitness g p.2 p.1, p.1⟩ : Row I F))).any (Good cb) := by
  induction pop with
  | nil => intro k; exact ⟨rfl, rfl⟩
  | cons x xs ih =>
    intro k
    rw [rows_from]
    dsimp only
    rw [evalPar, List.any_cons]
    exact ⟨by rw [(ih (k + 1)).1], by rw [(ih (k + 1)).2]; rfl⟩

theorem evalPar_eq (cb : Callbacks I F) (g : Nat) (pop : List I) :
    (evalPar cb g 0 pop).1 = id (fullRows cb g pop) ∧
    (evalPar cb g 0 pop).2 = (fullRows cb g pop).any (Good cb) := evalPar_from cb g pop 0

theorem mutateAll_from (cb : Callbacks I F) (g : Nat) (pop : List I) : ∀ k,
    mutateAll cb g k pop = (pop.zipIdx k).map (fun p => cb.mutate g p.2 p.1) := by
  induction pop with
  | nil => intro k; rfl
  | cons x xs ih => intro k; rw [mutateAll, ih, List.zipIdx_cons, List.map_cons]

theorem upTo_mem {α : Type} {good : α → Bool} {l : List α} {x : α} (h : x ∈ upTo good l) : x ∈ l := by
  induction l with
  | nil => simp [upTo] at h
  | cons y l ih =>
    rw [upTo] at h
    split at h
    · simp at h; simp [h]
    · rcases List.mem_cons.1 h with rfl | h
      · exact List.mem_cons_self
      · exact List.mem_cons_of_mem _ (ih h)

theorem upTo_any {α : Type} {good : α → Bool} {l : List α} (h : l.any good = true) : ∃ x ∈ upTo good l, good x = true := by
  induction l with
  | nil => simp at h
  | cons y l ih =>
    rw [upTo]
    by_cases hy : good y = true
    · rw [if_pos hy]; exact ⟨y, List.mem_cons_self, hy⟩
    · rw [if_neg hy]
      rw [List.any_cons, eq_false_of_ne_true hy, Bool.false_or] at h
      obtain ⟨x, hx, hg⟩ := ih h
      exact ⟨x, List.mem_cons_of_mem _ hx, hg⟩

theorem upTo_nil {α : Type} {good : α → Bool} {l : List α} (h : upTo good l = []) : l = [] := by
  cases l with
  | nil => rfl
  | cons y l => rw [upTo] at h; split at h <;> simp at h

theorem upTo_none {α : Type} {good : α → Bool} {l : List α} (h : ∀ x ∈ l, good x = false) : upTo good l = l := by
  induction l with
  | nil => rfl
  | cons y l ih =>
    rw [upTo, if_neg (by rw [h y List.mem_cons_self]; decide), ih (fun x hx => h x (List.mem_cons_of_mem _ hx))]

/-! ### The best -/

/-- `f` is the fitness of the best of the rows `seen`. -/
structure Top (cmp : F → F → Bool) (seen : List (Row I F)) (f : F) : Prop where
  strict : StrictWeak cmp → ∀ r ∈ seen, cmp r.fitness f = false
  total : Total cmp → ∀ r ∈ seen, cmp f r.fitness = true

theorem not_beats {cmp : F → F → Bool} (h : StrictWeak cmp) {a b c : F} (h1 : cmp c b = false) (h2 : cmp a b = true) :
    cmp c a = false := by
  cases hc : cmp c a with
  | false => rfl
  | true => rw [h.trans c a b hc h2] at h1; exact h1

theorem Top.replace {cmp : F → F → Bool} {seen more : List (Row I F)} {f f' : F} (h : Top cmp seen f) (h' : Top cmp more f')
    (hb : cmp f' f = true) : Top cmp (seen ++ more) f' := by
  constructor
  · intro hs r hr
    rcases List.mem_append.1 hr with hr | hr
    · exact not_beats hs (h.strict hs r hr) hb
    · exact h'.strict hs r hr
  · intro ht r hr
    rcases List.mem_append.1 hr with hr | hr
    · exact ht.trans _ _ _ hb (h.total ht r hr)
    · exact h'.total ht r hr

theorem Top.keep {cmp : F → F → Bool} {seen more : List (Row I F)} {f f' : F} (h : Top cmp seen f) (h' : Top cmp more f')
    (hb : ¬ cmp f' f = true) : Top cmp (seen ++ more) f := by
  constructor
  · intro hs r hr
    rcases List.mem_append.1 hr with hr | hr
    · exact h.strict hs r hr
    · cases hc : cmp r.fitness f with
      | false => rfl
      | true =>
        rcases hs.incomp r.fitness f f' hc with h1 | h1
        · rw [h'.strict hs r hr] at h1; exact absurd h1 (by decide)
        · exact absurd h1 hb
  · intro ht r hr
    rcases List.mem_append.1 hr with hr | hr
    · exact h.total ht r hr
    · rcases ht.total f f' with h1 | h1
      · exact ht.trans _ _ _ h1 (h'.total ht r hr)
      · exact absurd h1 hb

theorem Top.single (cmp : F → F → Bool) (r : Row I F) : Top cmp [r] r.fitness := by
  constructor
  · intro hs r' hr'
    rw [List.mem_singleton.1 hr']
    exact hs.irrefl _
  · intro ht r' hr'
    rw [List.mem_singleton.1 hr']
    rcases ht.total r.fitness r.fitness with h | h <;> exact h

theorem foldl_best (cmp : F → F → Bool) (rows : List (Row I F)) : ∀ (seen : List (Row I F)) (f : F) (x : I),
    Top cmp seen f → (∃ r ∈ seen, r.fitness = f ∧ r.individual = x) →
    ∃ f' x', rows.foldl (bestStep cmp) (some (f, x)) = some (f', x') ∧ Top cmp (seen ++ rows) f' ∧
      ∃ r ∈ seen ++ rows, r.fitness = f' ∧ r.individual = x' := by
  induction rows with
  | nil => intro seen f x h hr; exact ⟨f, x, rfl, by simpa using h, by simpa using hr⟩
  | cons r rows ih =>
    intro seen f x h hr
    rw [List.foldl_cons, show seen ++ r :: rows = (seen ++ [r]) ++ rows by simp]
    by_cases hc : cmp r.fitness f = true
    · rw [show bestStep cmp (some (f, x)) r = some (r.fitness, r.individual) by simp [bestStep, hc]]
      exact ih _ _ _ (h.replace (Top.single cmp r) hc) ⟨r, by simp, rfl, rfl⟩
    · rw [show bestStep cmp (some (f, x)) r = some (f, x) by simp [bestStep, hc]]
      obtain ⟨r0, h0, h1⟩ := hr
      exact ih _ _ _ (h.keep (Top.single cmp r) hc) ⟨r0, List.mem_append_left _ h0, h1⟩

theorem bestGen_some (cmp : F → F → Bool) {rows : List (Row I F)} (h : rows ≠ []) :
    ∃ f x, bestGen cmp rows = some (f, x) ∧ Top cmp rows f ∧ ∃ r ∈ rows, r.fitness = f ∧ r.individual = x := by
  obtain ⟨r, rows, rfl⟩ := List.exists_cons_of_ne_nil h
  obtain ⟨f, x, h1, h2, h3⟩ := foldl_best cmp rows [r] r.fitness r.individual (Top.single cmp r) ⟨r, by simp, rfl, rfl⟩
  exact ⟨f, x, h1, h2, h3⟩

/-- The best agrees with the rows made so far. -/
def BestInv (cmp : F → F → Bool) (rows : List (Row I F)) : Option (Best I F) → Prop
  | none => rows = []
  | some b => Top cmp rows b.fitness ∧
      ∃ r ∈ rows, r.fitness = b.fitness ∧ r.individual = b.individual ∧ r.generation = b.generation

theorem updateBest_inv {cmp : F → F → Bool} {g : Nat} {old : List (Row I F)} {b : Option (Best I F)} {rows : List (Row I F)}
    (h : BestInv cmp old b) (hg : ∀ r ∈ rows, r.generation = g) {b' : Best I F}
    (hu : updateBest cmp g b (bestGen cmp rows) = some b') : BestInv cmp (old ++ rows) (some b') := by
  by_cases hr : rows = []
  · subst hr
    simp [bestGen, updateBest] at hu
  obtain ⟨f, x, h1, h2, r, h3, h4, h5⟩ := bestGen_some cmp hr
  rw [h1] at hu
  unfold updateBest at hu
  dsimp only at hu
  cases b with
  | none =>
    dsimp only at hu
    injection hu with hu
    subst hu
    have ho : old = [] := h
    subst ho
    exact ⟨by simpa using h2, r, by simpa using h3, h4, h5, hg r h3⟩
  | some o =>
    dsimp only at hu
    obtain ⟨ht, r0, h6, h7, h8⟩ := h
    by_cases hc : cmp f o.fitness = true
    · rw [if_pos hc] at hu
      injection hu with hu
      subst hu
      exact ⟨ht.replace h2 hc, r, List.mem_append_right _ h3, h4, h5, hg r h3⟩
    · rw [if_neg hc] at hu
      injection hu with hu
      subst hu
      exact ⟨ht.keep h2 hc, r0, List.mem_append_left _ h6, h7, h8⟩

/-! ### The loop -/

/-- What the two evaluation loops do. -/
structure Evaluates (cb : Callbacks I F) (eval : Nat → Nat → List I → List (Row I F) × Bool)
    (part : List (Row I F) → List (Row I F)) : Prop where
  rows : ∀ g pop, (eval g 0 pop).1 = part (fullRows cb g pop)
  flag : ∀ g pop, (eval g 0 pop).2 = (fullRows cb g pop).any (Good cb)
  mem : ∀ l, ∀ r ∈ part l, r ∈ l
  good : ∀ l : List (Row I F), l.any (Good cb) = true → ∃ r ∈ part l, Good cb r = true
  nil : ∀ l, part l = [] → l = []

theorem evaluatesSeq (cb : Callbacks I F) : Evaluates cb (evalSeq cb) (upTo (Good cb)) :=
  ⟨fun g pop => (evalSeq_eq cb g pop).1, fun g pop => (evalSeq_eq cb g pop).2, fun _ _ h => upTo_mem h,
    fun _ h => upTo_any h, fun _ h => upTo_nil h⟩

theorem evaluatesPar (cb : Callbacks I F) : Evaluates cb (evalPar cb) id :=
  ⟨fun g pop => (evalPar_eq cb g pop).1, fun g pop => (evalPar_eq cb g pop).2, fun _ _ h => h,
    fun _ h => by simpa using h, fun _ h => h⟩

theorem fullRows_generation {cb : Callbacks I F} {g : Nat} {pop : List I} {r : Row I F} (h : r ∈ fullRows cb g pop) :
    r.generation = g := by
  unfold fullRows at h
  obtain ⟨p, _, rfl⟩ := List.mem_map.1 h
  rfl

theorem loop_spec {cb : Callbacks I F} {eval : Nat → Nat → List I → List (Row I F) × Bool}
    {part : List (Row I F) → List (Row I F)} (he : Evaluates cb eval part) (small limit : Nat) :
    ∀ (fuel : Nat) (s : State I F) (rows : List (Row I F)) (b : Best I F), BestInv cb.cmp s.rows s.best →
    (limit ≠ 0 → s.generation ≤ limit) → loop cb eval small limit fuel s = .finished rows b →
    ∃ gens, rows = s.rows ++ gens.flatten ∧ Evolves cb part (s.generation + 1) s.population gens ∧
      (limit ≠ 0 → s.generation + gens.length ≤ limit) ∧ BestInv cb.cmp rows (some b) ∧
      Stops cb small limit s.generation gens := by
  intro fuel
  induction fuel with
  | zero => intro s rows b _ _ h; simp [loop] at h
  | succ fuel ih =>
    intro s rows b hb hl h
    rw [loop, round] at h
    by_cases hlim : limit ≠ 0 ∧ s.generation = limit
    · rw [if_pos hlim] at h
      dsimp only at h
      cases hbs : s.best with
      | none => rw [hbs] at h; simp at h
      | some b0 =>
        rw [hbs] at h
        dsimp only at h
        injection h with h1 h2
        subst h1
        subst h2
        rw [hbs] at hb
        exact ⟨[], by simp, trivial, by simpa using hl, hb, hlim⟩
    · rw [if_neg hlim] at h
      have hgen : ∀ r ∈ (eval (s.generation + 1) 0 s.population).1, r.generation = s.generation + 1 := by
        intro r hr
        rw [he.rows] at hr
        exact fullRows_generation (he.mem _ _ hr)
      cases hu : updateBest cb.cmp (s.generation + 1) s.best (bestGen cb.cmp (eval (s.generation + 1) 0 s.population).1) with
      | none => rw [hu] at h; simp at h
      | some b0 =>
        rw [hu] at h
        dsimp only at h
        have hinv := updateBest_inv hb hgen hu
        have hrows := he.rows (s.generation + 1) s.population
        have hlt : limit ≠ 0 → s.generation + 1 ≤ limit := by
          intro h0
          have := hl h0
          have : s.generation ≠ limit := fun h => hlim ⟨h0, h⟩
          omega
        by_cases hf : (eval (s.generation + 1) 0 s.population).2 = true
        · rw [if_pos hf] at h
          dsimp only at h
          injection h with h1 h2
          subst h1
          subst h2
          refine ⟨[(eval (s.generation + 1) 0 s.population).1], by simp, ⟨hrows, fun h => absurd rfl h, trivial⟩,
            by simpa using hlt, hinv, Or.inr (Or.inl ?_)⟩
          rw [he.flag] at hf
          rw [hrows]
          exact he.good _ hf
        · rw [if_neg hf] at h
          by_cases hs : (cb.select (s.generation + 1)
              ((eval (s.generation + 1) 0 s.population).1.map (fun r => (r.individual, r.fitness)))).length ≤ small
          · rw [if_pos hs] at h
            dsimp only at h
            injection h with h1 h2
            subst h1
            subst h2
            exact ⟨[(eval (s.generation + 1) 0 s.population).1], by simp, ⟨hrows, fun h => absurd rfl h, trivial⟩,
              by simpa using hlt, hinv, Or.inr (Or.inr hs)⟩
          · rw [if_neg hs] at h
            dsimp only at h
            obtain ⟨gens, h1, h2, h3, h4, h5⟩ := ih _ _ _ hinv hlt h
            dsimp only at h1 h2 h3 h5
            refine ⟨(eval (s.generation + 1) 0 s.population).1 :: gens, ?_, ⟨hrows, ?_, ?_⟩, ?_, h4, ?_⟩
            · rw [h1, List.flatten_cons, List.append_assoc]
            · intro _ r hr
              rw [he.flag, Bool.not_eq_true, List.any_eq_false] at hf
              exact Bool.not_eq_true _ ▸ hf r hr
            · rw [mutateAll_from] at h2
              exact h2
            · intro h0
              have := h3 h0
              rw [List.length_cons]
              omega
            · cases gens with
              | nil => exact Or.inl h5
              | cons rows' rest => exact h5

/-- With a limit the search ends. -/
theorem loop_ends {cb : Callbacks I F} {eval : Nat → Nat → List I → List (Row I F) × Bool} (small : Nat) {limit : Nat}
    (h0 : limit ≠ 0) : ∀ (fuel : Nat) (s : State I F), s.generation ≤ limit → limit < s.generation + fuel →
    ∀ s', loop cb eval small limit fuel s ≠ .running s' := by
  intro fuel
  induction fuel with
  | zero => intro s h1 h2; omega
  | succ fuel ih =>
    intro s h1 h2 s' h
    rw [loop, round] at h
    by_cases hlim : limit ≠ 0 ∧ s.generation = limit
    · rw [if_pos hlim] at h
      dsimp only at h
      split at h <;> simp at h
    · rw [if_neg hlim] at h
      split at h
      · simp at h
      · next heq =>
        split at heq
        · simp at heq
        · split at heq
          · simp at heq
          · split at heq
            · simp at heq
            · injection heq with heq
              subst heq
              refine ih _ ?_ ?_ s' h
              · show s.generation + 1 ≤ limit
                have : s.generation ≠ limit := fun h => hlim ⟨h0, h⟩
                omega
              · show limit < s.generation + 1 + fuel
                omega
      · split at h <;> simp at h

/-- No panic as long as no population is empty. -/
theorem loop_no_panic {cb : Callbacks I F} {eval : Nat → Nat → List I → List (Row I F) × Bool}
    {part : List (Row I F) → List (Row I F)} (he : Evaluates cb eval part) (small limit : Nat)
    (hc : ∀ g l, small < l.length → cb.cross g l ≠ []) :
    ∀ (fuel : Nat) (s : State I F), s.population ≠ [] → (s.generation = 0 → limit = 0 ∨ 0 < limit) →
    (s.best = none → s.generation = 0) → loop cb eval small limit fuel s ≠ .panic := by
  intro fuel
  induction fuel with
  | zero => intro s _ _ _ h; simp [loop] at h
  | succ fuel ih =>
    intro s hp h0 hb h
    rw [loop, round] at h
    by_cases hlim : limit ≠ 0 ∧ s.generation = limit
    · rw [if_pos hlim] at h
      dsimp only at h
      cases hbs : s.best with
      | none =>
        have := hb hbs
        omega
      | some b => rw [hbs] at h; simp at h
    · rw [if_neg hlim] at h
      have hne : (eval (s.generation + 1) 0 s.population).1 ≠ [] := by
        intro h1
        rw [he.rows] at h1
        have := he.nil _ h1
        unfold fullRows at this
        simp at this
        exact hp this
      obtain ⟨f, x, h1, _⟩ := bestGen_some cb.cmp hne
      rw [h1] at h
      have hu : ∃ b0, updateBest cb.cmp (s.generation + 1) s.best (some (f, x)) = some b0 := by
        unfold updateBest
        dsimp only
        cases s.best with
        | none => exact ⟨_, rfl⟩
        | some o =>
          dsimp only
          split
          · exact ⟨_, rfl⟩
          · exact ⟨_, rfl⟩
      obtain ⟨b0, hu⟩ := hu
      rw [hu] at h
      dsimp only at h
      by_cases hf : (eval (s.generation + 1) 0 s.population).2 = true
      · rw [if_pos hf] at h; simp at h
      · rw [if_neg hf] at h
        by_cases hs : (cb.select (s.generation + 1)
            ((eval (s.generation + 1) 0 s.population).1.map (fun r => (r.individual, r.fitness)))).length ≤ small
        · rw [if_pos hs] at h; simp at h
        · rw [if_neg hs] at h
          dsimp only at h
          refine ih _ ?_ ?_ ?_ h
          · dsimp only
            rw [mutateAll_from]
            intro hnil
            have : (cb.cross (s.generation + 1) _).zipIdx = [] := List.map_eq_nil_iff.1 hnil
            rw [List.zipIdx_eq_nil_iff] at this
            exact hc _ _ (by rw [List.length_map]; omega) this
          · intro hz; simp at hz
          · intro hz; simp at hz

end Verif.Genetic
