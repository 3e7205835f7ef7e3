import Verif.Model.Interrupt
import Verif.Props.Driver
import Mathlib.Tactic.ByContra

/-!
C233: leaving the terminal with `q` stops the simulation, and only that is logged as an interruption.
-/

namespace Verif.Driver

open Schedule

set_option linter.unusedSectionVars false

variable {T A S : Type} [LinearOrder T]

/-! ### Vocabulary -/

/-- Nothing of these is a step or the beginning of a repetition. -/
def Quiet (l : List Did) : Prop := ∀ a ∈ l, a ≠ .step ∧ ∀ r, a ≠ .begin r

/-- The repetitions begun. -/
def begun (l : List Did) : List Nat := l.filterMap (fun a => match a with | .begin r => some r | _ => none)

/-- The repetitions whose results were stored. -/
def stored (l : List Did) : List Nat := l.filterMap (fun a => match a with | .results r => some r | _ => none)

/-- Repetitions, each beginning with what the previous one left, of which the last may lack some of its steps: then `end_condition` was not asked
after the last step made. -/
def CutChain (d : Sim T A S) (n : Nat) : S → List (World T A S) → Prop
  | _, [] => True
  | s, w :: ws =>
    ((∃ k, Takes d n (start d s) k ∧ w = (turn d)^[k] (start d s)) ∧ CutChain d n w.state ws) ∨
    (ws = [] ∧ ∃ k j, Takes d n (start d s) k ∧ j < k ∧ w = step d.model ((turn d)^[j] (start d s)))

/-! ### The terminal thread -/

theorem rounds_cons (x : Screen) (q : Bool) (qs : List Bool) : x.rounds (q :: qs) = (x.round q).rounds qs := rfl

theorem round_dead {x : Screen} (h : x.term.alive = false) (q : Bool) : x.round q = x := by
  unfold Screen.round
  rw [if_pos h]

theorem rounds_dead {x : Screen} (h : x.term.alive = false) (qs : List Bool) : x.rounds qs = x := by
  induction qs with
  | nil => rfl
  | cons q qs ih => rw [rounds_cons, round_dead h, ih]

theorem postQ_false {ui : Nat → List Bool} {op : Option Msg} {x : Screen} (h : (postQ ui op x).2 = false) :
    (postQ ui op x).1.term.alive = false := by
  unfold postQ at h ⊢
  by_cases hc : ((x.put op).rounds (ui (2 * x.term.sends))).term.alive = true
  · rw [if_pos hc] at h
    exact absurd h (by simp)
  · rw [if_neg hc]
    show ((x.put op).rounds (ui (2 * x.term.sends))).term.alive = false
    simpa using hc

theorem postQ_dead {ui : Nat → List Bool} {op : Option Msg} {x : Screen} (h : x.term.alive = false) :
    (postQ ui op x).2 = false := by
  unfold postQ
  rw [rounds_dead (show (x.put op).term.alive = false from h)]
  rw [if_neg (show ¬ (x.put op).term.alive = true by rw [show (x.put op).term.alive = false from h]; simp)]

/-! ### What happens after a failed send -/

/-- No send failed; or the terminal is gone, and after the first failed send nothing is run. -/
def Cut (l : List Did) (alive : Bool) : Prop :=
  (∀ a ∈ l, a ≠ Did.send false) ∨
  (alive = false ∧ ∃ good q, l = good ++ .send false :: q ∧ (∀ a ∈ good, a ≠ Did.send false) ∧ Quiet q)

theorem cut_prepend {g l : List Did} {b : Bool} (hg : ∀ a ∈ g, a ≠ Did.send false) (h : Cut l b) : Cut (g ++ l) b := by
  rcases h with h | ⟨hb, good, q, rfl, h1, h2⟩
  · left
    intro a ha
    rcases List.mem_append.1 ha with ha | ha
    · exact hg a ha
    · exact h a ha
  · right
    refine ⟨hb, g ++ good, q, by simp, ?_, h2⟩
    intro a ha
    rcases List.mem_append.1 ha with ha | ha
    · exact hg a ha
    · exact h1 a ha

theorem quiet_logged : Quiet [Did.interrupted] := by
  intro a ha
  rw [List.mem_singleton.1 ha]
  exact ⟨by simp, by simp⟩

theorem cut_failed : Cut (sent false) false :=
  Or.inr ⟨rfl, [], [.interrupted], rfl, by simp, quiet_logged⟩

theorem sent_true_good : ∀ a ∈ sent true, a ≠ Did.send false := by
  intro a ha
  rw [List.mem_singleton.1 (show a ∈ [Did.send true] from ha)]
  simp

theorem loopQ_cut (d : Sim T A S) (ui : Nat → List Bool) (n : Nat) : ∀ (w : World T A S) (x : Screen),
    Cut (loopQ d ui n w x).2.2 (loopQ d ui n w x).2.1.term.alive := by
  induction n with
  | zero => intro w x; left; intro a ha; exact absurd ha (by simp [loopQ])
  | succ n ih =>
    intro w x
    rw [loopQ]
    have hs : ∀ a ∈ Did.step :: sent true, a ≠ Did.send false := by
      intro a ha
      rcases List.mem_cons.1 ha with rfl | ha
      · simp
      · exact sent_true_good a ha
    by_cases h1 : (postQ ui (some .afterStep) x).2 = true
    · rw [if_pos h1]
      by_cases hc : (check d (step d.model w)).1 = true
      · rw [if_pos hc]
        dsimp only
        apply cut_prepend hs
        cases h2 : (postQ ui (some .quit) (postQ ui (some .afterStep) x).1).2 with
        | true => exact Or.inl sent_true_good
        | false =>
          rw [postQ_false h2]
          exact cut_failed
      · rw [if_neg hc]
        exact cut_prepend hs (ih _ _)
    · rw [if_neg h1]
      dsimp only
      rw [postQ_false (by simpa using h1)]
      exact cut_prepend (g := [.step]) (by simp) cut_failed

theorem repsQ_cut (d : Sim T A S) (ui : Nat → List Bool) (n : Nat) (m : Nat) : ∀ (r : Nat) (s : S) (x : Screen),
    Cut (repsQ d ui n r m s x).2.2 (repsQ d ui n r m s x).2.1.term.alive := by
  induction m with
  | zero => intro r s x; left; intro a ha; exact absurd ha (by simp [repsQ])
  | succ m ih =>
    intro r s x
    rw [repsQ]
    by_cases h1 : (postQ ui (some .clear) x).2 = true
    · rw [if_pos h1]
      have hl := loopQ_cut d ui n (start d s) (postQ ui (some .clear) x).1
      generalize loopQ d ui n (start d s) (postQ ui (some .clear) x).1 = p at hl ⊢
      obtain ⟨w, x1, did⟩ := p
      dsimp only at hl ⊢
      rcases hl with hl | ⟨hb, good, q, rfl, h3, h4⟩
      · have hg : ∀ a ∈ sent true ++ Did.begin r :: did ++ [Did.results r], a ≠ Did.send false := by
          intro a ha
          rcases List.mem_append.1 ha with ha | ha
          · rcases List.mem_append.1 ha with ha | ha
            · exact sent_true_good a ha
            · rcases List.mem_cons.1 ha with rfl | ha
              · simp
              · exact hl a ha
          · rw [List.mem_singleton.1 ha]; simp
        by_cases h2 : (postQ ui none x1).2 = true
        · rw [if_pos h2]
          have hr := ih (r + 1) w.state (postQ ui none x1).1
          generalize repsQ d ui n (r + 1) m w.state (postQ ui none x1).1 = p at hr ⊢
          obtain ⟨ws, x2, more⟩ := p
          dsimp only at hr ⊢
          have e : sent true ++ Did.begin r :: did ++ Did.results r :: sent true ++ more =
              (sent true ++ Did.begin r :: did ++ [Did.results r]) ++ (sent true ++ more) := by simp
          rw [e]
          exact cut_prepend hg (cut_prepend sent_true_good hr)
        · rw [if_neg h2]
          dsimp only
          rw [postQ_false (by simpa using h2)]
          have e : sent true ++ Did.begin r :: did ++ Did.results r :: sent false =
              (sent true ++ Did.begin r :: did ++ [Did.results r]) ++ sent false := by simp
          rw [e]
          exact cut_prepend hg cut_failed
      · have h2 : (postQ ui none x1).2 = false := postQ_dead hb
        rw [if_neg (by rw [h2]; simp)]
        dsimp only
        rw [postQ_false h2]
        right
        refine ⟨rfl, sent true ++ Did.begin r :: good, q ++ Did.results r :: sent false, by simp, ?_, ?_⟩
        · intro a ha
          rcases List.mem_append.1 ha with ha | ha
          · exact sent_true_good a ha
          · rcases List.mem_cons.1 ha with rfl | ha
            · simp
            · exact h3 a ha
        · intro a ha
          rcases List.mem_append.1 ha with ha | ha
          · exact h4 a ha
          · have : a = .results r ∨ a = .send false ∨ a = .interrupted := by
              simpa [sent] using ha
            rcases this with rfl | rfl | rfl <;> simp
    · rw [if_neg h1]
      dsimp only
      rw [postQ_false (by simpa using h1)]
      exact cut_failed

theorem cut_quiet {l : List Did} {b : Bool} (h : Cut l b) {pre post : List Did} (he : l = pre ++ .send false :: post) :
    Quiet post := by
  rcases h with h | ⟨_, good, q, hl, h1, h2⟩
  · exact absurd rfl (h (.send false) (by rw [he]; simp))
  · rw [hl] at he
    rcases List.append_eq_append_iff.1 he with ⟨u, hu1, hu2⟩ | ⟨u, hu1, hu2⟩
    · cases u with
      | nil =>
        have := (List.cons.inj hu2).2
        rw [← this]; exact h2
      | cons a u =>
        have := (List.cons.inj hu2).2
        intro b hb
        exact h2 b (by rw [this]; simp [hb])
    · cases u with
      | nil =>
        have := (List.cons.inj hu2).2
        rw [this]; exact h2
      | cons a u =>
        have := (List.cons.inj hu2).1
        exact absurd rfl (h1 (.send false) (by rw [hu1, this]; simp))

/-! ### A send after every step -/

/-- Every step is followed by a send. -/
def Followed : List Did → Prop
  | [] => True
  | .step :: l => (∃ b l', l = Did.send b :: l') ∧ Followed l
  | _ :: l => Followed l

theorem followed_append {l m : List Did} (hl : Followed l) (hm : Followed m) : Followed (l ++ m) := by
  induction l with
  | nil => exact hm
  | cons a l ih =>
    cases a with
    | step =>
      obtain ⟨⟨b, l', e⟩, h2⟩ := hl
      exact ⟨⟨b, l' ++ m, by rw [e]; rfl⟩, ih h2⟩
    | begin r => exact ih hl
    | send b => exact ih hl
    | interrupted => exact ih hl
    | results r => exact ih hl

theorem followed_sent (b : Bool) : Followed (sent b) := by cases b <;> exact trivial

theorem followed_step (b : Bool) : Followed (.step :: sent b) := by
  cases b
  · exact ⟨⟨false, _, rfl⟩, trivial⟩
  · exact ⟨⟨true, _, rfl⟩, trivial⟩

theorem followed_at {l : List Did} (h : Followed l) : ∀ {pre post : List Did}, l = pre ++ .step :: post →
    ∃ b post', post = Did.send b :: post' := by
  induction l with
  | nil => intro pre post e; cases pre <;> simp at e
  | cons a l ih =>
    intro pre post e
    cases pre with
    | nil =>
      obtain ⟨rfl, rfl⟩ := List.cons.inj e
      exact h.1
    | cons c pre =>
      have e2 := (List.cons.inj e).2
      cases a with
      | step => exact ih h.2 e2
      | begin r => exact ih h e2
      | send b => exact ih h e2
      | interrupted => exact ih h e2
      | results r => exact ih h e2

theorem loopQ_followed (d : Sim T A S) (ui : Nat → List Bool) (n : Nat) : ∀ (w : World T A S) (x : Screen),
    Followed (loopQ d ui n w x).2.2 := by
  induction n with
  | zero => intro w x; exact trivial
  | succ n ih =>
    intro w x
    rw [loopQ]
    by_cases h1 : (postQ ui (some .afterStep) x).2 = true
    · rw [if_pos h1]
      by_cases hc : (check d (step d.model w)).1 = true
      · rw [if_pos hc]
        exact followed_append (followed_step true) (followed_sent _)
      · rw [if_neg hc]
        exact followed_append (followed_step true) (ih _ _)
    · rw [if_neg h1]
      exact followed_step false

theorem repsQ_followed (d : Sim T A S) (ui : Nat → List Bool) (n : Nat) (m : Nat) : ∀ (r : Nat) (s : S) (x : Screen),
    Followed (repsQ d ui n r m s x).2.2 := by
  induction m with
  | zero => intro r s x; exact trivial
  | succ m ih =>
    intro r s x
    rw [repsQ]
    by_cases h1 : (postQ ui (some .clear) x).2 = true
    · rw [if_pos h1]
      have hl := loopQ_followed d ui n (start d s) (postQ ui (some .clear) x).1
      generalize loopQ d ui n (start d s) (postQ ui (some .clear) x).1 = p at hl ⊢
      obtain ⟨w, x1, did⟩ := p
      dsimp only at hl ⊢
      have hb : Followed (sent true ++ Did.begin r :: did) := followed_append (followed_sent true) (show Followed (.begin r :: did) from hl)
      by_cases h2 : (postQ ui none x1).2 = true
      · rw [if_pos h2]
        have hr := ih (r + 1) w.state (postQ ui none x1).1
        generalize repsQ d ui n (r + 1) m w.state (postQ ui none x1).1 = p at hr ⊢
        obtain ⟨ws, x2, more⟩ := p
        exact followed_append (followed_append hb (show Followed (.results r :: sent true) from followed_sent true)) hr
      · rw [if_neg h2]
        exact followed_append hb (show Followed (.results r :: sent false) from followed_sent false)
    · rw [if_neg h1]
      exact followed_sent false

/-! ### Results of what was run, and the log -/

theorem begun_append (l m : List Did) : begun (l ++ m) = begun l ++ begun m := List.filterMap_append
theorem stored_append (l m : List Did) : stored (l ++ m) = stored l ++ stored m := List.filterMap_append
theorem begun_sent (b : Bool) : begun (sent b) = [] := by cases b <;> rfl
theorem stored_sent (b : Bool) : stored (sent b) = [] := by cases b <;> rfl

theorem loopQ_none (d : Sim T A S) (ui : Nat → List Bool) (n : Nat) : ∀ (w : World T A S) (x : Screen),
    begun (loopQ d ui n w x).2.2 = [] ∧ stored (loopQ d ui n w x).2.2 = [] ∧
    (loopQ d ui n w x).2.2.count .interrupted = (loopQ d ui n w x).2.2.count (.send false) ∧
    (loopQ d ui n w x).2.2.count .interrupted ≤ 1 := by
  induction n with
  | zero => intro w x; exact ⟨rfl, rfl, rfl, by simp [loopQ]⟩
  | succ n ih =>
    intro w x
    rw [loopQ]
    by_cases h1 : (postQ ui (some .afterStep) x).2 = true
    · rw [if_pos h1]
      by_cases hc : (check d (step d.model w)).1 = true
      · rw [if_pos hc]
        dsimp only
        cases (postQ ui (some .quit) (postQ ui (some .afterStep) x).1).2 <;> refine ⟨rfl, rfl, ?_, ?_⟩ <;> decide
      · rw [if_neg hc]
        obtain ⟨a, b, c, e⟩ := ih (check d (step d.model w)).2 (postQ ui (some .afterStep) x).1
        refine ⟨?_, ?_, ?_, ?_⟩
        · exact a
        · exact b
        · dsimp only
          rw [List.count_append, List.count_append, c]
          rfl
        · dsimp only
          rw [List.count_append]
          have : List.count Did.interrupted (Did.step :: sent true) = 0 := by decide
          omega
    · rw [if_neg h1]
      refine ⟨rfl, rfl, ?_, ?_⟩ <;> dsimp only <;> decide

theorem loopQ_count_dead (d : Sim T A S) (ui : Nat → List Bool) (n : Nat) (w : World T A S) (x : Screen)
    (h : (loopQ d ui n w x).2.2.count .interrupted ≠ 0) : (loopQ d ui n w x).2.1.term.alive = false := by
  rcases loopQ_cut d ui n w x with hc | ⟨hb, _⟩
  · exfalso
    apply h
    rw [(loopQ_none d ui n w x).2.2.1]
    exact List.count_eq_zero.2 (fun hm => hc _ hm rfl)
  · exact hb

theorem repsQ_results (d : Sim T A S) (ui : Nat → List Bool) (n : Nat) (m : Nat) : ∀ (r : Nat) (s : S) (x : Screen),
    begun (repsQ d ui n r m s x).2.2 = List.range' r (repsQ d ui n r m s x).1.length ∧
    stored (repsQ d ui n r m s x).2.2 = List.range' r (repsQ d ui n r m s x).1.length ∧
    (repsQ d ui n r m s x).2.2.count .interrupted = (repsQ d ui n r m s x).2.2.count (.send false) ∧
    (repsQ d ui n r m s x).2.2.count .interrupted ≤ 2 := by
  induction m with
  | zero => intro r s x; exact ⟨rfl, rfl, rfl, by simp [repsQ]⟩
  | succ m ih =>
    intro r s x
    rw [repsQ]
    have c0 : List.count Did.interrupted (sent true) = 0 ∧ List.count (Did.send false) (sent true) = 0 ∧
      List.count Did.interrupted (sent false) = 1 ∧ List.count (Did.send false) (sent false) = 1 := by decide
    obtain ⟨k1, k2, k3, k4⟩ := c0
    by_cases h1 : (postQ ui (some .clear) x).2 = true
    · rw [if_pos h1]
      have hl := loopQ_none d ui n (start d s) (postQ ui (some .clear) x).1
      have hd := loopQ_count_dead d ui n (start d s) (postQ ui (some .clear) x).1
      generalize loopQ d ui n (start d s) (postQ ui (some .clear) x).1 = p at hl hd ⊢
      obtain ⟨w, x1, did⟩ := p
      dsimp only at hl hd ⊢
      obtain ⟨a, b, c, e⟩ := hl
      have hbd : begun (Did.begin r :: did) = [r] := by
        show r :: begun did = [r]
        rw [a]
      have hsd : stored (Did.begin r :: did) = [] := b
      by_cases h2 : (postQ ui none x1).2 = true
      · rw [if_pos h2]
        have hr := ih (r + 1) w.state (postQ ui none x1).1
        generalize repsQ d ui n (r + 1) m w.state (postQ ui none x1).1 = p at hr ⊢
        obtain ⟨ws, x2, more⟩ := p
        dsimp only at hr ⊢
        obtain ⟨a', b', c', e'⟩ := hr
        have hz : List.count Did.interrupted did = 0 := by
          by_contra hne
          rw [postQ_dead (hd hne)] at h2
          exact absurd h2 (by simp)
        refine ⟨?_, ?_, ?_, ?_⟩
        · rw [begun_append, begun_append, begun_append, hbd, begun_sent, a']
          show [] ++ [r] ++ begun (sent true) ++ _ = _
          rw [begun_sent]
          rfl
        · rw [stored_append, stored_append, stored_append, hsd, stored_sent, b']
          show [] ++ [] ++ (r :: stored (sent true)) ++ _ = _
          rw [stored_sent]
          rfl
        · simp only [List.count_append, List.count_cons, k1, k2]
          simp only [c', c]
          simp
        · simp only [List.count_append, List.count_cons, k1, hz]
          simp
          exact e'
      · rw [if_neg h2]
        dsimp only
        refine ⟨?_, ?_, ?_, ?_⟩
        · rw [begun_append, begun_append, hbd, begun_sent]
          rfl
        · rw [stored_append, stored_append, hsd, stored_sent]
          rfl
        · simp only [List.count_append, List.count_cons, k1, k2, k3, k4, c]
          simp
        · simp only [List.count_append, List.count_cons, k1, k3]
          simp
          omega
    · rw [if_neg h1]
      refine ⟨rfl, rfl, ?_, ?_⟩
      · show List.count Did.interrupted (sent false) = List.count (Did.send false) (sent false)
        rw [k3, k4]
      · show List.count Did.interrupted (sent false) ≤ 2
        omega

/-! ### What was simulated -/

theorem loopQ_world (d : Sim T A S) (ui : Nat → List Bool) (n : Nat) : ∀ (w : World T A S) (x : Screen),
    (∃ k, Takes d n w k ∧ (loopQ d ui n w x).1 = (turn d)^[k] w) ∨
    ((loopQ d ui n w x).2.1.term.alive = false ∧
      ∃ k j, Takes d n w k ∧ j < k ∧ (loopQ d ui n w x).1 = step d.model ((turn d)^[j] w)) := by
  induction n with
  | zero => intro w x; exact Or.inl ⟨0, Or.inr ⟨rfl, by intro i hi; omega⟩, rfl⟩
  | succ n ih =>
    intro w x
    rw [loopQ]
    by_cases h1 : (postQ ui (some .afterStep) x).2 = true
    · rw [if_pos h1]
      by_cases hc : (check d (step d.model w)).1 = true
      · rw [if_pos hc]
        exact Or.inl ⟨1, Or.inl ⟨0, rfl, by omega, hc, by intro i hi; omega⟩, rfl⟩
      · rw [if_neg hc]
        dsimp only
        rcases ih (check d (step d.model w)).2 (postQ ui (some .afterStep) x).1 with ⟨k, h2, h3⟩ | ⟨hb, k, j, h2, h3, h4⟩
        · exact Or.inl ⟨k + 1, takes_succ d n w k hc h2, by rw [h3, Function.iterate_succ_apply]; rfl⟩
        · exact Or.inr ⟨hb, k + 1, j + 1, takes_succ d n w k hc h2, by omega, by rw [h4, Function.iterate_succ_apply]; rfl⟩
    · rw [if_neg h1]
      obtain ⟨k, h2, _⟩ := loop_takes d (n + 1) w
      refine Or.inr ⟨postQ_false (by simpa using h1), k, 0, h2, ?_, rfl⟩
      rcases h2 with ⟨j, rfl, _⟩ | ⟨rfl, _⟩ <;> omega

theorem repsQ_chain (d : Sim T A S) (ui : Nat → List Bool) (n : Nat) (m : Nat) : ∀ (r : Nat) (s : S) (x : Screen),
    CutChain d n s (repsQ d ui n r m s x).1 ∧ (repsQ d ui n r m s x).1.length ≤ m := by
  induction m with
  | zero => intro r s x; exact ⟨trivial, by simp [repsQ]⟩
  | succ m ih =>
    intro r s x
    rw [repsQ]
    by_cases h1 : (postQ ui (some .clear) x).2 = true
    · rw [if_pos h1]
      have hl := loopQ_world d ui n (start d s) (postQ ui (some .clear) x).1
      generalize loopQ d ui n (start d s) (postQ ui (some .clear) x).1 = p at hl ⊢
      obtain ⟨w, x1, did⟩ := p
      dsimp only at hl ⊢
      by_cases h2 : (postQ ui none x1).2 = true
      · rw [if_pos h2]
        have hr := ih (r + 1) w.state (postQ ui none x1).1
        generalize repsQ d ui n (r + 1) m w.state (postQ ui none x1).1 = p at hr ⊢
        obtain ⟨ws, x2, more⟩ := p
        dsimp only at hr ⊢
        rcases hl with hl | ⟨hb, _⟩
        · exact ⟨Or.inl ⟨hl, hr.1⟩, by simpa using hr.2⟩
        · rw [postQ_dead hb] at h2
          exact absurd h2 (by simp)
      · rw [if_neg h2]
        dsimp only
        rcases hl with hl | ⟨_, hl⟩
        · exact ⟨Or.inl ⟨hl, trivial⟩, by simp⟩
        · exact ⟨Or.inr ⟨rfl, hl⟩, by simp⟩
    · rw [if_neg h1]
      exact ⟨trivial, by simp⟩

theorem loopQ_full (d : Sim T A S) (ui : Nat → List Bool) (n : Nat) : ∀ (w : World T A S) (x : Screen),
    Did.interrupted ∉ (loopQ d ui n w x).2.2 → (loopQ d ui n w x).1 = loop d n w := by
  induction n with
  | zero => intro w x _; rfl
  | succ n ih =>
    intro w x
    rw [loopQ]
    by_cases h1 : (postQ ui (some .afterStep) x).2 = true
    · rw [if_pos h1]
      by_cases hc : (check d (step d.model w)).1 = true
      · rw [if_pos hc, loop, if_pos hc]
        intro _; rfl
      · rw [if_neg hc, loop, if_neg hc]
        intro h
        exact ih _ _ (fun hm => h (List.mem_append_right _ hm))
    · rw [if_neg h1]
      intro h
      exact absurd (show Did.interrupted ∈ [Did.step, .send false, .interrupted] by simp) h

theorem repsQ_full (d : Sim T A S) (ui : Nat → List Bool) (n : Nat) (m : Nat) : ∀ (r : Nat) (s : S) (x : Screen),
    Did.interrupted ∉ (repsQ d ui n r m s x).2.2 → (repsQ d ui n r m s x).1 = runReps d n m s := by
  induction m with
  | zero => intro r s x _; rfl
  | succ m ih =>
    intro r s x
    rw [repsQ]
    by_cases h1 : (postQ ui (some .clear) x).2 = true
    · rw [if_pos h1]
      have hl := loopQ_full d ui n (start d s) (postQ ui (some .clear) x).1
      generalize loopQ d ui n (start d s) (postQ ui (some .clear) x).1 = p at hl ⊢
      obtain ⟨w, x1, did⟩ := p
      dsimp only at hl ⊢
      by_cases h2 : (postQ ui none x1).2 = true
      · rw [if_pos h2]
        have hr := ih (r + 1) w.state (postQ ui none x1).1
        generalize repsQ d ui n (r + 1) m w.state (postQ ui none x1).1 = p at hr ⊢
        obtain ⟨ws, x2, more⟩ := p
        dsimp only at hr ⊢
        intro h
        have e1 := hl (fun hm => h (by simp [hm]))
        have e2 := hr (fun hm => h (by simp [hm]))
        rw [runReps, runRep, ← e1, ← e2]
      · rw [if_neg h2]
        intro h
        exact absurd (show Did.interrupted ∈ sent true ++ Did.begin r :: did ++ Did.results r :: sent false by simp [sent]) h
    · rw [if_neg h1]
      intro h
      exact absurd (show Did.interrupted ∈ [Did.send false, .interrupted] by simp) h

/-! ### Who ended the terminal -/

/-- The terminal thread runs and is not told to quit, or the user has ended it. -/
def Own (x : Screen) : Prop := x.user = true ∨ (x.term.alive = true ∧ x.term.op ≠ .quit)

theorem own_round {x : Screen} (h : Own x) (q : Bool) : Own (x.round q) := by
  unfold Screen.round
  by_cases ha : x.term.alive = false
  · rw [if_pos ha]; exact h
  · rw [if_neg ha]
    cases q with
    | true => exact Or.inl rfl
    | false =>
      rw [if_neg (by simp)]
      rcases h with h | h
      · exact Or.inl h
      · right
        have := safe_round (t := x.term) ⟨h.1, h.2⟩
        exact ⟨this.1, this.2⟩

theorem own_rounds (qs : List Bool) : ∀ {x : Screen}, Own x → Own (x.rounds qs) := by
  induction qs with
  | nil => intro x h; exact h
  | cons q qs ih => intro x h; rw [rounds_cons]; exact ih (own_round h q)

theorem own_post (ui : Nat → List Bool) {op : Option Msg} (ho : op ≠ some .quit) {x : Screen} (h : Own x) :
    Own (postQ ui op x).1 := by
  have h0 : Own (x.put op) := by
    rcases h with h | h
    · exact Or.inl h
    · right
      refine ⟨h.1, ?_⟩
      cases op with
      | none => exact h.2
      | some o => exact fun hc => ho (congrArg some hc)
  have h1 := own_rounds (ui (2 * x.term.sends)) h0
  have h2 : Own ((x.put op).rounds (ui (2 * x.term.sends))).send := h1
  unfold postQ
  by_cases hc : ((x.put op).rounds (ui (2 * x.term.sends))).term.alive = true
  · rw [if_pos hc]; exact own_rounds _ h2
  · rw [if_neg hc]; exact h2

theorem own_loop (d : Sim T A S) (ui : Nat → List Bool) (n : Nat) : ∀ (w : World T A S) (x : Screen), NeverEnds d n w →
    Own x → Own (loopQ d ui n w x).2.1 := by
  induction n with
  | zero => intro w x _ h; exact h
  | succ n ih =>
    intro w x hn h
    have h2 := own_post ui (op := some .afterStep) (by decide) h
    rw [loopQ]
    by_cases h1 : (postQ ui (some .afterStep) x).2 = true
    · rw [if_pos h1, if_neg (show ¬ (check d (step d.model w)).1 = true from hn 0 (by omega))]
      refine ih _ _ ?_ h2
      intro i hi
      have := hn (i + 1) (by omega)
      rwa [Function.iterate_succ_apply] at this
    · rw [if_neg h1]; exact h2

theorem own_reps (d : Sim T A S) (ui : Nat → List Bool) (n : Nat) (hn : ∀ s, NeverEnds d n (start d s)) (m : Nat) :
    ∀ (r : Nat) (s : S) (x : Screen), Own x → Own (repsQ d ui n r m s x).2.1 := by
  induction m with
  | zero => intro r s x h; exact h
  | succ m ih =>
    intro r s x h
    have h0 := own_post ui (op := some .clear) (by decide) h
    rw [repsQ]
    by_cases h1 : (postQ ui (some .clear) x).2 = true
    · rw [if_pos h1]
      have hl := own_loop d ui n (start d s) (postQ ui (some .clear) x).1 (hn s) h0
      generalize loopQ d ui n (start d s) (postQ ui (some .clear) x).1 = p at hl ⊢
      obtain ⟨w, x1, did⟩ := p
      dsimp only at hl ⊢
      have h3 := own_post ui (op := none) (by decide) hl
      by_cases h2 : (postQ ui none x1).2 = true
      · rw [if_pos h2]
        exact ih (r + 1) w.state _ h3
      · rw [if_neg h2]; exact h3
    · rw [if_neg h1]; exact h0

/-! ### C233 -/

/-- **C233, what holds**: once a message to the terminal cannot be sent, because the terminal is closed, no step is made and no repetition begun;
and after every step a message is sent, so at most the step being made is finished. Full statement: also what is logged, which
is false below. -/
theorem C233_stops_partial (d : Sim T A S) (ui : Nat → List Bool) (n reps : Nat) (s : S) (pre post : List Did) :
    ((simulateQ d ui n reps s).2.2 = pre ++ .send false :: post → Quiet post) ∧
    ((simulateQ d ui n reps s).2.2 = pre ++ .step :: post → ∃ b post', post = .send b :: post') :=
  ⟨fun h => cut_quiet (repsQ_cut d ui n reps 0 s _) h, fun h => followed_at (repsQ_followed d ui n reps 0 s _) h⟩

theorem rounds_key {x : Screen} {qs : List Bool} (h : true ∈ qs) : (x.rounds qs).term.alive = false := by
  induction qs generalizing x with
  | nil => exact absurd h (by simp)
  | cons q qs ih =>
    rw [rounds_cons]
    cases q with
    | false => exact ih (by simpa using h)
    | true =>
      have : (x.round true).term.alive = false := by
        unfold Screen.round
        by_cases ha : x.term.alive = false
        · rw [if_pos ha]; exact ha
        · rw [if_neg ha, if_pos rfl]
      rw [rounds_dead this]
      exact this

/-- **C233, what holds**: the key `q` in a round of the terminal before a message makes this message fail, and in a round after it the terminal is closed for all that
follow. -/
theorem C233_key_partial (ui : Nat → List Bool) (op : Option Msg) (x : Screen) :
    (true ∈ ui (2 * x.term.sends) → (postQ ui op x).2 = false) ∧
    (true ∈ ui (2 * x.term.sends + 1) → ∀ op', (postQ ui op' (postQ ui op x).1).2 = false) := by
  constructor
  · intro h
    unfold postQ
    rw [if_neg (by rw [rounds_key h]; simp)]
  · intro h op'
    apply postQ_dead
    cases hp : (postQ ui op x).2 with
    | false => exact postQ_false hp
    | true =>
      unfold postQ at hp ⊢
      by_cases hc : ((x.put op).rounds (ui (2 * x.term.sends))).term.alive = true
      · rw [if_pos hc]; exact rounds_key h
      · rw [if_neg hc] at hp; exact absurd hp (by simp)

/-- **C233, what holds**: what was simulated are the repetitions of the same simulation without terminal up to the one interrupted, of which some steps
are made. Without a message that could not be sent they are all of them. -/
theorem C233_prefix_partial (d : Sim T A S) (ui : Nat → List Bool) (n reps : Nat) (s : S) :
    CutChain d n s (simulateQ d ui n reps s).1 ∧ (simulateQ d ui n reps s).1.length ≤ reps ∧
    (.interrupted ∉ (simulateQ d ui n reps s).2.2 → (simulateQ d ui n reps s).1 = runReps d n reps s) :=
  ⟨(repsQ_chain d ui n reps 0 s _).1, (repsQ_chain d ui n reps 0 s _).2, repsQ_full d ui n reps 0 s _⟩

/-- **C233, what holds**: every repetition begun, the interrupted one too, has its results stored, in order. Each failed message is logged, and at most two
are. -/
theorem C233_results_partial (d : Sim T A S) (ui : Nat → List Bool) (n reps : Nat) (s : S) :
    begun (simulateQ d ui n reps s).2.2 = List.range (simulateQ d ui n reps s).1.length ∧
    stored (simulateQ d ui n reps s).2.2 = List.range (simulateQ d ui n reps s).1.length ∧
    (simulateQ d ui n reps s).2.2.count .interrupted = (simulateQ d ui n reps s).2.2.count (.send false) ∧
    (simulateQ d ui n reps s).2.2.count .interrupted ≤ 2 := by
  rw [List.range_eq_range']
  exact repsQ_results d ui n reps 0 s _

/-- **C233, what holds**: in a model whose end condition never holds, an interruption is logged only if the user has left the
terminal. -/
theorem C233_only_user_partial (d : Sim T A S) (ui : Nat → List Bool) (n reps : Nat) (s : S) (hn : ∀ s, NeverEnds d n (start d s))
    (h : .interrupted ∈ (simulateQ d ui n reps s).2.2) : (simulateQ d ui n reps s).2.1.user = true := by
  rcases own_reps d ui n hn reps 0 s Screen.new (Or.inr ⟨rfl, by decide⟩) with hu | hu
  · exact hu
  · rcases repsQ_cut d ui n reps 0 s Screen.new with hc | ⟨hb, _⟩
    · have := (repsQ_results d ui n reps 0 s Screen.new).2.2.1
      rw [List.count_eq_zero.2 (fun hm => hc _ hm rfl)] at this
      exact absurd h (List.count_eq_zero.1 this)
    · rw [hb] at hu
      exact absurd hu.1 (by simp)

/-- A model that never ends, left by the user in the second of three repetitions of two steps: one repetition is complete, the next is made of one step. -/
example : (∀ s, NeverEnds { counting with endCondition := fun w => (false, w.state, []) } 2
      (start { counting with endCondition := fun w => (false, w.state, []) } s)) ∧
    (simulateQ { counting with endCondition := fun w => (false, w.state, []) } (fun k => [decide (k = 10)]) 2 3 0).1.map (fun w => w.sched.step) = [2, 1] ∧
    (simulateQ { counting with endCondition := fun w => (false, w.state, []) } (fun k => [decide (k = 10)]) 2 3 0).2.2.getLast? = some .interrupted := by
  refine ⟨?_, ?_, ?_⟩
  · intro s i _ h
    exact absurd h (by simp [Ends])
  · decide +kernel
  · decide +kernel

/-- **C233, false as stated**: `end_condition` holds after two steps of the only repetition, no key is pressed, and the log says that the user interrupted the
simulation. With a key `q` during the second of five steps it says so twice. -/
theorem C233_log_negation_partial :
    (simulateQ counting (fun _ => [false]) 5 1 1).2.2 =
      [.send true, .begin 0, .step, .send true, .step, .send true, .send true, .results 0, .send false, .interrupted] ∧
    (simulateQ counting (fun _ => [false]) 5 1 1).2.1.user = false ∧
    (simulateQ counting (fun k => [decide (k = 4)]) 5 3 0).2.2 =
      [.send true, .begin 0, .step, .send true, .step, .send false, .interrupted, .results 0, .send false, .interrupted] ∧
    (simulateQ counting (fun k => [decide (k = 4)]) 5 3 0).2.1.user = true := by
  refine ⟨?_, ?_, ?_, ?_⟩ <;> decide +kernel

/-! ### The terminal without keys -/

theorem rounds_none (x : Screen) (n : Nat) : x.rounds (List.replicate n false) = ⟨uiRounds n x.term, x.user⟩ := by
  induction n generalizing x with
  | zero => rfl
  | succ n ih =>
    rw [List.replicate_succ, rounds_cons, ih]
    have : x.round false = ⟨uiRound x.term, x.user⟩ := by
      unfold Screen.round
      by_cases h : x.term.alive = false
      · rw [if_pos h]
        unfold uiRound
        rw [if_pos (Or.inl h)]
      · rw [if_neg h]
        simp
    rw [this]
    rfl

theorem postQ_none (ui : Nat → Nat) (op : Option Msg) (x : Screen) :
    postQ (fun k => List.replicate (ui k) false) op x = (⟨(post ui op x.term).1, x.user⟩, (post ui op x.term).2) := by
  unfold postQ post
  simp only [rounds_none]
  show (if (uiRounds (ui (2 * x.term.sends)) ⟨op.getD x.term.op, x.term.pending, x.term.alive, x.term.sends⟩).alive = true then _ else _) = _
  by_cases h : (uiRounds (ui (2 * x.term.sends)) ⟨op.getD x.term.op, x.term.pending, x.term.alive, x.term.sends⟩).alive = true
  · rw [if_pos h, if_pos h]
    unfold Screen.send Screen.put
    simp [h]
  · rw [if_neg h, if_neg h]
    unfold Screen.send Screen.put
    simp [h]

theorem loopQ_none_keys (d : Sim T A S) (ui : Nat → Nat) (n : Nat) : ∀ (w : World T A S) (x : Screen),
    (loopQ d (fun k => List.replicate (ui k) false) n w x).1 = (loopT d ui n w x.term).1 ∧
    (loopQ d (fun k => List.replicate (ui k) false) n w x).2.1 = ⟨(loopT d ui n w x.term).2, x.user⟩ := by
  induction n with
  | zero => intro w x; exact ⟨rfl, rfl⟩
  | succ n ih =>
    intro w x
    rw [loopQ, loopT]
    simp only [postQ_none]
    by_cases h1 : (post ui (some .afterStep) x.term).2 = true
    · rw [if_pos h1, if_pos h1]
      by_cases hc : (check d (step d.model w)).1 = true
      · rw [if_pos hc, if_pos hc]
        exact ⟨rfl, rfl⟩
      · rw [if_neg hc, if_neg hc]
        exact ih _ ⟨(post ui (some .afterStep) x.term).1, x.user⟩
    · rw [if_neg h1, if_neg h1]
      exact ⟨rfl, rfl⟩

theorem repsQ_none_keys (d : Sim T A S) (ui : Nat → Nat) (n m : Nat) : ∀ (r : Nat) (s : S) (x : Screen),
    (repsQ d (fun k => List.replicate (ui k) false) n r m s x).1 = runRepsT d ui n m s x.term := by
  induction m with
  | zero => intro r s x; rfl
  | succ m ih =>
    intro r s x
    rw [repsQ, runRepsT]
    simp only [postQ_none]
    by_cases h1 : (post ui (some .clear) x.term).2 = true
    · rw [if_pos h1, if_pos h1]
      have hl := loopQ_none_keys d ui n (start d s) ⟨(post ui (some .clear) x.term).1, x.user⟩
      generalize loopQ d (fun k => List.replicate (ui k) false) n (start d s) ⟨(post ui (some .clear) x.term).1, x.user⟩ = p at hl ⊢
      obtain ⟨w, x1, did⟩ := p
      dsimp only at hl ⊢
      obtain ⟨rfl, rfl⟩ := hl
      dsimp only
      by_cases h2 : (post ui none (loopT d ui n (start d s) (post ui (some .clear) x.term).1).2).2 = true
      · rw [if_pos h2, if_pos h2]
        dsimp only
        rw [ih]
      · rw [if_neg h2, if_neg h2]
    · rw [if_neg h1, if_neg h1]

/-- **C233, what holds**: without keys this is the terminal of C87: the same repetitions, whatever its speed. -/
theorem C233_no_key_partial (d : Sim T A S) (ui : Nat → Nat) (n reps : Nat) (s : S) :
    (simulateQ d (fun k => List.replicate (ui k) false) n reps s).1 = runRepsT d ui n reps s Term.new :=
  repsQ_none_keys d ui n reps 0 s Screen.new

end Verif.Driver
