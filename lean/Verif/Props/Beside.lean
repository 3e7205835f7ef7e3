import Verif.Spec.Beside
import Verif.Props.Watchers

/-!
C279: two models on one schedule do not disturb each other.
-/

namespace Verif.Schedule

variable {T A S V : Type} {first : A → Bool} {tb : TieBreak T A} {m₁ : Model T A S} {m₂ : Model T A V}

theorem filter_all {l : List (Plan T A)} {p : Plan T A → Bool} (h : ∀ x ∈ l, p x = true) : l.filter p = l := List.filter_eq_self.2 h

theorem filter_none {l : List (Plan T A)} {p : Plan T A → Bool} (h : ∀ x ∈ l, p x = false) : l.filter p = [] :=
  List.filter_eq_nil_iff.2 (fun x hx => by rw [h x hx]; simp)

theorem calls_append (l l' : List (Plan T A)) : Plan.calls l ++ Plan.calls l' = Plan.calls (l ++ l') := by
  unfold Plan.calls
  rw [List.map_append]

theorem besides_stays (h₁ : Closed first m₁) (h₂ : Closed (fun a => !first a) m₂) (a : A) (s : S × V) :
    first ((beside first tb m₁ m₂).aBefore a s).1 = first a ∧ first ((beside first tb m₁ m₂).aStep a s).1 = first a ∧ first ((beside first tb m₁ m₂).aAfter a s).1 = first a ∧
      first ((beside first tb m₁ m₂).isStopped a s).2.1 = first a := by
  unfold beside
  dsimp only
  by_cases ha : first a = true
  · simp only [ha]
    exact h₁.stays a s.1 ha
  · have ha' : first a = false := by simpa using ha
    simp only [ha']
    have := h₂.stays a s.2 (by simp [ha'])
    simpa using this

theorem first_alone (h₁ : Closed first m₁) (h₂ : Closed (fun a => !first a) m₂) : Unwatched Prod.fst (fun a => !first a) (beside first tb m₁ m₂) m₁ where
  adv := rfl
  update := fun _ _ => rfl
  before := by
    intro s sch sch'
    obtain ⟨s1, l1, hl1, e1⟩ := h₁.before s.1
    obtain ⟨s2, l2, hl2, e2⟩ := h₂.before s.2
    refine ⟨l1 ++ l2, ?_, ?_⟩
    · show (m₁.beforeStep s.1 sch).2 ++ (m₂.beforeStep s.2 sch).2 = _
      rw [e1, e2, calls_append]
    · show m₁.beforeStep s.1 sch' = ((m₁.beforeStep s.1 sch).1, _)
      rw [e1, e1, List.filter_append, filter_all (fun p hp => by simp [hl1 p hp]), filter_none (fun p hp => by simpa using hl2 p hp), List.append_nil]
  after := by
    intro s sch sch'
    obtain ⟨s1, l1, hl1, e1⟩ := h₁.after s.1
    obtain ⟨s2, l2, hl2, e2⟩ := h₂.after s.2
    refine ⟨l1 ++ l2, ?_, ?_⟩
    · show (m₁.afterStep s.1 sch).2 ++ (m₂.afterStep s.2 sch).2 = _
      rw [e1, e2, calls_append]
    · show m₁.afterStep s.1 sch' = ((m₁.afterStep s.1 sch).1, _)
      rw [e1, e1, List.filter_append, filter_all (fun p hp => by simp [hl1 p hp]), filter_none (fun p hp => by simpa using hl2 p hp), List.append_nil]
  aBefore := by
    intro a s ha
    have ha' : first a = true := by simpa using ha
    unfold beside
    simp only [if_pos ha']
  aStep := by
    intro a s ha
    have ha' : first a = true := by simpa using ha
    unfold beside
    simp only [if_pos ha']
  aAfter := by
    intro a s ha
    have ha' : first a = true := by simpa using ha
    unfold beside
    simp only [if_pos ha']
  isStopped := by
    intro a s ha
    have ha' : first a = true := by simpa using ha
    unfold beside
    simp only [if_pos ha']
  stays := by
    intro a s
    obtain ⟨a1, a2, a3, a4⟩ := besides_stays (tb := tb) h₁ h₂ a s
    rw [a1, a2, a3, a4]
    exact ⟨rfl, rfl, rfl, rfl⟩
  watches := by
    intro a s ha
    have ha' : ¬ first a = true := by simpa using ha
    unfold beside
    simp only [if_neg ha']
    exact ⟨trivial, trivial, trivial, trivial⟩

theorem second_alone (hadv : m₂.adv = m₁.adv) (h₁ : Closed first m₁) (h₂ : Closed (fun a => !first a) m₂) : Unwatched Prod.snd first (beside first tb m₁ m₂) m₂ where
  adv := hadv
  update := fun _ _ => rfl
  before := by
    intro s sch sch'
    obtain ⟨s1, l1, hl1, e1⟩ := h₁.before s.1
    obtain ⟨s2, l2, hl2, e2⟩ := h₂.before s.2
    refine ⟨l1 ++ l2, ?_, ?_⟩
    · show (m₁.beforeStep s.1 sch).2 ++ (m₂.beforeStep s.2 sch).2 = _
      rw [e1, e2, calls_append]
    · show m₂.beforeStep s.2 sch' = ((m₂.beforeStep s.2 sch).1, _)
      rw [e2, e2, List.filter_append, filter_none (fun p hp => by simp [hl1 p hp]), filter_all (fun p hp => by simpa using hl2 p hp), List.nil_append]
  after := by
    intro s sch sch'
    obtain ⟨s1, l1, hl1, e1⟩ := h₁.after s.1
    obtain ⟨s2, l2, hl2, e2⟩ := h₂.after s.2
    refine ⟨l1 ++ l2, ?_, ?_⟩
    · show (m₁.afterStep s.1 sch).2 ++ (m₂.afterStep s.2 sch).2 = _
      rw [e1, e2, calls_append]
    · show m₂.afterStep s.2 sch' = ((m₂.afterStep s.2 sch).1, _)
      rw [e2, e2, List.filter_append, filter_none (fun p hp => by simp [hl1 p hp]), filter_all (fun p hp => by simpa using hl2 p hp), List.nil_append]
  aBefore := by
    intro a s ha
    unfold beside
    simp only [ha]
    rfl
  aStep := by
    intro a s ha
    unfold beside
    simp only [ha]
    rfl
  aAfter := by
    intro a s ha
    unfold beside
    simp only [ha]
    rfl
  isStopped := by
    intro a s ha
    unfold beside
    simp only [ha]
    rfl
  stays := fun a s => besides_stays h₁ h₂ a s
  watches := by
    intro a s ha
    unfold beside
    simp only [if_pos ha]
    exact ⟨trivial, trivial, trivial, trivial⟩

/-- **C279.** Full statement: two models on one schedule go through the steps that each goes through on a schedule of its own. Proved if no two agents of one model share time and ordering and in no
step the agents of one model are all due later than an agent of the other; agents of different models may tie. -/
theorem C279_two_models_partial [LinearOrder T] (hadv : m₂.adv = m₁.adv) (h₁ : Closed first m₁) (h₂ : Closed (fun a => !first a) m₂) (z : T) (s : S) (v : V) (l : List (Plan T A)) (n : Nat)
    (hd : ∀ k < n, ∀ b : Bool, ((others (fun a => first a == b) (preStep (beside first tb m₁ m₂) (steps (beside first tb m₁ m₂) k ((World.start z (s, v)).execAll (Plan.calls l)))).sched.events).map
      (fun e => e.2)).Nodup)
    (ha : ∀ k < n, ∀ b : Bool, NoneAhead (fun a => first a == b) (preStep (beside first tb m₁ m₂) (steps (beside first tb m₁ m₂) k ((World.start z (s, v)).execAll (Plan.calls l)))).sched.events) :
    Undisturbed Prod.fst (fun a => !first a) (steps (beside first tb m₁ m₂) n ((World.start z (s, v)).execAll (Plan.calls l)))
      (steps m₁ n ((World.start z s).execAll (Plan.calls (l.filter (fun p => first p.agent))))) ∧
    Undisturbed Prod.snd first (steps (beside first tb m₁ m₂) n ((World.start z (s, v)).execAll (Plan.calls l)))
      (steps m₂ n ((World.start z v).execAll (Plan.calls (l.filter (fun p => !first p.agent))))) := by
  have et : (fun a => first a == true) = first := by funext a; cases first a <;> rfl
  have ef : (fun a => first a == false) = (fun a => !first a) := by funext a; cases first a <;> rfl
  have h1 := (C266_watchers_partial Prod.fst (fun a => !first a) (beside first tb m₁ m₂) m₁ (first_alone h₁ h₂) z (s, v) l n (fun k hk => by rw [← ef]; exact hd k hk false)
    (fun k hk => by rw [← ef]; exact ha k hk false)).1
  have h2 := (C266_watchers_partial Prod.snd first (beside first tb m₁ m₂) m₂ (second_alone hadv h₁ h₂) z (s, v) l n (fun k hk => by have := hd k hk true; rw [et] at this; exact this)
    (fun k hk => by have := ha k hk true; rw [et] at this; exact this)).1
  simp only [Bool.not_not] at h1
  exact ⟨h1, h2⟩

theorem still_beside (s₁ : Still m₁) (s₂ : Still m₂) : Still (beside first tb m₁ m₂) := by
  refine ⟨fun s sch sch' => ?_, fun s sch sch' => ?_, fun s sch => ?_, fun s sch => ?_⟩
  · show ((_, _), _) = ((_, _), _)
    rw [s₁.1 s.1 sch sch', s₂.1 s.2 sch sch']
  · show ((_, _), _) = ((_, _), _)
    rw [s₁.2.1 s.1 sch sch', s₂.2.1 s.2 sch sch']
  · show (m₁.beforeStep s.1 sch).2 ++ (m₂.beforeStep s.2 sch).2 = []
    rw [s₁.2.2.1, s₂.2.2.1]
    rfl
  · show (m₁.afterStep s.1 sch).2 ++ (m₂.afterStep s.2 sch).2 = []
    rw [s₁.2.2.2, s₂.2.2.2]
    rfl

/-- **C279 (all agents start together).** If all agents are scheduled for the same time, those of each model with orderings of their own, and the hooks make no calls, then neither model notices the
other, for any number of steps, whatever ends first. -/
theorem C279_together_partial [LinearOrder T] (hadv : m₂.adv = m₁.adv) (h₁ : Closed first m₁) (h₂ : Closed (fun a => !first a) m₂) (s₁ : Still m₁) (s₂ : Still m₂) (z t : T) (s : S) (v : V)
    (l : List (Plan T A)) (ht : ∀ p ∈ l, p.time = t) (ho : ((l.filter (fun p => first p.agent)).map (fun p => p.ordering)).Nodup)
    (ho' : ((l.filter (fun p => !first p.agent)).map (fun p => p.ordering)).Nodup) (n : Nat) :
    Undisturbed Prod.fst (fun a => !first a) (steps (beside first tb m₁ m₂) n ((World.start z (s, v)).execAll (Plan.calls l)))
      (steps m₁ n ((World.start z s).execAll (Plan.calls (l.filter (fun p => first p.agent))))) ∧
    Undisturbed Prod.snd first (steps (beside first tb m₁ m₂) n ((World.start z (s, v)).execAll (Plan.calls l)))
      (steps m₂ n ((World.start z v).execAll (Plan.calls (l.filter (fun p => !first p.agent))))) := by
  have h1 := C266_together_partial Prod.fst (fun a => !first a) (beside first tb m₁ m₂) m₁ (first_alone h₁ h₂) (still_beside s₁ s₂) s₁ z t (s, v) l ht (by simpa only [Bool.not_not] using ho) n
  have h2 := C266_together_partial Prod.snd first (beside first tb m₁ m₂) m₂ (second_alone hadv h₁ h₂) (still_beside s₁ s₂) s₂ z t (s, v) l ht ho' n
  simp only [Bool.not_not] at h1
  exact ⟨h1, h2⟩

namespace DemoBeside

/-- Agents write their names on a list and stop when it has as many names as this. -/
def names (most : Nat) (tb : TieBreak Nat Nat) : Model Nat Nat (List Nat) where
  update := fun _ s => s
  beforeStep := fun s _ => (s, [])
  afterStep := fun s _ => (s, [])
  aBefore := fun a s => (a, s)
  aStep := fun a s => (a, s ++ [a])
  aAfter := fun a s => (a, s)
  isStopped := fun a s => (decide (most ≤ s.length), a, s)
  adv := fun t => t + 2
  tb := tb

theorem closed (mine : Nat → Bool) (most : Nat) (tb : TieBreak Nat Nat) : Closed mine (names most tb) :=
  ⟨fun s => ⟨s, [], by simp, fun _ => rfl⟩, fun s => ⟨s, [], by simp, fun _ => rfl⟩, fun _ _ h => ⟨h, h, h, h⟩⟩

theorem still (most : Nat) (tb : TieBreak Nat Nat) : Still (names most tb) := ⟨fun _ _ _ => rfl, fun _ _ _ => rfl, fun _ _ => rfl, fun _ _ => rfl⟩

/-- Two agents of each model, two of them tied. -/
def plan : List (Plan Nat Nat) := [⟨7, 0, 3⟩, ⟨100, 0, 3⟩, ⟨9, 0, 1⟩, ⟨101, 0, 2⟩]

end DemoBeside

open DemoBeside in
/-- A case that meets the hypotheses: the first model ends, the second goes on. -/
example : Closed (fun a => decide (a < 100)) (names 3 (fun _ _ => 0)) ∧ Closed (fun a => !decide (a < 100)) (names 6 (fun _ _ => 0)) ∧
    (∀ p ∈ plan, p.time = 0) ∧ ((plan.filter (fun p => decide (p.agent < 100))).map (fun p => p.ordering)).Nodup ∧ ((plan.filter (fun p => !decide (p.agent < 100))).map (fun p => p.ordering)).Nodup ∧
    (steps (beside (fun a => decide (a < 100)) (fun _ q => q.length) (names 3 (fun _ _ => 0)) (names 6 (fun _ _ => 0))) 5 ((World.start 0 ([], [])).execAll (Plan.calls plan))).state =
      ([9, 7, 9, 7], [101, 100, 101, 100, 101, 100, 101]) :=
  ⟨closed _ _ _, closed _ _ _, by decide, by decide, by decide, by decide +kernel⟩

open DemoBeside in
/-- A case that meets the hypotheses of the theorem without the plan for one time: an agent of the second model is due later than the others. -/
example : ∀ k < 3, ∀ b : Bool,
    ((others (fun a => decide (a < 100) == b) (preStep (beside (fun a => decide (a < 100)) (fun _ q => q.length) (names 3 (fun _ _ => 0)) (names 6 (fun _ _ => 0)))
      (steps (beside (fun a => decide (a < 100)) (fun _ q => q.length) (names 3 (fun _ _ => 0)) (names 6 (fun _ _ => 0))) k ((World.start 0 ([], [])).execAll (Plan.calls (⟨102, 4, 2⟩ :: plan.take 3))))).sched.events).map
      (fun e => e.2)).Nodup ∧
    NoneAhead (fun a => decide (a < 100) == b) (preStep (beside (fun a => decide (a < 100)) (fun _ q => q.length) (names 3 (fun _ _ => 0)) (names 6 (fun _ _ => 0)))
      (steps (beside (fun a => decide (a < 100)) (fun _ q => q.length) (names 3 (fun _ _ => 0)) (names 6 (fun _ _ => 0))) k ((World.start 0 ([], [])).execAll (Plan.calls (⟨102, 4, 2⟩ :: plan.take 3))))).sched.events := by
  unfold NoneAhead
  decide +kernel

open DemoBeside in
/-- **C279 is false of models whose agents run at different times**: every step goes to the next time at which anything is pending, so in two steps on one schedule each model has gone one step only. -/
theorem C279_times_negation_partial : ∃ (m : Model Nat Nat (List Nat)) (first : Nat → Bool) (l : List (Plan Nat Nat)), Closed first m ∧ Closed (fun a => !first a) m ∧ Still m ∧
    ((l.filter (fun p => first p.agent)).map (fun p => p.ordering)).Nodup ∧ ((l.filter (fun p => !first p.agent)).map (fun p => p.ordering)).Nodup ∧
    (steps (beside first (fun _ _ => 0) m m) 2 ((World.start 0 ([], [])).execAll (Plan.calls l))).state = ([7], [100]) ∧
    (steps m 2 ((World.start 0 []).execAll (Plan.calls (l.filter (fun p => first p.agent))))).state = [7, 7] ∧
    (steps m 2 ((World.start 0 []).execAll (Plan.calls (l.filter (fun p => !first p.agent))))).state = [100, 100] :=
  ⟨names 6 (fun _ _ => 0), fun a => decide (a < 100), [⟨7, 0, 3⟩, ⟨100, 1, 3⟩], closed _ _ _, closed _ _ _, still _ _, by decide, by decide, by decide +kernel, by decide +kernel, by decide +kernel⟩

open DemoBeside in
/-- **C279 is false of agents of one model that share time and ordering**: an agent of the other model on the heap can turn their order round. -/
theorem C279_ties_negation_partial : ∃ (m : Model Nat Nat (List Nat)) (first : Nat → Bool) (l : List (Plan Nat Nat)), Closed first m ∧ Closed (fun a => !first a) m ∧ Still m ∧ (∀ p ∈ l, p.time = 0) ∧
    (steps (beside first m.tb m m) 1 ((World.start 0 ([], [])).execAll (Plan.calls l))).state = ([9, 7], [100]) ∧
    (steps m 1 ((World.start 0 []).execAll (Plan.calls (l.filter (fun p => first p.agent))))).state = [7, 9] :=
  ⟨names 6 (fun _ q => q.length), fun a => decide (a < 100), [⟨7, 0, 3⟩, ⟨9, 0, 3⟩, ⟨100, 0, 5⟩], closed _ _ _, closed _ _ _, still _ _, by decide, by decide +kernel, by decide +kernel⟩

end Verif.Schedule
