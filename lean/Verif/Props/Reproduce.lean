import Verif.Spec.Reproduce
import Verif.Props.ParallelSchedule

/-!
Properties of the agents returned by `before_step` and `after_step` (C223).
-/

namespace Verif.Reproduce

open Schedule

variable {T A S : Type} [LinearOrder T]

omit [LinearOrder T] in
theorem runOne_plain (h : Hooks T A S) : runOne h = Schedule.runOne h.plain := rfl

theorem step_plain (h : Hooks T A S) (w : World T A S) : step h w = Schedule.step h.plain w := rfl

theorem steps_plain (h : Hooks T A S) (n : Nat) : ∀ w : World T A S, steps h n w = Schedule.steps h.plain n w := by
  induction n with
  | zero => intro w; rfl
  | succ n ih => intro w; rw [steps, ih, Schedule.steps, step_plain]

theorem par_plain (h : Hooks T A S) (k : Nat) (w w' : World T A S) : ParStepOk h k w w' ↔ ParStep h.plain k w (.ok w') := by
  constructor
  · rintro ⟨hk, top, seq, h1, h2, rfl⟩
    exact .ok hk h1 h2
  · intro hs
    cases hs with
    | ok hk h1 h2 => exact ⟨hk, _, _, h1, h2, rfl⟩

omit [LinearOrder T] in
theorem plain_alike {h h' : Hooks T A S} (ha : Alike h h') : h.plain = h'.plain := by
  obtain ⟨h1, h2, h3, h4, h5, h6, h7, h8, h9⟩ := ha
  have e4 : (fun a s => (h.aBefore a s).1) = fun a s => (h'.aBefore a s).1 := by funext a s; exact h4 a s
  have e6 : (fun a s => (h.aAfter a s).1) = fun a s => (h'.aAfter a s).1 := by funext a s; exact h6 a s
  unfold Hooks.plain
  rw [h1, h2, h3, e4, h5, e6, h7, h8, h9]

/-- **C223**, what agents return makes no difference: two programs that differ in nothing else are in the same world after every
number of steps, and can make the same parallel steps. -/
theorem C223_ignored_partial {h h' : Hooks T A S} (ha : Alike h h') :
    (∀ n w, steps h n w = steps h' n w) ∧ ∀ k w w', ParStepOk h k w w' ↔ ParStepOk h' k w w' := by
  refine ⟨fun n w => ?_, fun k w w' => ?_⟩
  · rw [steps_plain, steps_plain, plain_alike ha]
  · rw [par_plain, par_plain, plain_alike ha]

omit [LinearOrder T] in
theorem quiet_pre {h : Hooks T A S} (hq : Quiet h) (w : World T A S) : (preStep h.plain w).sched = w.sched := by
  unfold preStep World.doBefore
  have : ∀ s c, (h.plain.beforeStep s c).2 = [] := hq.1
  dsimp only
  rw [this]
  by_cases h0 : w.sched.step = 0
  · rw [if_pos h0]; rfl
  · rw [if_neg h0]; rfl

omit [LinearOrder T] in
theorem quiet_post {h : Hooks T A S} (hq : Quiet h) (w : World T A S) :
    (postStep h.plain w).sched.events = w.sched.events ∧ (postStep h.plain w).sched.idCount = w.sched.idCount := by
  unfold postStep World.doAfter
  have : ∀ s c, (h.plain.afterStep s c).2 = [] := hq.2
  dsimp only
  rw [this]
  exact ⟨rfl, rfl⟩

omit [LinearOrder T] in
theorem turns_ids {m : Model T A S} {s s' : S} {l k : List (Entry T A)} (ht : Turns m s l s' k) : ∀ i ∈ ids k, i ∈ ids l := by
  induction ht with
  | nil s => intro i h; exact h
  | oneShot _ _ ih => intro i h; exact List.mem_cons_of_mem _ (ih i h)
  | stopped _ _ _ ih => intro i h; exact List.mem_cons_of_mem _ (ih i h)
  | goesOn _ _ _ ih =>
    intro i h
    rcases List.mem_cons.1 h with rfl | h
    · exact List.mem_cons_self
    · exact List.mem_cons_of_mem _ (ih i h)

theorem step_ids {h : Hooks T A S} (hq : Quiet h) {w : World T A S} (hn : (ids w.sched.events).Nodup) :
    (∀ i ∈ ids (step h w).sched.events, i ∈ ids w.sched.events) ∧ (step h w).sched.idCount = w.sched.idCount := by
  obtain ⟨t, ran, kept, _, _, _, h1, _, h2, h3, _, _, h4, _⟩ := midStep_spec h.plain w (preStep_nodup h.plain w hn)
  rw [quiet_pre hq] at h1 h3 h4
  rw [step_plain]
  have hp := quiet_post hq (midStep h.plain w)
  refine ⟨?_, hp.2.trans h4⟩
  intro i hi
  have hi : i ∈ ids (postStep h.plain (midStep h.plain w)).sched.events := hi
  rw [hp.1, h3] at hi
  unfold ids at hi
  rw [List.map_append, List.mem_append] at hi
  rcases hi with hi | hi
  · obtain ⟨e, he, rfl⟩ := List.mem_map.1 hi
    exact List.mem_map_of_mem (List.mem_filter.1 he).1
  · have := turns_ids h2 i hi
    obtain ⟨e, he, rfl⟩ := List.mem_map.1 this
    exact List.mem_map_of_mem (List.mem_filter.1 (h1.mem_iff.1 he)).1

/-- **C223**, whatever the agents return, nobody is added: if the hooks of the state make no calls, after every number of steps only
agents are pending that were pending at the start, and no number has been given out. -/
theorem C223_nobody_new_partial {h : Hooks T A S} (hq : Quiet h) (n : Nat) {w : World T A S} (hn : (ids w.sched.events).Nodup) :
    (∀ i ∈ ids (steps h n w).sched.events, i ∈ ids w.sched.events) ∧ (steps h n w).sched.idCount = w.sched.idCount := by
  induction n generalizing w with
  | zero => exact ⟨fun i hi => hi, rfl⟩
  | succ n ih =>
    obtain ⟨h1, h2⟩ := step_ids hq hn
    obtain ⟨k1, k2⟩ := ih (w := step h w) (by rw [step_plain]; exact step_nodup _ _ hn)
    exact ⟨fun i hi => h1 i (k1 i hi), k2.trans h2⟩

/-- **C223**, the same for a step with the feature `parallel`. -/
theorem C223_parallel_nobody_new_partial {h : Hooks T A S} (hq : Quiet h) {k : Nat} {w w' : World T A S}
    (hn : (ids w.sched.events).Nodup) (hs : ParStepOk h k w w') : ∀ i ∈ ids w'.sched.events, i ∈ ids w.sched.events := by
  obtain ⟨seq, h1, _, _, top, goOn, h2, h3, h4⟩ := parStep_runs_nodup h.plain k w w' hn ((par_plain h k w w').1 hs)
  rw [quiet_pre hq] at h1
  intro i hi
  rw [h4, (quiet_post hq _).1, h3] at hi
  have := turns_ids h2 i hi
  obtain ⟨e, he, rfl⟩ := List.mem_map.1 this
  exact List.mem_map_of_mem (h1.mem_iff.1 he)

/-! ### Concrete cases -/

/-- A bacterium counts its steps; after each it returns a clone that is to start at zero, with ordering 5, repeating. -/
def bacterium : Hooks Nat (Nat × Nat) Unit :=
  { update := fun _ s => s
    beforeStep := fun s _ => (s, [])
    afterStep := fun s _ => (s, [])
    aBefore := fun a s => ((a, s), none)
    aStep := fun a s => ((a.1, a.2 + 1), s)
    aAfter := fun a s => ((a, s), some [((a.1 + 1, 0), ⟨5, true⟩)])
    isStopped := fun a s => (false, a, s)
    adv := (· + 1)
    tb := fun _ _ => 0 }

/-- One bacterium, due now. -/
def dish : World Nat (Nat × Nat) Unit := { state := (), sched := (Sched.new 0).scheduleRepeating (1, 0) 0 0 |>.1, trace := [] }

example : Quiet bacterium ∧ (ids dish.sched.events).Nodup := ⟨⟨fun _ _ => rfl, fun _ _ => rfl⟩, by decide⟩

/-- **C223** is false: the bacterium returns a child in its turn, and neither after the step nor after the next nine is it scheduled. -/
theorem C223_not_scheduled_partial :
    offspring bacterium (1, 0) () = [((2, 0), ⟨5, true⟩)] ∧
    runsOf (since dish (step bacterium dish)) = [(0, ⟨0, 0⟩)] ∧
    (∀ n < 10, ¬ Scheduled (steps bacterium (n + 1) dish) ((2, 0), ⟨5, true⟩)) ∧
    (steps bacterium 10 dish).sched.events.map (fun e => e.1.agent) = [(1, 10)] := by
  refine ⟨rfl, by decide +kernel, ?_, by decide +kernel⟩
  intro n hn h
  obtain ⟨e, he, h1, _, _⟩ := h
  have key : ∀ n < 10, ∀ e ∈ (steps bacterium (n + 1) dish).sched.events, e.1.agent ≠ (2, 0) := by decide +kernel
  exact key n hn e he h1

/-- **C223**, so it is not the case that what agents return is scheduled. -/
theorem C223_false_partial : ¬ ∀ (h : Hooks Nat (Nat × Nat) Unit) (w : World Nat (Nat × Nat) Unit) (e : Entry Nat (Nat × Nat)),
    w.sched.events = [e] → ∀ c ∈ offspring h e.1.agent (preStep h.plain w).state, Scheduled (step h w) c := by
  intro hall
  have := hall bacterium dish (⟨0, (1, 0), true⟩, ⟨0, 0⟩) (by decide +kernel) ((2, 0), ⟨5, true⟩) (by decide +kernel)
  exact C223_not_scheduled_partial.2.2.1 0 (by omega) this

/-- Two programs that differ in what the agents return. -/
example : Alike bacterium { bacterium with aAfter := fun a s => ((a, s), none) } ∧
    offspring { bacterium with aAfter := fun a s => ((a, s), none) } (1, 0) () = [] :=
  ⟨⟨rfl, rfl, rfl, fun _ _ => rfl, rfl, fun _ _ => rfl, rfl, rfl, rfl⟩, rfl⟩

/-- A parallel step of the bacterium with two threads exists, so the parallel statement is not empty. -/
example : ∃ w', ParStepOk bacterium 2 dish w' := by
  obtain ⟨w', h⟩ := parStep_exists bacterium.plain 2 (by omega) dish (by decide +kernel)
  exact ⟨w', (par_plain _ _ _ _).2 h⟩

end Verif.Reproduce
