import Verif.Props.MachineSame
import Verif.Props.Watchers

/-!
C266 with the times of the code (src/engine/schedule.rs:227-413, src/engine/priority.rs:22-38): agents that only watch do not disturb the simulation.
-/

namespace Verif.MachineSchedule

open Machine (F lt)
open Schedule (Sched Model World Queue Entry Priority TieBreak Cmd Plan Still HooksSatisfy Unwatched Undisturbed others preStep ids)

variable {A S V : Type}

/-- No watcher runs ahead: if other agents are pending, every watcher is due when one of them is or later. -/
def NoneAheadF (watch : A → Bool) (q : Queue F A) : Prop :=
  others watch q ≠ [] → ∀ e ∈ q, ∃ f ∈ others watch q, lt e.2.time f.2.time = false

attribute [local instance] order

/-- **C266 (machine floats).** (Partial: without NaN.) As `C266_watchers_partial`, if neither the program nor the hooks schedule anything at NaN; infinite
times are allowed. -/
theorem C266_machine_partial {rnd : Rat → Rat} (see : S → V) (watch : A → Bool) (m : Model F A S) (m' : Model F A V) (hadv : m.adv = advance rnd)
    (hm : Unwatched see watch m m') (hh : HooksSatisfy m (fun _ c => c.avoids (· = .nan))) (hh' : HooksSatisfy m' (fun _ c => c.avoids (· = .nan)))
    (z : F) (s : S) (l : List (Plan F A)) (hl : ∀ p ∈ l, p.time ≠ .nan) (n : Nat)
    (hd : ∀ k < n, ((others watch (preStep m (steps m k ((World.start z s).execAll (Plan.calls l)))).sched.events).map (fun e => e.2)).Nodup)
    (ha : ∀ k < n, NoneAheadF watch (preStep m (steps m k ((World.start z s).execAll (Plan.calls l)))).sched.events) :
    Undisturbed see watch (steps m n ((World.start z s).execAll (Plan.calls l)))
      (steps m' n ((World.start z (see s)).execAll (Plan.calls (l.filter (fun p => !watch p.agent))))) ∧
    (∀ k < n, others watch (preStep m (steps m k ((World.start z s).execAll (Plan.calls l)))).sched.events ≠ [] →
      (steps m' (k + 1) ((World.start z (see s)).execAll (Plan.calls (l.filter (fun p => !watch p.agent))))).sched.time =
        (steps m (k + 1) ((World.start z s).execAll (Plan.calls l))).sched.time) := by
  have h1 := plans_fresh hl z s
  have h2 := plans_fresh (l := l.filter (fun p => !watch p.agent)) (fun p hp => hl p (List.mem_of_mem_filter hp)) z (see s)
  have e1 := fun k => steps_eq m hadv hh k _ h1.1 h1.2
  have e2 := fun k => steps_eq m' (hm.adv.trans hadv) hh' k _ h2.1 h2.2
  have nn : ∀ k, (ids (Schedule.steps m k ((World.start z s).execAll (Plan.calls l))).sched.events).Nodup ∧
      NoNan (Schedule.steps m k ((World.start z s).execAll (Plan.calls l))).sched.events := by
    intro k
    induction k with
    | zero => exact h1
    | succ k ih =>
      rw [Schedule.steps_succ']
      exact ⟨Schedule.step_nodup m _ ih.1, noNan_step m hadv hh _ ih.1 ih.2⟩
  have := Schedule.C266_watchers_partial see watch m m' hm z s l n (fun k hk => by rw [← e1]; exact hd k hk) (fun k hk hne e he => by
    have g := ha k hk
    rw [e1] at g
    obtain ⟨f, hf, hlt⟩ := g hne e he
    have p := noNan_preStep m hh _ (nn k).2
    rw [lt_eq (p e he) (p f (List.mem_of_mem_filter hf))] at hlt
    exact ⟨f, hf, not_lt.1 (of_decide_eq_false hlt)⟩)
  rw [e1, e2]
  refine ⟨this.1, fun k hk ho => ?_⟩
  rw [e1] at ho ⊢
  rw [e2]
  exact this.2 k hk ho

/-- **C266 (machine floats, all agents start together).** (Partial: without NaN.) -/
theorem C266_machine_together_partial {rnd : Rat → Rat} (see : S → V) (watch : A → Bool) (m : Model F A S) (m' : Model F A V) (hadv : m.adv = advance rnd)
    (hm : Unwatched see watch m m') (hs : Still m) (hs' : Still m') (z t : F) (hnan : t ≠ .nan) (s : S) (l : List (Plan F A)) (ht : ∀ p ∈ l, p.time = t)
    (ho : ((l.filter (fun p => !watch p.agent)).map (fun p => p.ordering)).Nodup) (n : Nat) :
    Undisturbed see watch (steps m n ((World.start z s).execAll (Plan.calls l)))
      (steps m' n ((World.start z (see s)).execAll (Plan.calls (l.filter (fun p => !watch p.agent))))) := by
  have hl : ∀ p ∈ l, p.time ≠ .nan := fun p hp => by rw [ht p hp]; exact hnan
  have hh : HooksSatisfy m (fun _ c => c.avoids (· = .nan)) := fun s sch => by
    rw [hs.2.2.1, hs.2.2.2]
    exact ⟨trivial, trivial⟩
  have hh' : HooksSatisfy m' (fun _ c => c.avoids (· = .nan)) := fun s sch => by
    rw [hs'.2.2.1, hs'.2.2.2]
    exact ⟨trivial, trivial⟩
  have h1 := plans_fresh hl z s
  have h2 := plans_fresh (l := l.filter (fun p => !watch p.agent)) (fun p hp => hl p (List.mem_of_mem_filter hp)) z (see s)
  rw [steps_eq m hadv hh n _ h1.1 h1.2, steps_eq m' (hm.adv.trans hadv) hh' n _ h2.1 h2.2]
  exact Schedule.C266_together_partial see watch m m' hm hs hs' z t s l ht ho n

namespace DemoMachineWatchers

/-- Agents below 100 write their names on a list; the others write down how many names are there, and the list of notes is theirs. -/
def watched (tb : TieBreak F Nat) : Model F Nat (List Nat × List Nat) where
  update := fun _ s => s
  beforeStep := fun s _ => (s, [])
  afterStep := fun s _ => (s, [])
  aBefore := fun a s => (a, s)
  aStep := fun a s => if 100 ≤ a then (a, s.1, s.2 ++ [s.1.length]) else (a, s.1 ++ [a], s.2)
  aAfter := fun a s => (a, s)
  isStopped := fun a s => (false, a, s)
  adv := advance Single.single
  tb := tb

/-- The same without watchers. -/
def unwatched (tb : TieBreak F Nat) : Model F Nat (List Nat) where
  update := fun _ s => s
  beforeStep := fun s _ => (s, [])
  afterStep := fun s _ => (s, [])
  aBefore := fun a s => (a, s)
  aStep := fun a s => (a, s ++ [a])
  aAfter := fun a s => (a, s)
  isStopped := fun a s => (false, a, s)
  adv := advance Single.single
  tb := tb

theorem fits (tb tb' : TieBreak F Nat) : Unwatched Prod.fst (fun a => decide (100 ≤ a)) (watched tb) (unwatched tb') := by
  refine ⟨rfl, fun _ _ => rfl, fun _ _ _ => ⟨[], rfl, rfl⟩, fun _ _ _ => ⟨[], rfl, rfl⟩, fun _ _ _ => rfl, fun a s ha => ?_, fun _ _ _ => rfl, fun _ _ _ => rfl,
    fun a s => ⟨rfl, ?_, rfl, rfl⟩, fun a s ha => ⟨rfl, ?_, rfl, rfl⟩⟩
  · have : ¬ 100 ≤ a := by simpa using ha
    show _ = ((if 100 ≤ a then _ else _ : Nat × List Nat × List Nat).1, (if 100 ≤ a then _ else _ : Nat × List Nat × List Nat).2.1)
    rw [if_neg this]
    rfl
  · show decide (100 ≤ (if 100 ≤ a then _ else _ : Nat × List Nat × List Nat).1) = _
    by_cases h : 100 ≤ a
    · rw [if_pos h]
    · rw [if_neg h]
  · have : 100 ≤ a := by simpa using ha
    show (if 100 ≤ a then _ else _ : Nat × List Nat × List Nat).2.1 = _
    rw [if_pos this]

theorem still (tb : TieBreak F Nat) : Still (watched tb) := ⟨fun _ _ _ => rfl, fun _ _ _ => rfl, fun _ _ => rfl, fun _ _ => rfl⟩

theorem still' (tb : TieBreak F Nat) : Still (unwatched tb) := ⟨fun _ _ _ => rfl, fun _ _ _ => rfl, fun _ _ => rfl, fun _ _ => rfl⟩

/-- Two watchers, one of them tied with an agent. -/
def plan : List (Plan F Nat) := [⟨7, .fin (1 / 2), 3⟩, ⟨100, .fin (1 / 2), 3⟩, ⟨9, .fin (1 / 2), 1⟩, ⟨101, .fin (1 / 2), 2⟩]

end DemoMachineWatchers

open DemoMachineWatchers in
/-- A case that meets the hypotheses of both theorems. -/
example : Unwatched Prod.fst (fun a => decide (100 ≤ a)) (watched (fun _ q => q.length)) (unwatched (fun _ _ => 0)) ∧
    (∀ p ∈ plan, p.time = .fin (1 / 2)) ∧ ((plan.filter (fun p => !decide (100 ≤ p.agent))).map (fun p => p.ordering)).Nodup ∧
    (steps (watched (fun _ q => q.length)) 3 ((World.start (.fin 0) ([], [])).execAll (Plan.calls plan))).state = ([9, 7, 9, 7, 9, 7], [1, 2, 3, 4, 5, 6]) ∧
    (steps (unwatched (fun _ _ => 0)) 3 ((World.start (.fin 0) []).execAll (Plan.calls (plan.filter (fun p => !decide (100 ≤ p.agent)))))).state = [9, 7, 9, 7, 9, 7] :=
  ⟨fits _ _, by decide +kernel, by decide, by decide +kernel, by decide +kernel⟩

/-- **C266** is false of a watcher scheduled at NaN, which is not due before any other agent: once it is at the root of the heap the clock is NaN, and agents that are due
later run in the same step. -/
theorem C266_nan_negation_partial : ∃ (m : Model F Nat (List Nat × List Nat)) (m' : Model F Nat (List Nat)) (watch : Nat → Bool) (l : List (Plan F Nat)),
    m.adv = advance Single.single ∧ Unwatched Prod.fst watch m m' ∧ Still m ∧ Still m' ∧ ((l.filter (fun p => !watch p.agent)).map (fun p => p.ordering)).Nodup ∧
    NoneAheadF watch (preStep m ((World.start (.fin 0) ([], [])).execAll (Plan.calls l))).sched.events ∧
    (steps m 1 ((World.start (.fin 0) ([], [])).execAll (Plan.calls l))).state.1 = [7, 9] ∧
    (steps m' 1 ((World.start (.fin 0) []).execAll (Plan.calls (l.filter (fun p => !watch p.agent))))).state = [7] := by
  refine ⟨DemoMachineWatchers.watched (fun _ _ => 2), DemoMachineWatchers.unwatched (fun _ _ => 2), fun a => decide (100 ≤ a),
    [⟨7, .fin 0, 3⟩, ⟨9, .fin 5, 4⟩, ⟨100, .nan, 5⟩], rfl, DemoMachineWatchers.fits _ _, DemoMachineWatchers.still _, DemoMachineWatchers.still' _, by decide, ?_,
    by decide +kernel, by decide +kernel⟩
  intro _ e he
  have h : (preStep (DemoMachineWatchers.watched (fun _ _ => 2)) ((World.start (.fin 0) ([], [])).execAll
      (Plan.calls [⟨7, .fin 0, 3⟩, ⟨9, .fin 5, 4⟩, ⟨100, .nan, 5⟩]))).sched.events =
      [(⟨0, 7, true⟩, ⟨.fin 0, 3⟩), (⟨1, 9, true⟩, ⟨.fin 5, 4⟩), (⟨2, 100, true⟩, ⟨.nan, 5⟩)] := rfl
  rw [h] at he ⊢
  refine ⟨(⟨0, 7, true⟩, ⟨.fin 0, 3⟩), by decide, ?_⟩
  revert e
  decide

end Verif.MachineSchedule
