import Verif.Spec.Later
import Verif.Props.Watchers
import Verif.Props.ParWatchers

/-!
C283: what is scheduled for later does not influence the steps before.
-/

namespace Verif.Schedule

variable {T A S : Type}

/-- The simulation in which late agents do nothing when they run (a help for the proofs). -/
def asleep (late : A → Bool) (m : Model T A S) : Model T A S :=
  { m with
    aBefore := fun a s => if late a then (a, s) else m.aBefore a s
    aStep := fun a s => if late a then (a, s) else m.aStep a s
    aAfter := fun a s => if late a then (a, s) else m.aAfter a s
    isStopped := fun a s => if late a then (false, a, s) else m.isStopped a s }

theorem asleep_unwatched {late : A → Bool} {m m' : Model T A S} (h : WithoutLate late m m') : Unwatched (fun s : S => s) late (asleep late m) m' where
  adv := h.adv
  update := fun k s => by rw [h.update]; rfl
  before := h.before
  after := h.after
  aBefore := fun a s ha => by rw [(h.agents a s ha).1]; simp [asleep, ha]
  aStep := fun a s ha => by rw [(h.agents a s ha).2.1]; simp [asleep, ha]
  aAfter := fun a s ha => by rw [(h.agents a s ha).2.2.1]; simp [asleep, ha]
  isStopped := fun a s ha => by rw [(h.agents a s ha).2.2.2]; simp [asleep, ha]
  stays := fun a s => by
    cases ha : late a with
    | true => simp [asleep, ha]
    | false =>
      obtain ⟨h1, h2, h3, h4⟩ := h.stays a s ha
      simp [asleep, ha, h1, h2, h3, h4]
  watches := fun a s ha => by simp [asleep, ha]

theorem runOne_asleep {late : A → Bool} {m m' : Model T A S} (h : WithoutLate late m m') (w : World T A S) (e : Entry T A) (he : late e.1.agent = false) :
    runOne (asleep late m) w e = runOne m w e := by
  have h1 : (asleep late m).aBefore e.1.agent w.state = m.aBefore e.1.agent w.state := by simp [asleep, he]
  have l1 := (h.stays e.1.agent w.state he).1
  have h2 : ∀ s, (asleep late m).aStep (m.aBefore e.1.agent w.state).1 s = m.aStep (m.aBefore e.1.agent w.state).1 s := fun s => by simp [asleep, l1]
  have l2 := (h.stays _ (m.aBefore e.1.agent w.state).2 l1).2.1
  have h3 : ∀ s, (asleep late m).aAfter (m.aStep (m.aBefore e.1.agent w.state).1 (m.aBefore e.1.agent w.state).2).1 s =
      m.aAfter (m.aStep (m.aBefore e.1.agent w.state).1 (m.aBefore e.1.agent w.state).2).1 s := fun s => by simp [asleep, l2]
  have l3 := (h.stays _ (m.aStep (m.aBefore e.1.agent w.state).1 (m.aBefore e.1.agent w.state).2).2 l2).2.2.1
  have h4 : ∀ s, (asleep late m).isStopped (m.aAfter (m.aStep (m.aBefore e.1.agent w.state).1 (m.aBefore e.1.agent w.state).2).1
      (m.aStep (m.aBefore e.1.agent w.state).1 (m.aBefore e.1.agent w.state).2).2).1 s =
      m.isStopped (m.aAfter (m.aStep (m.aBefore e.1.agent w.state).1 (m.aBefore e.1.agent w.state).2).1
      (m.aStep (m.aBefore e.1.agent w.state).1 (m.aBefore e.1.agent w.state).2).2).1 s := fun s => by simp [asleep, l3]
  unfold runOne
  simp only [h1, h2, h3, h4]
  rfl

theorem popDue_due [LinearOrder T] (tb : TieBreak T A) : ∀ (fuel : Nat) (s : Sched T A), ∀ e ∈ (popDue tb fuel s).1, e ∈ s.events ∧ ¬ s.time < e.2.time
  | 0, _ => by simp [popDue]
  | fuel + 1, s => by
    rw [popDue]
    cases hp : s.events.peek tb s.pops with
    | none => simp
    | some top =>
      by_cases ht : s.time < top.2.time
      · simp [ht]
      · have hpop : s.events.pop tb s.pops = some (top, s.events.filter (fun f => f.1.id != top.1.id)) := by
          unfold Queue.pop
          rw [hp]
          rfl
        have hmem : top ∈ s.events := by
          unfold Queue.peek at hp
          exact List.mem_of_mem_filter (List.mem_of_getElem? hp)
        simp only [if_neg ht, hpop]
        intro e he
        rcases List.mem_cons.1 he with rfl | he
        · exact ⟨hmem, ht⟩
        · obtain ⟨h1, h2⟩ := popDue_due tb fuel _ e he
          exact ⟨List.mem_of_mem_filter h1, h2⟩

theorem peek_first [LinearOrder T] {tb : TieBreak T A} {n : Nat} {q : Queue T A} {top : Entry T A} (h : q.peek tb n = some top) : ∀ f ∈ q, ¬ f.2.time < top.2.time := by
  unfold Queue.peek at h
  have h1 := (List.mem_filter.1 (List.mem_of_getElem? h)).2
  intro f hf hlt
  have h2 := (List.all_eq_true.1 h1) f hf
  unfold Priority.cmp at h2
  rw [if_pos hlt] at h2
  exact absurd h2 (by decide)

theorem step_asleep [LinearOrder T] {late : A → Bool} {m m' : Model T A S} (h : WithoutLate late m m') (w : World T A S) (he : TooEarly late (preStep m w).sched.events) :
    step (asleep late m) w = step m w := by
  have hfold : ∀ (l : List (Entry T A)) (w : World T A S), (∀ e ∈ l, late e.1.agent = false) → l.foldl (runOne (asleep late m)) w = l.foldl (runOne m) w := by
    intro l
    induction l with
    | nil => exact fun _ _ => rfl
    | cons e l ih =>
      intro w hl
      rw [List.foldl_cons, List.foldl_cons, runOne_asleep h w e (hl e List.mem_cons_self)]
      exact ih _ (fun f hf => hl f (List.mem_cons_of_mem _ hf))
  have hdue : runDue (asleep late m) (preStep m w) = runDue m (preStep m w) := by
    unfold runDue
    show (match (preStep m w).sched.events.peek m.tb (preStep m w).sched.pops with | none => _ | some top => _) = _
    cases hp : (preStep m w).sched.events.peek m.tb (preStep m w).sched.pops with
    | none => rfl
    | some top =>
      refine hfold _ _ ?_
      intro e hm
      obtain ⟨h1, h2⟩ := popDue_due m.tb _ _ e hm
      cases hl : late e.1.agent with
      | false => rfl
      | true =>
        obtain ⟨f, hf, _, hlt⟩ := he e h1 hl
        exact absurd (lt_of_lt_of_le hlt (not_lt.1 h2)) (peek_first hp f hf)
  show postStep m (if (preStep m w).sched.events.isEmpty then preStep m w else runDue (asleep late m) (preStep m w)) =
    postStep m (if (preStep m w).sched.events.isEmpty then preStep m w else runDue m (preStep m w))
  rw [hdue]

theorem steps_last [LinearOrder T] (m : Model T A S) : ∀ (n : Nat) (w : World T A S), steps m (n + 1) w = step m (steps m n w)
  | 0, _ => rfl
  | n + 1, w => steps_last m n (step m w)

theorem steps_asleep [LinearOrder T] {late : A → Bool} {m m' : Model T A S} (h : WithoutLate late m m') (w : World T A S) :
    ∀ n, (∀ k < n, TooEarly late (preStep m (steps m k w)).sched.events) → steps (asleep late m) n w = steps m n w
  | 0, _ => rfl
  | n + 1, he => by
    rw [steps_last, steps_last, steps_asleep h w n (fun k hk => he k (Nat.lt_succ_of_lt hk)), step_asleep h _ (he n (Nat.lt_succ_self n))]

/-- **C283.** Full statement: what is scheduled for later does not influence the steps before (false of agents that share time and ordering, below). A simulation with late agents
and the same simulation without them: as long as another agent is due before each of the late ones, the state, the step counter, the clock and the other pending agents are
the same, whatever the late agents would do, provided no two of the other agents share time and ordering. -/
theorem C283_later_partial [LinearOrder T] (late : A → Bool) (m m' : Model T A S) (hm : WithoutLate late m m') (z : T) (s : S) (l : List (Plan T A)) (n : Nat)
    (hd : ∀ k < n, ((others late (preStep m (steps m k ((World.start z s).execAll (Plan.calls l)))).sched.events).map (fun e => e.2)).Nodup)
    (he : ∀ k < n, TooEarly late (preStep m (steps m k ((World.start z s).execAll (Plan.calls l)))).sched.events) :
    Undisturbed (fun s : S => s) late (steps m n ((World.start z s).execAll (Plan.calls l)))
      (steps m' n ((World.start z s).execAll (Plan.calls (l.filter (fun p => !late p.agent))))) ∧
    (∀ k < n, others late (preStep m (steps m k ((World.start z s).execAll (Plan.calls l)))).sched.events ≠ [] →
      (steps m' (k + 1) ((World.start z s).execAll (Plan.calls (l.filter (fun p => !late p.agent))))).sched.time =
        (steps m (k + 1) ((World.start z s).execAll (Plan.calls l))).sched.time) := by
  have e : ∀ k ≤ n, steps (asleep late m) k ((World.start z s).execAll (Plan.calls l)) = steps m k ((World.start z s).execAll (Plan.calls l)) :=
    fun k hk => steps_asleep hm _ k (fun j hj => he j (Nat.lt_of_lt_of_le hj hk))
  have ep : ∀ k < n, preStep (asleep late m) (steps (asleep late m) k ((World.start z s).execAll (Plan.calls l))) = preStep m (steps m k ((World.start z s).execAll (Plan.calls l))) := by
    intro k hk
    rw [e k (Nat.le_of_lt hk)]
    rfl
  have key := C266_watchers_partial (fun s : S => s) late (asleep late m) m' (asleep_unwatched hm) z s l n (fun k hk => by rw [ep k hk]; exact hd k hk) (fun k hk => by
    rw [ep k hk]
    intro _ f hf
    cases hl : late f.1.agent with
    | false => exact ⟨f, List.mem_filter.2 ⟨hf, by rw [hl]; rfl⟩, le_refl _⟩
    | true =>
      obtain ⟨g, hg, hgl, hlt⟩ := he k hk f hf hl
      exact ⟨g, List.mem_filter.2 ⟨hg, by rw [hgl]; rfl⟩, le_of_lt hlt⟩)
  refine ⟨?_, fun k hk ho => ?_⟩
  · rw [← e n (Nat.le_refl n)]
    exact key.1
  · have := key.2 k hk (by rw [ep k hk]; exact ho)
    rw [e (k + 1) hk] at this
    exact this

namespace DemoLater

/-- Agents write their number down; late agents, from 100, erase everything; nobody stops. -/
def model (tb : TieBreak Nat Nat) : Model Nat Nat (List Nat) where
  update := fun _ s => s
  beforeStep := fun s _ => (s, [])
  afterStep := fun s _ => (s, [])
  aBefore := fun a s => (a, s)
  aStep := fun a s => (a, if 100 ≤ a then [] else s ++ [a])
  aAfter := fun a s => (a, s)
  isStopped := fun a s => (false, a, s)
  adv := fun t => t + 1
  tb := tb

def isLate (a : Nat) : Bool := decide (100 ≤ a)

theorem without (tb tb' : TieBreak Nat Nat) : WithoutLate isLate (model tb) (model tb') where
  adv := rfl
  update := rfl
  before := fun _ _ _ => ⟨[], rfl, rfl⟩
  after := fun _ _ _ => ⟨[], rfl, rfl⟩
  agents := fun _ _ _ => ⟨rfl, rfl, rfl, rfl⟩
  stays := fun _ _ h => ⟨h, h, h, h⟩

end DemoLater

open DemoLater in
/-- An agent at 5 that would erase everything: three steps of two other agents, starting at 1, are not influenced. -/
example : (∀ k < 3, ((others isLate (preStep (model (fun _ _ => 0)) (steps (model (fun _ _ => 0)) k ((World.start 0 []).execAll (Plan.calls [⟨7, 1, 3⟩, ⟨8, 1, 4⟩, ⟨100, 5, 0⟩])))).sched.events).map
      (fun e => e.2)).Nodup) ∧
    (∀ k < 3, TooEarly isLate (preStep (model (fun _ _ => 0)) (steps (model (fun _ _ => 0)) k ((World.start 0 []).execAll (Plan.calls [⟨7, 1, 3⟩, ⟨8, 1, 4⟩, ⟨100, 5, 0⟩])))).sched.events) ∧
    (steps (model (fun _ _ => 0)) 3 ((World.start 0 []).execAll (Plan.calls [⟨7, 1, 3⟩, ⟨8, 1, 4⟩, ⟨100, 5, 0⟩]))).state = [7, 8, 7, 8, 7, 8] ∧
    (steps (model (fun _ _ => 0)) 5 ((World.start 0 []).execAll (Plan.calls [⟨7, 1, 3⟩, ⟨8, 1, 4⟩, ⟨100, 5, 0⟩]))).state = [7, 8] := by
  unfold TooEarly
  exact ⟨by decide +kernel, by decide +kernel, by decide +kernel, by decide +kernel⟩

open DemoLater in
/-- **C283** is false of agents that share time and ordering: an agent more on the heap, even for later, can turn their order round. -/
theorem C283_ties_negation_partial : ∃ (m m' : Model Nat Nat (List Nat)) (late : Nat → Bool) (l : List (Plan Nat Nat)),
    WithoutLate late m m' ∧ m'.tb = m.tb ∧ TooEarly late (preStep m ((World.start 0 []).execAll (Plan.calls l))).sched.events ∧
    (steps m 1 ((World.start 0 []).execAll (Plan.calls l))).state ≠
      (steps m' 1 ((World.start 0 []).execAll (Plan.calls (l.filter (fun p => !late p.agent))))).state := by
  refine ⟨model (fun _ q => q.length), model (fun _ q => q.length), isLate, [⟨7, 0, 3⟩, ⟨9, 0, 3⟩, ⟨100, 5, 5⟩], without _ _, rfl, ?_, by decide +kernel⟩
  unfold TooEarly
  decide +kernel

open DemoLater in
/-- **C283** ends where nothing else is pending: the clock jumps, and an agent at 5 runs in the first step. -/
theorem C283_jump_negation_partial : ∃ (m m' : Model Nat Nat (List Nat)) (late : Nat → Bool) (l : List (Plan Nat Nat)),
    WithoutLate late m m' ∧ (∀ p ∈ l, late p.agent = true → p.time = 5) ∧
    (steps m 1 ((World.start 0 [1]).execAll (Plan.calls l))).state ≠
      (steps m' 1 ((World.start 0 [1]).execAll (Plan.calls (l.filter (fun p => !late p.agent))))).state :=
  ⟨model (fun _ _ => 0), model (fun _ _ => 0), isLate, [⟨100, 5, 5⟩], without _ _, by decide, by decide +kernel⟩

open DemoLater in
/-- **C283 is false under the feature `parallel`**: a parallel step runs all pending agents, whatever their times, and so an agent at 5 in the step at 1. -/
theorem C283_parallel_negation_partial : ∃ (m m' : Model Nat Nat (List Nat)) (late : Nat → Bool) (l : List (Plan Nat Nat)) (w : World Nat Nat (List Nat)),
    WithoutLate late m m' ∧ TooEarly late (preStep m ((World.start 0 []).execAll (Plan.calls l))).sched.events ∧ ParStep m 1 ((World.start 0 []).execAll (Plan.calls l)) (.ok w) ∧
    ∀ w', ParStep m' 1 ((World.start 0 []).execAll (Plan.calls (l.filter (fun p => !late p.agent)))) (.ok w') → w'.state ≠ w.state := by
  refine ⟨model (fun _ _ => 0), model (fun _ _ => 0), isLate, [⟨7, 1, 3⟩, ⟨100, 5, 5⟩], _, without _ _, ?_,
    .ok (top := (⟨0, 7, true⟩, ⟨1, 3⟩)) (seq := [(⟨0, 7, true⟩, ⟨1, 3⟩), (⟨1, 100, true⟩, ⟨5, 5⟩)]) (by decide) rfl ?_, fun w' h => ?_⟩
  · unfold TooEarly
    decide +kernel
  · show Interleaves ([[(⟨0, 7, true⟩, ⟨1, 3⟩), (⟨1, 100, true⟩, ⟨5, 5⟩)]] : List (List (Entry Nat Nat))) _
    exact .pick (i := 0) rfl (.pick (i := 0) rfl (.done (by simp)))
  · cases h with
    | @ok top seq _ htop hseq =>
      have hp : seq.Perm [((⟨0, 7, true⟩, ⟨1, 3⟩) : Entry Nat Nat)] := interleaves_perm hseq
      rw [List.perm_singleton] at hp
      subst hp
      intro he
      have h1 : ([7] : List Nat) = [] := he
      exact absurd h1 (by decide)

end Verif.Schedule
