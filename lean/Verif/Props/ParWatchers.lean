import Verif.Props.Beside
import Verif.Props.ParallelSchedule
import Verif.Spec.Flockers

/-!
C266 and C279 under the feature `parallel`: agents that only watch, and two models on one schedule.
-/

namespace Verif.Schedule

open Flockers (ParSteps)

variable {T A S V : Type} {see : S → V} {watch : A → Bool} {m : Model T A S} {m' : Model T A V}

theorem flatten_set {α : Type} {e : α} {rest : List α} : ∀ (bs : List (List α)) (i : Nat), bs[i]? = some (e :: rest) → (e :: (bs.set i rest).flatten).Perm bs.flatten
  | [], _, h => by simp at h
  | b :: bs, 0, h => by
    simp at h
    subst h
    simp
  | b :: bs, i + 1, h => by
    simp only [List.getElem?_cons_succ] at h
    simp only [List.set_cons_succ, List.flatten_cons]
    exact List.perm_middle.symm.trans (List.Perm.append_left b (flatten_set bs i h))

/-- If no worker has more than one agent, the agents may run in any order. -/
theorem interleaves_any {α : Type} : ∀ (seq : List α) (bs : List (List α)), (∀ b ∈ bs, b.length ≤ 1) → seq.Perm bs.flatten → Interleaves bs seq
  | [], bs, _, h => .done (List.flatten_eq_nil_iff.1 h.symm.eq_nil)
  | e :: seq, bs, h1, h => by
    obtain ⟨b, hb, he⟩ := List.mem_flatten.1 (h.subset List.mem_cons_self)
    obtain ⟨i, hi⟩ := List.mem_iff_getElem?.1 hb
    have hbe : b = [e] := by
      have hl := h1 b hb
      match b, he, hl with
      | [x], he, _ => rw [List.mem_singleton.1 he]
    rw [hbe] at hi
    refine .pick hi (interleaves_any seq _ (fun c hc => ?_) ?_)
    · rcases List.mem_or_eq_of_mem_set hc with hc | rfl
      · exact h1 c hc
      · exact Nat.zero_le _
    · exact (List.perm_cons e).1 (h.trans (flatten_set bs i hi).symm)

/-- A list whose images are those of another list, in another order, can be put in that order. -/
theorem perm_of_map {α β : Type} (f : α → β) : ∀ (L : List β) (l : List α), (l.map f).Perm L → ∃ l' : List α, l'.Perm l ∧ l'.map f = L
  | [], l, h => ⟨l, List.Perm.refl _, h.eq_nil⟩
  | x :: L, l, h => by
    obtain ⟨e, he, rfl⟩ := List.mem_map.1 (h.symm.subset List.mem_cons_self)
    obtain ⟨a, b, rfl⟩ := List.append_of_mem he
    have h2 : ((a ++ b).map f).Perm L := by
      refine (List.perm_cons (f e)).1 (List.Perm.trans ?_ h)
      rw [List.map_append, List.map_append, List.map_cons]
      exact List.perm_middle.symm
    obtain ⟨l', h3, h4⟩ := perm_of_map f L (a ++ b) h2
    exact ⟨e :: l', (List.Perm.cons e h3).trans List.perm_middle.symm, by rw [List.map_cons, h4]⟩

theorem others_perm {q q' : Queue T A} (h : q.Perm q') : (others watch q).Perm (others watch q') := h.filter _

/-- A parallel step with watchers is a parallel step without them, if there are enough workers. -/
theorem Shadow.parStep [LinearOrder T] (hm : Unwatched see watch m m') {w w₂ : World T A S} {w' : World T A V} (h : Shadow see watch w w') {k k' : Nat} (hs : ParStep m k w (.ok w₂))
    (ho : others watch (preStep m w).sched.events ≠ []) (hk : (others watch (preStep m w).sched.events).length < k') :
    ∃ w₂', ParStep m' k' w' (.ok w₂') ∧ Shadow see watch w₂ w₂' := by
  have hp := h.pre hm
  cases hs with
  | @ok top seq hk0 htop hseq =>
    have hb := C13_batches_partition m.tb (preStep m w).sched.events hp.nodup (preStep m w).sched.pops k hk0
    have hq : seq.Perm (preStep m w).sched.events := (interleaves_perm hseq).trans hb.2.1
    have hlen : (preStep m' w').sched.events.length = (others watch (preStep m w).sched.events).length := by
      have := hp.same.pending.length_eq
      simpa using this
    have hne : (preStep m' w').sched.events ≠ [] := by
      intro he
      rw [he] at hlen
      exact ho (List.length_eq_zero_iff.1 hlen.symm)
    obtain ⟨top', htop'⟩ := peek_some m'.tb (preStep m' w').sched.pops hne
    obtain ⟨seq', h1, h2⟩ := perm_of_map Entry.nameless ((others watch seq).map Entry.nameless) (preStep m' w').sched.events
      (hp.same.pending.trans ((others_perm hq.symm).map _))
    have hb' := C13_batches_partition m'.tb (preStep m' w').sched.events hp.nodup' (preStep m' w').sched.pops k' (by omega)
    have hi : Interleaves (batches k' (popAll m'.tb (preStep m' w').sched.events.length (preStep m' w').sched.pops (preStep m' w').sched.events)) seq' := by
      refine interleaves_any _ _ (fun b hb => ?_) (h1.trans hb'.2.1.symm)
      have := hb'.2.2 b hb
      rw [hlen, Nat.div_eq_of_lt hk] at this
      omega
    refine ⟨_, .ok (by omega) htop' hi, Shadow.post hm ?_⟩
    unfold parRun
    refine Shadow.runAll hm seq seq' ?_ h2 ⟨?_, ?_, ?_⟩ ⟨?_, ?_, ?_⟩
    · exact ⟨⟨hp.same.state, hp.same.step, List.Perm.refl _⟩, List.nodup_nil, List.nodup_nil, fun i hi => (by cases hi), fun i hi => (by cases hi)⟩
    · exact (hq.map _).nodup_iff.2 hp.nodup
    · exact fun i _ hi => by cases hi
    · exact fun i hi => hp.known i ((hq.map _).subset hi)
    · exact (h1.map _).nodup_iff.2 hp.nodup'
    · exact fun i _ hi => by cases hi
    · exact fun i hi => hp.known' i ((h1.map _).subset hi)

theorem Shadow.parSteps [LinearOrder T] (hm : Unwatched see watch m m') {w₀ : World T A S} {w₀' : World T A V} (h : Shadow see watch w₀ w₀') (k : Nat) : ∀ (n : Nat) (w : World T A S),
    (∀ j < n, ∀ v, ParSteps m k j w₀ v → others watch (preStep m v).sched.events ≠ []) → ParSteps m k n w₀ w →
    ∃ k₀, ∀ k' ≥ k₀, ∃ w', ParSteps m' k' n w₀' w' ∧ Shadow see watch w w'
  | 0, w, _, hs => by
    cases hs
    exact ⟨0, fun k' _ => ⟨w₀', .zero _, h⟩⟩
  | n + 1, w, ho, hs => by
    cases hs with
    | @succ _ _ v _ h1 h2 =>
      obtain ⟨k₀, hk⟩ := Shadow.parSteps hm h k n v (fun j hj => ho j (by omega)) h1
      refine ⟨k₀ + (others watch (preStep m v).sched.events).length + 1, fun k' hk' => ?_⟩
      obtain ⟨v', h3, h4⟩ := hk k' (by omega)
      obtain ⟨w', h5, h6⟩ := h4.parStep hm h2 (ho n (Nat.lt_succ_self _) v h1) (show _ < k' by omega)
      exact ⟨w', .succ h3 h5, h6⟩

/-- **C266 under the feature `parallel`.** Whatever a simulation with watchers can come to is what the simulation without them can come to, apart from the notes of the watchers, if it has enough
workers and does not run out of agents. Neither times nor orderings matter: a parallel step runs all pending agents. -/
theorem C266_parallel_partial [LinearOrder T] (see : S → V) (watch : A → Bool) (m : Model T A S) (m' : Model T A V) (hm : Unwatched see watch m m') (z : T) (s : S) (l : List (Plan T A)) (k n : Nat)
    (w : World T A S) (ho : ∀ j < n, ∀ v, ParSteps m k j ((World.start z s).execAll (Plan.calls l)) v → others watch (preStep m v).sched.events ≠ [])
    (hs : ParSteps m k n ((World.start z s).execAll (Plan.calls l)) w) :
    ∃ k₀, ∀ k' ≥ k₀, ∃ w', ParSteps m' k' n ((World.start z (see s)).execAll (Plan.calls (l.filter (fun p => !watch p.agent)))) w' ∧ Undisturbed see watch w w' := by
  obtain ⟨k₀, h⟩ := ((shadow_start see watch z s).calls l).parSteps hm k n w ho hs
  refine ⟨k₀, fun k' hk => ?_⟩
  obtain ⟨w', h1, h2⟩ := h k' hk
  exact ⟨w', h1, h2.same⟩

variable {first : A → Bool} {tb : TieBreak T A} {m₁ : Model T A S} {m₂ : Model T A V}

/-- **C279 under the feature `parallel`.** Whatever two models on one schedule can come to, each of them can come to on a schedule of its own, if it has enough workers and does not run out of agents. -/
theorem C279_parallel_partial [LinearOrder T] (hadv : m₂.adv = m₁.adv) (h₁ : Closed first m₁) (h₂ : Closed (fun a => !first a) m₂) (z : T) (s : S) (v : V) (l : List (Plan T A)) (k n : Nat)
    (w : World T A (S × V))
    (ho : ∀ j < n, ∀ u, ParSteps (beside first tb m₁ m₂) k j ((World.start z (s, v)).execAll (Plan.calls l)) u → ∀ b : Bool,
      others (fun a => first a == b) (preStep (beside first tb m₁ m₂) u).sched.events ≠ [])
    (hs : ParSteps (beside first tb m₁ m₂) k n ((World.start z (s, v)).execAll (Plan.calls l)) w) :
    ∃ k₀, ∀ k' ≥ k₀, ∃ w₁ w₂, ParSteps m₁ k' n ((World.start z s).execAll (Plan.calls (l.filter (fun p => first p.agent)))) w₁ ∧ Undisturbed Prod.fst (fun a => !first a) w w₁ ∧
      ParSteps m₂ k' n ((World.start z v).execAll (Plan.calls (l.filter (fun p => !first p.agent)))) w₂ ∧ Undisturbed Prod.snd first w w₂ := by
  have et : (fun a => first a == true) = first := by funext a; cases first a <;> rfl
  have ef : (fun a => first a == false) = (fun a => !first a) := by funext a; cases first a <;> rfl
  obtain ⟨k₁, g₁⟩ := C266_parallel_partial Prod.fst (fun a => !first a) (beside first tb m₁ m₂) m₁ (first_alone h₁ h₂) z (s, v) l k n w
    (fun j hj u hu => by rw [← ef]; exact ho j hj u hu false) hs
  obtain ⟨k₂, g₂⟩ := C266_parallel_partial Prod.snd first (beside first tb m₁ m₂) m₂ (second_alone hadv h₁ h₂) z (s, v) l k n w
    (fun j hj u hu => by have := ho j hj u hu true; rw [et] at this; exact this) hs
  refine ⟨k₁ + k₂, fun k' hk => ?_⟩
  obtain ⟨w₁, a1, a2⟩ := g₁ k' (by omega)
  obtain ⟨w₂, b1, b2⟩ := g₂ k' (by omega)
  simp only [Bool.not_not] at a1
  exact ⟨w₁, w₂, a1, a2, b1, b2⟩

/-! ### Where it fails, and a case -/

/-- Every worker runs its agents in order. -/
theorem interleaves_sublist {α : Type} {bs : List (List α)} {seq : List α} (h : Interleaves bs seq) : ∀ b ∈ bs, b.Sublist seq := by
  induction h with
  | done h => exact fun b hb => by rw [h b hb]
  | @pick bs i e rest seq hi _ ih =>
    intro b hb
    obtain ⟨j, hj⟩ := List.mem_iff_getElem?.1 hb
    by_cases hij : i = j
    · subst hij
      rw [hi, Option.some.injEq] at hj
      rw [← hj]
      refine List.Sublist.cons_cons e (ih rest ?_)
      have hlt : i < bs.length := (List.getElem?_eq_some_iff.1 hi).1
      exact List.mem_iff_getElem?.2 ⟨i, by rw [List.getElem?_set_self hlt]⟩
    · exact List.Sublist.cons e (ih b (List.mem_iff_getElem?.2 ⟨j, by rw [List.getElem?_set_ne hij]; exact hj⟩))

namespace DemoParWatchers

open DemoWatchers

/-- Three agents and a watcher between the first and the second. -/
def plan : List (Plan Nat Nat) := [⟨1, 0, 1⟩, ⟨100, 0, 2⟩, ⟨2, 0, 3⟩, ⟨3, 0, 4⟩]

/-- The entry of an agent of the plan. -/
def entry (i a : Nat) (o : Int) : Entry Nat Nat := (⟨i, a, true⟩, ⟨0, o⟩)

theorem runOne_names (w : World Nat Nat (List Nat)) (e : Entry Nat Nat) : (runOne (unwatched (fun _ _ => 0)) w e).state = w.state ++ [e.1.agent] := by
  unfold runOne unwatched
  dsimp only
  by_cases hr : e.1.repeating = true
  · rw [if_pos hr]
    split <;> rfl
  · rw [if_neg hr]

theorem fold_names : ∀ (l : List (Entry Nat Nat)) (w : World Nat Nat (List Nat)), (l.foldl (runOne (unwatched (fun _ _ => 0))) w).state = w.state ++ l.map (fun e => e.1.agent)
  | [], w => by simp
  | e :: l, w => by
    rw [List.foldl_cons, fold_names l, runOne_names]
    simp

/-- The world at the start, with the watcher. -/
def begin₁ : World Nat Nat (List Nat × List Nat) := (World.start 0 ([], [])).execAll (Plan.calls plan)

/-- The world at the start, without the watcher. -/
def begin₂ : World Nat Nat (List Nat) := (World.start 0 []).execAll (Plan.calls (plan.filter (fun p => !decide (100 ≤ p.agent))))

theorem some_step : ∃ w, ParSteps (watched (fun _ _ => 0)) 2 1 begin₁ w ∧ w.state.1 = [3, 1, 2] := by
  refine ⟨_, .succ (.zero _) (.ok (top := entry 0 1 1) (seq := [entry 1 100 2, entry 3 3 4, entry 0 1 1, entry 2 2 3]) (by decide) rfl ?_), rfl⟩
  show Interleaves [[entry 0 1 1, entry 2 2 3], [entry 1 100 2, entry 3 3 4]] _
  exact .pick (i := 1) rfl (.pick (i := 1) rfl (.pick (i := 0) rfl (.pick (i := 0) rfl (.done (by simp)))))

theorem no_step (w : World Nat Nat (List Nat)) (h : ParSteps (unwatched (fun _ _ => 0)) 2 1 begin₂ w) : w.state ≠ [3, 1, 2] := by
  cases h with
  | succ h hs =>
    cases h
    cases hs with
    | @ok top seq _ _ hseq =>
      have h1 : [entry 0 1 1, entry 2 3 4].Sublist seq := interleaves_sublist hseq _ (by
        show _ ∈ [[entry 0 1 1, entry 2 3 4], [entry 1 2 3]]
        simp)
      intro h2
      have h3 : (parRun (unwatched (fun _ _ => 0)) top seq (preStep (unwatched (fun _ _ => 0)) begin₂)).state = [3, 1, 2] := h2
      unfold parRun at h3
      rw [fold_names] at h3
      have h4 : seq.map (fun e => e.1.agent) = [3, 1, 2] := h3
      have h5 := h1.map (fun e => e.1.agent)
      rw [h4] at h5
      exact absurd h5 (by decide)

end DemoParWatchers

open DemoWatchers DemoParWatchers in
/-- A case that meets the hypotheses: the step above. -/
example : Unwatched Prod.fst (fun a => decide (100 ≤ a)) (watched (fun _ _ => 0)) (unwatched (fun _ _ => 0)) ∧ (∃ w, ParSteps (watched (fun _ _ => 0)) 2 1 begin₁ w ∧ w.state.1 = [3, 1, 2]) ∧
    (∀ j < 1, ∀ v, ParSteps (watched (fun _ _ => 0)) 2 j begin₁ v → others (fun a => decide (100 ≤ a)) (preStep (watched (fun _ _ => 0)) v).sched.events ≠ []) := by
  refine ⟨fits _ _, some_step, fun j hj v hv => ?_⟩
  obtain rfl : j = 0 := by omega
  cases hv
  decide +kernel

open DemoBeside in
/-- A case that meets the hypotheses for two models. -/
example : (∃ w, ParSteps (beside (fun a => decide (a < 100)) (fun _ _ => 0) (names 3 (fun _ _ => 0)) (names 6 (fun _ _ => 0))) 2 1
      ((World.start 0 ([], [])).execAll (Plan.calls [⟨7, 5, 1⟩, ⟨100, 0, 1⟩])) w ∧ w.state = ([7], [100])) ∧
    (∀ j < 1, ∀ u, ParSteps (beside (fun a => decide (a < 100)) (fun _ _ => 0) (names 3 (fun _ _ => 0)) (names 6 (fun _ _ => 0))) 2 j
      ((World.start 0 ([], [])).execAll (Plan.calls [⟨7, 5, 1⟩, ⟨100, 0, 1⟩])) u → ∀ b : Bool, others (fun a => decide (a < 100) == b)
      (preStep (beside (fun a => decide (a < 100)) (fun _ _ => 0) (names 3 (fun _ _ => 0)) (names 6 (fun _ _ => 0))) u).sched.events ≠ []) := by
  refine ⟨⟨_, .succ (.zero _) (.ok (top := (⟨1, 100, true⟩, ⟨0, 1⟩)) (seq := [(⟨0, 7, true⟩, ⟨5, 1⟩), (⟨1, 100, true⟩, ⟨0, 1⟩)]) (by decide) rfl ?_), rfl⟩, fun j hj u hu b => ?_⟩
  · show Interleaves ([[(⟨1, 100, true⟩, ⟨0, 1⟩)], [(⟨0, 7, true⟩, ⟨5, 1⟩)]] : List (List (Entry Nat Nat))) _
    exact .pick (i := 1) rfl (.pick (i := 0) rfl (.done (by simp)))
  · obtain rfl : j = 0 := by omega
    cases hu
    cases b <;> decide +kernel

open DemoWatchers DemoParWatchers in
/-- **C266 under the feature `parallel` is false of a given number of workers**: the agents are dealt to the workers in turn and each worker runs its agents in order, so that a watcher more lets
agents run in an order in which they cannot run without it. -/
theorem C266_parallel_workers_negation_partial : ∃ (m : Model Nat Nat (List Nat × List Nat)) (m' : Model Nat Nat (List Nat)) (watch : Nat → Bool) (l : List (Plan Nat Nat)) (w : World Nat Nat (List Nat × List Nat)),
    Unwatched Prod.fst watch m m' ∧ ParSteps m 2 1 ((World.start 0 ([], [])).execAll (Plan.calls l)) w ∧
    ∀ w', ParSteps m' 2 1 ((World.start 0 []).execAll (Plan.calls (l.filter (fun p => !watch p.agent)))) w' → w'.state ≠ w.state.1 := by
  obtain ⟨w, h1, h2⟩ := some_step
  exact ⟨watched (fun _ _ => 0), unwatched (fun _ _ => 0), fun a => decide (100 ≤ a), DemoParWatchers.plan, w, fits _ _, h1, fun w' h => by rw [h2]; exact no_step w' h⟩

open DemoWatchers DemoParWatchers in
/-- **C266 under the feature `parallel` is false when the other agents are gone**: with a watcher the steps go on, without it the process ends. -/
theorem C266_parallel_exit_negation_partial : ∃ (m : Model Nat Nat (List Nat × List Nat)) (m' : Model Nat Nat (List Nat)) (watch : Nat → Bool) (l : List (Plan Nat Nat)),
    Unwatched Prod.fst watch m m' ∧ (∃ w, ParStep m 1 ((World.start 0 ([], [])).execAll (Plan.calls l)) (.ok w)) ∧
    ParStep m' 1 ((World.start 0 []).execAll (Plan.calls (l.filter (fun p => !watch p.agent)))) .exit :=
  ⟨watched (fun _ _ => 0), unwatched (fun _ _ => 0), fun a => decide (100 ≤ a), [⟨100, 0, 2⟩], fits _ _,
    ⟨_, .ok (top := entry 0 100 2) (seq := [entry 0 100 2]) (by decide) rfl (by show Interleaves [[entry 0 100 2]] _; exact .pick (i := 0) rfl (.done (by simp)))⟩, .exit rfl⟩

end Verif.Schedule
