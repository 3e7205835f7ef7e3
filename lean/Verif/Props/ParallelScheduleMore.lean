import Verif.Props.ParallelSchedule

/-!
More properties of the schedule with the feature `parallel` (src/engine/schedule.rs:49-222): C150-C154. Every theorem is about
all interleavings of the workers and all numbers of threads.
-/

namespace Verif.Schedule

variable {T A S : Type}

/-- The observations of a completed parallel step. -/
theorem parStep_trace [LinearOrder T] {m : Model T A S} {k : Nat} {w w' : World T A S} (hn : (ids w.sched.events).Nodup)
    (h : ParStep m k w (.ok w')) :
    ∃ (seq : List (Entry T A)) (api api' : List (Ev T A)), seq.Perm (preStep m w).sched.events ∧ (ids seq).Nodup ∧
      (∀ e ∈ api, e.isApi = true) ∧ (∀ e ∈ api', e.isApi = true) ∧
      w'.trace = w.trace ++ ((if w.sched.step = 0 then [.update 0] else []) ++ [.stateBefore] ++ api ++ seq.flatMap callsOf ++
        [.stateAfter] ++ api' ++ [.update (w.sched.step + 1)]) := by
  obtain ⟨_, seq, goOn, v, _, _, h1, h2, _, _, _, h3, _, h4, rfl⟩ := parStep_spec hn h
  obtain ⟨api, ha, hpre⟩ := preStep_trace m w
  obtain ⟨api', ha', hpost⟩ := postStep_trace m v
  refine ⟨seq, api, api', h1, h2, ha, ha', ?_⟩
  rw [hpost, h4, hpre, h3]
  simp [List.append_assoc]

theorem parStep_runsOf [LinearOrder T] {m : Model T A S} {k : Nat} {w w' : World T A S} (hn : (ids w.sched.events).Nodup)
    (h : ParStep m k w (.ok w')) : ∃ (seq goOn : List (Entry T A)) (v : World T A S),
      seq.Perm (preStep m w).sched.events ∧ (ids seq).Nodup ∧ Turns m (preStep m w).state seq v.state goOn ∧
      v.sched.events = goOn ∧ v.sched.idCount = (preStep m w).sched.idCount ∧ w' = postStep m v ∧
      (∃ l, w'.trace = w.trace ++ l) ∧ runsOf w'.trace = runsOf w.trace ++ seq.map (fun e => (e.1.id, e.2)) := by
  obtain ⟨_, seq, goOn, v, _, _, h1, h2, h3, h4, _, h5, h6, h7, rfl⟩ := parStep_spec hn h
  obtain ⟨api, ha, hpre⟩ := preStep_trace m w
  obtain ⟨api', ha', hpost⟩ := postStep_trace m v
  have htr : (postStep m v).trace = w.trace ++ ((if w.sched.step = 0 then [.update 0] else []) ++ [.stateBefore] ++ api ++
      seq.flatMap callsOf ++ [.stateAfter] ++ api' ++ [.update (w.sched.step + 1)]) := by
    rw [hpost, h7, hpre, h5]
    simp [List.append_assoc]
  refine ⟨seq, goOn, v, h1, h2, h3, h4, h6, rfl, ⟨_, htr⟩, ?_⟩
  rw [htr]
  simp only [runsOf_append, runsOf_api ha, runsOf_api ha', runsOf_calls]
  have e1 : runsOf ([.stateBefore] : List (Ev T A)) = [] := rfl
  have e2 : runsOf ([.stateAfter] : List (Ev T A)) = [] := rfl
  have e3 : ∀ k, runsOf ([.update k] : List (Ev T A)) = [] := fun _ => rfl
  have e4 : runsOf (if w.sched.step = 0 then [.update 0] else [] : List (Ev T A)) = [] := by split <;> rfl
  simp [e1, e2, e3, e4]

/-! ### C150 -/

/-- **C150 (a step).** When the workers of a completed step have ended, the user's state is the one obtained by letting all
pending agents take their turns one after the other, in some order, and what is pending is exactly the agents that go on:
same id, repeating, with their own mutations, one time unit later with the same ordering. -/
theorem C150_pending_after_step [LinearOrder T] (m : Model T A S) (k : Nat) (w w' : World T A S) (hw : ParReachable m w)
    (h : ParStep m k w (.ok w')) :
    ∃ (ran goOn : List (Entry T A)) (v : World T A S), ran.Perm (preStep m w).sched.events ∧
      runsOf (since w w') = ran.map (fun e => (e.1.id, e.2)) ∧
      Turns m (preStep m w).state ran v.state goOn ∧ v.sched.events = goOn ∧ w' = postStep m v := by
  obtain ⟨seq, goOn, v, h1, _, h3, h4, _, h6, ⟨l, h7⟩, h8⟩ := parStep_runsOf (parReachable_nodup hw) h
  refine ⟨seq, goOn, v, h1, ?_, h3, h4, h6⟩
  rw [runsOf_since h7] at h8
  exact List.append_cancel_left h8

theorem par_tracked [LinearOrder T] {m : Model T A S} {k : Nat} {w w' : World T A S} {P : A → Prop}
    (hP : ∀ a s a' s', P a → Callbacks m a s a' s' → (m.isStopped a' s').1 = false ∧ P (m.isStopped a' s').2.1)
    {i : Nat} (hh : HooksSatisfy m (fun _ c => ¬ c.touches i)) (hn : (ids w.sched.events).Nodup) (hi : i < w.sched.idCount)
    {a : A} {p : Priority T} (hmem : (⟨i, a, true⟩, p) ∈ w.sched.events) (ha : P a) (h : ParStep m k w (.ok w')) :
    i < w'.sched.idCount ∧
    (runsOf w'.trace).filter (fun r => r.1 == i) = (runsOf w.trace).filter (fun r => r.1 == i) ++ [(i, p)] ∧
    ∃ a', P a' ∧ (⟨i, a', true⟩, ⟨m.adv p.time, p.ordering⟩) ∈ w'.sched.events := by
  obtain ⟨hi1, hk1⟩ := preStep_keeps m i w hh hi
  have hpm := hk1 hmem rfl
  obtain ⟨seq, goOn, v, h1, h2, h3, h4, h5, rfl, _, h8⟩ := parStep_runsOf hn h
  obtain ⟨hi2, hk2⟩ := postStep_keeps m i v hh (by rw [h5]; exact hi1)
  have hms : (⟨i, a, true⟩, p) ∈ seq := h1.mem_iff.2 hpm
  obtain ⟨a', hPa, hk⟩ := turns_goesOn hP h3 hms ha
  refine ⟨hi2, ?_, a', hPa, hk2 (by rw [h4]; exact hk) rfl⟩
  rw [h8, List.filter_append, filter_runs_mem h2 hms]

/-- **C150 (a repeating agent).** A repeating agent `i` that never asks to stop (`P` is any property of agents kept by its
callbacks that rules this out) and that the hooks leave alone runs exactly once in each of any number of completed steps,
whatever its time and whatever the other agents are and do; each run is one time unit later than the one before. -/
theorem C150_once_in_every_step [LinearOrder T] (m : Model T A S) (k : Nat) (w w' : World T A S) (hw : ParReachable m w)
    (P : A → Prop)
    (hP : ∀ a s a' s', P a → Callbacks m a s a' s' → (m.isStopped a' s').1 = false ∧ P (m.isStopped a' s').2.1)
    (i : Nat) (hi : i < w.sched.idCount) (hh : HooksSatisfy m (fun _ c => ¬ c.touches i)) (a : A) (ha : P a) (t : T) (o : Int)
    (hmem : (⟨i, a, true⟩, ⟨t, o⟩) ∈ w.sched.events) (n : Nat) (hr : ParRun m k n w w') :
    (runsOf (since w w')).filter (fun r => r.1 == i) = (List.range n).map (fun j => (i, ⟨m.adv^[j] t, o⟩)) ∧
    ∃ a', P a' ∧ (⟨i, a', true⟩, ⟨m.adv^[n] t, o⟩) ∈ w'.sched.events := by
  have hn := parReachable_nodup hw
  have key : (ids w'.sched.events).Nodup ∧ i < w'.sched.idCount ∧ (∃ l, w'.trace = w.trace ++ l) ∧
      (runsOf w'.trace).filter (fun r => r.1 == i) =
        (runsOf w.trace).filter (fun r => r.1 == i) ++ (List.range n).map (fun j => (i, ⟨m.adv^[j] t, o⟩)) ∧
      ∃ a', P a' ∧ (⟨i, a', true⟩, ⟨m.adv^[n] t, o⟩) ∈ w'.sched.events := by
    clear hw
    induction hr with
    | nil w => exact ⟨hn, hi, ⟨[], by simp⟩, by simp, a, ha, hmem⟩
    | snoc hr hs ih =>
      obtain ⟨g1, g2, ⟨l, g3⟩, g4, a', g5, g6⟩ := ih hi hmem hn
      obtain ⟨f1, f2, a'', f3, f4⟩ := par_tracked hP hh g1 g2 g6 g5 hs
      obtain ⟨_, _, _, _, _, _, _, _, _, ⟨l', f5⟩, _⟩ := parStep_runsOf g1 hs
      refine ⟨parStep_nodup g1 hs, f1, ⟨l ++ l', by rw [f5, g3, List.append_assoc]⟩, ?_, a'', f3, ?_⟩
      · rw [f2, g4, List.range_succ, List.map_append, List.append_assoc]
        rfl
      · rw [Function.iterate_succ_apply']
        exact f4
  obtain ⟨_, _, ⟨l, hl⟩, h4, h5⟩ := key
  refine ⟨?_, h5⟩
  rw [runsOf_since hl, List.filter_append] at h4
  exact List.append_cancel_left h4

/-- **C150 (an agent that is gone).** An agent that is not pending (it asked to stop, or was scheduled once and has run) is not
run by any number of completed steps unless a hook schedules its id again. -/
theorem C150_gone [LinearOrder T] (m : Model T A S) (k : Nat) (w w' : World T A S) (hw : ParReachable m w) (i : Nat)
    (hi : i < w.sched.idCount) (hgone : ∀ e ∈ w.sched.events, e.1.id ≠ i) (hh : HooksSatisfy m (fun _ c => ¬ c.adds i))
    (n : Nat) (hr : ParRun m k n w w') : (runsOf (since w w')).filter (fun r => r.1 == i) = [] := by
  have hn := parReachable_nodup hw
  have habs : i ∉ ids w.sched.events := by
    rw [mem_ids]
    rintro ⟨e, he, hid⟩
    exact hgone e he hid
  have key : (ids w'.sched.events).Nodup ∧ i < w'.sched.idCount ∧ i ∉ ids w'.sched.events ∧ (∃ l, w'.trace = w.trace ++ l) ∧
      (runsOf w'.trace).filter (fun r => r.1 == i) = (runsOf w.trace).filter (fun r => r.1 == i) := by
    clear hw hgone
    induction hr with
    | nil w => exact ⟨hn, hi, habs, ⟨[], by simp⟩, rfl⟩
    | snoc hr hs ih =>
      rename_i n w0 w1 w2
      obtain ⟨g1, g2, g3, ⟨l, g4⟩, g5⟩ := ih hi hn habs
      obtain ⟨seq, goOn, v, h1, h2, h3, h4, h5, rfl, ⟨l', h7⟩, h8⟩ := parStep_runsOf g1 hs
      have hpre : i < (preStep m w1).sched.idCount ∧ i ∉ ids (preStep m w1).sched.events := by
        unfold preStep
        split
        · exact execAll_absent i _ { state := _, sched := w1.sched, trace := _ } (hh _ _).1 g2 g3
        · exact execAll_absent i _ { state := _, sched := w1.sched, trace := _ } (hh _ _).1 g2 g3
      have hseq : i ∉ ids seq := by
        have : (ids seq).Perm (ids (preStep m w1).sched.events) := h1.map _
        rw [this.mem_iff]
        exact hpre.2
      have hpost : i < (postStep m v).sched.idCount ∧ i ∉ ids (postStep m v).sched.events := by
        unfold postStep
        refine execAll_absent i _ { state := _, sched := v.sched, trace := _ } (hh _ _).2 (by rw [h5]; exact hpre.1) ?_
        show i ∉ ids v.sched.events
        rw [h4]
        exact fun hc => hseq ((turns_ids h3).subset hc)
      refine ⟨parStep_nodup g1 hs, hpost.1, hpost.2, ⟨l ++ l', by rw [h7, g4, List.append_assoc]⟩, ?_⟩
      rw [h8, List.filter_append, filter_runs_notmem hseq, List.append_nil, g5]
  obtain ⟨_, _, _, ⟨l, hl⟩, h5⟩ := key
  rw [runsOf_since hl, List.filter_append] at h5
  exact List.append_cancel_left (h5.trans (List.append_nil _).symm)

/-- Any number of steps can be completed by the demo world: agent 2, which waits for time 9, never stops and keeps the process
alive. -/
theorem demo_parRun (k : Nat) (hk : 0 < k) (n : Nat) : ∃ w', ParRun demo k n demoWorld w' := by
  induction n with
  | zero => exact ⟨_, .nil _⟩
  | succ n ih =>
    obtain ⟨w', h⟩ := ih
    have hmem : ∃ a', 22 < a' ∧ ((⟨2, a', true⟩, ⟨demo.adv^[n] 9, 0⟩) : Entry Nat Nat) ∈ w'.sched.events := by
      refine (C150_once_in_every_step demo k demoWorld w' demo_parReachable (fun a => 22 < a) ?_ 2 (by decide)
        (fun s sch => ⟨trivial, trivial⟩) 30 (by decide) 9 0 (by decide) n h).2
      rintro a s a' s' ha ⟨a1, s1, a2, s2, h1, h2, h3⟩
      simp only [demo, Prod.mk.injEq] at h1 h2 h3
      obtain ⟨rfl, rfl⟩ := h1
      obtain ⟨rfl, rfl⟩ := h2
      obtain ⟨rfl, rfl⟩ := h3
      simp only [demo]
      refine ⟨?_, by omega⟩
      simp
      omega
    obtain ⟨a', _, hm⟩ := hmem
    have hne : (preStep demo w').sched.events ≠ [] := by
      have : (preStep demo w').sched.events = w'.sched.events := by
        unfold preStep
        split <;> rfl
      rw [this]
      exact List.ne_nil_of_mem hm
    obtain ⟨w'', h'⟩ := parStep_exists demo k hk w' hne
    exact ⟨w'', .snoc h h'⟩

/-- Agent 2 of the demo world, due at time 9, runs in the first three steps although the clock shows 5, 6 and 7. -/
example : ∃ w', ParRun demo 3 3 demoWorld w' := demo_parRun 3 (by decide) 3

/-! ### C151 -/

/-- **C151 (counter and hooks).** After any program with `n` completed steps the step counter is `n` and the hook calls made so
far are `update(0)` once at the very beginning, then for each step `before_step`, `after_step`, `update(number of the step)`. -/
theorem C151_step_counter_and_hooks [LinearOrder T] (m : Model T A S) (k n : Nat) (w : World T A S) (h : ParHistory m k n w) :
    w.sched.step = n ∧ hookCalls w.trace = expectedHooks n := by
  have key : (ids w.sched.events).Nodup ∧ w.sched.step = n ∧ hookCalls w.trace = expectedHooks n := by
    induction h with
    | start zero s => exact ⟨by simp [World.start, Sched.new], rfl, rfl⟩
    | call h c ih =>
      rename_i n w
      obtain ⟨g1, g2, g3⟩ := ih
      refine ⟨by rw [exec_sched]; exact after_nodup _ _ g1, by cases c <;> exact g2, ?_⟩
      obtain ⟨e, he, htr⟩ := exec_trace w c
      rw [htr, hookCalls_append, g3]
      have : hookCalls [e] = [] := hookCalls_api (by simpa using he)
      rw [this, List.append_nil]
    | step h hs ih =>
      rename_i n w w'
      obtain ⟨g1, g2, g3⟩ := ih
      obtain ⟨seq, api, api', _, _, ha, ha', htr⟩ := parStep_trace g1 hs
      refine ⟨parStep_nodup g1 hs, ?_, ?_⟩
      · obtain ⟨_, _, _, v, _, _, _, _, _, _, _, h5, _, _, rfl⟩ := parStep_spec g1 hs
        rw [(postStep_step m v).1, h5, g2]
      · rw [htr]
        simp only [hookCalls_append, g3, hookCalls_api ha, hookCalls_api ha', hookCalls_calls, g2]
        have e1 : hookCalls ([.stateBefore] : List (Ev T A)) = [.stateBefore] := rfl
        have e2 : hookCalls ([.stateAfter] : List (Ev T A)) = [.stateAfter] := rfl
        have e3 : ∀ k, hookCalls ([.update k] : List (Ev T A)) = [.update k] := fun _ => rfl
        have e4 : hookCalls (if n = 0 then [.update 0] else [] : List (Ev T A)) = if n = 0 then [.update 0] else [] := by
          split <;> rfl
        rw [e1, e2, e3, e4]
        simp [expectedHooks]
  exact key.2

/-- **C151 (order inside a step).** A completed step calls `update(0)` (only if it is the first one), `before_step`, then the
agents, then `after_step` and `update`, whatever the interleaving; no hook is called while agents run. -/
theorem C151_order_within_step [LinearOrder T] (m : Model T A S) (k : Nat) (w w' : World T A S) (hw : ParReachable m w)
    (h : ParStep m k w (.ok w')) :
    ∃ (api calls api' : List (Ev T A)),
      (∀ e ∈ api ++ api', (∃ i, e = .once i) ∨ (∃ i b, e = .registered i b) ∨ (∃ i b, e = .dequeued i b)) ∧
      (∀ e ∈ calls, (∃ i, e = .agentBefore i) ∨ (∃ i p, e = .agentStep i p) ∨ (∃ i, e = .agentAfter i)) ∧
      since w w' = (if w.sched.step = 0 then [.update 0] else []) ++ [.stateBefore] ++ api ++ calls ++ [.stateAfter] ++ api' ++
        [.update (w.sched.step + 1)] := by
  obtain ⟨seq, api, api', _, _, ha, ha', htr⟩ := parStep_trace (parReachable_nodup hw) h
  refine ⟨api, seq.flatMap callsOf, api', ?_, ?_, since_append htr⟩
  · intro e he
    have : e.isApi = true := by
      rcases List.mem_append.1 he with h | h
      · exact ha e h
      · exact ha' e h
    cases e <;> simp_all [Ev.isApi]
  · intro e he
    obtain ⟨x, _, hx⟩ := List.mem_flatMap.1 he
    simp only [callsOf, List.mem_cons, List.not_mem_nil, or_false] at hx
    rcases hx with rfl | rfl | rfl <;> simp

example : ParHistory demo 2 0 demoWorld ∧ ∃ w', ParHistory demo 2 1 w' := by
  have hc : ∀ (cs : List (Cmd Nat Nat)) (w : World Nat Nat Nat), ParHistory demo 2 0 w → ParHistory demo 2 0 (w.execAll cs) := by
    intro cs
    induction cs with
    | nil => intro w h; exact h
    | cons c cs ih => intro w h; exact ih _ (.call h c)
  have h : ParHistory demo 2 0 demoWorld :=
    (show demoWorld = (World.start 0 0).execAll demoCmds from rfl) ▸ hc demoCmds _ (.start 0 0)
  obtain ⟨w', hs⟩ := parStep_exists demo 2 (by decide) demoWorld (by decide)
  exact ⟨h, w', .step h hs⟩

/-! ### C152 -/

/-- **C152 (what the clock shows).** After a completed step the clock is the smallest time that was pending when `before_step` had
returned. -/
theorem C152_clock_is_earliest_time [LinearOrder T] (m : Model T A S) (k : Nat) (w w' : World T A S) (hw : ParReachable m w)
    (h : ParStep m k w (.ok w')) :
    (∃ e ∈ (preStep m w).sched.events, e.2.time = w'.sched.time) ∧
    ∀ e ∈ (preStep m w).sched.events, w'.sched.time ≤ e.2.time := by
  obtain ⟨top, _, _, v, h1, h2, _, _, _, _, h3, _, _, _, rfl⟩ := parStep_spec (parReachable_nodup hw) h
  have ht : (postStep m v).sched.time = top.2.time := (postStep_step m v).2.trans h3
  rw [ht]
  exact ⟨⟨top, h1, rfl⟩, h2⟩

/-- **C152 (the clock never runs backwards).** In any number of completed steps, if the hooks schedule nothing into the past and
nothing pending is in the past at the beginning, then the clock does not decrease and nothing pending is ever in the past. -/
theorem C152_clock_never_decreases [LinearOrder T] (m : Model T A S) (k : Nat) (hadv : ∀ t, t ≤ m.adv t)
    (hh : HooksSatisfy m (fun s c => c.notBefore s.time)) (w w' : World T A S) (hw : ParReachable m w)
    (hl : ∀ e ∈ w.sched.events, w.sched.time ≤ e.2.time) (n : Nat) (hr : ParRun m k n w w') :
    w.sched.time ≤ w'.sched.time ∧ ∀ e ∈ w'.sched.events, w'.sched.time ≤ e.2.time := by
  have key : (ids w'.sched.events).Nodup ∧ w.sched.time ≤ w'.sched.time ∧ Later w'.sched := by
    have hn := parReachable_nodup hw
    clear hw
    induction hr with
    | nil w => exact ⟨hn, le_refl _, hl⟩
    | snoc hr hs ih =>
      rename_i n w0 w1 w2
      obtain ⟨g1, g2, g3⟩ := ih hl hn
      obtain ⟨top, seq, goOn, v, h1, h2, h3, h4, h5, h6, h7, h8, h9, _, rfl⟩ := parStep_spec g1 hs
      have hpre := preStep_later m w1 hh g3
      have ht : (postStep m v).sched.time = top.2.time := (postStep_step m v).2.trans h7
      refine ⟨parStep_nodup g1 hs, ?_, ?_⟩
      · rw [ht]
        refine _root_.le_trans g2 ?_
        have := hpre top h1
        rw [(preStep_step m w1).2] at this
        exact this
      · apply postStep_later m v hh
        intro e he
        rw [h6] at he
        obtain ⟨f, hf, _, _, _, hft, _⟩ := turns_times h5 he
        rw [h7, hft]
        exact _root_.le_trans (h2 f (h3.mem_iff.1 hf)) (hadv _)
  exact key.2

example : ParReachable demo demoWorld ∧ (∀ e ∈ demoWorld.sched.events, demoWorld.sched.time ≤ e.2.time) ∧
    HooksSatisfy demo (fun s c => c.notBefore s.time) ∧ (∀ t, t ≤ demo.adv t) :=
  ⟨demo_parReachable, by decide, fun s sch => ⟨trivial, trivial⟩, fun t => Nat.le_succ t⟩

/-! ### C153 -/

theorem parStep_logged [LinearOrder T] {m : Model T A S} {k : Nat} {w w' : World T A S} (hn : (ids w.sched.events).Nodup)
    (h : ParStep m k w (.ok w')) (hl : IdsLogged w) : IdsLogged w' := by
  obtain ⟨_, seq, goOn, v, _, _, _, _, _, _, _, _, h1, h2, rfl⟩ := parStep_spec hn h
  have hpre : IdsLogged (preStep m w) := by
    unfold preStep
    apply execAll_logged
    unfold IdsLogged at *
    split
    · show (registrations ((w.trace ++ [_]) ++ [_])).map _ = List.range w.sched.idCount
      rw [registrations_append, registrations_append]
      simpa [registrations] using hl
    · show (registrations (w.trace ++ [_])).map _ = _
      rw [registrations_append]
      simpa [registrations] using hl
  have hv : IdsLogged v := by
    unfold IdsLogged at *
    rw [h2, h1, registrations_append, registrations_calls, List.append_nil]
    exact hpre
  unfold postStep World.doUpdate World.doAfter
  have := execAll_logged (m.afterStep v.state v.sched).2
    { v with state := (m.afterStep v.state v.sched).1, trace := v.trace ++ [.stateAfter] } (by
      unfold IdsLogged at *
      show (registrations (v.trace ++ [_])).map _ = _
      rw [registrations_append]
      simpa [registrations] using hv)
  unfold IdsLogged at this ⊢
  show (registrations (_ ++ [_])).map _ = _
  rw [registrations_append]
  simpa [registrations] using this

/-- **C153.** Whatever the program and the hooks do, the ids handed out by `schedule_repeating` with the feature `parallel` are
0, 1, 2, … in call order. -/
theorem C153_ids_are_consecutive [LinearOrder T] (m : Model T A S) (w : World T A S) (hw : ParReachable m w) :
    ∃ n, (registrations w.trace).map Prod.fst = List.range n ∧ w.sched.idCount = n := by
  have key : (ids w.sched.events).Nodup ∧ IdsLogged w := by
    induction hw with
    | start zero s => exact ⟨by simp [World.start, Sched.new], by simp [IdsLogged, World.start, Sched.new, registrations]⟩
    | call h c ih => exact ⟨by rw [exec_sched]; exact after_nodup _ _ ih.1, exec_logged _ c ih.2⟩
    | step h hs ih => exact ⟨parStep_nodup ih.1 hs, parStep_logged ih.1 hs ih.2⟩
  exact ⟨_, key.2, rfl⟩

example : (registrations demoWorld.trace).map Prod.fst = [0, 1, 2] := by decide

/-! ### C154 -/

/-- **C154, the negation.** If nothing is pending after `before_step`, a step with the feature `parallel` ends the process: there is
no other outcome, whatever the number of threads; `after_step` and `update` are not called. The step without the feature goes
on (C07). -/
theorem C154_empty_step_exits_partial [LinearOrder T] (m : Model T A S) (k : Nat) (w : World T A S)
    (hq : (preStep m w).sched.events = []) : ParStep m k w .exit ∧ ∀ out, ParStep m k w out → out = .exit :=
  ⟨((C14_parallel_no_threads_partial m w).2 hq k .exit).2 rfl, fun out h => ((C14_parallel_no_threads_partial m w).2 hq k out).1 h⟩

theorem turns_none {m : Model T A S} (hstop : ∀ a s a' s', Callbacks m a s a' s' → (m.isStopped a' s').1 = true)
    {s s' : S} {l r : List (Entry T A)} (h : Turns m s l s' r) : r = [] := by
  induction h with
  | nil => rfl
  | oneShot _ _ ih => exact ih
  | stopped _ _ _ ih => exact ih
  | goesOn hcb hs _ _ =>
    have := hstop _ _ _ _ hcb
    rw [hs] at this
    cases this

/-- **C154, a whole run.** If every agent stops after one turn (or is scheduled once) and the hooks schedule nothing, then no
program completes two steps in a row: the second ends the process. -/
theorem C154_no_second_step_partial [LinearOrder T] (m : Model T A S) (k : Nat) (w w' : World T A S) (hw : ParReachable m w)
    (hstop : ∀ a s a' s', Callbacks m a s a' s' → (m.isStopped a' s').1 = true)
    (hb : ∀ s sch, (m.beforeStep s sch).2 = [] ∧ (m.afterStep s sch).2 = []) (n : Nat) (hr : ParRun m k n w w') : n ≤ 1 := by
  have hev : ∀ {w w' : World T A S}, (ids w.sched.events).Nodup → ParStep m k w (.ok w') → w'.sched.events = [] := by
    intro w w' hn h
    obtain ⟨seq, goOn, v, _, _, h3, h4, _, rfl, _⟩ := parStep_runsOf hn h
    have hg : goOn = [] := turns_none hstop h3
    have : (postStep m v).sched.events = v.sched.events := by
      have e := (hb v.state v.sched).2
      unfold postStep World.doUpdate World.doAfter
      dsimp only
      rw [e]
      rfl
    rw [this, h4, hg]
  have hpre : ∀ w : World T A S, (preStep m w).sched.events = w.sched.events := by
    intro w
    unfold preStep World.doBefore
    dsimp only
    rw [(hb _ _).1]
    split <;> rfl
  have key : (ids w'.sched.events).Nodup ∧ (0 < n → w'.sched.events = []) := by
    have hn := parReachable_nodup hw
    clear hw
    induction hr with
    | nil w => exact ⟨hn, by omega⟩
    | snoc hr hs ih => exact ⟨parStep_nodup (ih hn).1 hs, fun _ => hev (ih hn).1 hs⟩
  by_contra hc
  cases hr with
  | nil => omega
  | snoc hr hs =>
    rename_i n w1
    have h1 : w1.sched.events = [] := by
      have hn := parReachable_nodup hw
      clear key hs
      cases hr with
      | nil => omega
      | snoc hr' hs' =>
        rename_i n' w2
        have hn2 : (ids w2.sched.events).Nodup := by
          clear hs' hc
          induction hr' with
          | nil => exact hn
          | snoc _ hs ih => exact parStep_nodup (ih hw hn) hs
        exact hev hn2 hs'
    have := (C154_empty_step_exits_partial m k w1 (by rw [hpre, h1])).2 _ hs
    cases this

/-- Agents that stop at once. -/
def mayflies : Model Nat Nat Nat :=
  { demo with isStopped := fun a s => (true, a, s) }

example : (∀ a s a' s', Callbacks mayflies a s a' s' → (mayflies.isStopped a' s').1 = true) ∧
    (∀ s sch, (mayflies.beforeStep s sch).2 = [] ∧ (mayflies.afterStep s sch).2 = []) ∧
    ParReachable mayflies demoWorld ∧ ∃ w', ParRun mayflies 2 1 demoWorld w' := by
  refine ⟨fun _ _ _ _ _ => rfl, fun _ _ => ⟨rfl, rfl⟩,
    (show demoWorld = (World.start 0 0).execAll demoCmds from rfl) ▸ parReachable_calls demoCmds (.start 0 0), ?_⟩
  obtain ⟨w', hs⟩ := parStep_exists mayflies 2 (by decide) demoWorld (by decide)
  exact ⟨w', .snoc (.nil _) hs⟩

end Verif.Schedule
