import Verif.Lemmas.Schedule3
import Mathlib.Data.Nat.Basic
import Mathlib.Order.Basic

/-!
Properties of the sequential schedule (C01-C11). `Reachable m w` means: some program got to `w` from a
new schedule with any sequence of API calls and steps; `m` holds arbitrary user code and an arbitrary
tie-breaking rule of the heap. Because the state's `before_step` hook may itself schedule, "pending"
in C01-C03 is the queue handed back by that hook: `(preStep m w).sched.events`.
-/

namespace Verif.Schedule

variable {T A S : Type}

/-! ### A concrete simulation used by the examples: three agents, two of them due -/

/-- Times are numbers, agents are counters, the state counts turns. An agent stops when its counter
reaches 22. -/
def demo : Model Nat Nat Nat where
  update := fun _ s => s
  beforeStep := fun s _ => (s, [])
  afterStep := fun s _ => (s, [])
  aBefore := fun a s => (a, s)
  aStep := fun a s => (a + 1, s + 1)
  aAfter := fun a s => (a, s)
  isStopped := fun a s => (a == 22, a, s)
  adv := fun t => t + 1
  tb := fun _ _ => 0

/-- The program of the examples: two repeating agents at time 5 (orderings 7 and 3), another one at time 9, a
one-shot agent at time 5. -/
def demoOps : List (Op Nat Nat) :=
  [.cmd (.scheduleRepeating 10 5 7), .cmd (.scheduleRepeating 20 5 3), .cmd (.scheduleRepeating 30 9 0),
   .cmd (.scheduleOnce ⟨77, 50, false⟩ 5 4)]

/-- The world after that program. -/
def demoWorld : World Nat Nat Nat := (World.start 0 0).run demo demoOps

theorem demo_reachable : Reachable demo demoWorld := ⟨0, 0, demoOps, rfl⟩

/-! ### C01 -/

/-- **C01.** One `step` runs exactly the agents whose time is the smallest pending time: the runs of the
step are those pending entries, no agent twice, and each run is before_step, step, after_step. -/
theorem C01_step_runs_exactly_the_due_agents [LinearOrder T] (m : Model T A S) (w : World T A S)
    (hw : Reachable m w) :
    ((runsOf (since w (step m w))).map Prod.fst).Nodup ∧
    (∀ i p, (i, p) ∈ runsOf (since w (step m w)) ↔
      ∃ a, a.id = i ∧ (a, p) ∈ (preStep m w).sched.events ∧
        ∀ e ∈ (preStep m w).sched.events, p.time ≤ e.2.time) ∧
    agentCalls (since w (step m w)) = (runsOf (since w (step m w))).flatMap
      (fun r => [.agentBefore r.1, .agentStep r.1 r.2, .agentAfter r.1]) := by
  have hn := preStep_nodup m w (reachable_nodup hw)
  obtain ⟨t, ran, h1, h0, h2, h3, hruns, hcalls⟩ := step_runs m w (reachable_nodup hw)
  refine ⟨?_, ?_, ?_⟩
  · rw [hruns, List.map_map]
    exact ((h2.map (fun e : Entry T A => e.1.id)).nodup_iff).2 (nodup_filter hn _)
  · intro i p
    rw [hruns, List.mem_map]
    constructor
    · rintro ⟨e, he, heq⟩
      have := h2.mem_iff.1 he
      rw [List.mem_filter] at this
      have ht := of_decide_eq_true this.2
      simp only [Prod.mk.injEq] at heq
      obtain ⟨rfl, rfl⟩ := heq
      exact ⟨e.1, rfl, this.1, fun f hf => by rw [ht]; exact h1 f hf⟩
    · rintro ⟨a, rfl, hmem, hmin⟩
      refine ⟨(a, p), h2.mem_iff.2 (List.mem_filter.2 ⟨hmem, ?_⟩), rfl⟩
      obtain ⟨e, he, het⟩ := h0 (List.ne_nil_of_mem hmem)
      have := hmin e he
      rw [het] at this
      simpa using _root_.le_antisymm this (h1 _ hmem)
  · rw [hcalls, hruns, List.flatMap_map]
    rfl

example : Reachable demo demoWorld ∧ (preStep demo demoWorld).sched.events.length = 4 ∧
    runsOf (since demoWorld (step demo demoWorld)) = [(1, ⟨5, 3⟩), (77, ⟨5, 4⟩), (0, ⟨5, 7⟩)] :=
  ⟨demo_reachable, by decide, by decide⟩

/-! ### C02 -/

/-- **C02.** The agents of one step run in non-decreasing order of their ordering value. -/
theorem C02_step_runs_in_ordering_order [LinearOrder T] (m : Model T A S) (w : World T A S)
    (hw : Reachable m w) :
    (runsOf (since w (step m w))).Pairwise (fun r r' => r.2.ordering ≤ r'.2.ordering) := by
  obtain ⟨t, ran, h1, h0, h2, h3, hruns, _⟩ := step_runs m w (reachable_nodup hw)
  rw [hruns, List.pairwise_map]
  have hmem : ∀ e ∈ ran, e.2.time = t := by
    intro e he
    have := h2.mem_iff.1 he
    rw [List.mem_filter] at this
    exact of_decide_eq_true this.2
  refine List.Pairwise.imp_of_mem ?_ h3
  intro e f he hf hle
  rcases hle with h | h
  · rw [hmem e he, hmem f hf] at h
    exact absurd h (lt_irrefl _)
  · exact h.2

example : ((runsOf (since demoWorld (step demo demoWorld))).map (fun r => r.2.ordering)) = [3, 4, 7] := by decide

/-! ### C03 -/

/-- **C03.** When the agents of a step have run (the moment `after_step` is called) the user's state is the
one obtained by letting the agents that ran take their turns in the order they ran, and the pending
agents are exactly the later ones (later than the time `t` of the step), untouched, and the agents
that go on: same id, repeating, carrying their own mutations, at their time plus one with the same
ordering (see `Turns`). -/
theorem C03_pending_after_step [LinearOrder T] (m : Model T A S) (w : World T A S) (hw : Reachable m w) :
    ∃ (t : T) (ran goOn : List (Entry T A)),
      runsOf (since w (step m w)) = ran.map (fun e => (e.1.id, e.2)) ∧
      (∀ e, e ∈ ran ↔ e ∈ (preStep m w).sched.events ∧ e.2.time = t) ∧
      (∀ e ∈ (preStep m w).sched.events, t ≤ e.2.time) ∧
      Turns m (preStep m w).state ran (midStep m w).state goOn ∧
      (midStep m w).sched.events.Perm
        ((preStep m w).sched.events.filter (fun e => decide (t < e.2.time)) ++ goOn) ∧
      (midStep m w).sched.idCount = (preStep m w).sched.idCount := by
  have hn := reachable_nodup hw
  obtain ⟨t, ran, kept, h1, h0, _, h2, _, h4, h5, h6, _, _, hr⟩ := runsOf_step m w hn
  obtain ⟨l, hl⟩ := step_trace_prefix m w hn
  refine ⟨t, ran, kept, ?_, ?_, h1, h4, by rw [h5], h6⟩
  · rw [runsOf_since hl] at hr
    exact List.append_cancel_left hr
  · intro e
    rw [h2.mem_iff, List.mem_filter, decide_eq_true_iff]

/-- C03, read entry by entry: a later agent is still there untouched; a one-shot agent that ran is gone;
an agent that ran and is pending again is a repeating one, at its old time plus one, same ordering. -/
theorem C03_pending_after_step_entries [LinearOrder T] (m : Model T A S) (w : World T A S)
    (hw : Reachable m w) :
    (∀ e ∈ (preStep m w).sched.events,
      (e.1.id, e.2) ∉ runsOf (since w (step m w)) → e ∈ (midStep m w).sched.events) ∧
    (∀ e ∈ (preStep m w).sched.events, (e.1.id, e.2) ∈ runsOf (since w (step m w)) →
      ∀ f ∈ (midStep m w).sched.events, f.1.id = e.1.id →
        e.1.repeating = true ∧ f.1.repeating = true ∧ f.2 = ⟨m.adv e.2.time, e.2.ordering⟩) ∧
    (∀ f ∈ (midStep m w).sched.events, ∃ e ∈ (preStep m w).sched.events, e.1.id = f.1.id) := by
  have hn := preStep_nodup m w (reachable_nodup hw)
  obtain ⟨t, ran, goOn, hr, hran, hmin, hturn, hperm, _⟩ := C03_pending_after_step m w hw
  refine ⟨?_, ?_, ?_⟩
  · intro e he hnr
    rw [hperm.mem_iff, List.mem_append, List.mem_filter, decide_eq_true_iff]
    refine Or.inl ⟨he, lt_of_le_of_ne (hmin e he) ?_⟩
    intro heq
    apply hnr
    rw [hr]
    exact List.mem_map.2 ⟨e, (hran e).2 ⟨he, heq.symm⟩, rfl⟩
  · intro e he hmem f hf hid
    rw [hr, List.mem_map] at hmem
    obtain ⟨e', he', heq⟩ := hmem
    have he'p := (hran e').1 he'
    have : e' = e := eq_of_id hn he'p.1 he (by simpa using congrArg Prod.fst heq)
    subst this
    rw [hperm.mem_iff, List.mem_append, List.mem_filter, decide_eq_true_iff] at hf
    rcases hf with ⟨hf, hlt⟩ | hf
    · have := eq_of_id hn hf he hid
      subst this
      rw [he'p.2] at hlt
      exact absurd hlt (lt_irrefl _)
    · obtain ⟨g, hg, hgid, hgr, hfr, ht, ho⟩ := turns_times hturn hf
      have hgp := (hran g).1 hg
      have := eq_of_id hn hgp.1 he (hgid.trans hid)
      subst this
      refine ⟨hgr, hfr, ?_⟩
      obtain ⟨fa, ft, fo⟩ := f
      simp_all
  · intro f hf
    rw [hperm.mem_iff, List.mem_append, List.mem_filter] at hf
    rcases hf with ⟨hf, _⟩ | hf
    · exact ⟨f, hf, rfl⟩
    · obtain ⟨g, hg, hgid, _⟩ := turns_times hturn hf
      exact ⟨g, ((hran g).1 hg).1, hgid⟩

example : ((midStep demo demoWorld).sched.events.map
      (fun e => (e.1.id, e.1.agent, e.1.repeating, e.2.time, e.2.ordering)))
    = [(2, 30, true, 9, 0), (1, 21, true, 6, 3), (0, 11, true, 6, 7)] := by decide

/-- In the second step agent 1 reaches 22 and asks to stop: it is gone. -/
example : ((midStep demo (step demo demoWorld)).sched.events.map
      (fun e => (e.1.id, e.1.agent, e.1.repeating, e.2.time, e.2.ordering)))
    = [(2, 30, true, 9, 0), (0, 12, true, 7, 7)] := by decide

/-! ### C04 -/

/-- **C04 (clock = time of the batch).** If anything is pending, the clock after a step is the time of
every agent that ran, the smallest pending time; if nothing is pending the clock stays. -/
theorem C04_clock_is_batch_time [LinearOrder T] (m : Model T A S) (w : World T A S) (hw : Reachable m w) :
    (∀ r ∈ runsOf (since w (step m w)), r.2.time = (step m w).sched.time) ∧
    ((preStep m w).sched.events ≠ [] → runsOf (since w (step m w)) ≠ []) ∧
    ((preStep m w).sched.events = [] → (step m w).sched.time = w.sched.time) := by
  have hn := reachable_nodup hw
  obtain ⟨t, ran, kept, h1, h0, he, h2, _, h4, h5, h6, _, ht, hr⟩ := runsOf_step m w hn
  obtain ⟨l, hl⟩ := step_trace_prefix m w hn
  rw [runsOf_since hl] at hr
  have hr := List.append_cancel_left hr
  refine ⟨?_, ?_, ?_⟩
  · intro r hmem
    rw [hr] at hmem
    obtain ⟨e, hem, rfl⟩ := List.mem_map.1 hmem
    have := h2.mem_iff.1 hem
    rw [List.mem_filter, decide_eq_true_iff] at this
    rw [ht]; exact this.2
  · intro hq hnil
    obtain ⟨e, hem, het⟩ := h0 hq
    have : e ∈ ran := h2.mem_iff.2 (List.mem_filter.2 ⟨hem, by simpa using het⟩)
    rw [hr, List.map_eq_nil_iff] at hnil
    rw [hnil] at this
    simp at this
  · intro hq
    rw [ht, he hq]

/-- The clocks observed along a history. -/
def clocks [LinearOrder T] (m : Model T A S) : World T A S → List (Op T A) → List T
  | w, [] => [w.sched.time]
  | w, o :: ops => w.sched.time :: clocks m (w.op m o) ops

theorem clocks_aux [LinearOrder T] (m : Model T A S) (hadv : ∀ t, t ≤ m.adv t)
    (hh : HooksSatisfy m (fun s c => c.notBefore s.time)) (ops : List (Op T A)) :
    ∀ w : World T A S, (ids w.sched.events).Nodup → Later w.sched →
      OpsSatisfy m (fun s c => c.notBefore s.time) w ops →
      (∀ t ∈ clocks m w ops, w.sched.time ≤ t) ∧ (clocks m w ops).Pairwise (· ≤ ·) := by
  induction ops with
  | nil => intro w _ _ _; simp [clocks]
  | cons o ops ih =>
    intro w hn hl ho
    have hnext : (ids (w.op m o).sched.events).Nodup ∧ Later (w.op m o).sched ∧
        w.sched.time ≤ (w.op m o).sched.time ∧ OpsSatisfy m (fun s c => c.notBefore s.time) (w.op m o) ops := by
      cases o with
      | cmd c =>
        refine ⟨?_, ?_, ?_, ho.2⟩
        · show (ids (w.exec c).sched.events).Nodup
          rw [exec_sched]; exact after_nodup _ _ hn
        · show Later (w.exec c).sched
          rw [exec_sched]; exact after_later _ _ ho.1 hl
        · show _ ≤ (w.exec c).sched.time
          cases c <;> exact le_refl _
      | step =>
        obtain ⟨h1, h2⟩ := step_later m w hadv hh hn hl
        exact ⟨step_nodup m w hn, h1, h2, ho⟩
    obtain ⟨h1, h2, h3, h4⟩ := hnext
    obtain ⟨g1, g2⟩ := ih _ h1 h2 h4
    refine ⟨?_, ?_⟩
    · intro t ht
      rcases List.mem_cons.1 ht with rfl | ht
      · exact le_refl _
      · exact _root_.le_trans h3 (g1 t ht)
    · show List.Pairwise _ (w.sched.time :: clocks m (w.op m o) ops)
      rw [List.pairwise_cons]
      exact ⟨fun t ht => _root_.le_trans h3 (g1 t ht), g2⟩

/-- **C04 (monotone clock).** Along any history from a new schedule in which neither the program nor the
hooks schedule into the past, the clock never decreases. -/
theorem C04_clock_never_decreases [LinearOrder T] (m : Model T A S) (hadv : ∀ t, t ≤ m.adv t)
    (hh : HooksSatisfy m (fun s c => c.notBefore s.time)) (zero : T) (s : S) (ops : List (Op T A))
    (ho : OpsSatisfy m (fun s c => c.notBefore s.time) (World.start zero s) ops) :
    (clocks m (World.start zero s) ops).Pairwise (· ≤ ·) :=
  (clocks_aux m hadv hh ops _ (by simp [World.start, Sched.new]) (by simp [Later, World.start, Sched.new]) ho).2

example : HooksSatisfy demo (fun s c => c.notBefore s.time) ∧ (∀ t, t ≤ demo.adv t) ∧
    OpsSatisfy demo (fun s c => c.notBefore s.time) (World.start 0 0) (demoOps ++ [.step, .step]) ∧
    clocks demo (World.start 0 0) (demoOps ++ [.step, .step, .step, .step, .step, .step])
      = [0, 0, 0, 0, 0, 5, 6, 7, 8, 9, 10] := by
  refine ⟨fun s sch => ⟨trivial, trivial⟩, fun t => Nat.le_succ t, ?_, by decide⟩
  simp [demoOps, OpsSatisfy, Cmd.notBefore, World.start, Sched.new, World.exec, Sched.scheduleRepeating]

/-! ### C05 -/

/-- One step for a tracked agent: it either runs once and is pending again one time unit later, or it does
not run and stays pending, later than the clock. -/
theorem tracked_step [LinearOrder T] (m : Model T A S) (w : World T A S) (P : A → Prop)
    (hP : ∀ a s a' s', P a → Callbacks m a s a' s' →
      (m.isStopped a' s').1 = false ∧ P (m.isStopped a' s').2.1)
    (i : Nat) (hh : HooksSatisfy m (fun _ c => ¬ c.touches i))
    (hn : (ids w.sched.events).Nodup) (hi : i < w.sched.idCount) (a : A) (p : Priority T)
    (hmem : (⟨i, a, true⟩, p) ∈ w.sched.events) (ha : P a) :
    i < (step m w).sched.idCount ∧
    ((p.time = (step m w).sched.time ∧
      (runsOf (since w (step m w))).filter (fun r => r.1 == i) = [(i, p)] ∧
      ∃ a', P a' ∧ (⟨i, a', true⟩, ⟨m.adv p.time, p.ordering⟩) ∈ (step m w).sched.events) ∨
     ((step m w).sched.time < p.time ∧
      (runsOf (since w (step m w))).filter (fun r => r.1 == i) = [] ∧
      (⟨i, a, true⟩, p) ∈ (step m w).sched.events)) := by
  obtain ⟨hi1, hk1⟩ := preStep_keeps m i w hh hi
  have hpm := hk1 hmem rfl
  obtain ⟨t, ran, kept, h1, h0, _, h2, _, h4, h5, h6, _, ht, hr⟩ := runsOf_step m w hn
  obtain ⟨l, hl⟩ := step_trace_prefix m w hn
  rw [runsOf_since hl] at hr
  have hr := List.append_cancel_left hr
  have hnp := preStep_nodup m w hn
  have hranN : (ids ran).Nodup := by
    have : (ids ran).Perm (ids ((preStep m w).sched.events.filter (fun e => decide (e.2.time = t)))) := h2.map _
    exact this.nodup_iff.2 (nodup_filter hnp _)
  obtain ⟨hi2, hk2⟩ := postStep_keeps m i (midStep m w) hh (by rw [h6]; exact hi1)
  refine ⟨hi2, ?_⟩
  rw [ht, hr]
  rcases lt_or_eq_of_le (h1 _ hpm) with hlt | heq
  · refine Or.inr ⟨hlt, ?_, ?_⟩
    · apply filter_runs_notmem
      intro hc
      obtain ⟨e, he, hid⟩ := mem_ids.1 hc
      have := h2.mem_iff.1 he
      rw [List.mem_filter, decide_eq_true_iff] at this
      have hee := eq_of_id hnp this.1 hpm hid
      subst hee
      rw [this.2] at hlt
      exact absurd hlt (lt_irrefl _)
    · apply hk2 _ rfl
      rw [h5]
      exact List.mem_append.2 (Or.inl (List.mem_filter.2 ⟨hpm, by simpa using hlt⟩))
  · have hmr : (⟨i, a, true⟩, p) ∈ ran := h2.mem_iff.2 (List.mem_filter.2 ⟨hpm, by simpa using heq.symm⟩)
    refine Or.inl ⟨heq.symm, filter_runs_mem hranN hmr, ?_⟩
    obtain ⟨a', hPa, hk⟩ := turns_goesOn hP h4 hmr ha
    refine ⟨a', hPa, hk2 ?_ rfl⟩
    rw [h5]
    exact List.mem_append.2 (Or.inr hk)

theorem steps_succ' [LinearOrder T] (m : Model T A S) (n : Nat) : ∀ w : World T A S,
    steps m (n + 1) w = step m (steps m n w) := by
  induction n with
  | zero => intro w; rfl
  | succ n ih => intro w; show steps m (n + 1) (step m w) = _; rw [ih]; rfl

/-- **C05.** Take a repeating agent `i` pending at time `t` with ordering `o`, that never reports
`is_stopped` (`P` is any property of agents kept by its callbacks that rules this out) and that the
hooks leave alone. Whatever the other agents are and do, after `n` steps its runs since then are exactly
those at `t, t+1, t+2, ...` up to the clock, in this order, each once, with ordering `o`. -/
theorem C05_repeating_agent_runs_every_unit [LinearOrder T] (m : Model T A S) (w : World T A S)
    (hw : Reachable m w)
    (hadv : ∀ t, t < m.adv t)
    (P : A → Prop)
    (hP : ∀ a s a' s', P a → Callbacks m a s a' s' →
      (m.isStopped a' s').1 = false ∧ P (m.isStopped a' s').2.1)
    (i : Nat) (hi : i < w.sched.idCount)
    (hh : HooksSatisfy m (fun s c => ¬ c.touches i ∧ c.notBefore s.time))
    (hl : ∀ e ∈ w.sched.events, w.sched.time ≤ e.2.time)
    (a : A) (ha : P a) (t : T) (o : Int)
    (hmem : (⟨i, a, true⟩, ⟨t, o⟩) ∈ w.sched.events) (n : Nat) :
    ∃ k, (runsOf (since w (steps m n w))).filter (fun r => r.1 == i)
          = (List.range k).map (fun j => (i, ⟨m.adv^[j] t, o⟩)) ∧
      (0 < n → ∀ j, j < k ↔ m.adv^[j] t ≤ (steps m n w).sched.time) ∧
      ∃ a', P a' ∧ (⟨i, a', true⟩, ⟨m.adv^[k] t, o⟩) ∈ (steps m n w).sched.events := by
  have hcs : ∀ (cs : List (Cmd T A)) (s : Sched T A),
      CallsSatisfy (fun s c => ¬ c.touches i ∧ c.notBefore s.time) s cs →
      CallsSatisfy (fun _ c => ¬ c.touches i) s cs ∧ CallsSatisfy (fun s c => c.notBefore s.time) s cs := by
    intro cs
    induction cs with
    | nil => intro s _; exact ⟨trivial, trivial⟩
    | cons c cs ih =>
      intro s h
      obtain ⟨h1, h2⟩ := ih _ h.2
      exact ⟨⟨h.1.1, h1⟩, ⟨h.1.2, h2⟩⟩
  have hh1 : HooksSatisfy m (fun _ c => ¬ c.touches i) :=
    fun s sch => ⟨(hcs _ _ (hh s sch).1).1, (hcs _ _ (hh s sch).2).1⟩
  have hh2 : HooksSatisfy m (fun s c => c.notBefore s.time) :=
    fun s sch => ⟨(hcs _ _ (hh s sch).1).2, (hcs _ _ (hh s sch).2).2⟩
  have hn := reachable_nodup hw
  have hmono : ∀ j j', j ≤ j' → m.adv^[j] t ≤ m.adv^[j'] t := by
    intro j j' hj
    induction hj with
    | refl => exact le_refl _
    | step _ ih =>
      rw [Function.iterate_succ_apply']
      exact _root_.le_trans ih (le_of_lt (hadv _))
  have key : ∀ n, ∃ k, (ids (steps m n w).sched.events).Nodup ∧ Later (steps m n w).sched ∧
      i < (steps m n w).sched.idCount ∧ (∃ l, (steps m n w).trace = w.trace ++ l) ∧
      (runsOf (since w (steps m n w))).filter (fun r => r.1 == i)
          = (List.range k).map (fun j => (i, ⟨m.adv^[j] t, o⟩)) ∧
      (∀ j, j < k → m.adv^[j] t ≤ (steps m n w).sched.time) ∧
      (0 < n → (steps m n w).sched.time < m.adv^[k] t) ∧
      ∃ a', P a' ∧ (⟨i, a', true⟩, ⟨m.adv^[k] t, o⟩) ∈ (steps m n w).sched.events := by
    intro n
    induction n with
    | zero =>
      refine ⟨0, hn, hl, hi, ⟨[], by simp [steps]⟩, ?_, by simp, by simp, a, ha, hmem⟩
      simp [steps, since, runsOf]
    | succ n ih =>
      obtain ⟨k, h1, h2, h3, ⟨l, h4⟩, h5, h6, h7, a', ha', h8⟩ := ih
      rw [steps_succ']
      generalize steps m n w = v at *
      obtain ⟨g1, g2⟩ := tracked_step m v P hP i hh1 h1 h3 a' ⟨_, o⟩ h8 ha'
      obtain ⟨e1, e2⟩ := step_later m v (fun t => le_of_lt (hadv t)) hh2 h1 h2
      obtain ⟨l', h4'⟩ := step_trace_prefix m v h1
      have htr : (step m v).trace = w.trace ++ (l ++ l') := by rw [h4', h4, List.append_assoc]
      have hsince : runsOf (since w (step m v)) = runsOf (since w v) ++ runsOf (since v (step m v)) := by
        rw [since_append htr, since_append h4, since_append h4', runsOf_append]
      rcases g2 with ⟨gt, gr, a'', ga, gm⟩ | ⟨gt, gr, gm⟩
      · refine ⟨k + 1, step_nodup m v h1, e1, g1, ⟨_, htr⟩, ?_, ?_, ?_, a'', ga, ?_⟩
        · rw [hsince, List.filter_append, h5, gr, List.range_succ, List.map_append]
          rfl
        · intro j hj
          rcases Nat.lt_succ_iff_lt_or_eq.1 hj with hj | rfl
          · exact _root_.le_trans (h6 j hj) e2
          · exact le_of_eq gt
        · intro _
          rw [Function.iterate_succ_apply', ← gt]
          exact hadv _
        · rw [Function.iterate_succ_apply']; exact gm
      · refine ⟨k, step_nodup m v h1, e1, g1, ⟨_, htr⟩, ?_, ?_, fun _ => gt, a', ha', gm⟩
        · rw [hsince, List.filter_append, h5, gr, List.append_nil]
        · intro j hj
          exact _root_.le_trans (h6 j hj) e2
  obtain ⟨k, _, _, _, _, h5, h6, h7, h8⟩ := key n
  refine ⟨k, h5, ?_, h8⟩
  intro h0 j
  constructor
  · exact h6 j
  · intro hle
    by_contra hc
    exact absurd (lt_of_lt_of_le (h7 h0) (hmono k j (Nat.le_of_not_lt hc))) (not_lt_of_ge hle)

/-- The hypotheses hold for agent 2 of the demo world (start time 9, `P` = "counter above 22"). -/
example : (2 : Nat) < demoWorld.sched.idCount ∧
    (∀ e ∈ demoWorld.sched.events, demoWorld.sched.time ≤ e.2.time) ∧
    ((⟨2, 30, true⟩, ⟨9, 0⟩) : Entry Nat Nat) ∈ demoWorld.sched.events ∧
    HooksSatisfy demo (fun s c => ¬ c.touches 2 ∧ c.notBefore s.time) ∧
    (∀ a s a' s', 22 < a → Callbacks demo a s a' s' →
      (demo.isStopped a' s').1 = false ∧ 22 < (demo.isStopped a' s').2.1) ∧
    (runsOf (since demoWorld (steps demo 6 demoWorld))).filter (fun r => r.1 == 2)
      = [(2, ⟨9, 0⟩), (2, ⟨10, 0⟩)] := by
  refine ⟨by decide, by decide, by decide, fun s sch => ⟨trivial, trivial⟩, ?_, by decide⟩
  rintro a s a' s' ha ⟨a1, s1, a2, s2, h1, h2, h3⟩
  simp only [demo, Prod.mk.injEq] at h1 h2 h3
  obtain ⟨rfl, rfl⟩ := h1
  obtain ⟨rfl, rfl⟩ := h2
  obtain ⟨rfl, rfl⟩ := h3
  simp [demo]
  omega

/-! ### C06 -/

/-- The number of steps in a history. -/
def countSteps : List (Op T A) → Nat
  | [] => 0
  | .cmd _ :: ops => countSteps ops
  | .step :: ops => countSteps ops + 1

/-- The hook calls the first `n` steps must make. -/
def expectedHooks : Nat → List (Ev T A)
  | 0 => []
  | n + 1 => expectedHooks n ++ (if n = 0 then [.update 0] else []) ++ [.stateBefore, .stateAfter, .update (n + 1)]

theorem step_step [LinearOrder T] (m : Model T A S) (w : World T A S) (hn : (ids w.sched.events).Nodup) :
    (step m w).sched.step = w.sched.step + 1 := by
  obtain ⟨_, _, _, _, _, _, _, _, _, _, _, hs, _⟩ := midStep_spec m w (preStep_nodup m w hn)
  rw [← hs]
  exact (postStep_step m _).1

theorem hooks_aux [LinearOrder T] (m : Model T A S) (ops : List (Op T A)) : ∀ w : World T A S,
    (ids w.sched.events).Nodup → hookCalls w.trace = expectedHooks w.sched.step →
    (w.run m ops).sched.step = w.sched.step + countSteps ops ∧
    hookCalls (w.run m ops).trace = expectedHooks (w.sched.step + countSteps ops) := by
  induction ops with
  | nil => intro w _ h; exact ⟨rfl, h⟩
  | cons o ops ih =>
    intro w hn h
    cases o with
    | cmd c =>
      have h1 : (ids (w.exec c).sched.events).Nodup := by rw [exec_sched]; exact after_nodup _ _ hn
      have h2 : (w.exec c).sched.step = w.sched.step := by cases c <;> rfl
      have h3 : hookCalls (w.exec c).trace = expectedHooks (w.exec c).sched.step := by
        obtain ⟨e, he, htr⟩ := exec_trace w c
        rw [htr, hookCalls_append, h, h2]
        have : hookCalls [e] = [] := hookCalls_api (by simpa using he)
        rw [this, List.append_nil]
      have := ih (w.exec c) h1 h3
      rw [h2] at this
      exact this
    | step =>
      have h2 := step_step m w hn
      have h3 : hookCalls (step m w).trace = expectedHooks (step m w).sched.step := by
        obtain ⟨t, ran, api, api', ha, ha', _, _, _, _, htr⟩ := step_trace m w (preStep_nodup m w hn)
        rw [htr, h2]
        simp only [hookCalls_append, h, hookCalls_api ha, hookCalls_api ha', hookCalls_calls]
        have e1 : hookCalls ([.stateBefore] : List (Ev T A)) = [.stateBefore] := rfl
        have e2 : hookCalls ([.stateAfter] : List (Ev T A)) = [.stateAfter] := rfl
        have e3 : ∀ k, hookCalls ([.update k] : List (Ev T A)) = [.update k] := fun _ => rfl
        have e4 : hookCalls (if w.sched.step = 0 then [.update 0] else [] : List (Ev T A))
            = if w.sched.step = 0 then [.update 0] else [] := by
          split <;> rfl
        rw [e1, e2, e3, e4]
        simp [expectedHooks]
      have := ih (step m w) (step_nodup m w hn) h3
      rw [h2] at this
      have e : w.sched.step + 1 + countSteps ops = w.sched.step + countSteps (.step :: ops) := by
        show _ = w.sched.step + (countSteps ops + 1)
        omega
      rw [e] at this
      exact this

/-- **C06 (counter and hooks over a whole run).** After any history with `k` calls of `step` the step
counter is `k`, and the hook calls made so far are: `update(0)` once at the very beginning, then for each
step `before_step`, `after_step`, `update(number of the step)`. -/
theorem C06_step_counter_and_hooks [LinearOrder T] (m : Model T A S) (zero : T) (s : S) (ops : List (Op T A)) :
    ((World.start zero s).run m ops).sched.step = countSteps ops ∧
    hookCalls ((World.start zero s).run m ops).trace = expectedHooks (countSteps ops) := by
  have := hooks_aux m ops (World.start zero s) (by simp [World.start, Sched.new]) rfl
  simpa [World.start, Sched.new] using this

/-- **C06 (order inside one step).** Every step first calls `update(0)` (only if it is the first one), then
`before_step`, then the agents, then `after_step`, then `update`; API calls appear only inside the two
hooks. -/
theorem C06_order_within_step [LinearOrder T] (m : Model T A S) (w : World T A S) (hw : Reachable m w) :
    ∃ (api calls api' : List (Ev T A)),
      (∀ e ∈ api ++ api', (∃ i, e = .once i) ∨ (∃ i b, e = .registered i b) ∨ (∃ i b, e = .dequeued i b)) ∧
      (∀ e ∈ calls, (∃ i, e = .agentBefore i) ∨ (∃ i p, e = .agentStep i p) ∨ (∃ i, e = .agentAfter i)) ∧
      since w (step m w) = (if w.sched.step = 0 then [.update 0] else []) ++ [.stateBefore] ++ api ++
        calls ++ [.stateAfter] ++ api' ++ [.update (w.sched.step + 1)] := by
  obtain ⟨t, ran, api, api', ha, ha', _, _, _, _, htr⟩ :=
    step_trace m w (preStep_nodup m w (reachable_nodup hw))
  refine ⟨api, ran.flatMap callsOf, api', ?_, ?_, since_append htr⟩
  · intro e he
    have : e.isApi = true := by
      rcases List.mem_append.1 he with h | h
      · exact ha e h
      · exact ha' e h
    cases e <;> simp_all [Ev.isApi]
  · intro e he
    obtain ⟨x, _, hx⟩ := List.mem_flatMap.1 he
    simp only [callsOf, List.mem_cons, List.not_mem_nil, or_false] at hx
    rcases hx with rfl | rfl | rfl <;> simp

example : countSteps (demoOps ++ [.step, .cmd (.dequeue 0), .step]) = 2 ∧
    (expectedHooks 2 : List (Ev Nat Nat)) =
      [.update 0, .stateBefore, .stateAfter, .update 1, .stateBefore, .stateAfter, .update 2] := ⟨rfl, rfl⟩

/-! ### C07 -/

/-- **C07.** If nothing is pending after `before_step`, the step runs no agent, keeps the clock, still
calls `after_step` and `update`, and advances the step counter; what the hooks schedule stays pending
for later steps. -/
theorem C07_empty_step [LinearOrder T] (m : Model T A S) (w : World T A S) (hw : Reachable m w)
    (hq : (preStep m w).sched.events = []) :
    runsOf (since w (step m w)) = [] ∧
    (step m w).sched.time = w.sched.time ∧
    (step m w).sched.step = w.sched.step + 1 ∧
    (∃ api : List (Ev T A), (step m w).trace =
      (preStep m w).trace ++ [.stateAfter] ++ api ++ [.update (w.sched.step + 1)]) ∧
    (step m w).sched.events = ((preStep m w).doAfter m).sched.events := by
  have hn := reachable_nodup hw
  have hmid : midStep m w = preStep m w := by unfold midStep; simp [hq]
  refine ⟨?_, (C04_clock_is_batch_time m w hw).2.2 hq, step_step m w hn, ?_, ?_⟩
  · obtain ⟨_, h, _⟩ := C01_step_runs_exactly_the_due_agents m w hw
    rw [List.eq_nil_iff_forall_not_mem]
    rintro ⟨i, p⟩ hc
    obtain ⟨a, _, ha, _⟩ := (h i p).1 hc
    rw [hq] at ha
    simp at ha
  · obtain ⟨api, _, h⟩ := postStep_trace m (midStep m w)
    refine ⟨api, ?_⟩
    show (postStep m (midStep m w)).trace = _
    rw [h, hmid, (preStep_step m w).1]
    simp
  · show (postStep m (midStep m w)).sched.events = _
    rw [hmid]
    rfl

example : (preStep demo (World.start 0 0)).sched.events = [] ∧ Reachable demo (World.start 0 0) :=
  ⟨rfl, 0, 0, [], rfl⟩

/-! ### C08 -/

theorem run_logged [LinearOrder T] (m : Model T A S) (ops : List (Op T A)) : ∀ w : World T A S,
    (ids w.sched.events).Nodup → IdsLogged w → IdsLogged (w.run m ops) := by
  induction ops with
  | nil => intro w _ h; exact h
  | cons o ops ih =>
    intro w hn h
    cases o with
    | cmd c => exact ih (w.exec c) (by rw [exec_sched]; exact after_nodup _ _ hn) (exec_logged w c h)
    | step => exact ih (step m w) (step_nodup m w hn) (step_logged m w hn h)

/-- **C08 (ids are 0,1,2,...).** Whatever the program and the hooks do, the ids handed out by
`(distributed_)schedule_repeating` are 0, 1, 2, ... in call order (hence pairwise distinct). -/
theorem C08_ids_are_consecutive [LinearOrder T] (m : Model T A S) (w : World T A S) (hw : Reachable m w) :
    ∃ n, (registrations w.trace).map Prod.fst = List.range n := by
  obtain ⟨z, s, ops, rfl⟩ := hw
  exact ⟨_, run_logged m ops _ (by simp [World.start, Sched.new]) (by simp [IdsLogged, World.start, Sched.new, registrations])⟩

theorem run_known [LinearOrder T] (m : Model T A S)
    (hh : HooksSatisfy m (fun s c => c.knownId s.idCount)) (ops : List (Op T A)) : ∀ w : World T A S,
    (ids w.sched.events).Nodup → OpsSatisfy m (fun s c => c.knownId s.idCount) w ops → IdsKnown w →
    IdsKnown (w.run m ops) := by
  induction ops with
  | nil => intro w _ _ h; exact h
  | cons o ops ih =>
    intro w hn ho h
    cases o with
    | cmd c => exact ih (w.exec c) (by rw [exec_sched]; exact after_nodup _ _ hn) ho.2 (exec_known w c ho.1 h)
    | step => exact ih (step m w) (step_nodup m w hn) ho (step_known m w hn hh h)

/-- **C08 (registration succeeds).** If `schedule_once` is only used with ids handed out before, every
registration so far reported success, and the next one will: it returns the next id and `true` and adds
exactly the given agent as repeating. -/
theorem C08_registration_succeeds [LinearOrder T] (m : Model T A S)
    (hh : HooksSatisfy m (fun s c => c.knownId s.idCount)) (zero : T) (s : S) (ops : List (Op T A))
    (ho : OpsSatisfy m (fun s c => c.knownId s.idCount) (World.start zero s) ops) :
    let w := (World.start zero s).run m ops
    (∀ r ∈ registrations w.trace, r.2 = true) ∧
    ∀ (a : A) (t : T) (o : Int),
      (w.sched.scheduleRepeating a t o).2 = ((registrations w.trace).length, true) ∧
      (w.sched.scheduleRepeating a t o).1.events
        = w.sched.events ++ [(⟨(registrations w.trace).length, a, true⟩, ⟨t, o⟩)] := by
  have hk := run_known m hh ops (World.start zero s) (by simp [World.start, Sched.new]) ho
    ⟨by simp [World.start, Sched.new], by simp [World.start, registrations]⟩
  have hlog := run_logged m ops (World.start zero s) (by simp [World.start, Sched.new])
    (by simp [IdsLogged, World.start, Sched.new, registrations])
  refine ⟨hk.2, ?_⟩
  intro a t o
  have hc : (registrations ((World.start zero s).run m ops).trace).length
      = ((World.start zero s).run m ops).sched.idCount := by
    have := congrArg List.length hlog
    simpa using this
  rw [hc, scheduleRepeating_fresh _ hk.1]
  exact ⟨rfl, rfl⟩

example : OpsSatisfy demo (fun s c => c.knownId s.idCount) (World.start 0 0)
      [.cmd (.scheduleRepeating 10 5 7), .step, .cmd (.dequeue 0), .cmd (.scheduleOnce ⟨0, 1, true⟩ 8 8),
       .cmd (.scheduleRepeating 11 5 7)] ∧
    registrations ((World.start 0 0 : World Nat Nat Nat).run demo
      [.cmd (.scheduleRepeating 10 5 7), .step, .cmd (.dequeue 0), .cmd (.scheduleOnce ⟨0, 1, true⟩ 8 8),
       .cmd (.scheduleRepeating 11 5 7)]).trace = [(0, true), (1, true)] := by
  refine ⟨⟨trivial, trivial, ?_, trivial, trivial⟩, by decide⟩
  show (0 : Nat) < _
  decide

/-! ### C09 -/

/-- **C09.** `dequeue` returns true iff an agent with that id is pending; afterwards none is; all other
pending agents are untouched. -/
theorem C09_dequeue_exact (s : Sched T A) (i : Nat) :
    ((s.dequeue i).2 = true ↔ ∃ e ∈ s.events, e.1.id = i) ∧
    (∀ e, e ∈ (s.dequeue i).1.events ↔ e ∈ s.events ∧ e.1.id ≠ i) ∧
    ((s.dequeue i).1.step = s.step ∧ (s.dequeue i).1.time = s.time ∧ (s.dequeue i).1.idCount = s.idCount) := by
  refine ⟨?_, ?_, rfl, rfl, rfl⟩
  · simp [Sched.dequeue, Queue.remove, List.find?_isSome]
  · intro e
    simp [Sched.dequeue, Queue.remove]

/-- **C09 (later steps).** An agent whose id was handed out, once dequeued, is not run by any number of
later steps unless a hook schedules that id again. -/
theorem C09_dequeued_agent_never_runs [LinearOrder T] (m : Model T A S) (w : World T A S) (hw : Reachable m w)
    (i : Nat) (hi : i < w.sched.idCount) (hh : HooksSatisfy m (fun _ c => ¬ c.adds i)) (n : Nat) :
    (runsOf (since (w.exec (.dequeue i)) (steps m n (w.exec (.dequeue i))))).filter (fun r => r.1 == i) = [] := by
  have hw' := reachable_exec hw (.dequeue i)
  have habs : i ∉ ids (w.exec (.dequeue i)).sched.events := by
    rw [mem_ids]
    rintro ⟨e, he, hid⟩
    exact ((C09_dequeue_exact w.sched i).2.1 e).1 he |>.2 hid
  have hi' : i < (w.exec (.dequeue i)).sched.idCount := hi
  generalize w.exec (.dequeue i) = v at *
  have key : ∀ n, (ids (steps m n v).sched.events).Nodup ∧ i < (steps m n v).sched.idCount ∧
      i ∉ ids (steps m n v).sched.events ∧ (∃ l, (steps m n v).trace = v.trace ++ l) ∧
      (runsOf (steps m n v).trace).filter (fun r => r.1 == i) = (runsOf v.trace).filter (fun r => r.1 == i) := by
    intro n
    induction n with
    | zero => exact ⟨reachable_nodup hw', hi', habs, ⟨[], by simp [steps]⟩, rfl⟩
    | succ n ih =>
      obtain ⟨h1, h2, h3, ⟨l, h4⟩, h5⟩ := ih
      rw [steps_succ']
      obtain ⟨g1, g2, g3⟩ := step_absent m i (steps m n v) hh h1 h2 h3
      obtain ⟨l', h4'⟩ := step_trace_prefix m (steps m n v) h1
      exact ⟨step_nodup m _ h1, g1, g2, ⟨l ++ l', by rw [h4', h4, List.append_assoc]⟩, g3.trans h5⟩
  obtain ⟨_, _, _, ⟨l, hl⟩, hr⟩ := key n
  rw [runsOf_since hl, List.filter_append] at hr
  simpa using hr

example : (0 : Nat) < demoWorld.sched.idCount ∧ HooksSatisfy demo (fun _ c => ¬ c.adds 0) ∧
    (demoWorld.sched.dequeue 0).2 = true ∧ (demoWorld.sched.dequeue 5).2 = false :=
  ⟨by decide, fun _ _ => ⟨trivial, trivial⟩, by decide, by decide⟩

/-! ### C10 -/

/-- **C10 (partial: ids not pending).** `schedule_once` with an id that is not pending adds exactly the
given agent. Missing: ids that are pending, where the statement fails, see
`C10_schedule_once_may_drop_the_agent`. -/
theorem C10_schedule_once_fresh_partial (s : Sched T A) (a : AgentImpl A) (t : T) (o : Int)
    (h : ∀ e ∈ s.events, e.1.id ≠ a.id) :
    (s.scheduleOnce a t o).events = s.events ++ [(a, ⟨t, o⟩)] := by
  unfold Sched.scheduleOnce
  rw [push_fresh]
  rw [mem_ids]
  rintro ⟨e, he, hid⟩
  exact h e he hid

/-- C10 for ids that are pending: the given agent is dropped, the pending one moves to the new time and
ordering; every other entry is unchanged, and there is still one entry per id. -/
theorem C10_schedule_once_pending_partial (s : Sched T A) (hn : (ids s.events).Nodup) (a : AgentImpl A)
    (t : T) (o : Int) (e : Entry T A) (he : e ∈ s.events) (hid : e.1.id = a.id) :
    (e.1, ⟨t, o⟩) ∈ (s.scheduleOnce a t o).events ∧
    (∀ f, f.1.id = a.id → f ∈ (s.scheduleOnce a t o).events → f = (e.1, ⟨t, o⟩)) ∧
    (∀ f, f.1.id ≠ a.id → (f ∈ (s.scheduleOnce a t o).events ↔ f ∈ s.events)) ∧
    (ids (s.scheduleOnce a t o).events).Nodup := by
  have hmem : a.id ∈ ids s.events := mem_ids.2 ⟨e, he, hid⟩
  obtain ⟨_, _, _, hp⟩ := push_present (p := (⟨t, o⟩ : Priority T)) hmem
  have hin : (e.1, ⟨t, o⟩) ∈ (s.scheduleOnce a t o).events := by
    unfold Sched.scheduleOnce
    rw [hp]
    exact List.mem_map.2 ⟨e, he, by simp [hid]⟩
  have hnd := nodup_push hn a ⟨t, o⟩
  refine ⟨hin, ?_, ?_, hnd⟩
  · intro f hf hfm
    exact eq_of_id hnd hfm hin (hf.trans hid.symm)
  · intro f hf
    unfold Sched.scheduleOnce
    rw [hp]
    simp only [List.mem_map]
    constructor
    · rintro ⟨x, hx, hxe⟩
      by_cases hxa : x.1.id = a.id
      · simp only [hxa, beq_self_eq_true, if_true] at hxe
        subst hxe
        exact absurd hxa hf
      · have : (x.1.id == a.id) = false := by simpa using hxa
        rw [this] at hxe
        simp only [Bool.false_eq_true, if_false] at hxe
        rw [← hxe]; exact hx
    · intro hx
      refine ⟨f, hx, ?_⟩
      have : (f.1.id == a.id) = false := by simpa using hf
      rw [this]
      simp

/-- **C10 is false of the code**: two agents constructed with the same id, one already pending; after
`schedule_once` of the second, the second is pending nowhere. -/
theorem C10_schedule_once_may_drop_the_agent_partial :
    ∃ (s : Sched Nat Nat) (a : AgentImpl Nat),
      (∃ m : Model Nat Nat Nat, ∃ w, Reachable m w ∧ w.sched = s) ∧
      ∀ e ∈ (s.scheduleOnce a 4 0).events, e.1.agent ≠ a.agent := by
  refine ⟨((World.start 0 0 : World Nat Nat Nat).run demo [.cmd (.scheduleRepeating 10 5 7)]).sched, ⟨0, 99, false⟩,
    ⟨demo, _, ⟨0, 0, _, rfl⟩, rfl⟩, by decide⟩

example : (∀ e ∈ demoWorld.sched.events, e.1.id ≠ 5) ∧ (ids demoWorld.sched.events).Nodup := by decide

/-! ### C11 -/

/-- The same user code on another priority-queue implementation. -/
def Model.withTieBreak (m : Model T A S) (tb : TieBreak T A) : Model T A S := { m with tb := tb }

theorem runDue_tb [LinearOrder T] (m : Model T A S) (tb : TieBreak T A) (w : World T A S)
    (hn : (ids w.sched.events).Nodup) (hd : DistinctPriorities w.sched.events) :
    runDue (m.withTieBreak tb) w = runDue m w := by
  by_cases hq : w.sched.events = []
  · unfold runDue
    rw [hq]
    rfl
  obtain ⟨top, htop⟩ := peek_some m.tb w.sched.pops hq
  obtain ⟨top', htop'⟩ := peek_some tb w.sched.pops hq
  obtain ⟨hm1, hmin1⟩ := peek_mem htop
  obtain ⟨hm2, hmin2⟩ := peek_mem htop'
  have htime : top'.2.time = top.2.time :=
    _root_.le_antisymm (Priority.le_time (hmin2 _ hm1)) (Priority.le_time (hmin1 _ hm2))
  unfold runDue
  rw [htop]
  show (match w.sched.events.peek tb w.sched.pops with
    | none => w
    | some top => _) = _
  rw [htop']
  simp only [htime]
  let s : Sched T A := { w.sched with time := top.2.time }
  obtain ⟨hp1, hs1, he1⟩ := popDue_spec m.tb s.events.length s hn (Nat.le_refl _)
  obtain ⟨hp2, hs2, he2⟩ := popDue_spec tb s.events.length s hn (Nat.le_refl _)
  have hbatch : (popDue tb s.events.length s).1 = (popDue m.tb s.events.length s).1 := by
    refine sorted_perm_unique ?_ (hp2.trans hp1.symm) hs2 hs1
    unfold DistinctPriorities at *
    have : ((popDue tb s.events.length s).1.map (fun e => e.2)).Perm
      ((s.events.filter (fun e => !decide (s.time < e.2.time))).map (fun e => e.2)) := hp2.map _
    rw [this.nodup_iff]
    exact hd.sublist (List.filter_sublist.map _)
  have hsched : (popDue tb s.events.length s).2 = (popDue m.tb s.events.length s).2 := by
    rw [he1, he2, hbatch]
  show (popDue tb s.events.length s).1.foldl (runOne m) { w with sched := (popDue tb s.events.length s).2 }
    = (popDue m.tb s.events.length s).1.foldl (runOne m) { w with sched := (popDue m.tb s.events.length s).2 }
  rw [hbatch, hsched]

/-- **C11.** If at every step no two pending agents share both time and ordering, then the whole run - states,
order of agents, observations, pending agents - is the same for every priority-queue implementation. -/
theorem C11_run_independent_of_tie_breaking [LinearOrder T] (m : Model T A S) (tb : TieBreak T A)
    (w : World T A S) (hw : Reachable m w) (n : Nat)
    (hd : ∀ k, k < n → ((preStep m (steps m k w)).sched.events.map (fun e => e.2)).Nodup) :
    steps (m.withTieBreak tb) n w = steps m n w := by
  induction n with
  | zero => rfl
  | succ n ih =>
    rw [steps_succ', steps_succ', ih (fun k hk => hd k (Nat.lt_succ_of_lt hk))]
    have hn := reachable_nodup (reachable_steps n hw)
    generalize hv : steps m n w = v at *
    have hd' := hd n (Nat.lt_succ_self n)
    rw [hv] at hd'
    have hmid : midStep (m.withTieBreak tb) v = midStep m v := by
      unfold midStep
      show (if (preStep m v).sched.events.isEmpty = true then preStep m v
        else runDue (m.withTieBreak tb) (preStep m v)) = _
      rw [runDue_tb m tb _ (preStep_nodup m v hn) hd']
    show postStep (m.withTieBreak tb) (midStep (m.withTieBreak tb) v) = postStep m (midStep m v)
    rw [hmid]
    rfl

/-- **C11 (with ties).** Without any assumption on priorities, the agents run by a step are the same for
every priority-queue implementation, up to order. -/
theorem C11_batch_independent_of_tie_breaking [LinearOrder T] (m : Model T A S) (tb : TieBreak T A)
    (w : World T A S) (hw : Reachable m w) :
    (runsOf (since w (step (m.withTieBreak tb) w))).Perm (runsOf (since w (step m w))) := by
  have hn := reachable_nodup hw
  obtain ⟨t, ran, h1, h0, h2, _, hr, _⟩ := step_runs m w hn
  obtain ⟨t', ran', h1', h0', h2', _, hr', _⟩ := step_runs (m.withTieBreak tb) w hn
  rw [hr, hr']
  apply List.Perm.map
  by_cases hq : (preStep m w).sched.events = []
  · have e1 : ran = [] := by
      rw [hq] at h2; simpa using h2
    have e2 : ran' = [] := by
      have : (preStep (m.withTieBreak tb) w).sched.events = [] := hq
      rw [this] at h2'; simpa using h2'
    rw [e1, e2]
  · obtain ⟨e, he, het⟩ := h0 hq
    obtain ⟨e', he', het'⟩ := h0' hq
    have : t' = t := _root_.le_antisymm (het ▸ h1' e he) (het' ▸ h1 e' he')
    subst this
    exact h2'.trans h2.symm

example : ∀ k, k < 4 → ((preStep demo (steps demo k demoWorld)).sched.events.map (fun e => e.2)).Nodup := by decide

end Verif.Schedule
