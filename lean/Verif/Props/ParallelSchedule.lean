import Verif.Spec.ParallelSchedule
import Verif.Props.Schedule

/-! Properties of the parallel schedule: C13, C14. -/

namespace Verif.Schedule

variable {T A S : Type}

theorem popAll_perm [LinearOrder T] (tb : TieBreak T A) : ∀ (fuel n : Nat) (q : Queue T A),
    (ids q).Nodup → q.length ≤ fuel → (popAll tb fuel n q).Perm q := by
  intro fuel
  induction fuel with
  | zero =>
    intro n q _ hl
    have : q = [] := List.length_eq_zero_iff.1 (Nat.le_zero.1 hl)
    subst this
    simp [popAll]
  | succ fuel ih =>
    intro n q hn hl
    by_cases hq : q = []
    · subst hq
      simp [popAll, Queue.pop, peek_nil]
    · obtain ⟨e, he⟩ := peek_some tb n hq
      obtain ⟨hmem, _⟩ := peek_mem he
      simp only [popAll, pop_of_peek he]
      have hlen := length_filter_lt hmem
      have h1 := ih (n + 1) (q.filter (fun f => f.1.id != e.1.id)) (nodup_filter hn _) (by omega)
      refine (List.Perm.cons e h1).trans ?_
      rw [List.perm_ext_iff_of_nodup]
      · intro f
        simp only [List.mem_cons, List.mem_filter, bne_iff_ne, ne_eq]
        constructor
        · rintro (rfl | ⟨h, _⟩)
          · exact hmem
          · exact h
        · intro hf
          by_cases hid : f.1.id = e.1.id
          · exact Or.inl (eq_of_id hn hf hmem hid)
          · exact Or.inr ⟨hf, hid⟩
      · rw [List.nodup_cons]
        exact ⟨by simp [List.mem_filter], (nodup_of_ids hn).filter _⟩
      · exact nodup_of_ids hn

theorem flatten_modify_perm {α : Type} (e : α) : ∀ (bs : List (List α)) (j : Nat), j < bs.length →
    (bs.modify j (fun b => b ++ [e])).flatten.Perm (bs.flatten ++ [e]) := by
  intro bs
  induction bs with
  | nil => intro j hj; simp at hj
  | cons b bs ih =>
    intro j hj
    cases j with
    | zero =>
      simp only [List.modify_zero_cons, List.flatten_cons, List.append_assoc]
      exact List.Perm.append_left b List.perm_append_comm
    | succ j =>
      simp only [List.modify_succ_cons, List.flatten_cons, List.append_assoc]
      exact List.Perm.append_left b (ih j (by simpa using hj))

theorem deal_perm (k : Nat) (hk : 0 < k) (es : List (Entry T A)) : ∀ (i : Nat) (bs : List (List (Entry T A))),
    bs.length = k → (deal k i es bs).flatten.Perm (bs.flatten ++ es) ∧ (deal k i es bs).length = k := by
  induction es with
  | nil => intro i bs hl; exact ⟨by simp [deal], hl⟩
  | cons e es ih =>
    intro i bs hl
    have hj : i % k < bs.length := by rw [hl]; exact Nat.mod_lt _ hk
    obtain ⟨h1, h2⟩ := ih (i + 1) (bs.modify (i % k) (fun b => b ++ [e])) (by simpa using hl)
    refine ⟨?_, h2⟩
    show (deal k (i + 1) es _).flatten.Perm _
    refine h1.trans ?_
    have := (flatten_modify_perm e bs _ hj).append_right es
    refine this.trans ?_
    simp

theorem deal_sizes (k : Nat) (hk : 0 < k) (es : List (Entry T A)) : ∀ (i : Nat) (bs : List (List (Entry T A))),
    bs.length = k →
    (∀ j (hj : j < bs.length), bs[j].length = i / k + (if j < i % k then 1 else 0)) →
    ∀ j (hj : j < (deal k i es bs).length),
      (deal k i es bs)[j].length = (i + es.length) / k + (if j < (i + es.length) % k then 1 else 0) := by
  induction es with
  | nil => intro i bs _ h j hj; exact h j hj
  | cons e es ih =>
    intro i bs hl h j hj
    have := ih (i + 1) (bs.modify (i % k) (fun b => b ++ [e])) (by simpa using hl) ?_ j hj
    · show (deal k (i + 1) es _)[j].length = _
      rw [this]
      have : i + 1 + es.length = i + (e :: es).length := by simp; omega
      rw [this]
    · intro j hj
      simp only [List.length_modify] at hj
      rw [List.getElem_modify]
      have hb := h j hj
      have hm : i % k < k := Nat.mod_lt _ hk
      have hd : k * (i / k) + i % k = i := Nat.div_add_mod i k
      have hlk : j < k := by rw [← hl]; exact hj
      by_cases hlast : i % k + 1 = k
      · have hq : (i + 1) / k = i / k + 1 := by
          have : i + 1 = k * (i / k + 1) := by rw [Nat.mul_add]; omega
          rw [this, Nat.mul_div_cancel_left _ hk]
        have hr : (i + 1) % k = 0 := by
          have : i + 1 = k * (i / k + 1) := by rw [Nat.mul_add]; omega
          rw [this, Nat.mul_mod_right]
        rw [hq, hr]
        by_cases hji : i % k = j
        · simp [hji, hb]
        · simp [hji, hb]; omega
      · have hq : (i + 1) / k = i / k := by
          have : i + 1 = i % k + 1 + k * (i / k) := by omega
          rw [this, Nat.add_mul_div_left _ _ hk, Nat.div_eq_of_lt (by omega)]
          omega
        have hr : (i + 1) % k = i % k + 1 := by
          have : i + 1 = i % k + 1 + k * (i / k) := by omega
          rw [this, Nat.add_mul_mod_self_left, Nat.mod_eq_of_lt (by omega)]
        rw [hq, hr]
        by_cases hji : i % k = j
        · simp [hji, hb]
        · simp [hji, hb]
          by_cases h1 : j < i % k
          · simp [h1]; omega
          · simp [h1]; omega

theorem interleaves_perm {α : Type} {bs : List (List α)} {seq : List α} (h : Interleaves bs seq) :
    seq.Perm bs.flatten := by
  induction h with
  | done h =>
    rename_i bs
    have : bs.flatten = [] := by
      rw [List.flatten_eq_nil_iff]; exact h
    rw [this]
  | @pick bs i e rest seq hi _ ih =>
    have key : ∀ (bs : List (List α)) (i : Nat), bs[i]? = some (e :: rest) →
        (e :: (bs.set i rest).flatten).Perm bs.flatten := by
      intro bs
      induction bs with
      | nil => intro i h; simp at h
      | cons b bs ihb =>
        intro i h
        cases i with
        | zero =>
          simp at h
          subst h
          simp
        | succ i =>
          simp only [List.getElem?_cons_succ] at h
          simp only [List.set_cons_succ, List.flatten_cons]
          refine List.Perm.trans ?_ (List.Perm.append_left b (ihb i h))
          exact List.perm_middle.symm
    exact (List.Perm.cons e ih).trans (key bs i hi)

/-- **C13 (batches).** The events are dealt into the workers' batches without loss or duplication, and the
batch sizes differ by at most one. -/
theorem C13_batches_partition [LinearOrder T] (tb : TieBreak T A) (q : Queue T A) (hn : (ids q).Nodup)
    (n k : Nat) (hk : 0 < k) :
    (batches k (popAll tb q.length n q)).length = k ∧
    (batches k (popAll tb q.length n q)).flatten.Perm q ∧
    ∀ b ∈ batches k (popAll tb q.length n q), b.length = q.length / k ∨ b.length = q.length / k + 1 := by
  have hp := popAll_perm tb q.length n q hn (Nat.le_refl _)
  obtain ⟨h1, h2⟩ := deal_perm k hk (popAll tb q.length n q) 0 (List.replicate k []) (by simp)
  refine ⟨h2, ?_, ?_⟩
  · refine h1.trans ?_
    simpa using hp
  · intro b hb
    obtain ⟨j, hj, rfl⟩ := List.getElem_of_mem hb
    have := deal_sizes k hk (popAll tb q.length n q) 0 (List.replicate k []) (by simp) (by simp) j hj
    have hl : (popAll tb q.length n q).length = q.length := hp.length_eq
    have hb : (batches k (popAll tb q.length n q))[j].length
        = q.length / k + (if j < q.length % k then 1 else 0) := by
      rw [Nat.zero_add, hl] at this
      exact this
    rw [hb]
    by_cases h : j < q.length % k
    · simp [h]
    · simp [h]

theorem parStep_runs_nodup [LinearOrder T] (m : Model T A S) (k : Nat) (w w' : World T A S) (hw : (ids w.sched.events).Nodup)
    (h : ParStep m k w (.ok w')) :
    ∃ seq : List (Entry T A), seq.Perm (preStep m w).sched.events ∧
      runsOf (since w w') = seq.map (fun e => (e.1.id, e.2)) ∧
      agentCalls (since w w') = seq.flatMap callsOf ∧
      ∃ top goOn, Turns m (preStep m w).state seq (parRun m top seq (preStep m w)).state goOn ∧
        (parRun m top seq (preStep m w)).sched.events = goOn ∧
        w' = postStep m (parRun m top seq (preStep m w)) := by
  have hn := preStep_nodup m w hw
  cases h with
  | ok hk htop hseq =>
    rename_i top seq
    obtain ⟨_, hflat, _⟩ := C13_batches_partition m.tb (preStep m w).sched.events hn (preStep m w).sched.pops k hk
    have hperm := (interleaves_perm hseq).trans hflat
    have hnd : (ids seq).Nodup := by
      have : (ids seq).Perm (ids (preStep m w).sched.events) := hperm.map _
      exact this.nodup_iff.2 hn
    obtain ⟨goOn, ht, hev⟩ := foldl_runOne_turns m seq
      { (preStep m w) with sched := { (preStep m w).sched with
          time := top.2.time, events := [], pops := (preStep m w).sched.pops + seq.length } } (by simpa using hnd)
    obtain ⟨api, ha, hpre⟩ := preStep_trace m w
    obtain ⟨api', ha', hpost⟩ := postStep_trace m (parRun m top seq (preStep m w))
    have hrt : (parRun m top seq (preStep m w)).trace = (preStep m w).trace ++ seq.flatMap callsOf :=
      foldl_runOne_trace m seq _
    have htr : (postStep m (parRun m top seq (preStep m w))).trace = w.trace ++
        ((if w.sched.step = 0 then [.update 0] else []) ++ [.stateBefore] ++ api ++ seq.flatMap callsOf ++
          [.stateAfter] ++ api' ++ [.update ((parRun m top seq (preStep m w)).sched.step + 1)]) := by
      rw [hpost, hrt, hpre]
      simp [List.append_assoc]
    refine ⟨seq, hperm, ?_, ?_, top, goOn, ht, by simpa [parRun] using hev, rfl⟩
    · rw [since_append htr]
      simp only [runsOf_append, runsOf_api ha, runsOf_api ha', runsOf_calls]
      have e1 : runsOf ([.stateBefore] : List (Ev T A)) = [] := rfl
      have e2 : runsOf ([.stateAfter] : List (Ev T A)) = [] := rfl
      have e3 : ∀ k, runsOf ([.update k] : List (Ev T A)) = [] := fun _ => rfl
      have e4 : runsOf (if w.sched.step = 0 then [.update 0] else [] : List (Ev T A)) = [] := by
        split <;> rfl
      simp [e1, e2, e3, e4]
    · rw [since_append htr]
      simp only [agentCalls_append, agentCalls_api ha, agentCalls_api ha', agentCalls_calls]
      have e1 : agentCalls ([.stateBefore] : List (Ev T A)) = [] := rfl
      have e2 : agentCalls ([.stateAfter] : List (Ev T A)) = [] := rfl
      have e3 : ∀ k, agentCalls ([.update k] : List (Ev T A)) = [] := fun _ => rfl
      have e4 : agentCalls (if w.sched.step = 0 then [.update 0] else [] : List (Ev T A)) = [] := by
        split <;> rfl
      simp [e1, e2, e3, e4]

/-- What a completed parallel step does before `after_step`. -/
theorem parStep_spec [LinearOrder T] {m : Model T A S} {k : Nat} {w w' : World T A S} (hn : (ids w.sched.events).Nodup)
    (h : ParStep m k w (.ok w')) :
    ∃ (top : Entry T A) (seq goOn : List (Entry T A)) (v : World T A S),
      top ∈ (preStep m w).sched.events ∧ (∀ e ∈ (preStep m w).sched.events, top.2.time ≤ e.2.time) ∧
      seq.Perm (preStep m w).sched.events ∧ (ids seq).Nodup ∧ Turns m (preStep m w).state seq v.state goOn ∧
      v.sched.events = goOn ∧ v.sched.time = top.2.time ∧ v.sched.step = w.sched.step ∧
      v.sched.idCount = (preStep m w).sched.idCount ∧ v.trace = (preStep m w).trace ++ seq.flatMap callsOf ∧
      w' = postStep m v := by
  have hp := preStep_nodup m w hn
  cases h with
  | ok hk htop hseq =>
    rename_i top seq
    obtain ⟨_, hflat, _⟩ := C13_batches_partition m.tb (preStep m w).sched.events hp (preStep m w).sched.pops k hk
    have hperm := (interleaves_perm hseq).trans hflat
    have hnd : (ids seq).Nodup := by
      have : (ids seq).Perm (ids (preStep m w).sched.events) := hperm.map _
      exact this.nodup_iff.2 hp
    obtain ⟨goOn, ht, hev⟩ := foldl_runOne_turns m seq
      { (preStep m w) with sched := { (preStep m w).sched with
          time := top.2.time, events := [], pops := (preStep m w).sched.pops + seq.length } } (by simpa using hnd)
    obtain ⟨f1, f2, f3, _⟩ := foldl_runOne_fields m seq
      { (preStep m w) with sched := { (preStep m w).sched with
          time := top.2.time, events := [], pops := (preStep m w).sched.pops + seq.length } }
    obtain ⟨g1, g2⟩ := peek_mem htop
    exact ⟨top, seq, goOn, parRun m top seq (preStep m w), g1, fun e he => Priority.le_time (g2 e he), hperm, hnd, ht,
      by simpa [parRun] using hev, f2, f1.trans (preStep_step m w).1, f3, foldl_runOne_trace m seq _, rfl⟩

theorem parStep_nodup [LinearOrder T] {m : Model T A S} {k : Nat} {w w' : World T A S} (hn : (ids w.sched.events).Nodup)
    (h : ParStep m k w (.ok w')) : (ids w'.sched.events).Nodup := by
  obtain ⟨_, seq, goOn, v, _, _, _, h1, h2, h3, _, _, _, _, rfl⟩ := parStep_spec hn h
  refine postStep_nodup m v ?_
  rw [h3]
  exact h1.sublist (turns_ids h2)

theorem parReachable_nodup [LinearOrder T] {m : Model T A S} {w : World T A S} (h : ParReachable m w) :
    (ids w.sched.events).Nodup := by
  induction h with
  | start zero s => simp [World.start, Sched.new]
  | call h c ih => rw [exec_sched]; exact after_nodup _ _ ih
  | step h hs ih => exact parStep_nodup ih hs

theorem parStep_runs [LinearOrder T] (m : Model T A S) (k : Nat) (w w' : World T A S) (hw : ParReachable m w)
    (h : ParStep m k w (.ok w')) :
    ∃ seq : List (Entry T A), seq.Perm (preStep m w).sched.events ∧
      runsOf (since w w') = seq.map (fun e => (e.1.id, e.2)) ∧
      agentCalls (since w w') = seq.flatMap callsOf ∧
      ∃ top goOn, Turns m (preStep m w).state seq (parRun m top seq (preStep m w)).state goOn ∧
        (parRun m top seq (preStep m w)).sched.events = goOn ∧
        w' = postStep m (parRun m top seq (preStep m w)) :=
  parStep_runs_nodup m k w w' (parReachable_nodup hw) h

/-- **C13 (each event once).** For every number of threads and every interleaving, a parallel step that
completes runs every pending agent exactly once, each run being before_step, step, after_step without
interruption. -/
theorem C13_each_event_once [LinearOrder T] (m : Model T A S) (k : Nat) (w w' : World T A S)
    (hw : ParReachable m w) (h : ParStep m k w (.ok w')) :
    (runsOf (since w w')).Perm ((preStep m w).sched.events.map (fun e => (e.1.id, e.2))) ∧
    ((runsOf (since w w')).map Prod.fst).Nodup ∧
    agentCalls (since w w') = (runsOf (since w w')).flatMap
      (fun r => [.agentBefore r.1, .agentStep r.1 r.2, .agentAfter r.1]) := by
  obtain ⟨seq, hp, hr, hc, _⟩ := parStep_runs m k w w' hw h
  refine ⟨?_, ?_, ?_⟩
  · rw [hr]; exact hp.map _
  · rw [hr, List.map_map]
    have : (ids seq).Perm (ids (preStep m w).sched.events) := hp.map _
    exact this.nodup_iff.2 (preStep_nodup m w (parReachable_nodup hw))
  · rw [hc, hr, List.flatMap_map]; rfl

/-- Agents do not share mutable state: what an agent becomes, and whether it stops, does not depend on the
state it finds. -/
def Independent (m : Model T A S) : Prop :=
  ∃ (next : A → A) (stops : A → Bool), ∀ a s a' s', Callbacks m a s a' s' →
    (m.isStopped a' s').1 = stops a ∧ (m.isStopped a' s').2.1 = next a

/-- What becomes of an event, for independent agents. -/
def nextEvent (next : A → A) (stops : A → Bool) (adv : T → T) (e : Entry T A) : Option (Entry T A) :=
  if e.1.repeating && !stops e.1.agent then
    some (⟨e.1.id, next e.1.agent, true⟩, ⟨adv e.2.time, e.2.ordering⟩)
  else none

theorem turns_independent {m : Model T A S} {next : A → A} {stops : A → Bool}
    (hi : ∀ a s a' s', Callbacks m a s a' s' → (m.isStopped a' s').1 = stops a ∧ (m.isStopped a' s').2.1 = next a)
    {s s' : S} {l k : List (Entry T A)} (h : Turns m s l s' k) :
    k = l.filterMap (nextEvent next stops m.adv) := by
  induction h with
  | nil => rfl
  | oneShot hcb ht ih => rw [ih]; simp [nextEvent]
  | stopped hcb hs ht ih =>
    have := (hi _ _ _ _ hcb).1
    rw [hs] at this
    rw [ih]; simp [nextEvent, ← this]
  | goesOn hcb hs ht ih =>
    obtain ⟨h1, h2⟩ := hi _ _ _ _ hcb
    rw [hs] at h1 h2
    rw [ih]; simp [nextEvent, ← h1, ← h2]

/-- **C13 (interleaving independence).** If agents do not share mutable state, the agents that stay
scheduled (with their contents, times and orderings) when `after_step` is called do not depend on the
interleaving nor on the number of threads. -/
theorem C13_interleaving_independent [LinearOrder T] (m : Model T A S) (hi : Independent m) (k k' : Nat)
    (w v v' : World T A S) (hw : ParReachable m w)
    (h : ParStep m k w (.ok v)) (h' : ParStep m k' w (.ok v')) :
    ∃ u u' : World T A S, v = postStep m u ∧ v' = postStep m u' ∧ u.sched.events.Perm u'.sched.events := by
  obtain ⟨next, stops, hi⟩ := hi
  obtain ⟨seq, hp, _, _, top, goOn, ht, hev, hv⟩ := parStep_runs m k w v hw h
  obtain ⟨seq', hp', _, _, top', goOn', ht', hev', hv'⟩ := parStep_runs m k' w v' hw h'
  refine ⟨_, _, hv, hv', ?_⟩
  rw [hev, hev', turns_independent hi ht, turns_independent hi ht']
  exact (hp.trans hp'.symm).filterMap _

/-- Every interleaving exists: a worker order is always possible (no deadlock). -/
theorem interleaves_exists {α : Type} : ∀ (n : Nat) (bs : List (List α)), bs.flatten.length = n →
    ∃ seq, Interleaves bs seq := by
  intro n
  induction n with
  | zero =>
    intro bs h
    refine ⟨[], .done ?_⟩
    have := List.length_eq_zero_iff.1 h
    rw [List.flatten_eq_nil_iff] at this
    exact this
  | succ n ih =>
    intro bs h
    have hex : ∃ (i : Nat) (e : α) (rest : List α), bs[i]? = some (e :: rest) := by
      by_contra hc
      have : bs.flatten = [] := by
        rw [List.flatten_eq_nil_iff]
        intro b hb
        obtain ⟨i, hi, rfl⟩ := List.getElem_of_mem hb
        cases hbi : bs[i] with
        | nil => rfl
        | cons e rest => exact absurd ⟨i, e, rest, by rw [List.getElem?_eq_getElem hi, hbi]⟩ hc
      rw [this] at h
      simp at h
    obtain ⟨i, e, rest, hi⟩ := hex
    have hlen : (bs.set i rest).flatten.length = n := by
      have key : ∀ (bs : List (List α)) (i : Nat), bs[i]? = some (e :: rest) →
          (bs.set i rest).flatten.length + 1 = bs.flatten.length := by
        intro bs
        induction bs with
        | nil => intro i h; simp at h
        | cons b bs ihb =>
          intro i h
          cases i with
          | zero => simp at h; subst h; simp
          | succ i =>
            simp only [List.getElem?_cons_succ] at h
            have := ihb i h
            simp only [List.set_cons_succ, List.flatten_cons, List.length_append]
            omega
      have := key bs i hi
      omega
    obtain ⟨seq, hs⟩ := ih _ hlen
    exact ⟨e :: seq, .pick hi hs⟩

/-- A parallel step with at least one thread and one pending agent can complete. -/
theorem parStep_exists [LinearOrder T] (m : Model T A S) (k : Nat) (hk : 0 < k) (w : World T A S)
    (hne : (preStep m w).sched.events ≠ []) : ∃ w', ParStep m k w (.ok w') := by
  obtain ⟨top, htop⟩ := peek_some m.tb (preStep m w).sched.pops hne
  obtain ⟨seq, hs⟩ := interleaves_exists _ (batches k (popAll m.tb (preStep m w).sched.events.length
        (preStep m w).sched.pops (preStep m w).sched.events)) rfl
  exact ⟨_, .ok hk htop hs⟩

theorem parReachable_calls [LinearOrder T] {m : Model T A S} (cs : List (Cmd T A)) : ∀ {w : World T A S}, ParReachable m w →
    ParReachable m (w.execAll cs) := by
  induction cs with
  | nil => intro w h; exact h
  | cons c cs ih => intro w h; exact ih (.call h c)

/-- The calls of `demoOps`. -/
def demoCmds : List (Cmd Nat Nat) :=
  [.scheduleRepeating 10 5 7, .scheduleRepeating 20 5 3, .scheduleRepeating 30 9 0, .scheduleOnce ⟨77, 50, false⟩ 5 4]

theorem demo_parReachable : ParReachable demo demoWorld :=
  (show demoWorld = (World.start 0 0).execAll demoCmds from rfl) ▸ parReachable_calls demoCmds (.start 0 0)

/-- The hypotheses of C13 are met by the demo world with three threads (and its agents are independent). -/
example : Independent demo ∧ ∃ w', ParStep demo 3 demoWorld (.ok w') := by
  refine ⟨⟨fun a => a + 1, fun a => a + 1 == 22, ?_⟩, parStep_exists demo 3 (by decide) demoWorld (by decide)⟩
  rintro a s a' s' ⟨a1, s1, a2, s2, h1, h2, h3⟩
  simp only [demo, Prod.mk.injEq] at h1 h2 h3
  obtain ⟨rfl, rfl⟩ := h1
  obtain ⟨rfl, rfl⟩ := h2
  obtain ⟨rfl, rfl⟩ := h3
  exact ⟨rfl, rfl⟩

/-! ### C14 -/

/-- **C14 is false of the code**: in the demo world agent 2 is due at time 9 and others at time 5; the
sequential step does not run it, every parallel step does. -/
theorem C14_parallel_runs_agents_not_due_partial :
    ∃ (m : Model Nat Nat Nat) (w : World Nat Nat Nat) (i : Nat) (p : Priority Nat), ParReachable m w ∧
      (∃ w', ParStep m 2 w (.ok w')) ∧
      (i, p) ∉ runsOf (since w (step m w)) ∧
      ∀ k w', ParStep m k w (.ok w') → (i, p) ∈ runsOf (since w w') := by
  refine ⟨demo, demoWorld, 2, ⟨9, 0⟩, demo_parReachable, parStep_exists demo 2 (by decide) demoWorld (by decide),
    by decide, ?_⟩
  intro k w' h
  rw [(C13_each_event_once demo k demoWorld w' demo_parReachable h).1.mem_iff]
  decide

/-- **C14 (partial).** When all pending agents are due at the same time, the parallel step runs the same
agents as the sequential step. Missing: queues with several times, where it is false. -/
theorem C14_parallel_runs_due_agents_partial [LinearOrder T] (m : Model T A S) (k : Nat) (w w' : World T A S)
    (hw : ParReachable m w) (t : T) (hsame : ∀ e ∈ (preStep m w).sched.events, e.2.time = t)
    (h : ParStep m k w (.ok w')) :
    (runsOf (since w w')).Perm (runsOf (since w (step m w))) := by
  have hn := parReachable_nodup hw
  obtain ⟨t', ran, h1, h0, h2, _, hr, _⟩ := step_runs m w hn
  refine ((C13_each_event_once m k w w' hw h).1).trans ?_
  rw [hr]
  refine List.Perm.map _ ?_
  have : (preStep m w).sched.events.filter (fun e => decide (e.2.time = t')) = (preStep m w).sched.events := by
    rw [List.filter_eq_self]
    intro e he
    obtain ⟨f, hf, hft⟩ := h0 (List.ne_nil_of_mem he)
    rw [hsame f hf] at hft
    simp [hsame e he, hft]
  rw [this] at h2
  exact h2.symm

/-- With no thread at all (`--nt 0`) a parallel step with pending agents panics; with nothing pending it ends
the process. -/
theorem C14_parallel_no_threads_partial [LinearOrder T] (m : Model T A S) (w : World T A S) :
    ((preStep m w).sched.events ≠ [] → ∀ out, ParStep m 0 w out ↔ out = .panic) ∧
    ((preStep m w).sched.events = [] → ∀ k out, ParStep m k w out ↔ out = .exit) := by
  refine ⟨?_, ?_⟩
  · intro hne out
    constructor
    · intro h
      cases h with
      | exit h => exact absurd h hne
      | panic => rfl
      | ok hk => exact absurd hk (by decide)
    · rintro rfl; exact .panic hne rfl
  · intro hq k out
    constructor
    · intro h
      cases h with
      | exit => rfl
      | panic h => exact absurd hq h
      | ok hk htop =>
        rw [hq] at htop
        simp [peek_nil] at htop
    · rintro rfl; exact .exit hq

end Verif.Schedule
