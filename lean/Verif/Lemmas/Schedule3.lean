import Verif.Lemmas.Schedule2
import Mathlib.Data.List.Sort
import Mathlib.Logic.Function.Iterate

/-! Helper lemmas: following one agent, clocks, identifiers, tie-breaking. -/

namespace Verif.Schedule

variable {T A S : Type}

/-! ### Trace projections -/

theorem runsOf_append (l l' : List (Ev T A)) : runsOf (l ++ l') = runsOf l ++ runsOf l' := by
  simp [runsOf, List.filterMap_append]

theorem runsOf_api {l : List (Ev T A)} (h : ∀ e ∈ l, e.isApi = true) : runsOf l = [] := by
  unfold runsOf
  rw [List.filterMap_eq_nil_iff]
  intro e he
  have := h e he
  cases e <;> simp_all [Ev.isApi]

theorem runsOf_calls (ran : List (Entry T A)) :
    runsOf (ran.flatMap callsOf) = ran.map (fun e => (e.1.id, e.2)) := by
  induction ran with
  | nil => rfl
  | cons e ran ih =>
    rw [List.flatMap_cons, runsOf_append, ih]
    rfl

theorem agentCalls_append (l l' : List (Ev T A)) : agentCalls (l ++ l') = agentCalls l ++ agentCalls l' := by
  simp [agentCalls]

theorem agentCalls_api {l : List (Ev T A)} (h : ∀ e ∈ l, e.isApi = true) : agentCalls l = [] := by
  unfold agentCalls
  rw [List.filter_eq_nil_iff]
  intro e he
  have := h e he
  cases e <;> simp_all [Ev.isApi]

theorem agentCalls_calls (ran : List (Entry T A)) :
    agentCalls (ran.flatMap callsOf) = ran.flatMap callsOf := by
  unfold agentCalls
  rw [List.filter_eq_self]
  intro e he
  obtain ⟨x, _, hx⟩ := List.mem_flatMap.1 he
  simp only [callsOf, List.mem_cons, List.not_mem_nil, or_false] at hx
  rcases hx with rfl | rfl | rfl <;> rfl

theorem hookCalls_append (l l' : List (Ev T A)) : hookCalls (l ++ l') = hookCalls l ++ hookCalls l' := by
  simp [hookCalls]

theorem hookCalls_api {l : List (Ev T A)} (h : ∀ e ∈ l, e.isApi = true) : hookCalls l = [] := by
  unfold hookCalls
  rw [List.filter_eq_nil_iff]
  intro e he
  have := h e he
  cases e <;> simp_all [Ev.isApi]

theorem hookCalls_calls (ran : List (Entry T A)) : hookCalls (ran.flatMap callsOf) = [] := by
  unfold hookCalls
  rw [List.filter_eq_nil_iff]
  intro e he
  obtain ⟨x, _, hx⟩ := List.mem_flatMap.1 he
  simp only [callsOf, List.mem_cons, List.not_mem_nil, or_false] at hx
  rcases hx with rfl | rfl | rfl <;> simp

/-- The observations one step adds. -/
theorem step_trace [LinearOrder T] (m : Model T A S) (w : World T A S)
    (hn : (ids (preStep m w).sched.events).Nodup) :
    ∃ (t : T) (ran : List (Entry T A)) (api api' : List (Ev T A)),
      (∀ e ∈ api, e.isApi = true) ∧ (∀ e ∈ api', e.isApi = true) ∧
      (∀ e ∈ (preStep m w).sched.events, t ≤ e.2.time) ∧
      ((preStep m w).sched.events ≠ [] → ∃ e ∈ (preStep m w).sched.events, e.2.time = t) ∧
      ran.Perm ((preStep m w).sched.events.filter (fun e => decide (e.2.time = t))) ∧
      ran.Pairwise (fun e f => e.2.le f.2) ∧
      (step m w).trace = w.trace ++ ((if w.sched.step = 0 then [.update 0] else []) ++ [.stateBefore] ++ api ++
        ran.flatMap callsOf ++ [.stateAfter] ++ api' ++ [.update (w.sched.step + 1)]) := by
  obtain ⟨t, ran, kept, _, h0, h1, h2, h3, _, _, _, hs, _, _, htr⟩ := midStep_spec m w hn
  obtain ⟨api, ha, hpre⟩ := preStep_trace m w
  obtain ⟨api', ha', hpost⟩ := postStep_trace m (midStep m w)
  refine ⟨t, ran, api, api', ha, ha', h1, h0, h2, h3, ?_⟩
  show (postStep m (midStep m w)).trace = _
  rw [hpost, htr, hpre, hs]
  simp [List.append_assoc]

theorem since_append {w w' : World T A S} {l : List (Ev T A)} (h : w'.trace = w.trace ++ l) :
    since w w' = l := by
  unfold since; rw [h]; simp

/-- The runs and agent calls of one step. -/
theorem step_runs [LinearOrder T] (m : Model T A S) (w : World T A S) (hn : (ids w.sched.events).Nodup) :
    ∃ (t : T) (ran : List (Entry T A)),
      (∀ e ∈ (preStep m w).sched.events, t ≤ e.2.time) ∧
      ((preStep m w).sched.events ≠ [] → ∃ e ∈ (preStep m w).sched.events, e.2.time = t) ∧
      ran.Perm ((preStep m w).sched.events.filter (fun e => decide (e.2.time = t))) ∧
      ran.Pairwise (fun e f => e.2.le f.2) ∧
      runsOf (since w (step m w)) = ran.map (fun e => (e.1.id, e.2)) ∧
      agentCalls (since w (step m w)) = ran.flatMap callsOf := by
  obtain ⟨t, ran, api, api', ha, ha', h1, h0, h2, h3, htr⟩ := step_trace m w (preStep_nodup m w hn)
  refine ⟨t, ran, h1, h0, h2, h3, ?_, ?_⟩
  · rw [since_append htr]
    simp only [runsOf_append, runsOf_api ha, runsOf_api ha', runsOf_calls]
    have e1 : runsOf ([.stateBefore] : List (Ev T A)) = [] := rfl
    have e2 : runsOf ([.stateAfter] : List (Ev T A)) = [] := rfl
    have e3 : ∀ k, runsOf ([.update k] : List (Ev T A)) = [] := fun _ => rfl
    have e4 : runsOf (if w.sched.step = 0 then [.update 0] else [] : List (Ev T A)) = [] := by
      split <;> rfl
    simp [e1, e2, e3, e4]
  · rw [since_append htr]
    simp only [agentCalls_append, agentCalls_api ha, agentCalls_api ha', agentCalls_calls]
    have e1 : agentCalls ([.stateBefore] : List (Ev T A)) = [] := rfl
    have e2 : agentCalls ([.stateAfter] : List (Ev T A)) = [] := rfl
    have e3 : ∀ k, agentCalls ([.update k] : List (Ev T A)) = [] := fun _ => rfl
    have e4 : agentCalls (if w.sched.step = 0 then [.update 0] else [] : List (Ev T A)) = [] := by
      split <;> rfl
    simp [e1, e2, e3, e4]

/-! ### Following one agent -/

/-- A call that can schedule the agent with this id. -/
theorem after_keeps (s : Sched T A) (c : Cmd T A) (i : Nat) (hc : ¬ c.touches i) (hi : i < s.idCount)
    {e : Entry T A} (he : e ∈ s.events) (hid : e.1.id = i) : e ∈ (s.after c).events := by
  have key : ∀ (b : AgentImpl A) (p : Priority T), b.id ≠ i → e ∈ (s.events.push b p).1 := by
    intro b p hb
    by_cases hp : b.id ∈ ids s.events
    · obtain ⟨_, _, _, hpush⟩ := push_present (p := p) hp
      rw [hpush]
      refine List.mem_map.2 ⟨e, he, ?_⟩
      have : (e.1.id == b.id) = false := by
        rw [beq_eq_false_iff_ne, hid]; exact Ne.symm hb
      rw [if_neg (by simpa using this)]
    · rw [push_fresh hp]; simp [he]
  cases c with
  | scheduleOnce a t o => exact key _ _ hc
  | scheduleRepeating a t o =>
    refine key _ _ ?_
    show s.idCount ≠ i
    omega
  | dequeue j =>
    refine List.mem_filter.2 ⟨he, ?_⟩
    have : e.1.id ≠ j := by rw [hid]; exact fun h => hc h.symm
    simpa using this

theorem after_idCount (s : Sched T A) (c : Cmd T A) : s.idCount ≤ (s.after c).idCount := by
  cases c with
  | scheduleOnce a t o => exact Nat.le_refl _
  | scheduleRepeating a t o => exact Nat.le_succ _
  | dequeue j => exact Nat.le_refl _

theorem execAll_keeps (i : Nat) (cs : List (Cmd T A)) : ∀ w : World T A S,
    CallsSatisfy (fun _ c => ¬ c.touches i) w.sched cs → i < w.sched.idCount →
    i < (w.execAll cs).sched.idCount ∧
    ∀ {e : Entry T A}, e ∈ w.sched.events → e.1.id = i → e ∈ (w.execAll cs).sched.events := by
  induction cs with
  | nil => intro w _ hi; exact ⟨hi, fun he _ => he⟩
  | cons c cs ih =>
    intro w hc hi
    rw [execAll_cons]
    have h1 : i < (w.exec c).sched.idCount := by
      rw [exec_sched]; exact Nat.lt_of_lt_of_le hi (after_idCount _ _)
    obtain ⟨h2, h3⟩ := ih (w.exec c) (by rw [exec_sched]; exact hc.2) h1
    exact ⟨h2, fun he hid => h3 (by rw [exec_sched]; exact after_keeps _ _ _ hc.1 hi he hid) hid⟩

theorem preStep_keeps (m : Model T A S) (i : Nat) (w : World T A S)
    (hh : HooksSatisfy m (fun _ c => ¬ c.touches i)) (hi : i < w.sched.idCount) :
    i < (preStep m w).sched.idCount ∧
    ∀ {e : Entry T A}, e ∈ w.sched.events → e.1.id = i → e ∈ (preStep m w).sched.events := by
  unfold preStep
  split
  · exact execAll_keeps i _ { state := _, sched := w.sched, trace := _ } (hh _ _).1 hi
  · exact execAll_keeps i _ { state := _, sched := w.sched, trace := _ } (hh _ _).1 hi

theorem postStep_keeps (m : Model T A S) (i : Nat) (w : World T A S)
    (hh : HooksSatisfy m (fun _ c => ¬ c.touches i)) (hi : i < w.sched.idCount) :
    i < (postStep m w).sched.idCount ∧
    ∀ {e : Entry T A}, e ∈ w.sched.events → e.1.id = i → e ∈ (postStep m w).sched.events := by
  unfold postStep
  exact execAll_keeps i _ { state := _, sched := w.sched, trace := _ } (hh _ _).2 hi

/-- An agent that never asks to stop goes on after its turn. -/
theorem turns_goesOn {m : Model T A S} {P : A → Prop}
    (hP : ∀ a s a' s', P a → Callbacks m a s a' s' →
      (m.isStopped a' s').1 = false ∧ P (m.isStopped a' s').2.1)
    {s s' : S} {l k : List (Entry T A)} (h : Turns m s l s' k) {i : Nat} {a : A} {p : Priority T}
    (hm : (⟨i, a, true⟩, p) ∈ l) (ha : P a) :
    ∃ a', P a' ∧ (⟨i, a', true⟩, ⟨m.adv p.time, p.ordering⟩) ∈ k := by
  induction h with
  | nil => simp at hm
  | oneShot hcb ht ih =>
    rcases List.mem_cons.1 hm with h | h
    · simp at h
    · exact ih h
  | stopped hcb hs ht ih =>
    rcases List.mem_cons.1 hm with h | h
    · simp only [Prod.mk.injEq, AgentImpl.mk.injEq] at h
      obtain ⟨⟨h1, h2, _⟩, h3⟩ := h
      subst h1 h2 h3
      have := (hP _ _ _ _ ha hcb).1
      rw [hs] at this
      simp at this
    · exact ih h
  | goesOn hcb hs ht ih =>
    rcases List.mem_cons.1 hm with h | h
    · simp only [Prod.mk.injEq, AgentImpl.mk.injEq] at h
      obtain ⟨⟨h1, h2, _⟩, h3⟩ := h
      subst h1 h2 h3
      have := (hP _ _ _ _ ha hcb).2
      rw [hs] at this
      exact ⟨_, this, by simp⟩
    · obtain ⟨a', h1, h2⟩ := ih h
      exact ⟨a', h1, by simp [h2]⟩

theorem filter_runs_mem {ran : List (Entry T A)} (hn : (ids ran).Nodup) {e : Entry T A} (he : e ∈ ran) :
    (ran.map (fun e => (e.1.id, e.2))).filter (fun r => r.1 == e.1.id) = [(e.1.id, e.2)] := by
  induction ran with
  | nil => simp at he
  | cons x ran ih =>
    simp only [ids_cons, List.nodup_cons] at hn
    rw [List.map_cons]
    rcases List.mem_cons.1 he with rfl | he
    · rw [List.filter_cons_of_pos (by simp)]
      congr 1
      rw [List.filter_eq_nil_iff]
      intro r hr
      obtain ⟨y, hy, rfl⟩ := List.mem_map.1 hr
      simp only [beq_iff_eq]
      intro hc
      exact hn.1 (mem_ids.2 ⟨y, hy, hc⟩)
    · rw [List.filter_cons_of_neg, ih hn.2 he]
      simp only [beq_iff_eq]
      intro hc
      exact hn.1 (mem_ids.2 ⟨e, he, hc.symm⟩)

theorem filter_runs_notmem {ran : List (Entry T A)} {i : Nat} (hi : i ∉ ids ran) :
    (ran.map (fun e => (e.1.id, e.2))).filter (fun r => r.1 == i) = [] := by
  rw [List.filter_eq_nil_iff]
  intro r hr
  obtain ⟨y, hy, rfl⟩ := List.mem_map.1 hr
  simp only [beq_iff_eq]
  intro hc
  exact hi (mem_ids.2 ⟨y, hy, hc⟩)

theorem runsOf_step [LinearOrder T] (m : Model T A S) (w : World T A S)
    (hn : (ids w.sched.events).Nodup) :
    ∃ (t : T) (ran kept : List (Entry T A)),
      (∀ e ∈ (preStep m w).sched.events, t ≤ e.2.time) ∧
      ((preStep m w).sched.events ≠ [] → ∃ e ∈ (preStep m w).sched.events, e.2.time = t) ∧
      ((preStep m w).sched.events = [] → t = w.sched.time) ∧
      ran.Perm ((preStep m w).sched.events.filter (fun e => decide (e.2.time = t))) ∧
      ran.Pairwise (fun e f => e.2.le f.2) ∧
      Turns m (preStep m w).state ran (midStep m w).state kept ∧
      (midStep m w).sched.events
        = (preStep m w).sched.events.filter (fun e => decide (t < e.2.time)) ++ kept ∧
      (midStep m w).sched.idCount = (preStep m w).sched.idCount ∧
      (midStep m w).sched.time = t ∧
      (step m w).sched.time = t ∧
      runsOf (step m w).trace = runsOf w.trace ++ ran.map (fun e => (e.1.id, e.2)) := by
  obtain ⟨t, ran, kept, he, h0, h1, h2, h3, h4, h5, h6, hs, h7, _, htr⟩ := midStep_spec m w (preStep_nodup m w hn)
  obtain ⟨api, ha, hpre⟩ := preStep_trace m w
  obtain ⟨api', ha', hpost⟩ := postStep_trace m (midStep m w)
  refine ⟨t, ran, kept, h1, h0, fun h => (he h).trans (preStep_step m w).2, h2, h3, h4, h5, h7, h6,
    (postStep_step m _).2.trans h6, ?_⟩
  show runsOf (postStep m (midStep m w)).trace = _
  rw [hpost, htr, hpre]
  simp only [runsOf_append, runsOf_api ha, runsOf_api ha', runsOf_calls]
  have e1 : runsOf ([.stateBefore] : List (Ev T A)) = [] := rfl
  have e2 : runsOf ([.stateAfter] : List (Ev T A)) = [] := rfl
  have e3 : ∀ k, runsOf ([.update k] : List (Ev T A)) = [] := fun _ => rfl
  have e4 : runsOf (if w.sched.step = 0 then [.update 0] else [] : List (Ev T A)) = [] := by
    split <;> rfl
  simp [e1, e2, e3, e4]

/-! ### The clock -/

/-- All pending events are due at the clock or later. -/
def Later [LinearOrder T] (s : Sched T A) : Prop := ∀ e ∈ s.events, s.time ≤ e.2.time

theorem push_mem {q : Queue T A} {a : AgentImpl A} {p : Priority T} {e : Entry T A}
    (he : e ∈ (q.push a p).1) : e ∈ q ∨ e.2 = p := by
  by_cases hp : a.id ∈ ids q
  · obtain ⟨_, _, _, hpush⟩ := push_present (p := p) hp
    rw [hpush] at he
    obtain ⟨x, hx, rfl⟩ := List.mem_map.1 he
    split
    · exact Or.inr rfl
    · exact Or.inl hx
  · rw [push_fresh hp] at he
    rcases List.mem_append.1 he with h | h
    · exact Or.inl h
    · simp at h; exact Or.inr (by rw [h])

theorem after_later [LinearOrder T] (s : Sched T A) (c : Cmd T A) (hc : c.notBefore s.time) (h : Later s) :
    Later (s.after c) := by
  cases c with
  | scheduleOnce a t o =>
    intro e he
    rcases push_mem he with h1 | h1
    · exact h e h1
    · rw [h1]; exact hc
  | scheduleRepeating a t o =>
    intro e he
    rcases push_mem he with h1 | h1
    · exact h e h1
    · rw [h1]; exact hc
  | dequeue j =>
    intro e he
    exact h e (List.mem_of_mem_filter he)

theorem execAll_later [LinearOrder T] (cs : List (Cmd T A)) : ∀ w : World T A S,
    CallsSatisfy (fun s c => c.notBefore s.time) w.sched cs → Later w.sched →
    Later (w.execAll cs).sched := by
  induction cs with
  | nil => intro w _ h; exact h
  | cons c cs ih =>
    intro w hc h
    rw [execAll_cons]
    exact ih (w.exec c) (by rw [exec_sched]; exact hc.2) (by rw [exec_sched]; exact after_later _ _ hc.1 h)

theorem preStep_later [LinearOrder T] (m : Model T A S) (w : World T A S)
    (hh : HooksSatisfy m (fun s c => c.notBefore s.time)) (h : Later w.sched) :
    Later (preStep m w).sched := by
  unfold preStep
  split
  · exact execAll_later _ { state := _, sched := w.sched, trace := _ } (hh _ _).1 h
  · exact execAll_later _ { state := _, sched := w.sched, trace := _ } (hh _ _).1 h

theorem postStep_later [LinearOrder T] (m : Model T A S) (w : World T A S)
    (hh : HooksSatisfy m (fun s c => c.notBefore s.time)) (h : Later w.sched) :
    Later (postStep m w).sched := by
  unfold postStep
  exact execAll_later _ { state := _, sched := w.sched, trace := _ } (hh _ _).2 h

theorem step_trace_prefix [LinearOrder T] (m : Model T A S) (w : World T A S) (hn : (ids w.sched.events).Nodup) :
    ∃ l, (step m w).trace = w.trace ++ l := by
  obtain ⟨_, _, _, _, _, _, _, _, _, _, htr⟩ := step_trace m w (preStep_nodup m w hn)
  exact ⟨_, htr⟩

theorem runsOf_since {w w' : World T A S} {l : List (Ev T A)} (h : w'.trace = w.trace ++ l) :
    runsOf w'.trace = runsOf w.trace ++ runsOf (since w w') := by
  rw [since_append h, h, runsOf_append]

theorem turns_times {m : Model T A S} {s s' : S} {l k : List (Entry T A)} (h : Turns m s l s' k)
    {e : Entry T A} (he : e ∈ k) : ∃ f ∈ l, f.1.id = e.1.id ∧ f.1.repeating = true ∧ e.1.repeating = true ∧
      e.2.time = m.adv f.2.time ∧ e.2.ordering = f.2.ordering := by
  induction h with
  | nil => simp at he
  | oneShot _ _ ih => obtain ⟨f, hf, h⟩ := ih he; exact ⟨f, by simp [hf], h⟩
  | stopped _ _ _ ih => obtain ⟨f, hf, h⟩ := ih he; exact ⟨f, by simp [hf], h⟩
  | goesOn _ _ _ ih =>
    rcases List.mem_cons.1 he with rfl | he
    · exact ⟨_, List.mem_cons_self, rfl, rfl, rfl, rfl, rfl⟩
    · obtain ⟨f, hf, h⟩ := ih he; exact ⟨f, by simp [hf], h⟩

theorem step_later [LinearOrder T] (m : Model T A S) (w : World T A S) (hadv : ∀ t, t ≤ m.adv t)
    (hh : HooksSatisfy m (fun s c => c.notBefore s.time)) (hn : (ids w.sched.events).Nodup)
    (h : Later w.sched) : Later (step m w).sched ∧ w.sched.time ≤ (step m w).sched.time := by
  obtain ⟨t, ran, kept, h1, h0, he, h2, _, h4, h5, _, h6, h7, _⟩ := runsOf_step m w hn
  have hpre := preStep_later m w hh h
  have htime : w.sched.time ≤ t := by
    by_cases hq : (preStep m w).sched.events = []
    · exact le_of_eq (he hq).symm
    · obtain ⟨e, hem, het⟩ := h0 hq
      have := hpre e hem
      rw [(preStep_step m w).2, het] at this
      exact this
  refine ⟨?_, h7 ▸ htime⟩
  apply postStep_later m _ hh
  intro e hem
  rw [h6]
  rw [h5] at hem
  rcases List.mem_append.1 hem with hem | hem
  · exact h1 e (List.mem_of_mem_filter hem)
  · obtain ⟨f, hf, _, _, _, hft, _⟩ := turns_times h4 hem
    have := h2.mem_iff.1 hf
    rw [List.mem_filter] at this
    rw [hft, of_decide_eq_true this.2]
    exact hadv t

/-! ### Absent agents -/

theorem after_absent (s : Sched T A) (c : Cmd T A) (i : Nat) (hc : ¬ c.adds i) (hi : i < s.idCount)
    (h : i ∉ ids s.events) : i ∉ ids (s.after c).events := by
  cases c with
  | scheduleOnce a t o =>
    show i ∉ ids (s.events.push a _).1
    rw [ids_push]
    split
    · exact h
    · simp only [List.mem_append, List.mem_singleton, not_or]
      exact ⟨h, fun hc' => hc hc'.symm⟩
  | scheduleRepeating a t o =>
    show i ∉ ids (s.events.push _ _).1
    rw [ids_push]
    split
    · exact h
    · simp only [List.mem_append, List.mem_singleton, not_or]
      refine ⟨h, ?_⟩
      show i ≠ s.idCount
      omega
  | dequeue j =>
    exact fun hc' => h ((ids_filter_sublist _ _).subset hc')

theorem execAll_absent (i : Nat) (cs : List (Cmd T A)) : ∀ w : World T A S,
    CallsSatisfy (fun _ c => ¬ c.adds i) w.sched cs → i < w.sched.idCount → i ∉ ids w.sched.events →
    i < (w.execAll cs).sched.idCount ∧ i ∉ ids (w.execAll cs).sched.events := by
  induction cs with
  | nil => intro w _ hi h; exact ⟨hi, h⟩
  | cons c cs ih =>
    intro w hc hi h
    rw [execAll_cons]
    refine ih (w.exec c) (by rw [exec_sched]; exact hc.2) ?_ ?_
    · rw [exec_sched]; exact Nat.lt_of_lt_of_le hi (after_idCount _ _)
    · rw [exec_sched]; exact after_absent _ _ _ hc.1 hi h

theorem step_absent [LinearOrder T] (m : Model T A S) (i : Nat) (w : World T A S)
    (hh : HooksSatisfy m (fun _ c => ¬ c.adds i)) (hn : (ids w.sched.events).Nodup)
    (hi : i < w.sched.idCount) (h : i ∉ ids w.sched.events) :
    i < (step m w).sched.idCount ∧ i ∉ ids (step m w).sched.events ∧
    (runsOf (step m w).trace).filter (fun r => r.1 == i) = (runsOf w.trace).filter (fun r => r.1 == i) := by
  have hpre : i < (preStep m w).sched.idCount ∧ i ∉ ids (preStep m w).sched.events := by
    unfold preStep
    split
    · exact execAll_absent i _ { state := _, sched := w.sched, trace := _ } (hh _ _).1 hi h
    · exact execAll_absent i _ { state := _, sched := w.sched, trace := _ } (hh _ _).1 hi h
  obtain ⟨t, ran, kept, h1, h0, he, h2, _, h4, h5, h6, _, _, hr⟩ := runsOf_step m w hn
  have hran : i ∉ ids ran := by
    intro hc
    obtain ⟨e, hem, hid⟩ := mem_ids.1 hc
    have := List.mem_of_mem_filter (h2.mem_iff.1 hem)
    exact hpre.2 (mem_ids.2 ⟨e, this, hid⟩)
  have hmid : i < (midStep m w).sched.idCount ∧ i ∉ ids (midStep m w).sched.events := by
    refine ⟨by rw [h6]; exact hpre.1, ?_⟩
    rw [h5, ids_append, List.mem_append]
    rintro (hc | hc)
    · exact hpre.2 ((ids_filter_sublist _ _).subset hc)
    · exact hran ((turns_ids h4).subset hc)
  have hpost : i < (step m w).sched.idCount ∧ i ∉ ids (step m w).sched.events := by
    show i < (postStep m _).sched.idCount ∧ _ ∉ ids (postStep m _).sched.events
    unfold postStep
    exact execAll_absent i _ { state := _, sched := (midStep m w).sched, trace := _ } (hh _ _).2 hmid.1 hmid.2
  refine ⟨hpost.1, hpost.2, ?_⟩
  rw [hr, List.filter_append, filter_runs_notmem hran]
  simp

/-! ### Identifiers -/

theorem registrations_append (l l' : List (Ev T A)) :
    registrations (l ++ l') = registrations l ++ registrations l' := by
  simp [registrations, List.filterMap_append]

theorem registrations_calls (ran : List (Entry T A)) : registrations (ran.flatMap callsOf) = [] := by
  induction ran with
  | nil => rfl
  | cons e ran ih => rw [List.flatMap_cons, registrations_append, ih]; rfl

/-- The trace knows all identifiers handed out. -/
def IdsLogged (w : World T A S) : Prop :=
  (registrations w.trace).map Prod.fst = List.range w.sched.idCount

theorem exec_logged (w : World T A S) (c : Cmd T A) (h : IdsLogged w) : IdsLogged (w.exec c) := by
  unfold IdsLogged at *
  cases c with
  | scheduleOnce a t o =>
    show (registrations (w.trace ++ [_])).map _ = _
    rw [registrations_append, List.map_append, h]
    simp [registrations, World.exec, Sched.scheduleOnce]
  | scheduleRepeating a t o =>
    show (registrations (w.trace ++ [_])).map _ = _
    rw [registrations_append, List.map_append, h]
    simp [registrations, World.exec, Sched.scheduleRepeating, List.range_succ]
  | dequeue j =>
    show (registrations (w.trace ++ [_])).map _ = _
    rw [registrations_append, List.map_append, h]
    simp [registrations, World.exec, Sched.dequeue]

theorem execAll_logged (cs : List (Cmd T A)) : ∀ w : World T A S, IdsLogged w → IdsLogged (w.execAll cs) := by
  induction cs with
  | nil => intro w h; exact h
  | cons c cs ih => intro w h; rw [execAll_cons]; exact ih _ (exec_logged w c h)

theorem step_logged [LinearOrder T] (m : Model T A S) (w : World T A S) (hn : (ids w.sched.events).Nodup)
    (h : IdsLogged w) : IdsLogged (step m w) := by
  have hpre : IdsLogged (preStep m w) := by
    unfold preStep
    apply execAll_logged
    unfold IdsLogged at *
    split
    · show (registrations (w.trace ++ [_] ++ [_])).map _ = _
      rw [registrations_append, registrations_append]
      simpa [registrations, World.doUpdate] using h
    · show (registrations (w.trace ++ [_])).map _ = _
      rw [registrations_append]
      simpa [registrations] using h
  obtain ⟨t, ran, kept, _, _, _, _, _, _, _, _, _, hc, _, htr⟩ := midStep_spec m w (preStep_nodup m w hn)
  have hmid : IdsLogged (midStep m w) := by
    unfold IdsLogged at *
    rw [htr, registrations_append, registrations_calls, hc]
    simpa using hpre
  show IdsLogged (postStep m (midStep m w))
  have : IdsLogged ((midStep m w).doAfter m) := by
    unfold World.doAfter
    apply execAll_logged
    unfold IdsLogged at *
    show (registrations ((midStep m w).trace ++ [_])).map _ = _
    rw [registrations_append]
    simpa [registrations] using hmid
  unfold postStep World.doUpdate
  unfold IdsLogged at *
  show (registrations (((midStep m w).doAfter m).trace ++ [_])).map _ = _
  rw [registrations_append]
  simpa [registrations] using this

/-- Only identifiers handed out are pending, and every registration succeeded. -/
def IdsKnown (w : World T A S) : Prop :=
  (∀ i ∈ ids w.sched.events, i < w.sched.idCount) ∧ ∀ r ∈ registrations w.trace, r.2 = true

theorem after_known (s : Sched T A) (c : Cmd T A) (hc : c.knownId s.idCount)
    (h : ∀ i ∈ ids s.events, i < s.idCount) : ∀ i ∈ ids (s.after c).events, i < (s.after c).idCount := by
  cases c with
  | scheduleOnce a t o =>
    intro i hi
    have hi : i ∈ ids (s.events.push a ⟨t, o⟩).1 := hi
    show i < s.idCount
    rw [ids_push] at hi
    split at hi
    · exact h i hi
    · rcases List.mem_append.1 hi with hi | hi
      · exact h i hi
      · simp at hi; subst hi; exact hc
  | scheduleRepeating a t o =>
    intro i hi
    have hi : i ∈ ids (s.events.push { AgentImpl.new a s.idCount with repeating := true } ⟨t, o⟩).1 := hi
    show i < s.idCount + 1
    rw [ids_push] at hi
    split at hi
    · exact Nat.lt_succ_of_lt (h i hi)
    · rcases List.mem_append.1 hi with hi | hi
      · exact Nat.lt_succ_of_lt (h i hi)
      · simp [AgentImpl.new] at hi; omega
  | dequeue j =>
    intro i hi
    exact h i ((ids_filter_sublist _ _).subset hi)

theorem scheduleRepeating_fresh (s : Sched T A) (h : ∀ i ∈ ids s.events, i < s.idCount) (a : A) (t : T) (o : Int) :
    s.scheduleRepeating a t o =
      ({ s with idCount := s.idCount + 1, events := s.events ++ [(⟨s.idCount, a, true⟩, ⟨t, o⟩)] }, s.idCount, true) := by
  have hfresh : s.idCount ∉ ids s.events := fun hc => Nat.lt_irrefl _ (h _ hc)
  unfold Sched.scheduleRepeating
  simp only [AgentImpl.new]
  rw [push_fresh (a := ⟨s.idCount, a, true⟩) hfresh]
  simp

theorem exec_known (w : World T A S) (c : Cmd T A) (hc : c.knownId w.sched.idCount) (h : IdsKnown w) :
    IdsKnown (w.exec c) := by
  refine ⟨by rw [exec_sched]; exact after_known _ _ hc h.1, ?_⟩
  intro r hr
  cases c with
  | scheduleOnce a t o =>
    have hr : r ∈ registrations (w.trace ++ [Ev.once a.id]) := hr
    rw [registrations_append] at hr
    rcases List.mem_append.1 hr with hr | hr
    · exact h.2 r hr
    · simp [registrations] at hr
  | scheduleRepeating a t o =>
    have hr : r ∈ registrations (w.trace ++ [Ev.registered (w.sched.scheduleRepeating a t o).2.1
      (w.sched.scheduleRepeating a t o).2.2]) := hr
    rw [registrations_append, scheduleRepeating_fresh _ h.1] at hr
    rcases List.mem_append.1 hr with hr | hr
    · exact h.2 r hr
    · simp [registrations] at hr; rw [hr]
  | dequeue j =>
    have hr : r ∈ registrations (w.trace ++ [Ev.dequeued j (w.sched.dequeue j).2]) := hr
    rw [registrations_append] at hr
    rcases List.mem_append.1 hr with hr | hr
    · exact h.2 r hr
    · simp [registrations] at hr

theorem execAll_known (cs : List (Cmd T A)) : ∀ w : World T A S,
    CallsSatisfy (fun s c => c.knownId s.idCount) w.sched cs → IdsKnown w → IdsKnown (w.execAll cs) := by
  induction cs with
  | nil => intro w _ h; exact h
  | cons c cs ih =>
    intro w hc h; rw [execAll_cons]
    exact ih _ (by rw [exec_sched]; exact hc.2) (exec_known w c hc.1 h)

theorem step_known [LinearOrder T] (m : Model T A S) (w : World T A S) (hn : (ids w.sched.events).Nodup)
    (hh : HooksSatisfy m (fun s c => c.knownId s.idCount)) (h : IdsKnown w) : IdsKnown (step m w) := by
  have hpre : IdsKnown (preStep m w) := by
    unfold preStep
    split
    · refine execAll_known _ { state := _, sched := w.sched, trace := _ } (hh _ _).1 ⟨h.1, ?_⟩
      intro r hr
      have hr : r ∈ registrations (w.trace ++ [_] ++ [_]) := hr
      rw [registrations_append, registrations_append] at hr
      exact h.2 r (by simpa [registrations] using hr)
    · refine execAll_known _ { state := _, sched := w.sched, trace := _ } (hh _ _).1 ⟨h.1, ?_⟩
      intro r hr
      have hr : r ∈ registrations (w.trace ++ [_]) := hr
      rw [registrations_append] at hr
      exact h.2 r (by simpa [registrations] using hr)
  obtain ⟨t, ran, kept, _, _, _, hp, _, ht, hev, _, _, hc, _, htr⟩ := midStep_spec m w (preStep_nodup m w hn)
  have hmid : IdsKnown (midStep m w) := by
    refine ⟨?_, ?_⟩
    · intro i hi
      rw [hev, ids_append, List.mem_append] at hi
      rw [hc]
      rcases hi with hi | hi
      · exact hpre.1 i ((ids_filter_sublist _ _).subset hi)
      · have := (turns_ids ht).subset hi
        obtain ⟨e, he, hid⟩ := mem_ids.1 this
        exact hpre.1 i (mem_ids.2 ⟨e, List.mem_of_mem_filter (hp.mem_iff.1 he), hid⟩)
    · intro r hr
      rw [htr, registrations_append, registrations_calls] at hr
      exact hpre.2 r (by simpa using hr)
  show IdsKnown (postStep m (midStep m w))
  have : IdsKnown ((midStep m w).doAfter m) := by
    unfold World.doAfter
    refine execAll_known _ { state := _, sched := (midStep m w).sched, trace := _ } (hh _ _).2 ⟨hmid.1, ?_⟩
    intro r hr
    have hr : r ∈ registrations ((midStep m w).trace ++ [_]) := hr
    rw [registrations_append] at hr
    exact hmid.2 r (by simpa [registrations] using hr)
  refine ⟨this.1, ?_⟩
  intro r hr
  have hr : r ∈ registrations (((midStep m w).doAfter m).trace ++ [_]) := hr
  rw [registrations_append] at hr
  exact this.2 r (by simpa [registrations] using hr)

/-! ### Tie-breaking -/

/-- No two entries share both time and ordering. -/
def DistinctPriorities (q : Queue T A) : Prop := (q.map (fun e => e.2)).Nodup

theorem Priority.le_antisymm [LinearOrder T] {p q : Priority T} (h1 : p.le q) (h2 : q.le p) : p = q := by
  obtain ⟨t, o⟩ := p
  obtain ⟨t', o'⟩ := q
  unfold Priority.le at h1 h2
  rcases h1 with h1 | ⟨h1, h1'⟩ <;> rcases h2 with h2 | ⟨h2, h2'⟩
  · exact absurd h1 (not_lt_of_gt h2)
  · exact absurd h1 (by simp_all)
  · exact absurd h2 (by simp_all)
  · simp only at h1 h1' h2'
    rw [h1, Int.le_antisymm h1' h2']

theorem sorted_perm_unique [LinearOrder T] : ∀ {l l' : List (Entry T A)},
    DistinctPriorities l → l.Perm l' → l.Pairwise (fun e f => e.2.le f.2) →
    l'.Pairwise (fun e f => e.2.le f.2) → l = l' := by
  intro l
  induction l with
  | nil => intro l' _ hp _ _; exact (List.nil_perm.1 hp).symm
  | cons x l ih =>
    intro l' hd hp hs hs'
    cases l' with
    | nil => exact absurd hp.symm (by simp)
    | cons y l' =>
      have hxy : x = y := by
        have hx : x ∈ y :: l' := hp.mem_iff.1 (by simp)
        have hy : y ∈ x :: l := hp.mem_iff.2 (by simp)
        rcases List.mem_cons.1 hx with h | hx
        · exact h
        · rcases List.mem_cons.1 hy with h | hy
          · exact h.symm
          · have h1 := (List.pairwise_cons.1 hs).1 y hy
            have h2 := (List.pairwise_cons.1 hs').1 x hx
            have h3 := Priority.le_antisymm h1 h2
            unfold DistinctPriorities at hd
            rw [List.map_cons, List.nodup_cons] at hd
            exact absurd (List.mem_map.2 ⟨y, hy, h3.symm⟩) hd.1
      subst hxy
      congr 1
      refine ih ?_ (List.Perm.cons_inv hp) (List.pairwise_cons.1 hs).2 (List.pairwise_cons.1 hs').2
      unfold DistinctPriorities at *
      rw [List.map_cons, List.nodup_cons] at hd
      exact hd.2

end Verif.Schedule
