import Verif.Spec.Permute
import Verif.Props.Schedule

/-!
C246: the order in which agents are put on the schedule does not matter if no two share time and ordering.
-/

namespace Verif.Schedule

variable {T A S : Type}

/-- `Alike`, with what the schedule itself keeps about its numbers. -/
structure Twin (w w' : World T A S) : Prop where
  alike : Alike w w'
  count : w'.sched.idCount = w.sched.idCount
  nodup : (ids w.sched.events).Nodup
  nodup' : (ids w'.sched.events).Nodup
  known : ∀ i ∈ ids w.sched.events, i < w.sched.idCount
  known' : ∀ i ∈ ids w'.sched.events, i < w'.sched.idCount

theorem twin_register {w w' : World T A S} (h : Twin w w') (a : A) (t : T) (o : Int) :
    Twin (w.exec (.scheduleRepeating a t o)) (w'.exec (.scheduleRepeating a t o)) := by
  obtain ⟨⟨hs, hst, ht, htr, hp⟩, hc, hn, hn', hk, hk'⟩ := h
  have f : w.sched.idCount ∉ ids w.sched.events := fun hi => Nat.lt_irrefl _ (hk _ hi)
  have f' : w'.sched.idCount ∉ ids w'.sched.events := fun hi => Nat.lt_irrefl _ (hk' _ hi)
  have e1 := push_fresh (q := w.sched.events) (a := ⟨w.sched.idCount, a, true⟩) (p := ⟨t, o⟩) f
  have e2 := push_fresh (q := w'.sched.events) (a := ⟨w'.sched.idCount, a, true⟩) (p := ⟨t, o⟩) f'
  have g1 : (w.exec (.scheduleRepeating a t o)).sched.events = w.sched.events ++ [(⟨w.sched.idCount, a, true⟩, ⟨t, o⟩)] := by
    show (Queue.push w.sched.events ⟨w.sched.idCount, a, true⟩ ⟨t, o⟩).1 = _
    rw [e1]
  have g2 : (w'.exec (.scheduleRepeating a t o)).sched.events = w'.sched.events ++ [(⟨w'.sched.idCount, a, true⟩, ⟨t, o⟩)] := by
    show (Queue.push w'.sched.events ⟨w'.sched.idCount, a, true⟩ ⟨t, o⟩).1 = _
    rw [e2]
  have t1 : (w.exec (.scheduleRepeating a t o)).trace = w.trace ++ [.registered w.sched.idCount true] := by
    show w.trace ++ [Ev.registered w.sched.idCount (Queue.push w.sched.events ⟨w.sched.idCount, a, true⟩ ⟨t, o⟩).2.isNone] = _
    rw [e1]
    rfl
  have t2 : (w'.exec (.scheduleRepeating a t o)).trace = w'.trace ++ [.registered w'.sched.idCount true] := by
    show w'.trace ++ [Ev.registered w'.sched.idCount (Queue.push w'.sched.events ⟨w'.sched.idCount, a, true⟩ ⟨t, o⟩).2.isNone] = _
    rw [e2]
    rfl
  have c1 : (w.exec (.scheduleRepeating a t o)).sched.idCount = w.sched.idCount + 1 := rfl
  have c2 : (w'.exec (.scheduleRepeating a t o)).sched.idCount = w'.sched.idCount + 1 := rfl
  refine ⟨⟨hs, hst, ht, ?_, ?_⟩, by rw [c1, c2, hc], ?_, ?_, ?_, ?_⟩
  · rw [t1, t2, List.map_append, List.map_append, htr]
    rfl
  · rw [g1, g2, List.map_append, List.map_append]
    exact hp.append_right _
  · rw [g1]
    simp only [ids, List.map_append, List.map_cons, List.map_nil] at *
    rw [List.nodup_append]
    exact ⟨hn, by simp, fun x hx y hy hxy => f (by simp at hy; rw [← hy, ← hxy]; exact hx)⟩
  · rw [g2]
    simp only [ids, List.map_append, List.map_cons, List.map_nil] at *
    rw [List.nodup_append]
    exact ⟨hn', by simp, fun x hx y hy hxy => f' (by simp at hy; rw [← hy, ← hxy]; exact hx)⟩
  · rw [g1, c1]
    intro i hi
    simp only [ids, List.map_append, List.map_cons, List.map_nil, List.mem_append, List.mem_singleton] at hi
    rcases hi with hi | rfl
    · exact Nat.lt_succ_of_lt (hk i hi)
    · exact Nat.lt_succ_self _
  · rw [g2, c2]
    intro i hi
    simp only [ids, List.map_append, List.map_cons, List.map_nil, List.mem_append, List.mem_singleton] at hi
    rcases hi with hi | rfl
    · exact Nat.lt_succ_of_lt (hk' i hi)
    · exact Nat.lt_succ_self _

theorem twin_calls (l : List (Plan T A)) : ∀ {w w' : World T A S}, Twin w w' →
    Twin (w.execAll (Plan.calls l)) (w'.execAll (Plan.calls l)) := by
  induction l with
  | nil => intro w w' h; exact h
  | cons p l ih => intro w w' h; exact ih (twin_register h _ _ _)

theorem twin_state {w w' : World T A S} (h : Twin w w') (s : S) (ev : Ev T A) :
    Twin { w with state := s, trace := w.trace ++ [ev] } { w' with state := s, trace := w'.trace ++ [ev] } := by
  refine ⟨⟨rfl, h.alike.step, h.alike.time, ?_, h.alike.pending⟩, h.count, h.nodup, h.nodup', h.known, h.known'⟩
  show (w'.trace ++ [ev]).map _ = (w.trace ++ [ev]).map _
  rw [List.map_append, List.map_append, h.alike.trace]

theorem twin_update {m : Model T A S} {tb : TieBreak T A} (k : Nat) {w w' : World T A S} (h : Twin w w') :
    Twin (w.doUpdate m k) (w'.doUpdate (m.withTieBreak tb) k) := by
  have := twin_state h (m.update k w.state) (.update k)
  show Twin _ { w' with state := m.update k w'.state, trace := w'.trace ++ [.update k] }
  rw [h.alike.state]
  exact this

theorem twin_before {m : Model T A S} {tb : TieBreak T A} (hb : Blind m) {w w' : World T A S} (h : Twin w w') :
    Twin (w.doBefore m) (w'.doBefore (m.withTieBreak tb)) := by
  show Twin (World.execAll { w with state := (m.beforeStep w.state w.sched).1, trace := w.trace ++ [.stateBefore] }
      (m.beforeStep w.state w.sched).2)
    (World.execAll { w' with state := (m.beforeStep w'.state w'.sched).1, trace := w'.trace ++ [.stateBefore] }
      (m.beforeStep w'.state w'.sched).2)
  rw [h.alike.state, hb.1 w.state w'.sched w.sched]
  obtain ⟨l, hl⟩ := hb.2.2.1 w.state w.sched
  rw [hl]
  exact twin_calls l (twin_state h _ _)

theorem twin_after {m : Model T A S} {tb : TieBreak T A} (hb : Blind m) {w w' : World T A S} (h : Twin w w') :
    Twin (w.doAfter m) (w'.doAfter (m.withTieBreak tb)) := by
  show Twin (World.execAll { w with state := (m.afterStep w.state w.sched).1, trace := w.trace ++ [.stateAfter] }
      (m.afterStep w.state w.sched).2)
    (World.execAll { w' with state := (m.afterStep w'.state w'.sched).1, trace := w'.trace ++ [.stateAfter] }
      (m.afterStep w'.state w'.sched).2)
  rw [h.alike.state, hb.2.1 w.state w'.sched w.sched]
  obtain ⟨l, hl⟩ := hb.2.2.2 w.state w.sched
  rw [hl]
  exact twin_calls l (twin_state h _ _)

theorem twin_pre {m : Model T A S} {tb : TieBreak T A} (hb : Blind m) {w w' : World T A S} (h : Twin w w') :
    Twin (preStep m w) (preStep (m.withTieBreak tb) w') := by
  unfold preStep
  rw [h.alike.step]
  by_cases h0 : w.sched.step = 0
  · rw [if_pos h0, if_pos h0]
    exact twin_before hb (twin_update _ h)
  · rw [if_neg h0, if_neg h0]
    exact twin_before hb h

theorem twin_tick {w w' : World T A S} (h : Twin w w') :
    Twin { w with sched := { w.sched with step := w.sched.step + 1 } }
      { w' with sched := { w'.sched with step := w'.sched.step + 1 } } :=
  ⟨⟨h.alike.state, by show w'.sched.step + 1 = _; rw [h.alike.step], h.alike.time, h.alike.trace, h.alike.pending⟩,
    h.count, h.nodup, h.nodup', h.known, h.known'⟩

theorem twin_post {m : Model T A S} {tb : TieBreak T A} (hb : Blind m) {w w' : World T A S} (h : Twin w w') :
    Twin (postStep m w) (postStep (m.withTieBreak tb) w') := by
  have h1 := twin_tick (twin_after (tb := tb) hb h)
  have h2 := twin_update (m := m) (tb := tb) ((w.doAfter m).sched.step + 1) h1
  have e := (twin_after (tb := tb) hb h).alike.step
  show Twin _ (World.doUpdate (m.withTieBreak tb) ((w'.doAfter (m.withTieBreak tb)).sched.step + 1) _)
  rw [e]
  rw [e] at h2
  exact h2

/-- Entries that run: the ids still to come are known and not pending. -/
structure Fresh (w : World T A S) (l : List (Entry T A)) : Prop where
  nodup : (ids l).Nodup
  apart : ∀ i ∈ ids l, i ∉ ids w.sched.events
  known : ∀ i ∈ ids l, i < w.sched.idCount

theorem runOne_events (m : Model T A S) (w : World T A S) (e : Entry T A) (hf : e.1.id ∉ ids w.sched.events) :
    ((runOne m w e).sched.events = w.sched.events ∨
      ∃ a : AgentImpl A, a.id = e.1.id ∧ (runOne m w e).sched.events = w.sched.events ++ [(a, ⟨m.adv e.2.time, e.2.ordering⟩)]) ∧
    (runOne m w e).sched.idCount = w.sched.idCount := by
  unfold runOne
  dsimp only
  by_cases hr : e.1.repeating
  · rw [if_pos hr]
    by_cases hs : (m.isStopped (m.aAfter (m.aStep (m.aBefore e.1.agent w.state).1 (m.aBefore e.1.agent w.state).2).1
        (m.aStep (m.aBefore e.1.agent w.state).1 (m.aBefore e.1.agent w.state).2).2).1
        (m.aAfter (m.aStep (m.aBefore e.1.agent w.state).1 (m.aBefore e.1.agent w.state).2).1
        (m.aStep (m.aBefore e.1.agent w.state).1 (m.aBefore e.1.agent w.state).2).2).2).1
    · rw [if_pos hs]
      exact ⟨Or.inl rfl, rfl⟩
    · rw [if_neg hs]
      refine ⟨Or.inr ⟨⟨e.1.id, (m.isStopped (m.aAfter (m.aStep (m.aBefore e.1.agent w.state).1 (m.aBefore e.1.agent w.state).2).1
        (m.aStep (m.aBefore e.1.agent w.state).1 (m.aBefore e.1.agent w.state).2).2).1
        (m.aAfter (m.aStep (m.aBefore e.1.agent w.state).1 (m.aBefore e.1.agent w.state).2).1
        (m.aStep (m.aBefore e.1.agent w.state).1 (m.aBefore e.1.agent w.state).2).2).2).2.1, e.1.repeating⟩, rfl, ?_⟩, rfl⟩
      show (Queue.push w.sched.events _ _).1 = _
      rw [push_fresh]
      exact hf
  · rw [if_neg hr]
    exact ⟨Or.inl rfl, rfl⟩

theorem twin_runOne {m : Model T A S} {tb : TieBreak T A} {w w' : World T A S} (h : Twin w w') {e e' : Entry T A}
    (hee : e'.nameless = e.nameless) (hf : e.1.id ∉ ids w.sched.events) (hf' : e'.1.id ∉ ids w'.sched.events)
    (hk : e.1.id < w.sched.idCount) (hk' : e'.1.id < w'.sched.idCount) :
    Twin (runOne m w e) (runOne (m.withTieBreak tb) w' e') := by
  obtain ⟨⟨i, a, r⟩, p⟩ := e
  obtain ⟨⟨i', a', r'⟩, p'⟩ := e'
  simp only [Entry.nameless, Prod.mk.injEq] at hee
  obtain ⟨rfl, rfl, rfl⟩ := hee
  obtain ⟨⟨hs, hst, ht, htr, hp⟩, hc, hn, hn', hkn, hkn'⟩ := h
  obtain ⟨s, sc, tr⟩ := w
  obtain ⟨s', sc', tr'⟩ := w'
  simp only at hs hst ht htr hp hc hn hn' hkn hkn' hf hf' hk hk'
  subst hs
  have trace : ∀ j j' : Nat, (tr' ++ [Ev.agentBefore j', Ev.agentStep j' p', Ev.agentAfter j']).map Ev.nameless =
      (tr ++ [Ev.agentBefore j, Ev.agentStep j p', Ev.agentAfter j]).map Ev.nameless := by
    intro j j'
    rw [List.map_append, List.map_append, htr]
    rfl
  unfold runOne
  dsimp only
  by_cases hr : r'
  · rw [if_pos hr, if_pos hr]
    show Twin _ (if (m.isStopped _ _).1 = true then _ else _)
    by_cases hs : (m.isStopped (m.aAfter (m.aStep (m.aBefore a' s').1 (m.aBefore a' s').2).1
        (m.aStep (m.aBefore a' s').1 (m.aBefore a' s').2).2).1
        (m.aAfter (m.aStep (m.aBefore a' s').1 (m.aBefore a' s').2).1
        (m.aStep (m.aBefore a' s').1 (m.aBefore a' s').2).2).2).1
    · rw [if_pos hs]
      have hs2 := hs
      rw [show (m.withTieBreak tb).aAfter = m.aAfter from rfl, show (m.withTieBreak tb).aStep = m.aStep from rfl,
        show (m.withTieBreak tb).aBefore = m.aBefore from rfl]
      rw [if_pos hs]
      exact ⟨⟨rfl, hst, ht, trace _ _, hp⟩, hc, hn, hn', hkn, hkn'⟩
    · rw [if_neg hs]
      rw [show (m.withTieBreak tb).aAfter = m.aAfter from rfl, show (m.withTieBreak tb).aStep = m.aStep from rfl,
        show (m.withTieBreak tb).aBefore = m.aBefore from rfl]
      rw [if_neg hs]
      simp only [Sched.scheduleOnce]
      rw [push_fresh hf, push_fresh hf']
      refine ⟨⟨rfl, hst, ht, trace _ _, ?_⟩, hc, ?_, ?_, ?_, ?_⟩
      · show ((sc'.events ++ [_]).map _).Perm ((sc.events ++ [_]).map _)
        rw [List.map_append, List.map_append]
        exact hp.append_right _
      · simp only [ids, List.map_append, List.map_cons, List.map_nil] at *
        rw [List.nodup_append]
        exact ⟨hn, by simp, fun x hx y hy hxy => hf (by simp at hy; rw [← hy, ← hxy]; exact hx)⟩
      · simp only [ids, List.map_append, List.map_cons, List.map_nil] at *
        rw [List.nodup_append]
        exact ⟨hn', by simp, fun x hx y hy hxy => hf' (by simp at hy; rw [← hy, ← hxy]; exact hx)⟩
      · intro j hj
        simp only [ids, List.map_append, List.map_cons, List.map_nil, List.mem_append, List.mem_singleton] at hj
        rcases hj with hj | rfl
        · exact hkn j hj
        · exact hk
      · intro j hj
        simp only [ids, List.map_append, List.map_cons, List.map_nil, List.mem_append, List.mem_singleton] at hj
        rcases hj with hj | rfl
        · exact hkn' j hj
        · exact hk'
  · rw [if_neg hr, if_neg hr]
    exact ⟨⟨rfl, hst, ht, trace _ _, hp⟩, hc, hn, hn', hkn, hkn'⟩

theorem fresh_runOne {m : Model T A S} {w : World T A S} {e : Entry T A} {l : List (Entry T A)} (h : Fresh w (e :: l)) :
    Fresh (runOne m w e) l := by
  obtain ⟨hn, ha, hk⟩ := h
  simp only [ids, List.map_cons] at hn
  rw [List.nodup_cons] at hn
  obtain ⟨he, hc⟩ := runOne_events m w e (ha _ (by simp [ids]))
  refine ⟨hn.2, ?_, ?_⟩
  · intro i hi hmem
    rcases he with he | ⟨a, hid, he⟩
    · rw [he] at hmem
      exact ha i (by simp only [ids, List.map_cons]; exact List.mem_cons_of_mem _ hi) hmem
    · rw [he] at hmem
      simp only [ids, List.map_append, List.map_cons, List.map_nil, List.mem_append, List.mem_singleton] at hmem
      rcases hmem with hmem | rfl
      · exact ha i (by simp only [ids, List.map_cons]; exact List.mem_cons_of_mem _ hi) hmem
      · rw [hid] at hi
        exact hn.1 hi
  · intro i hi
    rw [hc]
    exact hk i (by simp only [ids, List.map_cons]; exact List.mem_cons_of_mem _ hi)

theorem twin_runAll {m : Model T A S} {tb : TieBreak T A} : ∀ (l l' : List (Entry T A)) {w w' : World T A S},
    Twin w w' → l'.map Entry.nameless = l.map Entry.nameless → Fresh w l → Fresh w' l' →
    Twin (l.foldl (runOne m) w) (l'.foldl (runOne (m.withTieBreak tb)) w') := by
  intro l
  induction l with
  | nil =>
    intro l' w w' h hl _ _
    simp only [List.map_nil, List.map_eq_nil_iff] at hl
    subst hl
    exact h
  | cons e l ih =>
    intro l' w w' h hl hf hf'
    cases l' with
    | nil => simp at hl
    | cons e' l' =>
      simp only [List.map_cons, List.cons.injEq] at hl
      rw [List.foldl_cons, List.foldl_cons]
      exact ih l' (twin_runOne h hl.1 (hf.apart _ (by simp [ids])) (hf'.apart _ (by simp [ids]))
        (hf.known _ (by simp [ids])) (hf'.known _ (by simp [ids]))) hl.2 (fresh_runOne hf) (fresh_runOne hf')

/-- Two sorted lists with the same nameless entries, no two of the same priority, are the same. -/
theorem nameless_unique [LinearOrder T] {l l' : List (Entry T A)} (hd : DistinctPriorities l)
    (hp : (l'.map Entry.nameless).Perm (l.map Entry.nameless)) (hs : l.Pairwise (fun e f => e.2.le f.2))
    (hs' : l'.Pairwise (fun e f => e.2.le f.2)) : l'.map Entry.nameless = l.map Entry.nameless := by
  let back : A × Bool × Priority T → Entry T A := fun x => (⟨0, x.1, x.2.1⟩, x.2.2)
  have hb : ∀ k : List (Entry T A), ((k.map Entry.nameless).map back).map Entry.nameless = k.map Entry.nameless := by
    intro k
    rw [List.map_map, List.map_map]
    rfl
  have hpw : ∀ k : List (Entry T A), k.Pairwise (fun e f => e.2.le f.2) →
      ((k.map Entry.nameless).map back).Pairwise (fun e f => e.2.le f.2) := by
    intro k hk
    rw [List.map_map]
    exact List.pairwise_map.2 hk
  have : (l'.map Entry.nameless).map back = (l.map Entry.nameless).map back := by
    refine sorted_perm_unique ?_ (hp.map back) (hpw _ hs') (hpw _ hs)
    unfold DistinctPriorities at *
    have h2 : (((l'.map Entry.nameless).map back).map (fun e => e.2)).Perm
        (((l.map Entry.nameless).map back).map (fun e => e.2)) := (hp.map back).map _
    rw [h2.nodup_iff, List.map_map, List.map_map]
    exact hd
  rw [← hb l', ← hb l, this]

theorem due_fresh [LinearOrder T] (v : World T A S) (tb : TieBreak T A) (sc : Sched T A) (hn : (ids sc.events).Nodup)
    (hk : ∀ i ∈ ids sc.events, i < sc.idCount) :
    Fresh { v with sched := (popDue tb sc.events.length sc).2 } (popDue tb sc.events.length sc).1 := by
  obtain ⟨hp, hs, he⟩ := popDue_spec tb sc.events.length sc hn (Nat.le_refl _)
  have hi : (ids (popDue tb sc.events.length sc).1).Perm
      (ids (sc.events.filter (fun e => !decide (sc.time < e.2.time)))) := hp.map _
  refine ⟨?_, ?_, ?_⟩
  · rw [hi.nodup_iff]
    exact nodup_filter hn _
  · intro i h1 h2
    rw [hi.mem_iff] at h1
    simp only [he] at h2
    simp only [ids, List.mem_map, List.mem_filter] at h1 h2
    obtain ⟨e, ⟨hem, het⟩, hei⟩ := h1
    obtain ⟨f, ⟨hfm, hft⟩, hfi⟩ := h2
    have : e = f := by
      have hinj := List.inj_on_of_nodup_map hn
      exact hinj hem hfm (by rw [hei, hfi])
    subst this
    simp [hft] at het
  · intro i h1
    rw [hi.mem_iff] at h1
    simp only [he]
    simp only [ids, List.mem_map, List.mem_filter] at h1
    obtain ⟨e, ⟨hem, _⟩, hei⟩ := h1
    exact hk i (by simp only [ids, List.mem_map]; exact ⟨e, hem, hei⟩)

theorem twin_due [LinearOrder T] {m : Model T A S} {tb : TieBreak T A} {w w' : World T A S} (h : Twin w w')
    (hd : DistinctPriorities w.sched.events) : Twin (runDue m w) (runDue (m.withTieBreak tb) w') := by
  by_cases hq : w.sched.events = []
  · have hq' : w'.sched.events = [] := by
      have := h.alike.pending
      rw [hq] at this
      simpa using this
    unfold runDue
    rw [hq, hq']
    exact h
  have hq' : w'.sched.events ≠ [] := by
    intro h0
    have := h.alike.pending
    rw [h0] at this
    simp only [List.map_nil, List.nil_perm, List.map_eq_nil_iff] at this
    exact hq this
  obtain ⟨top, htop⟩ := peek_some m.tb w.sched.pops hq
  obtain ⟨top', htop'⟩ := peek_some tb w'.sched.pops hq'
  obtain ⟨hm1, hmin1⟩ := peek_mem htop
  obtain ⟨hm2, hmin2⟩ := peek_mem htop'
  have across : ∀ e ∈ w.sched.events, ∃ f ∈ w'.sched.events, f.2 = e.2 := by
    intro e he
    have := h.alike.pending.mem_iff.2 (List.mem_map_of_mem (f := Entry.nameless) he)
    obtain ⟨f, hf, hfe⟩ := List.mem_map.1 this
    exact ⟨f, hf, by simp only [Entry.nameless, Prod.mk.injEq] at hfe; exact hfe.2.2⟩
  have across' : ∀ e ∈ w'.sched.events, ∃ f ∈ w.sched.events, f.2 = e.2 := by
    intro e he
    have := h.alike.pending.mem_iff.1 (List.mem_map_of_mem (f := Entry.nameless) he)
    obtain ⟨f, hf, hfe⟩ := List.mem_map.1 this
    exact ⟨f, hf, by simp only [Entry.nameless, Prod.mk.injEq] at hfe; exact hfe.2.2⟩
  have htime : top'.2.time = top.2.time := by
    obtain ⟨f, hf, hfe⟩ := across top hm1
    obtain ⟨g, hg, hge⟩ := across' top' hm2
    have h1 := Priority.le_time (hmin2 f hf)
    have h2 := Priority.le_time (hmin1 g hg)
    rw [hfe] at h1
    rw [hge] at h2
    exact _root_.le_antisymm h1 h2
  unfold runDue
  rw [htop]
  show Twin _ (match w'.sched.events.peek tb w'.sched.pops with
    | none => w'
    | some top => _)
  rw [htop']
  simp only [htime]
  let s : Sched T A := { w.sched with time := top.2.time }
  let s' : Sched T A := { w'.sched with time := top.2.time }
  obtain ⟨hp1, hs1, he1⟩ := popDue_spec m.tb s.events.length s h.nodup (Nat.le_refl _)
  obtain ⟨hp2, hs2, he2⟩ := popDue_spec tb s'.events.length s' h.nodup' (Nat.le_refl _)
  show Twin ((popDue m.tb s.events.length s).1.foldl (runOne m) { w with sched := (popDue m.tb s.events.length s).2 })
    ((popDue tb s'.events.length s').1.foldl (runOne (m.withTieBreak tb)) { w' with sched := (popDue tb s'.events.length s').2 })
  have part : ∀ (p : Priority T → Bool), ((w'.sched.events.filter (fun e => p e.2)).map Entry.nameless).Perm
      ((w.sched.events.filter (fun e => p e.2)).map Entry.nameless) := by
    intro p
    have e : ∀ q : List (Entry T A), (q.filter (fun e => p e.2)).map Entry.nameless =
        (q.map Entry.nameless).filter (fun x => p x.2.2) := by
      intro q
      rw [List.filter_map]
      rfl
    rw [e, e]
    exact h.alike.pending.filter _
  have hbatch : (popDue tb s'.events.length s').1.map Entry.nameless =
      (popDue m.tb s.events.length s).1.map Entry.nameless := by
    refine nameless_unique ?_ ?_ hs1 hs2
    · unfold DistinctPriorities at *
      have : ((popDue m.tb s.events.length s).1.map (fun e => e.2)).Perm
        ((s.events.filter (fun e => !decide (s.time < e.2.time))).map (fun e => e.2)) := hp1.map _
      rw [this.nodup_iff]
      exact hd.sublist (List.filter_sublist.map _)
    · exact ((hp2.map _).trans (part (fun p => !decide (top.2.time < p.time)))).trans (hp1.map _).symm
  refine twin_runAll _ _ ?_ hbatch (due_fresh w m.tb s h.nodup h.known) (due_fresh w' tb s' h.nodup' h.known')
  rw [he1, he2]
  refine ⟨⟨h.alike.state, h.alike.step, rfl, h.alike.trace, part (fun p => decide (top.2.time < p.time))⟩, h.count,
    nodup_filter h.nodup _, nodup_filter h.nodup' _, ?_, ?_⟩
  · intro i hi
    simp only [ids, List.mem_map, List.mem_filter] at hi
    obtain ⟨e, ⟨hem, _⟩, hei⟩ := hi
    exact h.known i (by simp only [ids, List.mem_map]; exact ⟨e, hem, hei⟩)
  · intro i hi
    simp only [ids, List.mem_map, List.mem_filter] at hi
    obtain ⟨e, ⟨hem, _⟩, hei⟩ := hi
    exact h.known' i (by simp only [ids, List.mem_map]; exact ⟨e, hem, hei⟩)

theorem twin_step [LinearOrder T] {m : Model T A S} {tb : TieBreak T A} (hb : Blind m) {w w' : World T A S}
    (h : Twin w w') (hd : DistinctPriorities (preStep m w).sched.events) :
    Twin (step m w) (step (m.withTieBreak tb) w') := by
  have hp := twin_pre (tb := tb) hb h
  unfold step midStep
  refine twin_post hb ?_
  dsimp only
  have he : (preStep (m.withTieBreak tb) w').sched.events.isEmpty = (preStep m w).sched.events.isEmpty := by
    have := hp.alike.pending.length_eq
    rw [List.length_map, List.length_map] at this
    rw [Bool.eq_iff_iff, List.isEmpty_iff_length_eq_zero, List.isEmpty_iff_length_eq_zero, this]
  rw [he]
  by_cases h0 : (preStep m w).sched.events.isEmpty = true
  · rw [if_pos h0, if_pos h0]
    exact hp
  · rw [if_neg h0, if_neg h0]
    exact twin_due hp hd

theorem twin_steps [LinearOrder T] {m : Model T A S} {tb : TieBreak T A} (hb : Blind m) {w w' : World T A S}
    (h : Twin w w') (n : Nat)
    (hd : ∀ k, k < n → ((preStep m (steps m k w)).sched.events.map (fun e => e.2)).Nodup) :
    Twin (steps m n w) (steps (m.withTieBreak tb) n w') := by
  induction n with
  | zero => exact h
  | succ n ih =>
    rw [steps_succ', steps_succ']
    exact twin_step hb (ih (fun k hk => hd k (Nat.lt_succ_of_lt hk))) (hd n (Nat.lt_succ_self n))

theorem calls_world (l : List (Plan T A)) : ∀ (w : World T A S), (∀ i ∈ ids w.sched.events, i < w.sched.idCount) →
    (w.execAll (Plan.calls l)).state = w.state ∧ (w.execAll (Plan.calls l)).sched.step = w.sched.step ∧
    (w.execAll (Plan.calls l)).sched.time = w.sched.time ∧
    (w.execAll (Plan.calls l)).sched.idCount = w.sched.idCount + l.length ∧
    (w.execAll (Plan.calls l)).trace.map Ev.nameless = w.trace.map Ev.nameless ++ List.replicate l.length (.registered 0 true) ∧
    (w.execAll (Plan.calls l)).sched.events.map Entry.nameless =
      w.sched.events.map Entry.nameless ++ l.map (fun p => (p.agent, true, ⟨p.time, p.ordering⟩)) := by
  induction l with
  | nil => intro w _; simp [Plan.calls, World.execAll]
  | cons p l ih =>
    intro w hk
    have f : w.sched.idCount ∉ ids w.sched.events := fun hi => Nat.lt_irrefl _ (hk _ hi)
    have e1 := push_fresh (q := w.sched.events) (a := ⟨w.sched.idCount, p.agent, true⟩) (p := ⟨p.time, p.ordering⟩) f
    have g1 : (w.exec (.scheduleRepeating p.agent p.time p.ordering)).sched.events =
        w.sched.events ++ [(⟨w.sched.idCount, p.agent, true⟩, ⟨p.time, p.ordering⟩)] := by
      show (Queue.push w.sched.events ⟨w.sched.idCount, p.agent, true⟩ ⟨p.time, p.ordering⟩).1 = _
      rw [e1]
    have t1 : (w.exec (.scheduleRepeating p.agent p.time p.ordering)).trace = w.trace ++ [.registered w.sched.idCount true] := by
      show w.trace ++ [Ev.registered w.sched.idCount (Queue.push w.sched.events ⟨w.sched.idCount, p.agent, true⟩
        ⟨p.time, p.ordering⟩).2.isNone] = _
      rw [e1]
      rfl
    obtain ⟨i1, i2, i3, i4, i5, i6⟩ := ih (w.exec (.scheduleRepeating p.agent p.time p.ordering)) (by
      rw [g1]
      intro i hi
      show i < w.sched.idCount + 1
      simp only [ids, List.map_append, List.map_cons, List.map_nil, List.mem_append, List.mem_singleton] at hi
      rcases hi with hi | rfl
      · exact Nat.lt_succ_of_lt (hk i hi)
      · exact Nat.lt_succ_self _)
    show (World.execAll (w.exec (.scheduleRepeating p.agent p.time p.ordering)) (Plan.calls l)).state = _ ∧
      (World.execAll (w.exec (.scheduleRepeating p.agent p.time p.ordering)) (Plan.calls l)).sched.step = _ ∧
      (World.execAll (w.exec (.scheduleRepeating p.agent p.time p.ordering)) (Plan.calls l)).sched.time = _ ∧
      (World.execAll (w.exec (.scheduleRepeating p.agent p.time p.ordering)) (Plan.calls l)).sched.idCount = _ ∧
      (World.execAll (w.exec (.scheduleRepeating p.agent p.time p.ordering)) (Plan.calls l)).trace.map _ = _ ∧
      (World.execAll (w.exec (.scheduleRepeating p.agent p.time p.ordering)) (Plan.calls l)).sched.events.map _ = _
    rw [i1, i2, i3, i4, i5, i6, t1, g1]
    refine ⟨rfl, rfl, rfl, ?_, ?_, ?_⟩
    · show w.sched.idCount + 1 + l.length = _
      simp only [List.length_cons]
      omega
    · simp [List.map_append, Ev.nameless, List.replicate_succ]
    · simp [List.map_append, Entry.nameless]

theorem known_calls (l : List (Plan T A)) : ∀ {w : World T A S}, Twin w w → Twin (w.execAll (Plan.calls l)) (w.execAll (Plan.calls l)) :=
  fun h => twin_calls l h

theorem twin_start (z : T) (s : S) : Twin (World.start z s : World T A S) (World.start z s) :=
  ⟨⟨rfl, rfl, rfl, rfl, List.Perm.refl _⟩, rfl, by simp [World.start, Sched.new, ids],
    by simp [World.start, Sched.new, ids], by simp [World.start, Sched.new, ids], by simp [World.start, Sched.new, ids]⟩

theorem twin_planned (z : T) (s : S) {l l' : List (Plan T A)} (hp : l'.Perm l) :
    Twin ((World.start z s).execAll (Plan.calls l)) ((World.start z s).execAll (Plan.calls l')) := by
  have h := known_calls l (twin_start (A := A) z s)
  have h' := known_calls l' (twin_start (A := A) z s)
  obtain ⟨a1, a2, a3, a4, a5, a6⟩ := calls_world l (World.start z s : World T A S) (by simp [World.start, Sched.new, ids])
  obtain ⟨b1, b2, b3, b4, b5, b6⟩ := calls_world l' (World.start z s : World T A S) (by simp [World.start, Sched.new, ids])
  refine ⟨⟨by rw [a1, b1], by rw [a2, b2], by rw [a3, b3], by rw [a5, b5, hp.length_eq], ?_⟩, by rw [a4, b4, hp.length_eq],
    h.nodup, h'.nodup, h.known, h'.known⟩
  rw [a6, b6]
  exact (hp.map _).append_left _

/-- **C246.** Agents scheduled in another order run the same simulation - states, order of agents, clock, observations and
pending agents up to their numbers - on every priority queue, if at no step two pending agents share time and
ordering. -/
theorem C246_order_of_scheduling [LinearOrder T] (m : Model T A S) (hb : Blind m) (tb : TieBreak T A) (z : T) (s : S)
    {l l' : List (Plan T A)} (hp : l'.Perm l) (n : Nat)
    (hd : ∀ k, k < n → ((preStep m (steps m k ((World.start z s).execAll (Plan.calls l)))).sched.events.map
      (fun e => e.2)).Nodup) :
    Alike (steps m n ((World.start z s).execAll (Plan.calls l)))
      (steps (m.withTieBreak tb) n ((World.start z s).execAll (Plan.calls l'))) :=
  (twin_steps hb (twin_planned z s hp) n hd).alike

/-- The orderings of pending agents. -/
def orders (q : List (Entry T A)) : List Int := q.map (fun e => e.2.ordering)

theorem orders_runAll (m : Model T A S) : ∀ (l : List (Entry T A)) (w : World T A S), Fresh w l →
    (orders (w.sched.events ++ l)).Nodup → (orders (l.foldl (runOne m) w).sched.events).Nodup := by
  intro l
  induction l with
  | nil => intro w _ h; simpa using h
  | cons e l ih =>
    intro w hf h
    rw [List.foldl_cons]
    refine ih _ (fresh_runOne hf) ?_
    rcases (runOne_events m w e (hf.apart _ (by simp [ids]))).1 with he | ⟨a, _, he⟩
    · rw [he]
      refine h.sublist ?_
      unfold orders
      exact ((List.sublist_cons_self e l).append_left _).map _
    · rw [he]
      simpa [orders] using h

theorem orders_due [LinearOrder T] (m : Model T A S) (w : World T A S) (hn : (ids w.sched.events).Nodup)
    (hk : ∀ i ∈ ids w.sched.events, i < w.sched.idCount) (h : (orders w.sched.events).Nodup) :
    (orders (runDue m w).sched.events).Nodup := by
  by_cases hq : w.sched.events = []
  · unfold runDue
    rw [hq]
    exact h
  obtain ⟨top, htop⟩ := peek_some m.tb w.sched.pops hq
  unfold runDue
  rw [htop]
  let s : Sched T A := { w.sched with time := top.2.time }
  obtain ⟨hp, _, he⟩ := popDue_spec m.tb s.events.length s hn (Nat.le_refl _)
  show (orders ((popDue m.tb s.events.length s).1.foldl (runOne m)
    { w with sched := (popDue m.tb s.events.length s).2 }).sched.events).Nodup
  refine orders_runAll m _ _ (due_fresh w m.tb s hn hk) ?_
  show (orders ((popDue m.tb s.events.length s).2.events ++ (popDue m.tb s.events.length s).1)).Nodup
  have hperm : ((popDue m.tb s.events.length s).2.events ++ (popDue m.tb s.events.length s).1).Perm s.events := by
    rw [he]
    refine (hp.append_left _).trans ?_
    exact List.filter_append_perm (fun e : Entry T A => decide (s.time < e.2.time)) s.events
  rw [(show (orders _).Perm (orders s.events) from hperm.map _).nodup_iff]
  exact h

theorem still_blind {m : Model T A S} (h : Still m) : Blind m :=
  ⟨h.1, h.2.1, fun s sch => ⟨[], h.2.2.1 s sch⟩, fun s sch => ⟨[], h.2.2.2 s sch⟩⟩

theorem still_pre {m : Model T A S} (h : Still m) (w : World T A S) : (preStep m w).sched = w.sched := by
  have e : ∀ v : World T A S, (v.doBefore m).sched = v.sched := by
    intro v
    show (World.execAll _ (m.beforeStep v.state v.sched).2).sched = _
    rw [h.2.2.1]
    rfl
  unfold preStep
  rw [e]
  by_cases h0 : w.sched.step = 0
  · rw [if_pos h0]
    rfl
  · rw [if_neg h0]

theorem still_post {m : Model T A S} (h : Still m) (w : World T A S) : (postStep m w).sched.events = w.sched.events := by
  show (w.doAfter m).sched.events = _
  show (World.execAll _ (m.afterStep w.state w.sched).2).sched.events = _
  rw [h.2.2.2]
  rfl

theorem orders_distinct {q : List (Entry T A)} (h : (orders q).Nodup) : (q.map (fun e => e.2)).Nodup := by
  refine List.Nodup.of_map (fun p : Priority T => p.ordering) ?_
  rw [List.map_map]
  exact h

/-- Twins stay twins and keep distinct orderings. -/
theorem still_steps [LinearOrder T] {m : Model T A S} {tb : TieBreak T A} (hm : Still m) {w w' : World T A S}
    (h : Twin w w') (ho : (orders w.sched.events).Nodup) (n : Nat) :
    Twin (steps m n w) (steps (m.withTieBreak tb) n w') ∧ (orders (steps m n w).sched.events).Nodup := by
  induction n with
  | zero => exact ⟨h, ho⟩
  | succ n ih =>
    obtain ⟨ht, hi⟩ := ih
    have hs := still_pre hm (steps m n w)
    rw [steps_succ', steps_succ']
    refine ⟨twin_step (still_blind hm) ht ?_, ?_⟩
    · rw [hs]
      exact orders_distinct hi
    · unfold step midStep
      rw [still_post hm]
      dsimp only
      by_cases h0 : (preStep m (steps m n w)).sched.events.isEmpty = true
      · rw [if_pos h0, hs]
        exact hi
      · rw [if_neg h0]
        refine orders_due m _ ?_ ?_ ?_
        · rw [hs]; exact ht.nodup
        · rw [hs]; exact ht.known
        · rw [hs]; exact hi

/-- **C246 (distinct orderings).** If the hooks make no calls, giving every agent an ordering of its own is enough, for any
number of steps. -/
theorem C246_distinct_orderings [LinearOrder T] (m : Model T A S) (hm : Still m) (tb : TieBreak T A) (z : T) (s : S)
    {l l' : List (Plan T A)} (hp : l'.Perm l) (ho : (l.map (fun p => p.ordering)).Nodup) (n : Nat) :
    Alike (steps m n ((World.start z s).execAll (Plan.calls l)))
      (steps (m.withTieBreak tb) n ((World.start z s).execAll (Plan.calls l'))) := by
  refine (still_steps hm (twin_planned z s hp) ?_ n).1.alike
  obtain ⟨_, _, _, _, _, h6⟩ := calls_world l (World.start z s : World T A S) (by simp [World.start, Sched.new, ids])
  have : orders ((World.start z s : World T A S).execAll (Plan.calls l)).sched.events =
      (((World.start z s : World T A S).execAll (Plan.calls l)).sched.events.map Entry.nameless).map (fun x => x.2.2.ordering) := by
    rw [List.map_map]
    rfl
  rw [this, h6, List.map_append, List.map_map, List.map_map]
  exact ho

namespace DemoPermute

/-- Agents write their name on a list; agent 9 stops after its first step. -/
def m : Model Nat Nat (List Nat) where
  update := fun _ s => s
  beforeStep := fun s _ => (s, [])
  afterStep := fun s _ => (s, [])
  aBefore := fun a s => (a, s)
  aStep := fun a s => (a, s ++ [a])
  aAfter := fun a s => (a, s)
  isStopped := fun a s => (a == 9, a, s)
  adv := fun t => t + 1
  tb := fun _ _ => 0

def l : List (Plan Nat Nat) := [⟨7, 0, 3⟩, ⟨9, 0, 1⟩, ⟨8, 1, 2⟩]

def l' : List (Plan Nat Nat) := [⟨8, 1, 2⟩, ⟨7, 0, 3⟩, ⟨9, 0, 1⟩]

theorem still : Still m := ⟨fun _ _ _ => rfl, fun _ _ _ => rfl, fun _ _ => rfl, fun _ _ => rfl⟩

end DemoPermute

example : Still DemoPermute.m ∧ DemoPermute.l'.Perm DemoPermute.l ∧ (DemoPermute.l.map (fun p => p.ordering)).Nodup ∧
    (steps DemoPermute.m 3 ((World.start 0 []).execAll (Plan.calls DemoPermute.l))).state = [9, 7, 8, 7, 8, 7] ∧
    (steps DemoPermute.m 3 ((World.start 0 []).execAll (Plan.calls DemoPermute.l'))).state = [9, 7, 8, 7, 8, 7] ∧
    (steps DemoPermute.m 3 ((World.start 0 []).execAll (Plan.calls DemoPermute.l))).sched.events ≠
      (steps DemoPermute.m 3 ((World.start 0 []).execAll (Plan.calls DemoPermute.l'))).sched.events :=
  ⟨DemoPermute.still, by decide, by decide, by decide, by decide, by decide⟩

example : Blind { DemoPermute.m with afterStep := fun s _ => (s, [.scheduleRepeating 9 (s.length + 1) s.length]) } :=
  ⟨fun _ _ _ => rfl, fun _ _ _ => rfl, fun _ _ => ⟨[], rfl⟩, fun s _ => ⟨[⟨9, s.length + 1, s.length⟩], rfl⟩⟩

/-- **C246 (ties).** With the same time and the same ordering the order of scheduling shows, already after one step and
on one and the same priority queue. -/
theorem C246_ties_show : ∃ (m : Model Nat Nat (List Nat)) (l l' : List (Plan Nat Nat)), Still m ∧ l'.Perm l ∧
    ¬ Alike (steps m 1 ((World.start 0 []).execAll (Plan.calls l))) (steps m 1 ((World.start 0 []).execAll (Plan.calls l'))) := by
  refine ⟨DemoPermute.m, [⟨7, 0, 3⟩, ⟨8, 0, 3⟩], [⟨8, 0, 3⟩, ⟨7, 0, 3⟩], DemoPermute.still, by decide, ?_⟩
  intro h
  exact absurd h.state (by decide)

end Verif.Schedule
