import Verif.Spec.Commuting
import Verif.Props.Watchers
import Verif.Props.ParWatchers

/-!
C284: the order of agents whose actions may be exchanged does not matter.
-/

namespace Verif.Schedule

variable {T A S : Type}

/-- What the schedule keeps about its numbers. -/
structure Numbered (w : World T A S) : Prop where
  nodup : (ids w.sched.events).Nodup
  known : ∀ i ∈ ids w.sched.events, i < w.sched.idCount

theorem numbered_calls : ∀ (l : List (Plan T A)) {w : World T A S}, Numbered w → Numbered (w.execAll (Plan.calls l))
  | [], _, h => h
  | p :: l, w, h => by
    refine numbered_calls l (w := w.exec (.scheduleRepeating p.agent p.time p.ordering)) ?_
    have g := register_events w p.agent p.time p.ordering h.known
    refine ⟨?_, ?_⟩
    · rw [g]
      exact nodup_snoc h.nodup (fun hi => Nat.lt_irrefl _ (h.known _ hi))
    · rw [g]
      exact known_snoc h.known (Nat.le_succ _) (Nat.lt_succ_self _)

/-- `SameTurns`, with what the schedules keep about their numbers. -/
structure Peers (w w' : World T A S) : Prop where
  same : SameTurns w w'
  left : Numbered w
  right : Numbered w'

theorem unordered_calls (l : List (Plan T A)) (w : World T A S) (h : Numbered w) :
    (w.execAll (Plan.calls l)).sched.events.map Entry.unordered = w.sched.events.map Entry.unordered ++ l.map (fun p => (p.agent, true, p.time)) := by
  have h6 := (calls_world l w h.known).2.2.2.2.2
  have := congrArg (List.map (fun x : A × Bool × Priority T => (x.1, x.2.1, x.2.2.time))) h6
  rw [List.map_append, List.map_map, List.map_map, List.map_map] at this
  exact this

theorem Peers.replan {w w' : World T A S} (h : Peers w w') {l l' : List (Plan T A)} (hl : Replanned l l') : Peers (w.execAll (Plan.calls l)) (w'.execAll (Plan.calls l')) := by
  obtain ⟨a1, a2, a3, _⟩ := calls_world l w h.left.known
  obtain ⟨b1, b2, b3, _⟩ := calls_world l' w' h.right.known
  refine ⟨⟨by rw [a1, b1, h.same.state], by rw [a2, b2, h.same.step], by rw [a3, b3, h.same.time], ?_⟩, numbered_calls l h.left, numbered_calls l' h.right⟩
  rw [unordered_calls l w h.left, unordered_calls l' w' h.right]
  refine h.same.pending.append ?_
  have := List.Perm.map (fun x : A × T => (x.1, true, x.2)) hl
  rw [List.map_map, List.map_map] at this
  exact this

theorem Peers.put {w w' : World T A S} (h : Peers w w') (s : S) (tr tr' : List (Ev T A)) : Peers (⟨s, w.sched, tr⟩ : World T A S) ⟨s, w'.sched, tr'⟩ :=
  ⟨⟨rfl, h.same.step, h.same.time, h.same.pending⟩, ⟨h.left.nodup, h.left.known⟩, ⟨h.right.nodup, h.right.known⟩⟩

theorem Peers.tick {w w' : World T A S} (h : Peers w w') :
    Peers (⟨w.state, ⟨w.sched.step + 1, w.sched.time, w.sched.events, w.sched.idCount, w.sched.pops⟩, w.trace⟩ : World T A S)
      ⟨w'.state, ⟨w'.sched.step + 1, w'.sched.time, w'.sched.events, w'.sched.idCount, w'.sched.pops⟩, w'.trace⟩ :=
  ⟨⟨h.same.state, by show _ + 1 = _ + 1; rw [h.same.step], h.same.time, h.same.pending⟩, ⟨h.left.nodup, h.left.known⟩, ⟨h.right.nodup, h.right.known⟩⟩

theorem Peers.doUpdate {m : Model T A S} {tb : TieBreak T A} {w w' : World T A S} (h : Peers w w') {k k' : Nat} (hk : k' = k) : Peers (w.doUpdate m k) (w'.doUpdate { m with tb := tb } k') := by
  subst hk
  exact ⟨⟨by show m.update _ w'.state = _; rw [h.same.state]; rfl, h.same.step, h.same.time, h.same.pending⟩, ⟨h.left.nodup, h.left.known⟩, ⟨h.right.nodup, h.right.known⟩⟩

theorem Peers.doBefore {m : Model T A S} {tb : TieBreak T A} (hb : Blind m) {w w' : World T A S} (h : Peers w w') : Peers (w.doBefore m) (w'.doBefore { m with tb := tb }) := by
  obtain ⟨l, hl⟩ := hb.2.2.1 w.state w.sched
  have e : m.beforeStep w'.state w'.sched = m.beforeStep w.state w.sched := by rw [h.same.state]; exact hb.1 _ _ _
  unfold World.doBefore
  dsimp only
  rw [e, hl]
  exact Peers.replan (h.put _ _ _) (List.Perm.refl _)

theorem Peers.doAfter {m : Model T A S} {tb : TieBreak T A} (hb : Blind m) {w w' : World T A S} (h : Peers w w') : Peers (w.doAfter m) (w'.doAfter { m with tb := tb }) := by
  obtain ⟨l, hl⟩ := hb.2.2.2 w.state w.sched
  have e : m.afterStep w'.state w'.sched = m.afterStep w.state w.sched := by rw [h.same.state]; exact hb.2.1 _ _ _
  unfold World.doAfter
  dsimp only
  rw [e, hl]
  exact Peers.replan (h.put _ _ _) (List.Perm.refl _)

theorem Peers.pre {m : Model T A S} {tb : TieBreak T A} (hb : Blind m) {w w' : World T A S} (h : Peers w w') : Peers (preStep m w) (preStep { m with tb := tb } w') := by
  unfold preStep
  rw [h.same.step]
  by_cases h0 : w.sched.step = 0
  · rw [if_pos h0, if_pos h0]
    exact (h.doUpdate rfl).doBefore hb
  · rw [if_neg h0, if_neg h0]
    exact h.doBefore hb

theorem Peers.post {m : Model T A S} {tb : TieBreak T A} (hb : Blind m) {w w' : World T A S} (h : Peers w w') : Peers (postStep m w) (postStep { m with tb := tb } w') := by
  have h1 := h.doAfter (tb := tb) hb
  unfold postStep
  dsimp only
  exact h1.tick.doUpdate (by rw [h1.same.step])

/-- What is scheduled again after a turn. -/
def afterTurn (m : Model T A S) (x : A × Bool × T) : Option A → List (A × Bool × T)
  | none => []
  | some a => [(a, x.2.1, m.adv x.2.2)]

/-- Several turns, one after the other. -/
def allTurns (m : Model T A S) : List (A × Bool × T) → S → List (A × Bool × T) × S
  | [], s => ([], s)
  | x :: xs, s => (afterTurn m x (turn m (x.1, x.2.1) s).1 ++ (allTurns m xs (turn m (x.1, x.2.1) s).2).1, (allTurns m xs (turn m (x.1, x.2.1) s).2).2)

theorem allTurns_perm {m : Model T A S} (hm : Exchangeable m) {xs ys : List (A × Bool × T)} (h : xs.Perm ys) :
    ∀ s, (allTurns m xs s).2 = (allTurns m ys s).2 ∧ (allTurns m xs s).1.Perm (allTurns m ys s).1 := by
  induction h with
  | nil => exact fun s => ⟨rfl, List.Perm.refl _⟩
  | cons x _ ih => exact fun s => ⟨(ih _).1, (List.Perm.refl _).append (ih _).2⟩
  | swap x y l =>
    intro s
    have e1 := hm.state (x.1, x.2.1) (y.1, y.2.1) s
    have e2 := hm.agent (x.1, x.2.1) (y.1, y.2.1) s
    have e3 := hm.agent (y.1, y.2.1) (x.1, x.2.1) s
    refine ⟨?_, ?_⟩
    · simp only [allTurns]
      rw [e1]
    · simp only [allTurns]
      rw [e1, e2, e3, ← List.append_assoc, ← List.append_assoc]
      exact List.perm_append_comm.append (List.Perm.refl _)
  | trans _ _ ih1 ih2 => exact fun s => ⟨(ih1 s).1.trans (ih2 s).1, (ih1 s).2.trans (ih2 s).2⟩

theorem runOne_turn (m : Model T A S) (w : World T A S) (e : Entry T A) (hn : Numbered w) (hf : e.1.id ∉ ids w.sched.events) (hk : e.1.id < w.sched.idCount) :
    (runOne m w e).state = (turn m (e.1.agent, e.1.repeating) w.state).2 ∧
    (runOne m w e).sched.events.map Entry.unordered = w.sched.events.map Entry.unordered ++ afterTurn m e.unordered (turn m (e.1.agent, e.1.repeating) w.state).1 ∧
    (runOne m w e).sched.step = w.sched.step ∧ (runOne m w e).sched.time = w.sched.time ∧ Numbered (runOne m w e) := by
  obtain ⟨tr, ht⟩ := runOne_ran m w e hf
  rw [ht]
  obtain ⟨⟨i, a, r⟩, p⟩ := e
  have et : turn m (a, r) w.state = if r = true then
      (if (m.isStopped (ran m a w.state).1 (ran m a w.state).2).1 = true then none else some (m.isStopped (ran m a w.state).1 (ran m a w.state).2).2.1,
        (m.isStopped (ran m a w.state).1 (ran m a w.state).2).2.2) else (none, (ran m a w.state).2) := rfl
  dsimp only at hf hk ⊢
  rw [et]
  cases r with
  | false =>
    refine ⟨rfl, ?_, rfl, rfl, ⟨hn.nodup, hn.known⟩⟩
    simp [afterTurn]
  | true =>
    simp only [if_true]
    by_cases hs : (m.isStopped (ran m a w.state).1 (ran m a w.state).2).1 = true
    · simp only [if_pos hs]
      refine ⟨trivial, ?_, trivial, trivial, ⟨hn.nodup, hn.known⟩⟩
      simp [afterTurn]
    · simp only [if_neg hs]
      refine ⟨trivial, ?_, trivial, trivial, ⟨nodup_snoc hn.nodup hf, known_snoc hn.known (Nat.le_refl _) hk⟩⟩
      simp [afterTurn, Entry.unordered]

theorem fold_allTurns (m : Model T A S) : ∀ (l : List (Entry T A)) (w : World T A S), Numbered w → Fresh w l →
    (l.foldl (runOne m) w).state = (allTurns m (l.map Entry.unordered) w.state).2 ∧
    (l.foldl (runOne m) w).sched.events.map Entry.unordered = w.sched.events.map Entry.unordered ++ (allTurns m (l.map Entry.unordered) w.state).1 ∧
    (l.foldl (runOne m) w).sched.step = w.sched.step ∧ (l.foldl (runOne m) w).sched.time = w.sched.time ∧ Numbered (l.foldl (runOne m) w)
  | [], w, hn, _ => ⟨rfl, by simp [allTurns], rfl, rfl, hn⟩
  | e :: l, w, hn, hf => by
    obtain ⟨h1, h2, h3, h4, h5⟩ := runOne_turn m w e hn (hf.apart _ (by simp [ids])) (hf.known _ (by simp [ids]))
    obtain ⟨g1, g2, g3, g4, g5⟩ := fold_allTurns m l (runOne m w e) h5 (fresh_runOne hf)
    rw [List.foldl_cons]
    refine ⟨?_, ?_, g3.trans h3, g4.trans h4, g5⟩
    · rw [g1, h1]
      rfl
    · rw [g2, h1, h2, List.append_assoc]
      rfl

/-- Two loops over the same turns in any order. -/
theorem Peers.fold {m : Model T A S} {tb : TieBreak T A} (hm : Exchangeable m) {w w' : World T A S} (h : Peers w w') {l l' : List (Entry T A)} (hl : Fresh w l) (hl' : Fresh w' l')
    (hp : (l'.map Entry.unordered).Perm (l.map Entry.unordered)) : Peers (l.foldl (runOne m) w) (l'.foldl (runOne { m with tb := tb }) w') := by
  obtain ⟨a1, a2, a3, a4, a5⟩ := fold_allTurns m l w h.left hl
  obtain ⟨b1, b2, b3, b4, b5⟩ := fold_allTurns m l' w' h.right hl'
  have ht := allTurns_perm hm hp w.state
  rw [h.same.state] at b1 b2
  refine ⟨⟨?_, ?_, ?_, ?_⟩, a5, b5⟩
  · exact b1.trans (ht.1.trans a1.symm)
  · exact b3.trans (h.same.step.trans a3.symm)
  · exact b4.trans (h.same.time.trans a4.symm)
  · rw [a2]
    refine List.Perm.trans (List.Perm.of_eq b2) ?_
    exact h.same.pending.append ht.2

theorem unordered_time (q : Queue T A) (p : T → Bool) : (q.filter (fun e => p e.2.time)).map Entry.unordered = (q.map Entry.unordered).filter (fun x => p x.2.2) := by
  rw [List.filter_map]
  rfl

theorem Peers.top [LinearOrder T] {w w' : World T A S} (h : Peers w w') {tb tb' : TieBreak T A} {n n' : Nat} {top top' : Entry T A} (ht : w.sched.events.peek tb n = some top)
    (ht' : w'.sched.events.peek tb' n' = some top') : top'.2.time = top.2.time := by
  have key : ∀ {q q' : Queue T A} {tb tb' : TieBreak T A} {n n' : Nat} {e e' : Entry T A}, (q'.map Entry.unordered).Perm (q.map Entry.unordered) → q.peek tb n = some e →
      q'.peek tb' n' = some e' → ¬ e'.2.time < e.2.time := by
    intro q q' tb tb' n n' e e' hp he he' hlt
    have hm : e'.unordered ∈ q.map Entry.unordered := hp.subset (List.mem_map_of_mem (peek_mem he').1)
    obtain ⟨f, hf, hfe⟩ := List.mem_map.1 hm
    have h1 := (List.mem_filter.1 (List.mem_of_getElem? he)).2
    have h2 := (List.all_eq_true.1 h1) f hf
    have h3 : f.2.time = e'.2.time := congrArg (fun x => x.2.2) hfe
    unfold Priority.cmp at h2
    rw [h3, if_pos hlt] at h2
    exact absurd h2 (by decide)
  exact le_antisymm (not_lt.1 (key h.same.pending.symm ht' ht)) (not_lt.1 (key h.same.pending ht ht'))

theorem numbered_filter {w : World T A S} (h : Numbered w) (f : Entry T A → Bool) : (ids (w.sched.events.filter f)).Nodup ∧ ∀ i ∈ ids (w.sched.events.filter f), i < w.sched.idCount := by
  refine ⟨nodup_filter h.nodup f, fun i hi => ?_⟩
  simp only [ids, List.mem_map, List.mem_filter] at hi
  obtain ⟨e, ⟨hem, _⟩, hei⟩ := hi
  exact h.known i (by simp only [ids, List.mem_map]; exact ⟨e, hem, hei⟩)

theorem Peers.due [LinearOrder T] {m : Model T A S} {tb : TieBreak T A} (hm : Exchangeable m) {w w' : World T A S} (h : Peers w w') (hq : w.sched.events ≠ []) :
    Peers (runDue m w) (runDue { m with tb := tb } w') := by
  have hq' : w'.sched.events ≠ [] := by
    intro h0
    have := h.same.pending
    rw [h0] at this
    exact hq (by simpa using this)
  obtain ⟨top, htop⟩ := peek_some m.tb w.sched.pops hq
  obtain ⟨top', htop'⟩ := peek_some tb w'.sched.pops hq'
  have ht := h.top htop htop'
  rw [runDue_popped htop, runDue_popped (m := { m with tb := tb }) htop']
  obtain ⟨p1, _, e1⟩ := popDue_spec m.tb w.sched.events.length ⟨w.sched.step, top.2.time, w.sched.events, w.sched.idCount, w.sched.pops⟩ h.left.nodup (Nat.le_refl _)
  obtain ⟨p2, _, e2⟩ := popDue_spec tb w'.sched.events.length ⟨w'.sched.step, top'.2.time, w'.sched.events, w'.sched.idCount, w'.sched.pops⟩ h.right.nodup (Nat.le_refl _)
  have f1 := due_fresh w m.tb ⟨w.sched.step, top.2.time, w.sched.events, w.sched.idCount, w.sched.pops⟩ h.left.nodup h.left.known
  have f2 := due_fresh w' tb ⟨w'.sched.step, top'.2.time, w'.sched.events, w'.sched.idCount, w'.sched.pops⟩ h.right.nodup h.right.known
  dsimp only at p1 p2 e1 e2 f1 f2
  refine Peers.fold hm ?_ f1 f2 ?_
  · obtain ⟨n1, k1⟩ := numbered_filter h.left (fun e => decide (top.2.time < e.2.time))
    obtain ⟨n2, k2⟩ := numbered_filter h.right (fun e => decide (top'.2.time < e.2.time))
    rw [e1, e2]
    refine ⟨⟨h.same.state, h.same.step, ht, ?_⟩, ⟨n1, k1⟩, ⟨n2, k2⟩⟩
    dsimp only
    rw [unordered_time w.sched.events (fun t => decide (top.2.time < t)), unordered_time w'.sched.events (fun t => decide (top'.2.time < t)), ht]
    exact h.same.pending.filter _
  · refine (p2.map _).trans (List.Perm.trans ?_ (p1.map _).symm)
    rw [unordered_time w.sched.events (fun t => !decide (top.2.time < t)), unordered_time w'.sched.events (fun t => !decide (top'.2.time < t)), ht]
    exact h.same.pending.filter _

theorem Peers.step [LinearOrder T] {m : Model T A S} {tb : TieBreak T A} (hb : Blind m) (hm : Exchangeable m) {w w' : World T A S} (h : Peers w w') :
    Peers (step m w) (Verif.Schedule.step { m with tb := tb } w') := by
  have hp := h.pre (tb := tb) hb
  refine Peers.post hb ?_
  unfold midStep
  dsimp only
  by_cases hq : (preStep m w).sched.events = []
  · have hq' : (preStep { m with tb := tb } w').sched.events = [] := by
      have := hp.same.pending
      rw [hq] at this
      simpa using this
    rw [hq, hq']
    exact hp
  · have hq' : (preStep { m with tb := tb } w').sched.events ≠ [] := by
      intro h0
      have := hp.same.pending
      rw [h0] at this
      exact hq (by simpa using this)
    rw [if_neg (by simpa using hq), if_neg (by simpa using hq')]
    exact hp.due hm hq

theorem Peers.steps [LinearOrder T] {m : Model T A S} {tb : TieBreak T A} (hb : Blind m) (hm : Exchangeable m) : ∀ (n : Nat) {w w' : World T A S}, Peers w w' →
    Peers (steps m n w) (Verif.Schedule.steps { m with tb := tb } n w')
  | 0, _, _, h => h
  | n + 1, _, _, h => Peers.steps hb hm n (h.step hb hm)

theorem peers_start (z : T) (s : S) : Peers (World.start z s : World T A S) (World.start z s) :=
  ⟨⟨rfl, rfl, rfl, List.Perm.refl _⟩, ⟨List.nodup_nil, fun i hi => by cases hi⟩, ⟨List.nodup_nil, fun i hi => by cases hi⟩⟩

/-- **C284.** If the turns of agents may be exchanged, then neither the orderings of the agents nor the order in which they are put on the schedule nor the choices of the heap make a difference: after any
number of steps, state, clock and step counter are the same and the same agents are pending for the same times. Agents may share time and ordering. -/
theorem C284_sequential [LinearOrder T] (m : Model T A S) (hb : Blind m) (hm : Exchangeable m) (tb : TieBreak T A) (z : T) (s : S) {l l' : List (Plan T A)} (hl : Replanned l l') (n : Nat) :
    SameTurns (steps m n ((World.start z s).execAll (Plan.calls l))) (steps { m with tb := tb } n ((World.start z s).execAll (Plan.calls l'))) :=
  (Peers.steps hb hm n ((peers_start z s).replan hl)).same

open Flockers (ParSteps)

theorem Peers.parStep [LinearOrder T] {m : Model T A S} {tb : TieBreak T A} (hb : Blind m) (hm : Exchangeable m) {w w' w₂ : World T A S} (h : Peers w w')
    (ht : ∀ e ∈ (preStep m w).sched.events, ∀ f ∈ (preStep m w).sched.events, e.2.time = f.2.time) {k : Nat} (hs : ParStep { m with tb := tb } k w' (.ok w₂)) :
    Peers (Verif.Schedule.step m w) w₂ := by
  have hp := h.pre (tb := tb) hb
  cases hs with
  | @ok top' seq hk0 htop' hseq =>
    have hbt := C13_batches_partition tb (preStep { m with tb := tb } w').sched.events hp.right.nodup (preStep { m with tb := tb } w').sched.pops k hk0
    have hq : seq.Perm (preStep { m with tb := tb } w').sched.events := (interleaves_perm hseq).trans hbt.2.1
    have hne' : (preStep { m with tb := tb } w').sched.events ≠ [] := by
      intro h0
      have := (peek_mem htop').1
      rw [h0] at this
      cases this
    have hne : (preStep m w).sched.events ≠ [] := by
      intro h0
      have := hp.same.pending
      rw [h0] at this
      exact hne' (by simpa using this)
    refine Peers.post hb ?_
    unfold midStep
    dsimp only
    rw [if_neg (by simpa using hne)]
    obtain ⟨top, htop⟩ := peek_some m.tb (preStep m w).sched.pops hne
    have htt := hp.top htop htop'
    obtain ⟨p1, _, e1⟩ := popDue_spec m.tb (preStep m w).sched.events.length
      ⟨(preStep m w).sched.step, top.2.time, (preStep m w).sched.events, (preStep m w).sched.idCount, (preStep m w).sched.pops⟩ hp.left.nodup (Nat.le_refl _)
    have f1 := due_fresh (preStep m w) m.tb ⟨(preStep m w).sched.step, top.2.time, (preStep m w).sched.events, (preStep m w).sched.idCount, (preStep m w).sched.pops⟩ hp.left.nodup hp.left.known
    dsimp only at p1 e1 f1
    have hall : ∀ e ∈ (preStep m w).sched.events, ¬ top.2.time < e.2.time := fun e he => by
      rw [ht e he top (peek_mem htop).1]
      exact lt_irrefl _
    have hrest : (preStep m w).sched.events.filter (fun e => decide (top.2.time < e.2.time)) = [] :=
      List.filter_eq_nil_iff.2 (fun e he => by simpa using hall e he)
    have hdue : (preStep m w).sched.events.filter (fun e => !decide (top.2.time < e.2.time)) = (preStep m w).sched.events :=
      List.filter_eq_self.2 (fun e he => by simpa using hall e he)
    rw [hrest] at e1
    rw [hdue] at p1
    rw [runDue_popped htop]
    unfold parRun
    refine Peers.fold hm ?_ f1 ⟨?_, ?_, ?_⟩ ?_
    · rw [e1]
      exact ⟨⟨hp.same.state, hp.same.step, htt, List.Perm.refl _⟩, ⟨List.nodup_nil, fun i hi => by cases hi⟩, ⟨List.nodup_nil, fun i hi => by cases hi⟩⟩
    · exact (hq.map _).nodup_iff.2 hp.right.nodup
    · exact fun i _ hi => by cases hi
    · exact fun i hi => hp.right.known i ((hq.map _).subset hi)
    · exact (hq.map _).trans (hp.same.pending.trans (p1.map _).symm)

theorem Peers.parSteps [LinearOrder T] {m : Model T A S} {tb : TieBreak T A} (hb : Blind m) (hm : Exchangeable m) {w w' : World T A S} (h : Peers w w') (k : Nat) : ∀ (n : Nat) (w₂ : World T A S),
    (∀ j < n, ∀ e ∈ (preStep m (Verif.Schedule.steps m j w)).sched.events, ∀ f ∈ (preStep m (Verif.Schedule.steps m j w)).sched.events, e.2.time = f.2.time) →
    ParSteps { m with tb := tb } k n w' w₂ → Peers (Verif.Schedule.steps m n w) w₂
  | 0, _, _, hs => by
    cases hs
    exact h
  | n + 1, w₂, ht, hs => by
    cases hs with
    | @succ _ _ v _ h1 h2 =>
      have ih := Peers.parSteps hb hm h k n v (fun j hj => ht j (by omega)) h1
      have e : Verif.Schedule.steps m (n + 1) w = Verif.Schedule.step m (Verif.Schedule.steps m n w) := by
        clear ih h1 h2 ht h
        induction n generalizing w with
        | zero => rfl
        | succ n ih => exact ih (w := Verif.Schedule.step m w)
      rw [e]
      exact ih.parStep hb hm (ht n (Nat.lt_succ_self _)) h2

/-- **C284 under the feature `parallel`.** If moreover all agents pending in a step are due at the same time, a parallel run with any number of workers, in any interleaving, goes through the steps of the
sequential one. -/
theorem C284_parallel [LinearOrder T] (m : Model T A S) (hb : Blind m) (hm : Exchangeable m) (tb : TieBreak T A) (z : T) (s : S) {l l' : List (Plan T A)} (hl : Replanned l l') (k n : Nat) (w : World T A S)
    (ht : ∀ j < n, ∀ e ∈ (preStep m (steps m j ((World.start z s).execAll (Plan.calls l)))).sched.events,
      ∀ f ∈ (preStep m (steps m j ((World.start z s).execAll (Plan.calls l)))).sched.events, e.2.time = f.2.time)
    (hs : ParSteps { m with tb := tb } k n ((World.start z s).execAll (Plan.calls l')) w) : SameTurns (steps m n ((World.start z s).execAll (Plan.calls l))) w :=
  (Peers.parSteps hb hm ((peers_start z s).replan hl) k n w ht hs).same

namespace DemoExchange

/-- Agents count what they see: each adds its number to the state and stops when it has run down to 0. -/
def counts : Model Nat Nat Nat where
  update := fun _ s => s
  beforeStep := fun s _ => (s, [])
  afterStep := fun s _ => (s, [])
  aBefore := fun a s => (a, s)
  aStep := fun a s => (a - 1, s + a)
  aAfter := fun a s => (a, s)
  isStopped := fun a s => (a == 0, a, s)
  adv := fun t => t + 1
  tb := fun _ _ => 0

theorem blind : Blind counts := ⟨fun _ _ _ => rfl, fun _ _ _ => rfl, fun _ _ => ⟨[], rfl⟩, fun _ _ => ⟨[], rfl⟩⟩

theorem exchange : Exchangeable counts where
  state := fun x y s => by
    obtain ⟨a, r⟩ := x
    obtain ⟨b, q⟩ := y
    cases r <;> cases q <;> simp only [turn, counts] <;> simp <;> omega
  agent := fun x y s => by
    obtain ⟨b, q⟩ := y
    cases q <;> rfl

end DemoExchange

open DemoExchange in
/-- Three agents in two orders, with shared orderings in the second plan: 3 + 2 + 1 and 3 + 2 + 1 - 2 have been counted after two steps. -/
example : Replanned [⟨3, 0, 1⟩, ⟨2, 0, 2⟩, ⟨1, 0, 3⟩] ([⟨1, 0, 7⟩, ⟨3, 0, 7⟩, ⟨2, 0, 7⟩] : List (Plan Nat Nat)) ∧
    (steps counts 2 ((World.start 0 0).execAll (Plan.calls [⟨3, 0, 1⟩, ⟨2, 0, 2⟩, ⟨1, 0, 3⟩]))).state = 9 ∧
    (steps counts 2 ((World.start 0 0).execAll (Plan.calls [⟨1, 0, 7⟩, ⟨3, 0, 7⟩, ⟨2, 0, 7⟩]))).state = 9 ∧
    (∀ j < 2, ∀ e ∈ (preStep counts (steps counts j ((World.start 0 0).execAll (Plan.calls [⟨3, 0, 1⟩, ⟨2, 0, 2⟩, ⟨1, 0, 3⟩])))).sched.events,
      ∀ f ∈ (preStep counts (steps counts j ((World.start 0 0).execAll (Plan.calls [⟨3, 0, 1⟩, ⟨2, 0, 2⟩, ⟨1, 0, 3⟩])))).sched.events, e.2.time = f.2.time) := by
  refine ⟨?_, by decide +kernel, by decide +kernel, by decide +kernel⟩
  unfold Replanned
  decide

namespace DemoExchange

/-- Agents write their numbers down one after the other: the turns of two agents may not be exchanged. -/
def writes : Model Nat Nat (List Nat) where
  update := fun _ s => s
  beforeStep := fun s _ => (s, [])
  afterStep := fun s _ => (s, [])
  aBefore := fun a s => (a, s)
  aStep := fun a s => (a, s ++ [a])
  aAfter := fun a s => (a, s)
  isStopped := fun a s => (false, a, s)
  adv := fun t => t + 1
  tb := fun _ _ => 0

end DemoExchange

open DemoExchange in
/-- **C284** is about agents whose turns may be exchanged: of others the orderings decide. -/
theorem C284_orderings_decide : ∃ (m : Model Nat Nat (List Nat)) (l l' : List (Plan Nat Nat)), Blind m ∧ Replanned l l' ∧
    ¬ SameTurns (steps m 1 ((World.start 0 []).execAll (Plan.calls l))) (steps m 1 ((World.start 0 []).execAll (Plan.calls l'))) := by
  refine ⟨writes, [⟨7, 0, 1⟩, ⟨9, 0, 2⟩], [⟨7, 0, 2⟩, ⟨9, 0, 1⟩], ⟨fun _ _ _ => rfl, fun _ _ _ => rfl, fun _ _ => ⟨[], rfl⟩, fun _ _ => ⟨[], rfl⟩⟩, ?_, fun h => ?_⟩
  · unfold Replanned
    decide
  · exact absurd h.state (by decide +kernel)

open DemoExchange in
/-- **C284 under the feature `parallel`** is about agents that are due at the same time: a parallel step runs the others as well. -/
theorem C284_parallel_times_decide : ∃ (m : Model Nat Nat Nat) (l : List (Plan Nat Nat)) (w : World Nat Nat Nat), Blind m ∧ Exchangeable m ∧
    ParSteps m 1 1 ((World.start 0 0).execAll (Plan.calls l)) w ∧ ¬ SameTurns (steps m 1 ((World.start 0 0).execAll (Plan.calls l))) w := by
  refine ⟨counts, [⟨3, 0, 1⟩, ⟨2, 5, 1⟩], _, blind, exchange,
    .succ (.zero _) (.ok (top := (⟨0, 3, true⟩, ⟨0, 1⟩)) (seq := [(⟨0, 3, true⟩, ⟨0, 1⟩), (⟨1, 2, true⟩, ⟨5, 1⟩)]) (by decide) rfl ?_), fun h => ?_⟩
  · show Interleaves ([[(⟨0, 3, true⟩, ⟨0, 1⟩), (⟨1, 2, true⟩, ⟨5, 1⟩)]] : List (List (Entry Nat Nat))) _
    exact .pick (i := 0) rfl (.pick (i := 0) rfl (.done (by simp)))
  · have h1 : (5 : Nat) = 3 := h.state
    exact absurd h1 (by decide)

end Verif.Schedule
