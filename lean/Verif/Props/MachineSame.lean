import Verif.Lemmas.MachineSchedule
import Verif.Spec.MachineSame
import Verif.Props.RenameSchedule
import Verif.Props.Retime
import Verif.Props.Permute

/-!
C264: names of agents, the order of scheduling and the sizes of times and orderings, with the times of the code
(src/engine/schedule.rs:227-413, src/engine/priority.rs:22-38).
-/

namespace Verif.MachineSchedule

open Machine (F lt)
open Schedule (Sched Model World Queue Entry Priority TieBreak Cmd Op Ev AgentImpl Renamed Corresponds Plan Alike Still Blind HooksSatisfy
  preStep postStep runOne ids)

variable {A B S : Type}

/-! ### Names -/

theorem tops_rename (φ : A → B) (q : Queue F A) : tops (q.rename φ) = (tops q).rename φ := by
  unfold tops Queue.rename
  rw [List.filter_map]
  congr 1
  refine List.filter_congr (fun e _ => ?_)
  show (List.map (fun e : Entry F A => (e.1.rename φ, e.2)) q).all (fun f => cmp f.2 e.2 != Ordering.gt) = _
  rw [List.all_map]
  rfl

theorem candidates_rename (φ : A → B) (q : Queue F A) : candidates (q.rename φ) = (candidates q).rename φ := by
  have h1 : hasNan (q.rename φ) = hasNan q := by
    unfold hasNan Queue.rename
    rw [List.any_map]
    rfl
  have h2 : (q.rename φ).length = q.length := List.length_map _
  unfold candidates
  rw [h1, h2, tops_rename]
  by_cases h : (hasNan q && decide (2 < q.length)) = true
  · rw [if_pos h, if_pos h]
  · rw [if_neg h, if_neg h]

theorem peek_rename {φ : A → B} {tb : TieBreak F A} {tb' : TieBreak F B} (h : ∀ n q, tb' n (Queue.rename φ q) = tb n q)
    (n : Nat) (q : Queue F A) : peek tb' n (q.rename φ) = (peek tb n q).map (fun e => (e.1.rename φ, e.2)) := by
  unfold peek
  rw [candidates_rename, h]
  unfold Queue.rename
  rw [List.length_map, List.getElem?_map]

theorem pop_rename {φ : A → B} {tb : TieBreak F A} {tb' : TieBreak F B} (h : ∀ n q, tb' n (Queue.rename φ q) = tb n q)
    (n : Nat) (q : Queue F A) : pop tb' n (q.rename φ) = (pop tb n q).map (fun r => ((r.1.1.rename φ, r.1.2), r.2.rename φ)) := by
  unfold pop
  rw [peek_rename h, Option.map_map, Option.map_map]
  congr 1
  funext e
  show ((e.1.rename φ, e.2), (q.rename φ).filter (fun f => f.1.id != e.1.id)) = ((e.1.rename φ, e.2), Queue.rename φ _)
  unfold Queue.rename
  rw [List.filter_map]
  rfl

variable {φ : A → B} {m : Model F A S} {m' : Model F B S}

theorem popDue_rename {tb : TieBreak F A} {tb' : TieBreak F B} (h : ∀ n q, tb' n (Queue.rename φ q) = tb n q) :
    ∀ (n : Nat) (s : Sched F A), popDue tb' n (s.rename φ) = (Queue.rename φ (popDue tb n s).1, (popDue tb n s).2.rename φ)
  | 0, s => rfl
  | n + 1, s => by
    rw [popDue, popDue]
    show (match peek tb' s.pops (s.events.rename φ) with
      | none => ([], s.rename φ)
      | some top =>
        if lt s.time top.2.time then ([], s.rename φ)
        else
          match pop tb' s.pops (s.events.rename φ) with
          | none => ([], s.rename φ)
          | some (e, q) => (e :: (popDue tb' n { s.rename φ with events := q, pops := s.pops + 1 }).1,
              (popDue tb' n { s.rename φ with events := q, pops := s.pops + 1 }).2)) = _
    rw [peek_rename h, pop_rename h]
    cases peek tb s.pops s.events with
    | none => rfl
    | some top =>
      show (if lt s.time top.2.time then ([], s.rename φ) else _) = _
      by_cases ht : lt s.time top.2.time = true
      · simp only [if_pos ht]; rfl
      · simp only [if_neg ht]
        cases pop tb s.pops s.events with
        | none => rfl
        | some r =>
          obtain ⟨e, q⟩ := r
          have ih := popDue_rename h n { s with events := q, pops := s.pops + 1 }
          show ((e.1.rename φ, e.2) :: (popDue tb' n (Sched.rename φ { s with events := q, pops := s.pops + 1 })).1,
            (popDue tb' n (Sched.rename φ { s with events := q, pops := s.pops + 1 })).2) = _
          rw [ih]
          rfl

theorem runDue_rename (h : Renamed φ m m') (w : World F A S) : runDue m' (w.rename φ) = (runDue m w).rename φ := by
  unfold runDue
  show (match peek m'.tb w.sched.pops (w.sched.events.rename φ) with
    | none => w.rename φ
    | some top => List.foldl (runOne m')
        ⟨w.state, (popDue m'.tb (w.sched.events.rename φ).length (Sched.rename φ { w.sched with time := top.2.time })).2,
          w.trace.map (Ev.rename φ)⟩
        (popDue m'.tb (w.sched.events.rename φ).length (Sched.rename φ { w.sched with time := top.2.time })).1) = _
  rw [peek_rename h.ties]
  cases peek m.tb w.sched.pops w.sched.events with
  | none => rfl
  | some top =>
    show List.foldl (runOne m')
        ⟨w.state, (popDue m'.tb (w.sched.events.rename φ).length (Sched.rename φ { w.sched with time := top.2.time })).2,
          w.trace.map (Ev.rename φ)⟩
        (popDue m'.tb (w.sched.events.rename φ).length (Sched.rename φ { w.sched with time := top.2.time })).1 =
      World.rename φ (List.foldl (runOne m) ⟨w.state, (popDue m.tb w.sched.events.length { w.sched with time := top.2.time }).2, w.trace⟩
        (popDue m.tb w.sched.events.length { w.sched with time := top.2.time }).1)
    have hl : (w.sched.events.rename φ).length = w.sched.events.length := List.length_map _
    rw [hl, popDue_rename h.ties]
    have key : ∀ (es : Queue F A) (v : World F A S), List.foldl (runOne m') (v.rename φ) (Queue.rename φ es) =
        (List.foldl (runOne m) v es).rename φ := by
      intro es
      induction es with
      | nil => intro v; rfl
      | cons e es ih =>
        intro v
        show List.foldl (runOne m') (runOne m' (v.rename φ) (e.1.rename φ, e.2)) (Queue.rename φ es) = _
        rw [Schedule.runOne_rename h, ih]
        rfl
    exact key (popDue m.tb w.sched.events.length { w.sched with time := top.2.time }).1
      ⟨w.state, (popDue m.tb w.sched.events.length { w.sched with time := top.2.time }).2, w.trace⟩

theorem step_rename (h : Renamed φ m m') (w : World F A S) : step m' (w.rename φ) = (step m w).rename φ := by
  have hm : midStep m' (w.rename φ) = (midStep m w).rename φ := by
    show (if (preStep m' (w.rename φ)).sched.events.isEmpty then preStep m' (w.rename φ) else runDue m' (preStep m' (w.rename φ))) =
      (if (preStep m w).sched.events.isEmpty then preStep m w else runDue m (preStep m w)).rename φ
    rw [Schedule.preStep_rename h]
    have he : ((preStep m w).rename φ).sched.events.isEmpty = (preStep m w).sched.events.isEmpty := List.isEmpty_map
    rw [he]
    by_cases h0 : (preStep m w).sched.events.isEmpty = true
    · rw [if_pos h0, if_pos h0]
    · rw [if_neg h0, if_neg h0, runDue_rename h]
  unfold step
  rw [hm, Schedule.postStep_rename h]

/-- **C264, names.** Whatever the times - NaN and infinities included - the agents under other names go through the same simulation: the same
state, observations, clock and ids, and the renamed agents pending in the same order. -/
theorem C264_names_partial (h : Renamed φ m m') (ops : List (Op F A)) (w : World F A S) :
    (run m' (w.rename φ) (ops.map (Op.rename φ))).state = (run m w ops).state ∧
    (run m' (w.rename φ) (ops.map (Op.rename φ))).trace = (run m w ops).trace.map (Ev.rename φ) ∧
    (run m' (w.rename φ) (ops.map (Op.rename φ))).sched.getAllEvents = (run m w ops).sched.getAllEvents.map φ ∧
    (run m' (w.rename φ) (ops.map (Op.rename φ))).sched.step = (run m w ops).sched.step ∧
    (run m' (w.rename φ) (ops.map (Op.rename φ))).sched.time = (run m w ops).sched.time ∧
    (run m' (w.rename φ) (ops.map (Op.rename φ))).sched.idCount = (run m w ops).sched.idCount := by
  have key : ∀ (ops : List (Op F A)) (w : World F A S), run m' (w.rename φ) (ops.map (Op.rename φ)) = (run m w ops).rename φ := by
    intro ops
    induction ops with
    | nil => intro w; rfl
    | cons o ops ih =>
      intro w
      show run m' (op m' (w.rename φ) (o.rename φ)) (ops.map (Op.rename φ)) = (run m (op m w o) ops).rename φ
      have e : op m' (w.rename φ) (o.rename φ) = (op m w o).rename φ := by
        cases o with
        | cmd c => exact Schedule.cmd_rename φ w c
        | step => exact step_rename h w
      rw [e, ih]
  rw [key]
  refine ⟨rfl, rfl, ?_, rfl, rfl, rfl⟩
  show (Queue.rename φ (run m w ops).sched.events).map (fun e => e.1.agent) = _
  unfold Queue.rename Sched.getAllEvents
  rw [List.map_map, List.map_map]
  rfl

/-! ### Times and orderings -/

attribute [local instance] order

variable {σ : F → F} {ρ : Int → Int} {n n' : Model F A S}

theorem cmp_retime (h : SameOrder σ ρ) (p q : Priority F) : cmp (p.retime σ ρ) (q.retime σ ρ) = cmp p q := by
  unfold cmp Priority.retime
  simp only [h.1, h.2.2]

theorem candidates_retime (h : SameOrder σ ρ) (q : Queue F A) :
    candidates (q.map (Entry.retime σ ρ)) = (candidates q).map (Entry.retime σ ρ) := by
  have h1 : hasNan (q.map (Entry.retime σ ρ)) = hasNan q := by
    unfold hasNan
    rw [List.any_map]
    congr 1
    funext e
    show decide (σ e.2.time = .nan) = _
    rw [decide_eq_decide]
    exact h.2.1 _
  have h2 : tops (q.map (Entry.retime σ ρ)) = (tops q).map (Entry.retime σ ρ) := by
    unfold tops
    rw [List.filter_map]
    congr 1
    apply List.filter_congr
    intro e _
    dsimp only [Function.comp]
    rw [List.all_map]
    congr 1
    funext f
    dsimp only [Function.comp, Entry.retime]
    rw [cmp_retime h]
  unfold candidates
  rw [h1, h2, List.length_map]
  by_cases hc : (hasNan q && decide (2 < q.length)) = true
  · rw [if_pos hc, if_pos hc]
  · rw [if_neg hc, if_neg hc]

theorem peek_retime (h : SameOrder σ ρ) {tb tb' : TieBreak F A} (ht : ∀ n q, tb' n (q.map (Entry.retime σ ρ)) = tb n q) (k : Nat)
    (q : Queue F A) : peek tb' k (q.map (Entry.retime σ ρ)) = (peek tb k q).map (Entry.retime σ ρ) := by
  unfold peek
  rw [candidates_retime h, ht, List.length_map, List.getElem?_map]

theorem pop_retime (h : SameOrder σ ρ) {tb tb' : TieBreak F A} (ht : ∀ n q, tb' n (q.map (Entry.retime σ ρ)) = tb n q) (k : Nat)
    (q : Queue F A) : pop tb' k (q.map (Entry.retime σ ρ)) =
      (pop tb k q).map (fun x => (Entry.retime σ ρ x.1, x.2.map (Entry.retime σ ρ))) := by
  unfold pop
  rw [peek_retime h ht]
  cases peek tb k q with
  | none => rfl
  | some e =>
    simp only [Option.map_some]
    rw [← Schedule.filter_retime]
    rfl

theorem popDue_retime (h : SameOrder σ ρ) {tb tb' : TieBreak F A} (ht : ∀ n q, tb' n (q.map (Entry.retime σ ρ)) = tb n q) (fuel : Nat) :
    ∀ s : Sched F A, popDue tb' fuel (s.retime σ ρ) =
      ((popDue tb fuel s).1.map (Entry.retime σ ρ), (popDue tb fuel s).2.retime σ ρ) := by
  induction fuel with
  | zero => intro s; rfl
  | succ fuel ih =>
    intro s
    rw [popDue, popDue]
    have e1 : peek tb' (s.retime σ ρ).pops (s.retime σ ρ).events = (peek tb s.pops s.events).map (Entry.retime σ ρ) :=
      peek_retime h ht s.pops s.events
    have e2 : pop tb' (s.retime σ ρ).pops (s.retime σ ρ).events = (pop tb s.pops s.events).map
        (fun x => (Entry.retime σ ρ x.1, x.2.map (Entry.retime σ ρ))) := pop_retime h ht s.pops s.events
    rw [e1]
    cases peek tb s.pops s.events with
    | none => rfl
    | some top =>
      dsimp only [Option.map_some]
      have e3 : lt (s.retime σ ρ).time (Entry.retime σ ρ top).2.time = lt s.time top.2.time := h.1 _ _
      rw [e3]
      by_cases hlt : lt s.time top.2.time = true
      · rw [if_pos hlt, if_pos hlt]; rfl
      · rw [if_neg hlt, if_neg hlt, e2]
        cases pop tb s.pops s.events with
        | none => rfl
        | some x =>
          obtain ⟨e, q⟩ := x
          dsimp only [Option.map_some]
          have := ih { s with events := q, pops := s.pops + 1 }
          unfold Sched.retime at this ⊢
          dsimp only at this ⊢
          rw [this]
          rfl

theorem runDue_retime (h : SameOrder σ ρ) (hm : Corresponds σ ρ n n') (w : World F A S) :
    runDue n' (w.retime σ ρ) = (runDue n w).retime σ ρ := by
  unfold runDue
  have e1 : peek n'.tb (w.retime σ ρ).sched.pops (w.retime σ ρ).sched.events =
      (peek n.tb w.sched.pops w.sched.events).map (Entry.retime σ ρ) := peek_retime h hm.ties w.sched.pops w.sched.events
  rw [e1]
  cases peek n.tb w.sched.pops w.sched.events with
  | none => rfl
  | some top =>
    dsimp only [Option.map_some]
    have := popDue_retime h hm.ties w.sched.events.length { w.sched with time := top.2.time }
    have e2 : (w.retime σ ρ).sched.events.length = w.sched.events.length := List.length_map ..
    rw [e2]
    rw [← Schedule.foldl_runOne_retime hm]
    unfold World.retime Sched.retime at this ⊢
    dsimp only at this ⊢
    unfold Entry.retime Priority.retime at this ⊢
    dsimp only at this ⊢
    rw [this]

theorem step_retime (h : SameOrder σ ρ) (hm : Corresponds σ ρ n n') (w : World F A S) :
    step n' (w.retime σ ρ) = (step n w).retime σ ρ := by
  unfold step midStep
  dsimp only
  rw [← Schedule.postStep_retime hm, Schedule.preStep_retime hm]
  congr 1
  have e : ((preStep n w).retime σ ρ).sched.events.isEmpty = (preStep n w).sched.events.isEmpty := by
    unfold World.retime Sched.retime; simp
  rw [e]
  by_cases he : (preStep n w).sched.events.isEmpty = true
  · rw [if_pos he, if_pos he]
  · rw [if_neg he, if_neg he, runDue_retime h hm]

/-- **C264, times and orderings.** Whatever the times, if they and the orderings are replaced by others in the same order, `+ 1` included, the
simulation is the same one at the other times. -/
theorem C264_retime_partial (h : SameOrder σ ρ) (hm : Corresponds σ ρ n n') (w : World F A S) (ops : List (Op F A)) :
    run n' (w.retime σ ρ) (ops.map (Op.retime σ ρ)) = (run n w ops).retime σ ρ := by
  unfold run
  induction ops generalizing w with
  | nil => rfl
  | cons o ops ih =>
    rw [List.map_cons, List.foldl_cons, List.foldl_cons, ← ih]
    congr 1
    cases o with
    | cmd c => exact Schedule.exec_retime σ ρ w c
    | step => exact step_retime h hm w

/-- **C264, orderings.** Only the order of the orderings matters, whatever the times. -/
theorem C264_orderings_partial (ρ : Int → Int) (hρ : ∀ i j, ρ i < ρ j ↔ i < j) (hm : Corresponds id ρ n n') (zero : F) (s : S)
    (ops : List (Op F A)) :
    run n' (World.start zero s) (ops.map (Op.retime id ρ)) = (run n (World.start zero s) ops).retime id ρ :=
  C264_retime_partial ⟨fun _ _ => rfl, fun _ => Iff.rfl, hρ⟩ hm (World.start zero s) ops

/-! ### The order of scheduling -/

theorem plans_fresh {l : List (Plan F A)} (hl : ∀ p ∈ l, p.time ≠ .nan) (z : F) (s : S) :
    (ids ((World.start z s : World F A S).execAll (Plan.calls l)).sched.events).Nodup ∧
    NoNan ((World.start z s : World F A S).execAll (Plan.calls l)).sched.events := by
  refine ⟨(Schedule.known_calls l (Schedule.twin_start (A := A) z s)).nodup, fun e he hn => ?_⟩
  obtain ⟨_, _, _, _, _, h6⟩ := Schedule.calls_world l (World.start z s : World F A S) (by simp [World.start, Sched.new, ids])
  have : Entry.nameless e ∈ ((World.start z s : World F A S).execAll (Plan.calls l)).sched.events.map Entry.nameless :=
    List.mem_map_of_mem he
  rw [h6] at this
  rcases List.mem_append.1 this with h | h
  · simp [World.start, Sched.new] at h
  · obtain ⟨p, hp, hpe⟩ := List.mem_map.1 h
    have : p.time = e.2.time := by
      have := congrArg (fun x : A × Bool × Priority F => x.2.2.time) hpe
      exact this
    exact hl p hp (this.trans hn)

/-- **C264, the order of scheduling.** (Partial: without NaN.) If neither the program nor the hooks schedule anything at NaN, agents scheduled in
another order run the same simulation up to their numbers, on every priority queue, if at no step two pending agents share time and ordering. -/
theorem C264_order_of_scheduling_partial {rnd : Rat → Rat} (m : Model F A S) (hadv : m.adv = advance rnd) (hb : Blind m)
    (hh : HooksSatisfy m (fun _ c => c.avoids (· = .nan))) (tb : TieBreak F A) (z : F) (s : S) {l l' : List (Plan F A)} (hp : l'.Perm l)
    (hl : ∀ p ∈ l, p.time ≠ .nan) (n : Nat)
    (hd : ∀ k, k < n → ((preStep m (steps m k ((World.start z s).execAll (Plan.calls l)))).sched.events.map (fun e => e.2)).Nodup) :
    Alike (steps m n ((World.start z s).execAll (Plan.calls l)))
      (steps (m.withTieBreak tb) n ((World.start z s).execAll (Plan.calls l'))) := by
  have h1 := plans_fresh hl z s
  have h2 := plans_fresh (fun p h => hl p (hp.mem_iff.1 h)) (l := l') z s
  have e1 := fun k => steps_eq m hadv hh k _ h1.1 h1.2
  have e2 := steps_eq (m.withTieBreak tb) hadv hh n _ h2.1 h2.2
  rw [e1, e2]
  exact Schedule.C246_order_of_scheduling m hb tb z s hp n (fun k hk => by rw [← e1]; exact hd k hk)

/-- **C264, the order of scheduling.** (Partial: without NaN.) If the hooks make no calls, an ordering of its own for every agent is enough. -/
theorem C264_distinct_orderings_partial {rnd : Rat → Rat} (m : Model F A S) (hadv : m.adv = advance rnd) (hm : Still m) (tb : TieBreak F A)
    (z : F) (s : S) {l l' : List (Plan F A)} (hp : l'.Perm l) (hl : ∀ p ∈ l, p.time ≠ .nan) (ho : (l.map (fun p => p.ordering)).Nodup)
    (n : Nat) :
    Alike (steps m n ((World.start z s).execAll (Plan.calls l)))
      (steps (m.withTieBreak tb) n ((World.start z s).execAll (Plan.calls l'))) := by
  have hh : HooksSatisfy m (fun _ c => c.avoids (· = .nan)) := fun s sch => by
    rw [hm.2.2.1, hm.2.2.2]
    exact ⟨trivial, trivial⟩
  have h1 := plans_fresh hl z s
  have h2 := plans_fresh (fun p h => hl p (hp.mem_iff.1 h)) (l := l') z s
  rw [steps_eq m hadv hh n _ h1.1 h1.2, steps_eq (m.withTieBreak tb) hadv hh n _ h2.1 h2.2]
  exact Schedule.C246_distinct_orderings m hm tb z s hp ho n

namespace DemoSame

/-- Agents write their name on a list; agent 6 stops after its first step. -/
def writers : Model F Nat (List Nat) where
  update := fun _ s => s
  beforeStep := fun s _ => (s, [])
  afterStep := fun s _ => (s, [])
  aBefore := fun a s => (a, s)
  aStep := fun a s => (a, s ++ [a])
  aAfter := fun a s => (a, s)
  isStopped := fun a s => (a == 6, a, s)
  adv := advance Single.single
  tb := fun _ _ => 2

/-- The same with words for names. -/
def named : Model F (Nat × String) (List Nat) where
  update := fun _ s => s
  beforeStep := fun s _ => (s, [])
  afterStep := fun s _ => (s, [])
  aBefore := fun a s => (a, s)
  aStep := fun a s => (a, s ++ [a.1])
  aAfter := fun a s => (a, s)
  isStopped := fun a s => (a.1 == 6, a, s)
  adv := advance Single.single
  tb := fun _ _ => 2

theorem still : Still writers := ⟨fun _ _ _ => rfl, fun _ _ _ => rfl, fun _ _ => rfl, fun _ _ => rfl⟩

theorem still_hooks : HooksSatisfy writers (fun _ c => c.avoids (· = .nan)) := fun _ _ => ⟨trivial, trivial⟩

def l : List (Plan F Nat) := [⟨7, .fin 0, 3⟩, ⟨6, .fin 0, 1⟩, ⟨8, .fin 1, 2⟩, ⟨9, .inf false, 0⟩]

def l' : List (Plan F Nat) := [⟨9, .inf false, 0⟩, ⟨8, .fin 1, 2⟩, ⟨7, .fin 0, 3⟩, ⟨6, .fin 0, 1⟩]

end DemoSame

/-- **C264, the order of scheduling.** (Partial: false with NaN.) Three agents with orderings of their own, one of them at NaN: in one order of
scheduling the first step runs one of them, in the other order all three. The priority queue chooses the agent scheduled last each time, as a
binary heap does with these three. -/
theorem C264_nan_negation_partial : ∃ (m : Model F Nat (List Nat)) (l l' : List (Plan F Nat)), m.adv = advance Single.single ∧ Still m ∧
    l'.Perm l ∧ (l.map (fun p => p.ordering)).Nodup ∧
    (steps m 1 ((World.start (.fin 0) []).execAll (Plan.calls l))).state = [9] ∧
    (steps m 1 ((World.start (.fin 0) []).execAll (Plan.calls l'))).state = [7, 8, 9] ∧
    ¬ Alike (steps m 1 ((World.start (.fin 0) []).execAll (Plan.calls l))) (steps m 1 ((World.start (.fin 0) []).execAll (Plan.calls l'))) := by
  refine ⟨DemoSame.writers, [⟨7, .fin 5, 0⟩, ⟨8, .nan, 1⟩, ⟨9, .fin 0, 2⟩], [⟨8, .nan, 1⟩, ⟨9, .fin 0, 2⟩, ⟨7, .fin 5, 0⟩], rfl, DemoSame.still, ?_,
    by decide, by decide +kernel, by decide +kernel, ?_⟩
  · exact (List.perm_append_comm (l₁ := [_, _]) (l₂ := [_]))
  · intro h
    exact absurd h.state (by decide +kernel)

/-- A case that meets the hypotheses of `C264_order_of_scheduling_partial` and `C264_distinct_orderings_partial`. -/
example : Still DemoSame.writers ∧ Blind DemoSame.writers ∧ HooksSatisfy DemoSame.writers (fun _ c => c.avoids (· = .nan)) ∧
    DemoSame.l'.Perm DemoSame.l ∧ (∀ p ∈ DemoSame.l, p.time ≠ .nan) ∧ (DemoSame.l.map (fun p => p.ordering)).Nodup ∧
    (steps DemoSame.writers 3 ((World.start (.fin 0) []).execAll (Plan.calls DemoSame.l))).state = [6, 7, 8, 7, 8, 7] ∧
    (steps DemoSame.writers 3 ((World.start (.fin 0) []).execAll (Plan.calls DemoSame.l'))).state = [6, 7, 8, 7, 8, 7] := by
  refine ⟨DemoSame.still, Schedule.still_blind DemoSame.still, DemoSame.still_hooks, ?_, by decide, by decide, by decide +kernel, by decide +kernel⟩
  exact (List.perm_append_comm (l₁ := [_, _]) (l₂ := [_, _])).trans (List.Perm.append_left _ (List.Perm.swap _ _ _))

/-- Names taken away, with one agent at NaN. -/
example : Renamed Prod.fst DemoSame.named DemoSame.writers ∧
    (run DemoSame.named (World.start (.fin 0) []) [.cmd (.scheduleRepeating (7, "ann") .nan 0), .cmd (.scheduleRepeating (8, "bob") (.fin 3) 0), .step]).state = [7, 8] ∧
    (run DemoSame.writers (World.start (.fin 0) []) [.cmd (.scheduleRepeating 7 .nan 0), .cmd (.scheduleRepeating 8 (.fin 3) 0), .step]).state = [7, 8] :=
  ⟨⟨rfl, fun _ _ => rfl, fun _ _ => rfl, fun _ _ => rfl, fun _ _ => rfl, fun _ _ => rfl, fun _ _ => rfl, rfl, fun _ _ => rfl⟩, by decide +kernel,
    by decide +kernel⟩

/-- Orderings 0, 1, 2 as 0, 10, 20. -/
example : Corresponds id (10 * ·) DemoSame.writers DemoSame.writers ∧ SameOrder id (10 * ·) := by
  refine ⟨⟨rfl, ?_, ?_, rfl, rfl, rfl, rfl, fun _ => rfl, fun _ _ => rfl⟩, fun _ _ => rfl, fun _ => Iff.rfl, fun i j => by dsimp only; omega⟩ <;> intro s sch <;> rfl

end Verif.MachineSchedule
