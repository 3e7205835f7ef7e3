import Verif.Model.ScheduleU32
import Verif.Props.Schedule

/-! Every agent is scheduled, however many there have been: C179. -/

namespace Verif.ScheduleU32

open Schedule
open DenseI32 (Mode)

variable {T A S : Type}

theorem exec_of (b : Mode) (w : World T A S) (c : Cmd T A) (h : (w.exec c).sched.idCount < 2 ^ 32) :
    exec b w c = some (w.exec c) := by
  cases c with
  | scheduleOnce a t o => rfl
  | dequeue id => rfl
  | scheduleRepeating a t o =>
    have h1 : w.sched.idCount + 1 < 2 ^ 32 := h
    have hi : incr b w.sched.idCount = some (w.sched.idCount + 1) := by
      cases b with
      | debug => exact if_pos h1
      | release => exact congrArg some (Nat.mod_eq_of_lt h1)
    have hr : (w.sched.idCount + 1 + (2 ^ 32 - 1)) % 2 ^ 32 = w.sched.idCount := by omega
    unfold exec scheduleRepeating
    rw [hi]
    simp only [hr]
    rfl

theorem exec_mono (w : World T A S) (c : Cmd T A) : w.sched.idCount ≤ (w.exec c).sched.idCount := by
  rw [exec_sched]; exact after_idCount _ _

theorem execAll_mono (cs : List (Cmd T A)) : ∀ w : World T A S, w.sched.idCount ≤ (w.execAll cs).sched.idCount := by
  induction cs with
  | nil => intro w; exact Nat.le_refl _
  | cons c cs ih => intro w; exact (exec_mono w c).trans (ih (w.exec c))

theorem execAll_of (b : Mode) (cs : List (Cmd T A)) : ∀ w : World T A S,
    (w.execAll cs).sched.idCount < 2 ^ 32 → execAll b w cs = some (w.execAll cs) := by
  induction cs with
  | nil => intro w _; rfl
  | cons c cs ih =>
    intro w h
    have h1 := execAll_mono cs (w.exec c)
    have h2 : ((w.exec c).execAll cs).sched.idCount < 2 ^ 32 := h
    unfold execAll
    rw [exec_of b w c (by omega)]
    exact ih _ h2

theorem preStep_mono (m : Model T A S) (w : World T A S) : w.sched.idCount ≤ (preStep m w).sched.idCount := by
  unfold preStep World.doBefore
  refine Nat.le_trans ?_ (execAll_mono _ _)
  simp only
  split <;> exact Nat.le_refl _

theorem postStep_mono (m : Model T A S) (w : World T A S) : w.sched.idCount ≤ (postStep m w).sched.idCount :=
  Nat.le_trans (Nat.le_refl _) (execAll_mono (m.afterStep w.state w.sched).2
    { w with state := (m.afterStep w.state w.sched).1, trace := w.trace ++ [.stateAfter] })

theorem popDue_idCount [LinearOrder T] (tb : TieBreak T A) : ∀ (fuel : Nat) (s : Sched T A),
    (popDue tb fuel s).2.idCount = s.idCount := by
  intro fuel
  induction fuel with
  | zero => intro s; rfl
  | succ fuel ih =>
    intro s
    unfold popDue
    split
    · rfl
    · split
      · rfl
      · split
        · rfl
        · exact ih _

theorem runDue_idCount [LinearOrder T] (m : Model T A S) (w : World T A S) :
    (runDue m w).sched.idCount = w.sched.idCount := by
  unfold runDue
  split
  · rfl
  · simp only
    rw [(foldl_runOne_fields m _ _).2.2.1]
    simp only
    rw [popDue_idCount]

theorem midStep_idCount [LinearOrder T] (m : Model T A S) (w : World T A S) :
    (midStep m w).sched.idCount = (preStep m w).sched.idCount := by
  unfold midStep
  simp only
  split
  · rfl
  · exact runDue_idCount m _

theorem step_mono [LinearOrder T] (m : Model T A S) (w : World T A S) :
    w.sched.idCount ≤ (Schedule.step m w).sched.idCount := by
  have h1 := preStep_mono m w
  have h2 := midStep_idCount m w
  have h3 := postStep_mono m (midStep m w)
  unfold Schedule.step
  omega

theorem step_of [LinearOrder T] (b : Mode) (m : Model T A S) (w : World T A S)
    (h : (Schedule.step m w).sched.idCount < 2 ^ 32) : step b m w = some (Schedule.step m w) := by
  have h2 := midStep_idCount m w
  have h3 := postStep_mono m (midStep m w)
  have h4 : (postStep m (midStep m w)).sched.idCount < 2 ^ 32 := h
  have e1 : doBefore b m (if w.sched.step = 0 then w.doUpdate m w.sched.step else w) = some (preStep m w) :=
    execAll_of b _ _ (show (preStep m w).sched.idCount < 2 ^ 32 by omega)
  have e2 : doAfter b m (midStep m w) = some ((midStep m w).doAfter m) :=
    execAll_of b _ _ (show (postStep m (midStep m w)).sched.idCount < 2 ^ 32 from h4)
  unfold step
  rw [e1]
  simp only
  have e3 : (if (preStep m w).sched.events.isEmpty then preStep m w else runDue m (preStep m w)) = midStep m w := rfl
  rw [e3, e2]
  rfl

theorem run_mono [LinearOrder T] (m : Model T A S) (ops : List (Op T A)) : ∀ w : World T A S,
    w.sched.idCount ≤ (w.run m ops).sched.idCount := by
  induction ops with
  | nil => intro w; exact Nat.le_refl _
  | cons o ops ih =>
    intro w
    refine Nat.le_trans ?_ (ih (w.op m o))
    cases o with
    | cmd c => exact exec_mono w c
    | step => exact step_mono m w

theorem run_of [LinearOrder T] (b : Mode) (m : Model T A S) (ops : List (Op T A)) : ∀ w : World T A S,
    (w.run m ops).sched.idCount < 2 ^ 32 → run b m w ops = some (w.run m ops) := by
  induction ops with
  | nil => intro w _; rfl
  | cons o ops ih =>
    intro w h
    have h1 : ((w.op m o).run m ops).sched.idCount < 2 ^ 32 := h
    have h2 := run_mono m ops (w.op m o)
    have h3 : (w.op m o).sched.idCount < 2 ^ 32 := by omega
    have e : op b m w o = some (w.op m o) := by
      cases o with
      | cmd c => exact exec_of b w c h3
      | step => exact step_of b m w h3
    unfold run
    rw [e]
    exact ih _ h1

/-- **C179, for programs that make fewer than 2^32 agents**, in debug and in release builds: the counter of agents
never overflows and the program runs as without bounds on it, so that C01 to C12 hold. Full statement: however many
agents are made; false by `C179_overwrites_partial` and `C179_panics_partial`. -/
theorem C179_counts_agents_partial [LinearOrder T] (b : Mode) (m : Model T A S) (zero : T) (s : S)
    (ops : List (Op T A)) (h : (registrations ((World.start zero s).run m ops).trace).length < 2 ^ 32) :
    run b m (World.start zero s) ops = some ((World.start zero s).run m ops) := by
  apply run_of
  have hl := run_logged m ops (World.start zero s) (by simp [World.start, Sched.new])
    (by simp [IdsLogged, World.start, Sched.new, registrations])
  have := congrArg List.length hl
  rw [List.length_map, List.length_range] at this
  omega

example : (registrations ((World.start 0 0).run demo demoOps).trace).length < 2 ^ 32 := by decide +kernel

theorem fill (b : Mode) (a : A) (t : T) (o : Int) (zero : T) (s : S) : ∀ n : Nat, n < 2 ^ 32 →
    ∃ w : World T A S, execAll b (World.start zero s) (List.replicate n (.scheduleRepeating a t o)) = some w ∧
      w.sched.idCount = n ∧ ids w.sched.events = List.range n ∧
      ∀ e ∈ w.sched.events, e.2 = ⟨t, o⟩ ∧ e.1.agent = a := by
  intro n hn
  have hlt : ((World.start zero s : World T A S).execAll
      (List.replicate n (.scheduleRepeating a t o))).sched.idCount = n ∧
      ids ((World.start zero s : World T A S).execAll
        (List.replicate n (.scheduleRepeating a t o))).sched.events = List.range n ∧
      ∀ e ∈ ((World.start zero s : World T A S).execAll
        (List.replicate n (.scheduleRepeating a t o))).sched.events, e.2 = ⟨t, o⟩ ∧ e.1.agent = a := by
    clear hn
    induction n with
    | zero => exact ⟨rfl, rfl, fun e he => by simp [World.execAll, World.start, Sched.new] at he⟩
    | succ n ih =>
      obtain ⟨h1, h2, h3⟩ := ih
      have hx : (World.start zero s : World T A S).execAll (List.replicate (n + 1) (.scheduleRepeating a t o)) =
          World.exec (World.execAll (World.start zero s) (List.replicate n (.scheduleRepeating a t o)))
            (.scheduleRepeating a t o) := by
        rw [List.replicate_succ', World.execAll, List.foldl_append, List.foldl_cons, List.foldl_nil, World.execAll]
      rw [hx]
      clear hx
      generalize World.execAll (World.start zero s : World T A S)
        (List.replicate n (.scheduleRepeating a t o)) = w at h1 h2 h3
      have hf : ({ AgentImpl.new a w.sched.idCount with repeating := true } : AgentImpl A).id ∉ ids w.sched.events := by
        rw [h2, List.mem_range]
        show ¬ w.sched.idCount < n
        omega
      have hpush := push_fresh (p := (⟨t, o⟩ : Priority T)) hf
      refine ⟨by show w.sched.idCount + 1 = n + 1; omega, ?_, ?_⟩
      · show ids (w.sched.events.push _ _).1 = _
        rw [hpush, ids_append, h2, List.range_succ]
        show List.range n ++ [w.sched.idCount] = _
        rw [h1]
      · intro e he
        have he' : e ∈ (w.sched.events.push { AgentImpl.new a w.sched.idCount with repeating := true } ⟨t, o⟩).1 := he
        rw [hpush] at he'
        rcases List.mem_append.1 he' with h | h
        · exact h3 e h
        · obtain rfl := List.mem_singleton.1 h
          exact ⟨rfl, rfl⟩
  exact ⟨_, execAll_of b _ _ (by rw [hlt.1]; exact hn), hlt⟩

theorem execAll_append (b : Mode) (cs ds : List (Cmd T A)) : ∀ w : World T A S,
    execAll b w (cs ++ ds) = (execAll b w cs).bind (fun v => execAll b v ds) := by
  induction cs with
  | nil => intro w; rfl
  | cons c cs ih =>
    intro w
    show (match exec b w c with | none => none | some w' => execAll b w' (cs ++ ds)) =
      (match exec b w c with | none => none | some w' => execAll b w' cs).bind _
    cases exec b w c with
    | none => rfl
    | some v => exact ih v

/-- **C179 (negation).** A debug build panics when the 2^32-th agent is scheduled. -/
theorem C179_panics_partial (a : A) (t : T) (o : Int) (zero : T) (s : S) (n : Nat) (hn : n = 2 ^ 32) :
    execAll .debug (World.start zero s : World T A S) (List.replicate n (.scheduleRepeating a t o)) = none := by
  obtain ⟨k, rfl⟩ : ∃ k, n = k + 1 := ⟨n - 1, by omega⟩
  obtain ⟨w, h1, h2, _⟩ := fill (S := S) .debug a t o zero s k (by omega)
  rw [List.replicate_succ', execAll_append, h1]
  have hi : incr .debug w.sched.idCount = none := if_neg (by omega)
  show execAll .debug w [.scheduleRepeating a t o] = none
  unfold execAll exec scheduleRepeating
  rw [hi]

/-- **C179 (negation).** In a release build the agent scheduled after 2^32 agents gets the id 0 again. If the first
agent is still pending the new one is dropped, the call answers `false`, and the first one gets the time and the
ordering meant for the other. -/
theorem C179_overwrites_partial (a a' : A) (ha : a' ≠ a) (t t' : T) (o o' : Int) (zero : T) (s : S) (n : Nat)
    (hn : n = 2 ^ 32) :
    ∃ w w' : World T A S,
      execAll .release (World.start zero s) (List.replicate n (.scheduleRepeating a t o)) = some w ∧
      exec .release w (.scheduleRepeating a' t' o') = some w' ∧
      w'.trace = w.trace ++ [.registered 0 false] ∧
      (∀ e ∈ w'.sched.events, e.1.agent ≠ a') ∧ w'.sched.events.length = n ∧
      (∃ e ∈ w'.sched.events, e.1.id = 0 ∧ e.1.agent = a ∧ e.2 = ⟨t', o'⟩) := by
  obtain ⟨k, rfl⟩ : ∃ k, n = k + 1 := ⟨n - 1, by omega⟩
  obtain ⟨v, h1, h2, h3, h4⟩ := fill (S := S) .release a t o zero s k (by omega)
  have hi : incr .release v.sched.idCount = some 0 := by
    show some ((v.sched.idCount + 1) % 2 ^ 32) = some 0
    rw [h2, hn]
  have hf : ({ AgentImpl.new a v.sched.idCount with repeating := true } : AgentImpl A).id ∉ ids v.sched.events := by
    rw [h3, List.mem_range]
    show ¬ v.sched.idCount < k
    omega
  have hp := push_fresh (p := (⟨t, o⟩ : Priority T)) hf
  refine ⟨{ v with
    sched := { v.sched with idCount := 0, events := v.sched.events ++ [({ AgentImpl.new a v.sched.idCount with repeating := true }, ⟨t, o⟩)] }
    trace := v.trace ++ [.registered ((0 + (2 ^ 32 - 1)) % 2 ^ 32) true] }, ?_⟩
  have hids : ids (v.sched.events ++ [({ AgentImpl.new a v.sched.idCount with repeating := true }, (⟨t, o⟩ : Priority T))]) =
      List.range (k + 1) := by
    rw [ids_append, h3, List.range_succ]
    show List.range k ++ [v.sched.idCount] = _
    rw [h2]
  have hold : ∀ e ∈ v.sched.events ++ [({ AgentImpl.new a v.sched.idCount with repeating := true }, (⟨t, o⟩ : Priority T))],
      e.1.agent = a := by
    intro e he
    rcases List.mem_append.1 he with h | h
    · exact (h4 e h).2
    · obtain rfl := List.mem_singleton.1 h
      rfl
  have hfirst : execAll .release v [.scheduleRepeating a t o] = some { v with
      sched := { v.sched with idCount := 0, events := v.sched.events ++ [({ AgentImpl.new a v.sched.idCount with repeating := true }, ⟨t, o⟩)] }
      trace := v.trace ++ [.registered ((0 + (2 ^ 32 - 1)) % 2 ^ 32) true] } := by
    unfold execAll exec scheduleRepeating
    rw [hi]
    simp only [hp]
    rfl
  generalize hq : v.sched.events ++ [({ AgentImpl.new a v.sched.idCount with repeating := true }, (⟨t, o⟩ : Priority T))] = q at *
  have hmem : ({ AgentImpl.new a' 0 with repeating := true } : AgentImpl A).id ∈ ids q := by
    rw [hids, List.mem_range]
    exact Nat.succ_pos _
  obtain ⟨old, hold1, hold2, hpush⟩ := push_present (p := (⟨t', o'⟩ : Priority T)) hmem
  refine ⟨{ v with
    sched := { v.sched with idCount := 1, events := q.map (fun e => if e.1.id == 0 then (e.1, ⟨t', o'⟩) else e) }
    trace := v.trace ++ [.registered ((0 + (2 ^ 32 - 1)) % 2 ^ 32) true] ++ [.registered 0 false] }, ?_, ?_, rfl, ?_, ?_, ?_⟩
  · rw [List.replicate_succ', execAll_append, h1]
    exact hfirst
  · have hi' : incr .release 0 = some 1 := rfl
    unfold exec scheduleRepeating
    simp only [hi', hpush]
    rfl
  · intro e he
    obtain ⟨f, hf, rfl⟩ := List.mem_map.1 he
    have : f.1.agent = a := hold f hf
    split
    · show f.1.agent ≠ a'; rw [this]; exact fun h => ha h.symm
    · rw [this]; exact fun h => ha h.symm
  · have := congrArg List.length hids
    unfold ids at this
    rw [List.length_map, List.length_range] at this
    simpa using this
  · refine ⟨(old.1, ⟨t', o'⟩), List.mem_map.2 ⟨old, hold1, ?_⟩, hold2, hold old hold1, rfl⟩
    exact if_pos (beq_iff_eq.2 hold2)

/-- Instances of the two negations: agents named by numbers, all due at time 0. -/
example : execAll .debug (World.start 0 () : World Nat Nat Unit)
    (List.replicate (2 ^ 32) (.scheduleRepeating 7 0 0)) = none :=
  C179_panics_partial 7 0 0 0 () (2 ^ 32) rfl

example : ∃ w w' : World Nat Nat Unit,
    execAll .release (World.start 0 ()) (List.replicate (2 ^ 32) (.scheduleRepeating 7 0 0)) = some w ∧
    exec .release w (.scheduleRepeating 8 5 1) = some w' ∧
    w'.trace = w.trace ++ [.registered 0 false] ∧
    (∀ e ∈ w'.sched.events, e.1.agent ≠ 8) ∧ w'.sched.events.length = 2 ^ 32 ∧
    (∃ e ∈ w'.sched.events, e.1.id = 0 ∧ e.1.agent = 7 ∧ e.2 = ⟨5, 1⟩) :=
  C179_overwrites_partial 7 8 (by decide) 0 5 0 1 0 () (2 ^ 32) rfl

end Verif.ScheduleU32
