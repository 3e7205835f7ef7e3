import Verif.Lemmas.Locks7

/-!
# Nothing hangs, and what does (C161 – C165)
-/

namespace Verif.Locks

variable {E : Type}

/-- **C161**. Any number of threads make any calls on fields of the feature `parallel`, in any interleaving: all of
them come to an end. Closures of `apply_to_all_values` on number grids with WRITE and READWRITE use the written side
of fields with greater numbers only (`Gentle`); nothing is asked of any other closure. -/
theorem C161_field_calls_finish (pss : List (List Use)) (h : ∀ us ∈ pss, ∀ u ∈ us, Gentle u) :
    AlwaysFinishes (pss.map fun us => (us.flatMap Use.trace : Trace E)) := by
  refine finishes (ok_never_hangs (rank false 1) noRank _ ?_ ?_)
  · intro p hp
    obtain ⟨us, hus, rfl⟩ := List.mem_map.mp hp
    exact piece_ok (piece_flatMap fun u hu => piece_use noRank_low (below_nil _ _) u (h us hus u hu))
  · intro p hp e he
    obtain ⟨us, hus, rfl⟩ := List.mem_map.mp hp
    have := mem_awaits.mpr he
    rw [(silent_flatMap fun u _ => silent_use u).2] at this
    exact absurd this List.not_mem_nil

/-- Two threads that read and write the same two fields, one of them through a closure. -/
example : AlwaysFinishes ([[Use.call (.fieldSet 0 1 2 3 true), .applyWrite 1 2 fun _ => [[.setValue 2 0, .published]]],
      [.call (.fieldGetUnbuffered 0 1 3 true), .call (.setValue 2 0), .call (.valueUnbuffered 1 1 true)]].map
      fun us => (us.flatMap Use.trace : Trace Ev)) := by
  refine C161_field_calls_finish _ ?_
  intro us hus u hu
  simp only [List.mem_cons, List.not_mem_nil, or_false] at hus
  rcases hus with rfl | rfl <;> simp only [List.mem_cons, List.not_mem_nil, or_false] at hu
  · rcases hu with rfl | rfl
    · trivial
    · intro i c hc x hx g hg
      simp only [List.mem_cons, List.not_mem_nil, or_false] at hc
      subst hc
      simp only [List.mem_cons, List.not_mem_nil, or_false] at hx
      rcases hx with rfl | rfl <;> simp [Call.field] at hg
      omega
  · rcases hu with rfl | rfl | rfl <;> trivial

/-- **C162**. A simulation under the feature `parallel` comes to an end: however the threads of each step interleave,
whatever hooks and agents do with fields, with the schedule and with the macros. -/
theorem C162_parallel_steps_finish (init : List User) (ps : List (Nat × StepPlan)) (hinit : ∀ u ∈ init, GentleUser u)
    (hps : ∀ p ∈ ps, GentlePlan p.2) : AlwaysFinishes (simulationL init ps) :=
  finishes (simulation_never_hangs init ps hinit hps)

/-- Two threads whose agents log, schedule and move. -/
example : AlwaysFinishes (simulationL [.scheduleRepeating, .scheduleRepeating] [(2,
    { first := true, update0 := [.use (.call (.fieldUpdate 0 4))], before := [.getAllEvents],
      batches := [[([.use (.call (.fieldSet 0 0 0 1 true)), .scheduleOnce], true)], [([.log [.setValue 1 0]], false)]],
      after := [], update := [.use (.call (.fieldUpdate 0 4))] })]) := by
  refine C162_parallel_steps_finish _ _ ?_ ?_
  · intro u hu
    simp only [List.mem_cons, List.not_mem_nil, or_false] at hu
    rcases hu with rfl | rfl <;> trivial
  · intro p hp
    simp only [List.mem_cons, List.not_mem_nil, or_false] at hp
    subst hp
    refine ⟨?_, ?_, ?_, ?_, ?_⟩ <;> intro u hu <;> simp only [List.mem_cons, List.not_mem_nil, or_false] at hu
    · subst hu; trivial
    · subst hu; trivial
    · subst hu; trivial
    · rcases hu with rfl | rfl <;> intro i hi <;> simp only [List.mem_cons, List.not_mem_nil, or_false] at hi <;>
        subst hi <;> intro v hv <;> simp only [List.mem_cons, List.not_mem_nil, or_false] at hv
      · rcases hv with rfl | rfl <;> trivial
      · subst hv; trivial

/-- **C163**, the negation. The closure of `apply_to_all_values` with the option WRITE is called while the shard of its
key is locked: a closure that reads or writes the new value of any key of that shard of the same grid blocks its own
thread for ever, whatever the thread did before and whatever other threads do. -/
theorem C163_closure_on_own_shard_hangs_partial {f n i : Nat} {cs : Nat → List (List Call)} {c : List Call} {x : Call}
    (hi : i < n) (hc : c ∈ cs i) (hx : x ∈ c) (h : x = .setValue f i ∨ ∃ b, x = .valueUnbuffered f i b)
    (us us' : List Use) (others : List (Trace E)) :
    AlwaysHangs (((us ++ Use.applyWrite f n cs :: us').flatMap Use.trace) :: others) ∧
    AlwaysHangs (((us ++ Use.applyReadWrite f n cs :: us').flatMap Use.trace) :: others) :=
  ⟨write_own_shard_hangs hi hc hx h us us' others, read_write_own_shard_hangs hi hc hx h us us' others⟩

/-- A grid with one shard and a closure that asks for the new value of a neighbour. -/
example : AlwaysHangs [((Use.applyWrite 0 1 fun _ => [[.valueUnbuffered 0 0 true]]).trace : Trace Ev)] := by
  have h := (C163_closure_on_own_shard_hangs_partial (E := Ev) (f := 0) (n := 1) (i := 0)
    (cs := fun _ => [[.valueUnbuffered 0 0 true]]) (c := [.valueUnbuffered 0 0 true]) (x := .valueUnbuffered 0 0 true)
    (by omega) (by simp) (by simp) (Or.inr ⟨true, rfl⟩) [] [] []).1
  simpa using h

/-- **C163**, also without a grid that uses itself: one thread fills grid 0 from grid 1 while another one fills grid 1
from grid 0. -/
theorem C163_two_grids_can_hang_partial :
    CanHang [((Use.applyWrite 0 1 fun _ => [[.valueUnbuffered 1 0 true]]).trace : Trace E),
      (Use.applyWrite 1 1 fun _ => [[.valueUnbuffered 0 0 true]]).trace] :=
  cross_hangs (a := .shard 0 .bag 0) (b := .shard 1 .bag 0) (by simp) _ _

/-- **C164**. The threads `simulate!` starts for the Simulation Terminal all come to an end once the user has left the
terminal (the list of its iterations is finite), in any interleaving. -/
theorem C164_terminal_finishes (mon : List Bool) (ps : List TerminalPass) (isInit : Nat → Bool) (rs : List RepPlan)
    (quit : Nat) (h : ∀ r ∈ rs, GentleRep r) : AlwaysFinishes (terminalL mon ps isInit rs quit) :=
  finishes (terminal_never_hangs mon ps isInit rs quit h)

/-- A repetition of one step that plots, with the terminal drawn twice. -/
example : AlwaysFinishes (terminalL [true, false]
    [⟨true, false, false, true, true, false⟩, ⟨false, true, true, false, false, true⟩] (· == 0)
    [{ interrupted := false, init := [.addplot [] true], initMessage := 0,
       steps := [([.plot [.valueUnbuffered 0 0 true] (some 1)], true, [], false)], endMessage := 2,
       lastSendFails := false }] 3) := by
  refine C164_terminal_finishes _ _ _ _ _ ?_
  intro r hr
  simp only [List.mem_cons, List.not_mem_nil, or_false] at hr
  subst hr
  refine ⟨?_, ?_⟩
  · intro u hu
    simp only [List.mem_cons, List.not_mem_nil, or_false] at hu
    subst hu; trivial
  · intro s hs
    simp only [List.mem_cons, List.not_mem_nil, or_false] at hs
    subst hs
    refine ⟨?_, ?_⟩ <;> intro u hu <;> simp only [List.mem_cons, List.not_mem_nil, or_false] at hu
    subst hu; trivial

/-- **C165**, the negation. `log!` evaluates its message while the log is locked, `plot!` and `addplot!` evaluate
everything they are given while the plots are locked. If that evaluation uses the same macro again, the thread never
goes on, whatever it did before (`before`, holding nothing at its end) and whatever other threads do. -/
theorem C165_nested_macros_hang_partial (before after inner rest inner' : Trace E) (others : List (Trace E))
    (csv : Bool) (msg : Option E) (hb : Balanced before) (hi : Balanced inner) :
    AlwaysHangs ((before ++ logL (inner ++ logL inner' ++ rest) ++ after) :: others) ∧
    AlwaysHangs ((before ++ plotL (inner ++ plotL inner' none ++ rest) msg ++ after) :: others) ∧
    AlwaysHangs ((before ++ plotL (inner ++ addplotL inner' false ++ rest) msg ++ after) :: others) ∧
    AlwaysHangs ((before ++ addplotL (inner ++ plotL inner' none ++ rest) csv ++ after) :: others) := by
  have key : ∀ (l : Lock) (q : Trace E),
      AlwaysHangs ((before ++ Act.take l :: (inner ++ Act.take l :: q)) :: others) := by
    intro l q
    refine doomed_hangs (l := l) (p := before ++ Act.take l :: inner) (q := q) ?_ (guarded_doomed hb hi)
    simp
  refine ⟨?_, ?_, ?_, ?_⟩
  · have h := key .logs (inner' ++ Act.drop .logs :: (rest ++ Act.drop .logs :: after))
    simpa [logL, guarded] using h
  · cases msg with
    | none =>
      have h := key .data (inner' ++ Act.drop .data :: (rest ++ Act.drop .data :: after))
      simpa [plotL, guarded] using h
    | some e =>
      have h := key .data (inner' ++ Act.drop .data :: (rest ++ guarded .csvSender (inner ++
        guarded .data inner' ++ rest ++ [.signal e]) ++ Act.drop .data :: after))
      simpa [plotL, guarded] using h
  · cases msg with
    | none =>
      have h := key .data (inner' ++ Act.drop .data :: (rest ++ Act.drop .data :: after))
      simpa [plotL, addplotL, guarded] using h
    | some e =>
      have h := key .data (inner' ++ Act.drop .data :: (rest ++ guarded .csvSender (inner ++
        guarded .data inner' ++ rest ++ [.signal e]) ++ Act.drop .data :: after))
      simpa [plotL, addplotL, guarded] using h
  · cases csv with
    | false =>
      have h := key .data (inner' ++ Act.drop .data :: (rest ++ Act.drop .data :: after))
      simpa [plotL, addplotL, guarded] using h
    | true =>
      have h := key .data (inner' ++ Act.drop .data :: (rest ++ guarded .plotNames (inner ++
        guarded .data inner' ++ rest) ++ Act.drop .data :: after))
      simpa [plotL, addplotL, guarded] using h

/-- `log!(…, text())` where `text` logs. -/
example : AlwaysHangs [(logL (logL []) : Trace Ev)] := by
  have h := (C165_nested_macros_hang_partial (E := Ev) [] [] [] [] [] [] false none balanced_nil balanced_nil).1
  simpa using h

/-- **C165**, what remains. Macros whose arguments only make calls on fields never hang, and `description!` may be
given anything that does not. -/
theorem C165_macros_finish_partial (pss : List (List User)) (mk : Nat → E) (h : ∀ us ∈ pss, ∀ u ∈ us, GentleUser u) :
    AlwaysFinishes (pss.map (userTrace mk)) := by
  refine finishes (ok_never_hangs (rank false 1) noRank _ ?_ ?_)
  · intro p hp
    obtain ⟨us, hus, rfl⟩ := List.mem_map.mp hp
    exact piece_ok (piece_users noRank_low (below_nil _ _) mk us (h us hus))
  · intro p hp e he
    obtain ⟨us, hus, rfl⟩ := List.mem_map.mp hp
    exact absurd he (talks_await_free (talks_users mk us) e)

example : AlwaysFinishes ([[User.plot [.valueUnbuffered 0 0 true] (some 0), .log []], [.addplot [] true]].map
    (userTrace TEv.message)) := by
  refine C165_macros_finish_partial _ _ ?_
  intro us hus u hu
  simp only [List.mem_cons, List.not_mem_nil, or_false] at hus
  rcases hus with rfl | rfl <;> simp only [List.mem_cons, List.not_mem_nil, or_false] at hu
  · rcases hu with rfl | rfl <;> trivial
  · subst hu; trivial

/-- **C166**. Whatever systems of the visualization Bevy runs at the same time, they all come to an end: Bevy runs
together only systems that do not conflict over a resource. -/
theorem C166_systems_finish (ss : List System) (hc : ss.Pairwise fun a b => ¬ Conflict a b)
    (hg : ∀ s ∈ ss, GentleSystem s) (mk : Nat → E) : AlwaysFinishes (ss.map (System.trace mk)) :=
  finishes (systems_never_hang ss hc hg mk)

/-- The rule of Bevy is needed: the system that steps the simulation locks the schedule and then the state, the one
that draws the agents the state and then the schedule. -/
theorem C166_simulation_and_renderer_could_hang (mk : Nat → E) :
    CanHang [(System.simulation false []).trace mk, (System.renderer false [] []).trace mk] :=
  cross_hangs (a := .visSchedule) (b := .visState) (by simp) _ _

/-- They conflict, so Bevy does not run them together. -/
theorem C166_simulation_and_renderer_conflict (p p' : Bool) (step before : List User) (agents : List (List User × Bool)) :
    Conflict (.simulation p step) (.renderer p' before agents) :=
  ⟨.activeState, true, true, by simp [System.access], by simp [System.access], Or.inl rfl⟩

/-- Three grids and the camera drawn together; the step of the simulation with the camera. -/
example (mk : Nat → Ev) :
    AlwaysFinishes ([System.render [.use (.call .published)], .camera, .render [.log []], .render []].map
      (System.trace mk)) ∧
    AlwaysFinishes ([System.camera, .simulation false [.use (.call (.setValue 0 1))]].map (System.trace mk)) := by
  constructor
  · refine C166_systems_finish _ ?_ ?_ mk
    · have h : ∀ a b : System, (∃ x, a = .render x) ∨ a = .camera → (∃ x, b = .render x) ∨ b = .camera →
          ¬ Conflict a b := by
        rintro a b (⟨x, rfl⟩ | rfl) (⟨y, rfl⟩ | rfl) ⟨r, m, m', h1, h2, h3⟩ <;>
          simp [System.access] at h1 h2 <;> simp_all
      simp only [List.pairwise_cons, List.mem_cons, List.not_mem_nil, or_false]
      refine ⟨?_, ?_, ?_, ?_, List.Pairwise.nil⟩ <;> intro b hb
      · refine h _ _ (by simp) ?_
        rcases hb with rfl | rfl | rfl <;> simp
      · refine h _ _ (by simp) ?_
        rcases hb with rfl | rfl <;> simp
      · refine h _ _ (by simp) ?_
        subst hb
        simp
      · exact hb.elim
    · intro s hs
      simp only [List.mem_cons, List.not_mem_nil, or_false] at hs
      rcases hs with rfl | rfl | rfl | rfl <;> simp [GentleSystem, GentleUser, Gentle]
  · refine C166_systems_finish _ ?_ ?_ mk
    · simp only [List.pairwise_cons, List.mem_cons, List.not_mem_nil, or_false]
      refine ⟨?_, ?_, List.Pairwise.nil⟩
      · rintro b rfl ⟨r, m, m', h1, h2, h3⟩
        simp [System.access] at h1 h2
        simp_all
      · intro b hb
        exact absurd hb (by simp)
    · intro s hs
      simp only [List.mem_cons, List.not_mem_nil, or_false] at hs
      rcases hs with rfl | rfl <;> simp [GentleSystem, GentleUser, Gentle]

end Verif.Locks
