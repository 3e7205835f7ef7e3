import Verif.Lemmas.Locks4

/-!
The threads of the Simulation Terminal never hang; programs that run alone; programs that block themselves; the systems
of the visualization.
-/

namespace Verif.Locks

/-! ### The Simulation Terminal -/

/-- The ranks of the events of the terminal. -/
def tevRank : TEv → Nat
  | .spawned _ => 2
  | .message _ => 1
  | .ended _ => 0

theorem tevRank_low (e : TEv) : tevRank e < 3 := by cases e <;> simp [tevRank]

theorem one_lock (l : Lock) : Piece (rank false 3) tevRank [] (guarded l []) :=
  piece_lock tevRank_low (below_nil _ _)

theorem one_users (us : List User) (h : ∀ u ∈ us, GentleUser u) :
    Piece (rank false 3) tevRank [] (userTrace .message us) :=
  piece_users tevRank_low (below_nil _ _) _ us h

theorem piece_pass (p : TerminalPass) : Piece (rank false 3) tevRank [] (passL p) := by
  refine piece_append (piece_append (piece_append (piece_append (one_lock _)
    (piece_if (one_lock _) (one_lock _))) (piece_if (one_lock _) piece_nil)) (piece_if (one_lock _) piece_nil)) ?_
  refine piece_if (piece_append (piece_append (piece_append (one_lock _) (one_lock _)) ?_) ?_) piece_nil
  · exact piece_if (piece_append (one_lock _) (one_lock _)) piece_nil
  · exact piece_if (one_lock _) piece_nil

theorem piece_sender (k : Nat) : Piece (rank false 3) tevRank [] (guarded .csvSender [.signal (.message k)]) :=
  piece_guarded tevRank_low (below_nil _ _) (piece_signal _)

theorem piece_simStep (s : List User × Bool × List User × Bool) (h1 : ∀ u ∈ s.1, GentleUser u)
    (h2 : ∀ u ∈ s.2.2.1, GentleUser u) : Piece (rank false 3) tevRank [] (simStepL s) :=
  piece_append (piece_append (one_users _ h1) (one_lock _)) (piece_if (one_lock _)
    (piece_append (one_users _ h2) (piece_if (piece_append (one_lock _) (one_lock _)) piece_nil)))

theorem piece_rep (r : RepPlan) (h : GentleRep r) : Piece (rank false 3) tevRank [] (repL r) := by
  refine piece_append (piece_append (piece_append (one_lock _) (one_lock _)) (one_lock _)) (piece_if (one_lock _) ?_)
  refine piece_append (piece_append (piece_append (piece_append (piece_append (piece_append (piece_append
    (piece_append (one_users _ h.1) (piece_sender _)) (one_lock _)) ?_) (one_lock _)) (piece_sender _))
    (one_lock _)) (one_lock _)) (piece_if (one_lock _) piece_nil)
  exact piece_flatMap fun s hs => piece_simStep s (h.2 s hs).1 (h.2 s hs).2

theorem talks_if {E : Type} {mk : Nat → E} {c : Prop} [Decidable c] {p q : Trace E} (hp : Talks mk p)
    (hq : Talks mk q) : Talks mk (if c then p else q) := by
  split
  · exact hp
  · exact hq

theorem talks_lock {E : Type} {mk : Nat → E} (l : Lock) : Talks mk (guarded l []) :=
  talks_of_silent (silent_guarded silent_nil)

theorem talks_nil {E : Type} {mk : Nat → E} : Talks mk [] := talks_of_silent silent_nil

theorem talks_sender (k : Nat) : Talks TEv.message (guarded .csvSender [.signal (.message k)]) := by
  refine talks_guarded ⟨?_, rfl⟩
  intro e he
  simp [signals] at he
  exact ⟨k, he⟩

theorem talks_pass (p : TerminalPass) : Talks TEv.message (passL p) := by
  refine talks_append (talks_append (talks_append (talks_append (talks_lock _)
    (talks_if (talks_lock _) (talks_lock _))) (talks_if (talks_lock _) talks_nil)) (talks_if (talks_lock _) talks_nil)) ?_
  refine talks_if (talks_append (talks_append (talks_append (talks_lock _) (talks_lock _)) ?_) ?_) talks_nil
  · exact talks_if (talks_append (talks_lock _) (talks_lock _)) talks_nil
  · exact talks_if (talks_lock _) talks_nil

theorem talks_simStep (s : List User × Bool × List User × Bool) : Talks TEv.message (simStepL s) :=
  talks_append (talks_append (talks_users _ _) (talks_lock _)) (talks_if (talks_lock _)
    (talks_append (talks_users _ _) (talks_if (talks_append (talks_lock _) (talks_lock _)) talks_nil)))

theorem talks_rep (r : RepPlan) : Talks TEv.message (repL r) := by
  refine talks_append (talks_append (talks_append (talks_lock _) (talks_lock _)) (talks_lock _)) (talks_if (talks_lock _) ?_)
  refine talks_append (talks_append (talks_append (talks_append (talks_append (talks_append (talks_append
    (talks_append (talks_users _ _) (talks_sender _)) (talks_lock _)) ?_) (talks_lock _)) (talks_sender _))
    (talks_lock _)) (talks_lock _)) (talks_if (talks_lock _) talks_nil)
  exact talks_flatMap fun s _ => talks_simStep s

theorem talks_await_free {E : Type} {mk : Nat → E} {p : Trace E} (h : Talks mk p) (e : E) : Act.await e ∉ p := by
  intro he
  have := mem_awaits.mpr he
  rw [h.2] at this
  exact absurd this List.not_mem_nil

theorem ok_terminal (ps : List TerminalPass) : Ok (rank false 3) tevRank [] (terminalThread ps) := by
  refine ⟨fun h hh => absurd hh List.not_mem_nil, ?_, piece_flatMap (fun p _ => piece_pass p) _ rfl⟩
  intro e he
  rcases List.mem_append.mp he with he | he
  · obtain ⟨k, rfl⟩ := (talks_flatMap (fun p _ => talks_pass p)).1 e (mem_signals.mpr he)
    simp [tevRank]
  · have : e = .ended 1 := by simpa using he
    subst this
    simp [tevRank]

theorem ok_sim (rs : List RepPlan) (quit : Nat) (h : ∀ r ∈ rs, GentleRep r) :
    Ok (rank false 3) tevRank [] (simThread rs quit) := by
  refine ⟨fun h hh => absurd hh List.not_mem_nil, ?_,
    piece_append (piece_flatMap (fun r hr => piece_rep r (h r hr))) (piece_sender quit) _ rfl⟩
  intro e he
  rcases List.mem_append.mp he with he | he
  · obtain ⟨k, rfl⟩ := (talks_append (talks_flatMap (fun r _ => talks_rep r)) (talks_sender quit)).1 e
      (mem_signals.mpr he)
    simp [tevRank]
  · have : e = .ended 3 := by simpa using he
    subst this
    simp [tevRank]

theorem ok_csv (ms : List (Nat × Bool)) : Ok (rank false 3) tevRank [] (csvThread ms) := by
  have sig : ∀ (ms : List (Nat × Bool)) (e : TEv), Act.signal e ∈
      ms.flatMap (fun m => Act.await (.message m.1) :: if m.2 then guarded .plotNames [] else []) ++
      [.signal (.ended 2)] → e = .ended 2 := by
    intro ms e he
    rcases List.mem_append.mp he with h | h
    · obtain ⟨m, _, hm⟩ := List.mem_flatMap.mp h
      rcases List.mem_cons.mp hm with h | h
      · exact (nomatch h)
      · split at h
        · simp [guarded] at h
        · exact absurd h List.not_mem_nil
    · simpa using h
  refine ⟨fun h hh => absurd hh List.not_mem_nil, ?_, ?_⟩
  · intro e he
    rw [sig ms e he]
    simp [tevRank]
  · induction ms with
    | nil => exact rfl
    | cons m ms ih =>
      rw [List.flatMap_cons, List.cons_append, List.cons_append]
      refine ⟨fun h hh => absurd hh List.not_mem_nil, ?_, ?_⟩
      · intro e he
        rw [List.append_assoc] at he
        rcases List.mem_append.mp he with h | h
        · split at h
          · simp [guarded] at h
          · exact absurd h List.not_mem_nil
        · rw [sig ms e h]
          simp [tevRank]
      · rw [List.append_assoc]
        exact piece_if (one_lock _) piece_nil _ ih

theorem ok_monitor (it : List Bool) : Ok (rank false 3) tevRank [] (monitorThread it) := by
  refine ⟨fun h hh => absurd hh List.not_mem_nil, ?_, piece_ok (piece_flatMap fun b _ => piece_if (one_lock _) (one_lock _))⟩
  intro e he
  obtain ⟨b, _, hb⟩ := List.mem_flatMap.mp he
  split at hb <;> simp [guarded, logL] at hb

theorem ok_main : Ok (rank false 3) tevRank [] mainThread := by
  have h0 : ∀ h ∈ ([] : List Lock), ∀ n : Nat, rank false 3 h < n := fun h hh => absurd hh List.not_mem_nil
  refine one_lock .csvSender _ ⟨?_, ?_, ?_, ?_, one_lock .logs _ ⟨?_, ?_, rfl⟩⟩
  all_goals simp [guarded]

theorem mem_messages {p : Trace TEv} {k : Nat} : k ∈ messages p ↔ Act.signal (.message k) ∈ p := by
  simp only [messages, List.mem_filterMap]
  constructor
  · rintro ⟨a, ha, h⟩
    split at h
    · simp_all
    · simp at h
  · intro h
    exact ⟨_, h, rfl⟩

theorem terminal_never_hangs (mon : List Bool) (ps : List TerminalPass) (isInit : Nat → Bool) (rs : List RepPlan)
    (quit : Nat) (h : ∀ r ∈ rs, GentleRep r) : ¬ CanHang (terminalL mon ps isInit rs quit) := by
  refine ok_never_hangs (rank false 3) tevRank _ ?_ ?_
  · intro p hp
    simp only [terminalL, List.mem_cons, List.not_mem_nil, or_false] at hp
    rcases hp with rfl | rfl | rfl | rfl | rfl
    · exact ok_main
    · exact ok_monitor mon
    · exact ok_terminal ps
    · exact ok_csv _
    · exact ok_sim rs quit h
  · intro p hp e he
    simp only [terminalL, List.mem_cons, List.not_mem_nil, or_false] at hp
    have hmain : mainThread ∈ terminalL mon ps isInit rs quit := by simp [terminalL]
    rcases hp with rfl | rfl | rfl | rfl | rfl
    · have : e = .ended 3 ∨ e = .ended 2 ∨ e = .ended 1 := by
        simpa [mainThread, guarded] using he
      rcases this with rfl | rfl | rfl
      · exact ⟨simThread rs quit, by simp [terminalL], by simp [simThread]⟩
      · exact ⟨_, List.mem_cons_of_mem _ (List.mem_cons_of_mem _ (List.mem_cons_of_mem _ List.mem_cons_self)),
          by simp [csvThread]⟩
      · exact ⟨terminalThread ps, by simp [terminalL], by simp [terminalThread]⟩
    · have : e = .spawned 0 := by
        rcases List.mem_cons.mp he with h | h
        · cases h; rfl
        · obtain ⟨b, _, hb⟩ := List.mem_flatMap.mp h
          split at hb <;> simp [guarded, logL] at hb
      subst this
      exact ⟨_, hmain, by simp [mainThread]⟩
    · have : e = .spawned 1 := by
        rcases List.mem_cons.mp he with h | h
        · cases h; rfl
        · rcases List.mem_append.mp h with h | h
          · exact absurd h (talks_await_free (talks_flatMap fun p _ => talks_pass p) e)
          · simp at h
      subst this
      exact ⟨_, hmain, by simp [mainThread]⟩
    · rcases List.mem_cons.mp he with h | h
      · cases h
        exact ⟨_, hmain, by simp [mainThread]⟩
      · rcases List.mem_append.mp h with h | h
        · obtain ⟨m, hm, h⟩ := List.mem_flatMap.mp h
          rcases List.mem_cons.mp h with h | h
          · cases h
            obtain ⟨k, hk, rfl⟩ := List.mem_map.mp hm
            exact ⟨simThread rs quit, by simp [terminalL], mem_messages.mp hk⟩
          · split at h
            · simp [guarded] at h
            · exact absurd h List.not_mem_nil
        · simp at h
    · have : e = .spawned 3 := by
        rcases List.mem_cons.mp he with h | h
        · cases h; rfl
        · rcases List.mem_append.mp h with h | h
          · exact absurd h (talks_await_free
              (talks_append (talks_flatMap (fun r _ => talks_rep r)) (talks_sender quit)) e)
          · simp at h
      subst this
      exact ⟨_, hmain, by simp [mainThread]⟩

end Verif.Locks
