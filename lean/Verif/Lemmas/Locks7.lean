import Verif.Lemmas.Locks6

/-!
The systems of the visualization never hang, two of them at the same time could, and which closures of
`apply_to_all_values` block themselves.
-/

namespace Verif.Locks

/-- Systems that hold the state to themselves. -/
def Heavy : System → Prop
  | .simulation _ _ => True
  | .ui _ _ _ _ _ => True
  | .renderer _ _ _ => True
  | .init _ _ _ => True
  | _ => False

theorem heavy_access {s : System} (h : Heavy s) : (Resource.activeState, true) ∈ s.access := by
  cases s <;> simp_all [Heavy, System.access]

theorem state_access {s : System} (h : s ≠ .camera) : ∃ m, (Resource.activeState, m) ∈ s.access := by
  cases s <;> simp_all [System.access]

theorem conflict_symm {a b : System} (h : Conflict a b) : Conflict b a := by
  obtain ⟨r, m, m', ha, hb, hm⟩ := h
  exact ⟨r, m', m, hb, ha, hm.symm⟩

theorem heavy_conflict {a b : System} (ha : Heavy a) (hb : b ≠ .camera) : Conflict a b := by
  obtain ⟨m, hm⟩ := state_access hb
  exact ⟨_, _, _, heavy_access ha, hm, Or.inl rfl⟩

variable {E : Type}

/-- All events rank below all mutexes. -/
abbrev noRank : E → Nat := fun _ => 0

theorem noRank_low (e : E) : noRank e < 1 := Nat.one_pos

theorem vis_piece {b : Bool} {held : List Lock} (hh : Below b 2 held) (us : List User) (hu : ∀ u ∈ us, GentleUser u)
    (mk : Nat → E) : Piece (rank b 1) noRank held (userTrace mk us) :=
  piece_users noRank_low (below_mono hh (by omega)) mk us hu

theorem vis_below {b : Bool} {l : Lock} {held : List Lock} (hl : l = .visState ∨ l = .visSchedule)
    (hh : Below b 2 held) : Below b 2 (l :: held) := by
  refine below_cons ?_ hh
  rcases hl with rfl | rfl <;> cases b <;> decide

theorem vis_fine {b : Bool} {mk : Nat → E} {p : Trace E} (h : Piece (rank b 1) noRank [] p) (ht : Talks mk p) :
    Fine [] p :=
  fine_of_ok (piece_ok h) (talks_await_free ht)

theorem vis_guard {b : Bool} {l : Lock} {p : Trace E} (h : Piece (rank b 1) noRank [l] p) :
    Piece (rank b 1) noRank [] (guarded l p) :=
  piece_guarded noRank_low (below_nil _ _) h

theorem vis_inner {b : Bool} {l l' : Lock} {p : Trace E} (hlt : lockOrder b l < lockOrder b l')
    (h : Piece (rank b 1) noRank [l', l] p) : Piece (rank b 1) noRank [l] (guarded l' p) :=
  piece_guarded noRank_low (below_cons hlt (below_nil _ _)) h

theorem fine_nil : Fine [] ([] : Trace E) := rfl

theorem fine_if {c : Prop} [Decidable c] {p q : Trace E} (hp : Fine [] p) (hq : Fine [] q) :
    Fine [] (if c then p else q) := by
  split
  · exact hp
  · exact hq

theorem fine_flatMap {α : Type} {f : α → Trace E} {l : List α} (h : ∀ a ∈ l, Fine [] (f a)) :
    Fine [] (l.flatMap f) := by
  induction l with
  | nil => exact fine_nil
  | cons a l ih =>
    rw [List.flatMap_cons]
    exact fine_append (h a List.mem_cons_self) (ih fun x hx => h x (List.mem_cons_of_mem _ hx))

theorem state_only (us : List User) (hu : ∀ u ∈ us, GentleUser u) (mk : Nat → E) :
    Piece (rank false 1) noRank [] (guarded .visState (userTrace mk us)) :=
  vis_guard (vis_piece (vis_below (Or.inl rfl) (below_nil _ _)) us hu mk)

theorem schedule_only (mk : Nat → E) : Fine [] (guarded .visSchedule [] : Trace E) :=
  vis_fine (b := false) (vis_guard piece_nil) (talks_lock (mk := mk) _)

theorem schedule_state (us : List User) (hu : ∀ u ∈ us, GentleUser u) (mk : Nat → E) :
    Fine [] (guarded .visSchedule (guarded .visState (userTrace mk us))) :=
  vis_fine (b := false) (vis_guard (vis_inner (by decide)
    (vis_piece (vis_below (Or.inl rfl) (vis_below (Or.inr rfl) (below_nil _ _))) us hu mk)))
    (talks_guarded (talks_guarded (talks_users mk us)))

theorem state_schedule (us : List User) (hu : ∀ u ∈ us, GentleUser u) (mk : Nat → E) :
    Fine [] (guarded .visState (guarded .visSchedule (userTrace mk us))) :=
  vis_fine (b := true) (vis_guard (vis_inner (by decide)
    (vis_piece (vis_below (Or.inr rfl) (vis_below (Or.inl rfl) (below_nil _ _))) us hu mk)))
    (talks_guarded (talks_guarded (talks_users mk us)))

theorem system_fine (s : System) (hs : GentleSystem s) (mk : Nat → E) : Fine [] (s.trace mk) := by
  cases s with
  | simulation paused step => exact fine_if fine_nil (schedule_state step hs mk)
  | ui stop reset start onInit setup =>
    have hs' : ∀ u ∈ reset ++ start ++ onInit ++ setup, GentleUser u := hs
    have one : ∀ us : List User, (∀ u ∈ us, u ∈ reset ++ start ++ onInit ++ setup) →
        Fine [] (guarded .visState (userTrace mk us)) :=
      fun us h => vis_fine (state_only us (fun u hu => hs' u (h u hu)) mk) (talks_guarded (talks_users mk us))
    refine fine_append (schedule_only mk) (fine_if ?_ fine_nil)
    refine fine_append (fine_append (fine_append (fine_append (one _ ?_) (one _ ?_)) (one _ ?_)) (one _ ?_)) (schedule_only mk)
    all_goals
      intro u hu
      simp [hu]
  | renderer paused before agents =>
    refine fine_if fine_nil (fine_append (state_schedule before hs.1 mk) (fine_flatMap ?_))
    intro a ha
    refine vis_fine (b := true) (vis_guard (piece_append
      (vis_piece (vis_below (Or.inl rfl) (below_nil _ _)) a.1 (hs.2 a ha) mk) ?_))
      (talks_guarded (talks_append (talks_users mk a.1) (talks_if (talks_lock _) talks_nil)))
    exact piece_if (vis_inner (by decide) piece_nil) piece_nil
  | init window onInit setup =>
    have hs' : ∀ u ∈ onInit ++ setup, GentleUser u := hs
    exact fine_if (fine_append (state_schedule onInit (fun u hu => hs' u (List.mem_append_left _ hu)) mk)
      (schedule_state setup (fun u hu => hs' u (List.mem_append_right _ hu)) mk)) fine_nil
  | camera => exact fine_nil
  | render body => exact vis_fine (state_only body hs mk) (talks_guarded (talks_users mk body))

theorem systems_never_hang (ss : List System) (hc : ss.Pairwise fun a b => ¬ Conflict a b)
    (hg : ∀ s ∈ ss, GentleSystem s) (mk : Nat → E) : ¬ CanHang (ss.map (System.trace mk)) := by
  by_cases hh : ∃ s ∈ ss, Heavy s
  · obtain ⟨s, hs, hheavy⟩ := hh
    apply solo_never_hangs
    · rw [List.pairwise_map]
      refine hc.imp_of_mem ?_
      intro a b ha hb hab
      by_cases ha0 : a = .camera
      · subst ha0
        exact Or.inl rfl
      · right
        by_cases has : a = s
        · subst has
          have : b = .camera := by
            by_contra hb0
            exact hab (heavy_conflict hheavy hb0)
          subst this
          rfl
        · exfalso
          have hsym : Std.Symm (fun a b : System => ¬ Conflict a b) := ⟨fun a b h h' => h (conflict_symm h')⟩
          have := hc.forall ha hs has
          exact this (conflict_symm (heavy_conflict hheavy ha0))
    · intro p hp
      obtain ⟨s, hs, rfl⟩ := List.mem_map.mp hp
      exact system_fine s (hg s hs) mk
  · refine ok_never_hangs (rank false 1) noRank _ ?_ ?_
    rotate_left
    · intro p hp e he
      obtain ⟨s, hs, rfl⟩ := List.mem_map.mp hp
      cases s with
      | camera => exact absurd he List.not_mem_nil
      | render body => exact absurd he (talks_await_free (talks_guarded (talks_users mk body)) e)
      | simulation _ _ => exact absurd ⟨_, hs, trivial⟩ hh
      | ui _ _ _ _ _ => exact absurd ⟨_, hs, trivial⟩ hh
      | renderer _ _ _ => exact absurd ⟨_, hs, trivial⟩ hh
      | init _ _ _ => exact absurd ⟨_, hs, trivial⟩ hh
    intro p hp
    obtain ⟨s, hs, rfl⟩ := List.mem_map.mp hp
    have hg' := hg s hs
    cases s with
    | camera => exact rfl
    | render body => exact piece_ok (state_only body hg' mk)
    | simulation _ _ => exact absurd ⟨_, hs, trivial⟩ hh
    | ui _ _ _ _ _ => exact absurd ⟨_, hs, trivial⟩ hh
    | renderer _ _ _ => exact absurd ⟨_, hs, trivial⟩ hh
    | init _ _ _ => exact absurd ⟨_, hs, trivial⟩ hh

/-! ### Threads that block each other -/

theorem no_step {w : World Lock E} (h : ∀ t ∈ w.threads, ∃ l p, t.todo = Act.take l :: p ∧ ∃ t' ∈ w.threads, l ∈ t'.held)
    (w' : World Lock E) : ¬ Step w w' := by
  intro hs
  cases hs with
  | take pre post past held l p hfree =>
    obtain ⟨l', p', ht, t', ht', hl⟩ := h ⟨held, .take l :: p⟩ (by simp)
    cases ht
    exact hfree t' ht' hl
  | drop pre post past held l p =>
    obtain ⟨l', p', ht, _⟩ := h ⟨held, .drop l :: p⟩ (by simp)
    exact (nomatch ht)
  | signal pre post past held e p =>
    obtain ⟨l', p', ht, _⟩ := h ⟨held, .signal e :: p⟩ (by simp)
    exact (nomatch ht)
  | await pre post past held e p hpast =>
    obtain ⟨l', p', ht, _⟩ := h ⟨held, .await e :: p⟩ (by simp)
    exact (nomatch ht)

/-- Two threads that take two mutexes in opposite order. -/
theorem cross_hangs {a b : Lock} (hab : a ≠ b) (p q : Trace E) :
    CanHang [Act.take a :: Act.take b :: p, Act.take b :: Act.take a :: q] := by
  refine ⟨⟨[⟨[a], Act.take b :: p⟩, ⟨[b], Act.take a :: q⟩], []⟩, ?_, ?_, ?_⟩
  · refine Relation.ReflTransGen.tail (b := ⟨[⟨[a], Act.take b :: p⟩, ⟨[], Act.take b :: Act.take a :: q⟩], []⟩)
      (Relation.ReflTransGen.single ?_) ?_
    · exact Step.take [] [⟨[], Act.take b :: Act.take a :: q⟩] [] [] a _ (by simp)
    · exact Step.take [⟨[a], Act.take b :: p⟩] [] [] [] b _ (by simp [hab.symm])
  · intro hf
    exact absurd (hf ⟨[a], Act.take b :: p⟩ (by simp)).1 (by simp)
  · apply no_step
    intro t ht
    simp only [List.mem_cons, List.not_mem_nil, or_false] at ht
    rcases ht with rfl | rfl
    · exact ⟨b, p, rfl, ⟨[b], Act.take a :: q⟩, by simp, by simp⟩
    · exact ⟨a, q, rfl, ⟨[a], Act.take b :: p⟩, by simp, by simp⟩

/-! ### Closures that block themselves -/

theorem heldAfter_balanced {p q : Trace E} {held : List Lock} (hp : Balanced p) :
    heldAfter held (p ++ q) = heldAfter held q := by rw [heldAfter_append, hp]

/-- A closure that, under the guard of `l`, first makes the calls `c` and then takes `l`. -/
theorem guarded_doomed {l : Lock} {pre body : Trace E} (hpre : Balanced pre) (hbody : Balanced body) :
    l ∈ heldAfter [] (pre ++ Act.take l :: body) := by
  rw [heldAfter_balanced hpre]
  show l ∈ heldAfter [l] body
  rw [hbody]
  exact List.mem_cons_self

theorem balanced_closure (c : List Call) : Balanced (closureTrace c : Trace E) :=
  balanced_flatMap fun x _ => balanced_call x

/-- The calls that take shard `i` of the values of number grid `f` first. -/
theorem touches {f i : Nat} {x : Call} (h : x = .setValue f i ∨ ∃ b, x = .valueUnbuffered f i b) :
    ∃ r : Trace E, x.trace = Act.take (.shard f .bag i) :: r := by
  rcases h with rfl | ⟨b, rfl⟩
  · exact ⟨_, rfl⟩
  · cases b <;> exact ⟨_, rfl⟩

theorem range_split {n i : Nat} (h : i < n) : ∃ a b, List.range n = a ++ i :: b :=
  List.append_of_mem (List.mem_range.mpr h)

theorem closure_split {f i : Nat} {c : List Call} {x : Call} (hx : x ∈ c)
    (h : x = .setValue f i ∨ ∃ b, x = .valueUnbuffered f i b) :
    ∃ body rest : Trace E, Balanced body ∧ closureTrace c = body ++ Act.take (.shard f .bag i) :: rest := by
  obtain ⟨a, b, rfl⟩ := List.append_of_mem hx
  obtain ⟨r, hr⟩ := touches (E := E) h
  refine ⟨closureTrace a, r ++ closureTrace b, balanced_closure a, ?_⟩
  simp only [closureTrace, List.flatMap_append, List.flatMap_cons, hr, List.cons_append]

theorem balanced_flatten {ps : List (Trace E)} (h : ∀ p ∈ ps, Balanced p) : Balanced ps.flatten := by
  induction ps with
  | nil => exact balanced_nil
  | cons p ps ih =>
    rw [List.flatten_cons]
    exact balanced_append (h p List.mem_cons_self) (ih fun x hx => h x (List.mem_cons_of_mem _ hx))

theorem balanced_use (u : Use) : Balanced (u.trace : Trace E) := by
  have lock : ∀ (f : Nat) (m : MapName) (i : Nat), Balanced (guarded (.shard f m i) [] : Trace E) :=
    fun f m i => balanced_guarded balanced_nil
  cases u with
  | call c => exact balanced_call c
  | iter cs => exact balanced_flatMap fun c _ => balanced_closure c
  | applyObjects f cs =>
    refine balanced_flatMap ?_
    intro c hc
    obtain ⟨d, _, rfl⟩ := List.mem_map.mp hc
    refine balanced_append (balanced_closure _) ?_
    obtain ⟨a, b, o⟩ := d
    cases o with
    | none => exact balanced_nil
    | some j => exact balanced_append (lock _ _ _) (lock _ _ _)
  | applyRead f cs =>
    refine balanced_flatMap ?_
    intro c hc
    obtain ⟨d, _, rfl⟩ := List.mem_map.mp hc
    exact balanced_append (balanced_closure _) (lock _ _ _)
  | applyWrite f n cs =>
    refine balanced_flatMap fun i _ => balanced_guarded (balanced_flatten ?_)
    intro p hp
    obtain ⟨c, _, rfl⟩ := List.mem_map.mp hp
    exact balanced_closure c
  | applyReadWrite f n cs =>
    refine balanced_flatMap fun i _ => balanced_flatMap ?_
    intro p hp
    obtain ⟨c, _, rfl⟩ := List.mem_map.mp hp
    exact balanced_guarded (balanced_closure c)

theorem balanced_uses (us : List Use) : Balanced (us.flatMap Use.trace : Trace E) :=
  balanced_flatMap fun u _ => balanced_use u

theorem write_own_shard_hangs {f n i : Nat} {cs : Nat → List (List Call)} {c : List Call} {x : Call} (hi : i < n)
    (hc : c ∈ cs i) (hx : x ∈ c) (h : x = .setValue f i ∨ ∃ b, x = .valueUnbuffered f i b)
    (us us' : List Use) (others : List (Trace E)) :
    AlwaysHangs (((us ++ Use.applyWrite f n cs :: us').flatMap Use.trace) :: others) := by
  obtain ⟨a, b, hr⟩ := range_split hi
  obtain ⟨c1, c2, hcs⟩ := List.append_of_mem hc
  obtain ⟨body, rest, hbody, hcl⟩ := closure_split (E := E) hx h
  have hall : ∀ l : List (List Call), Balanced ((l.map closureTrace).flatten : Trace E) := by
    intro l
    refine balanced_flatten fun p hp => ?_
    obtain ⟨c, _, rfl⟩ := List.mem_map.mp hp
    exact balanced_closure c
  refine doomed_hangs (l := .shard f .bag i)
    (p := (us.flatMap Use.trace ++ a.flatMap fun i => guarded (.shard f .bag i) ((cs i).map closureTrace).flatten) ++
      Act.take (.shard f .bag i) :: ((c1.map closureTrace).flatten ++ body))
    (q := rest ++ (c2.map closureTrace).flatten ++ [Act.drop (.shard f .bag i)] ++
      (b.flatMap fun i => guarded (.shard f .bag i) ((cs i).map closureTrace).flatten) ++ us'.flatMap Use.trace) ?_ ?_
  · apply List.mem_cons.mpr
    left
    simp only [List.flatMap_append, List.flatMap_cons, Use.trace, applyWriteL, hr, guarded, hcs, List.map_append,
      List.map_cons, List.flatten_append, List.flatten_cons, hcl, List.append_assoc, List.cons_append, List.nil_append]
  · exact guarded_doomed (balanced_append (balanced_uses us) (balanced_flatMap fun i _ => balanced_guarded (hall _)))
      (balanced_append (hall c1) hbody)

theorem read_write_own_shard_hangs {f n i : Nat} {cs : Nat → List (List Call)} {c : List Call} {x : Call} (hi : i < n)
    (hc : c ∈ cs i) (hx : x ∈ c) (h : x = .setValue f i ∨ ∃ b, x = .valueUnbuffered f i b)
    (us us' : List Use) (others : List (Trace E)) :
    AlwaysHangs (((us ++ Use.applyReadWrite f n cs :: us').flatMap Use.trace) :: others) := by
  obtain ⟨a, b, hr⟩ := range_split hi
  obtain ⟨c1, c2, hcs⟩ := List.append_of_mem hc
  obtain ⟨body, rest, hbody, hcl⟩ := closure_split (E := E) hx h
  have hall : ∀ (i : Nat) (l : List (List Call)),
      Balanced ((l.map closureTrace).flatMap fun c => guarded (.shard f .bag i) c : Trace E) := by
    intro i l
    refine balanced_flatMap fun p hp => ?_
    obtain ⟨c, _, rfl⟩ := List.mem_map.mp hp
    exact balanced_guarded (balanced_closure c)
  refine doomed_hangs (l := .shard f .bag i)
    (p := (us.flatMap Use.trace ++ (a.flatMap fun i => ((cs i).map closureTrace).flatMap fun c =>
        guarded (.shard f .bag i) c) ++ (c1.map closureTrace).flatMap fun c => guarded (.shard f .bag i) c) ++
      Act.take (.shard f .bag i) :: body)
    (q := rest ++ [Act.drop (.shard f .bag i)] ++ ((c2.map closureTrace).flatMap fun c => guarded (.shard f .bag i) c) ++
      (b.flatMap fun i => ((cs i).map closureTrace).flatMap fun c => guarded (.shard f .bag i) c) ++
      us'.flatMap Use.trace) ?_ ?_
  · apply List.mem_cons.mpr
    left
    simp only [List.flatMap_append, List.flatMap_cons, Use.trace, applyReadWriteL, hr, guarded, hcs, List.map_append,
      List.map_cons, hcl, List.append_assoc, List.cons_append, List.nil_append]
  · exact guarded_doomed (balanced_append (balanced_append (balanced_uses us) (balanced_flatMap fun i _ => hall i _))
      (hall i c1)) hbody

end Verif.Locks
