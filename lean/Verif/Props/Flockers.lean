import Verif.Lemmas.Flockers

/-!
Properties of the flockers simulation (C138-C140), the schedule, the driver and the field together. `tb` resolves the ties among the
birds, all of which are always due at the same time; it is arbitrary, so the order in which the birds run in a step is arbitrary.
`adv` is `time + 1.0`, whatever it does with large numbers.
-/

namespace Verif.Flockers

open Grid Torus Schedule Field2D

variable {T : Type} [LinearOrder T]

/-! ### C138 -/

theorem seq_steps {F : Type} {ops : FieldOps F} {c : Config} {get : F → Pos → Option (List Bird)}
    {Holds : F → List Bird → List Bird → Prop} (L : Laws ops c get Holds) (hw : 0 < c.width) (hle : c.width ≤ c.height)
    (hr : UnitDraws c) (zero : T) (adv : T → T) (tb : TieBreak T Bird) {s : State F} {f : F} {r : List Bird}
    (hf : s.field = some f) (hh : Holds f r []) (n : Nat) :
    ∃ σ : Nat → Nat → Nat, Fresh c (s.draws + c.birds) n σ ∧ ∀ m ≤ n,
      Inv c Holds (adv^[m] zero) m (s.draws + c.birds + m * c.birds)
        (flockAt c (fun m i => c.rnd (σ m i)) (newBirds c s.draws) m)
        (steps (model adv tb ops c) m (Driver.start (sim zero adv tb ops c) s)) := by
  refine inv_steps L hw hle (adv := adv) (tb := tb) (fun m => steps (model adv tb ops c) m (Driver.start (sim zero adv tb ops c) s))
    (inv_start L hw (lt_of_lt_of_le hw hle) hr zero adv tb hf hh) n ?_
  intro m _ flock hi
  rw [steps_succ']
  refine stepRel_seq _ _ (inv_nodup hi) (adv^[m] zero) ?_
  rw [(preStep_model adv tb _).1]
  intro e he
  obtain ⟨b, _, rfl⟩ := List.mem_map.1 (hi.agents.mem_iff.1 he)
  rfl

/-- **C138.** In a world at least as high as wide, whatever the order in which the birds run within a step, no step panics, and after
every number `m` of steps the scheduled birds and the published field are the flock of `m` rounds in which all birds move at once,
each looking at the flock of the round before; no two moves use the same random numbers. -/
theorem C138_birds_move_at_once (c : Config) (hw : 0 < c.width) (hle : c.width ≤ c.height) (hr : UnitDraws c) (zero : T)
    (adv : T → T) (tb : TieBreak T Bird) (n : Nat) :
    ∃ σ : Nat → Nat → Nat, Fresh c c.birds n σ ∧ ∀ m ≤ n,
      Follows c Field2D.getObjects (adv^[m] zero) m (flockAt c (fun m i => c.rnd (σ m i)) (newBirds c 0) m)
        (steps (model adv tb seqOps c) m (Driver.start (sim zero adv tb seqOps c) (newState c))) := by
  obtain ⟨σ, h1, h2⟩ := seq_steps (seqLaws c) hw hle hr zero adv tb (s := newState c) (r := []) rfl
    (shows_new true hw (lt_of_lt_of_le hw hle) (by decide +kernel)) n
  refine ⟨σ, ?_, fun m hm => inv_follows (seqLaws c) (h2 m hm)⟩
  simpa [newState] using h1

/-- Without end condition the loop of the driver makes all steps. -/
theorem loop_steps {F : Type} (ops : FieldOps F) (c : Config) (zero : T) (adv : T → T) (tb : TieBreak T Bird) (n : Nat) :
    ∀ w : World T Bird (State F), Driver.loop (sim zero adv tb ops c) n w = steps (model adv tb ops c) n w := by
  induction n with
  | zero => intro w; rfl
  | succ n ih =>
    intro w
    rw [Driver.loop]
    exact (if_neg (show ¬ (false = true) by decide)).trans (ih _)

/-- **C138**, for `simulate!` with any number of repetitions of `n` steps, `n` positive: each repetition starts with new birds and
ends with the flock of `n` rounds from them; the field is not reset in between, yet no bird of an earlier repetition is left. -/
theorem C138_repetitions (c : Config) (hw : 0 < c.width) (hle : c.width ≤ c.height) (hr : UnitDraws c) (zero : T)
    (adv : T → T) (tb : TieBreak T Bird) (n : Nat) (hn : 0 < n) (reps : Nat) :
    (Driver.runReps (sim zero adv tb seqOps c) n reps (newState c)).length = reps ∧
    ∀ w ∈ Driver.runReps (sim zero adv tb seqOps c) n reps (newState c),
      ∃ (k : Nat) (σ : Nat → Nat → Nat), Fresh c (k + c.birds) n σ ∧
        Follows c Field2D.getObjects (adv^[n] zero) n (flockAt c (fun m i => c.rnd (σ m i)) (newBirds c k) n) w := by
  have key : ∀ (reps : Nat) (s : State (Field2D.Field Bird)), (∃ f r, s.field = some f ∧ SeqHolds c f r []) →
      (Driver.runReps (sim zero adv tb seqOps c) n reps s).length = reps ∧
      ∀ w ∈ Driver.runReps (sim zero adv tb seqOps c) n reps s,
      ∃ (k : Nat) (σ : Nat → Nat → Nat), Fresh c (k + c.birds) n σ ∧
        Follows c Field2D.getObjects (adv^[n] zero) n (flockAt c (fun m i => c.rnd (σ m i)) (newBirds c k) n) w := by
    intro reps
    induction reps with
    | zero => intro s _; exact ⟨rfl, by simp [Driver.runReps]⟩
    | succ reps ih =>
      rintro s ⟨f, r, hf, hh⟩
      obtain ⟨σ, h1, h2⟩ := seq_steps (seqLaws c) hw hle hr zero adv tb hf hh n
      have hi := h2 n (le_refl _)
      rw [← loop_steps seqOps c zero adv tb n] at hi
      obtain ⟨f', r', wr, k1, k2, k3⟩ := hi.field
      rw [if_neg (by omega)] at k3
      rw [k3.2] at k2
      obtain ⟨i1, i2⟩ := ih (Driver.runRep (sim zero adv tb seqOps c) n s).state ⟨f', r', k1, k2⟩
      refine ⟨by rw [Driver.runReps, List.length_cons, i1], ?_⟩
      intro w hwm
      rw [Driver.runReps, List.mem_cons] at hwm
      rcases hwm with rfl | hwm
      · exact ⟨s.draws, σ, h1, inv_follows (seqLaws c) hi⟩
      · exact i2 w hwm
  exact key reps (newState c) ⟨_, [], rfl, shows_new true hw (lt_of_lt_of_le hw hle) (by decide +kernel)⟩

/-- A square world of side 4 with three birds; `sqrt` is exact on the squares that occur. -/
def demo : Config :=
  { sqrt := fun x => if x = 1 then 1 else if x = 1 / 400 then 1 / 20 else x
    rnd := fun k => if k < 3 then (1 / 4 * k, 1 / 2) else (1 / 2, 0)
    width := 4
    height := 4
    birds := 3
    randomness := 1 }

example : 0 < demo.width ∧ demo.width ≤ demo.height ∧ UnitDraws demo := by
  refine ⟨by decide +kernel, by decide +kernel, ?_⟩
  intro k
  by_cases h : k < 3
  · have : k = 0 ∨ k = 1 ∨ k = 2 := by omega
    rcases this with rfl | rfl | rfl <;> decide +kernel
  · have e : demo.rnd k = (1 / 2, 0) := if_neg h
    rw [e]
    decide +kernel

/-- After one step the three birds of `demo` are where they moved to, and seen there. -/
example : ((steps (model (· + 1) (fun _ _ => 0) seqOps demo) 1
    (Driver.start (sim (0 : Nat) (· + 1) (fun _ _ => 0) seqOps demo) (newState demo))).sched.events.map (fun e => e.1.agent.pos)).length = 3 ∧
    (steps (model (· + 1) (fun _ _ => 0) seqOps demo) 1
    (Driver.start (sim (0 : Nat) (· + 1) (fun _ _ => 0) seqOps demo) (newState demo))).state.field.isSome = true := by
  decide +kernel

/-! ### C139 -/

/-- **C139.** With the feature `parallel`, for every number of threads and every interleaving of the workers, any number of
completed steps is the same kind of run: all birds move at once, each looking at the flock of the round before, and no panic
occurred. -/
theorem C139_parallel_birds_move_at_once (c : Config) (hw : 0 < c.width) (hle : c.width ≤ c.height) (hr : UnitDraws c) {cpus : Nat}
    (hc : DBDashMap.shardAmount cpus ≤ 2 ^ 64) (hashO : Nat → Nat) (hashL : Loc → Nat) (zero : T) (adv : T → T)
    (tb : TieBreak T Bird) (threads n : Nat) (w : World T Bird (State (ParField2D.PField Bird Nat)))
    (hs : ParSteps (model adv tb parOps c) threads n
      (Driver.start (sim zero adv tb parOps c) (newStatePar cpus hashO hashL c)) w) :
    ∃ σ : Nat → Nat → Nat, Fresh c c.birds n σ ∧
      Follows c ParField2D.PField.getObjects (adv^[n] zero) n (flockAt c (fun m i => c.rnd (σ m i)) (newBirds c 0) n) w := by
  have hh := lt_of_lt_of_le hw hle
  have hws : ∃ ws : Nat → World T Bird (State (ParField2D.PField Bird Nat)),
      ws 0 = Driver.start (sim zero adv tb parOps c) (newStatePar cpus hashO hashL c) ∧ ws n = w ∧
      ∀ m < n, ParStep (model adv tb parOps c) threads (ws m) (.ok (ws (m + 1))) := by
    generalize Driver.start (sim zero adv tb parOps c) (newStatePar cpus hashO hashL c) = w0 at hs
    induction hs with
    | zero w => exact ⟨fun _ => w, rfl, rfl, by omega⟩
    | succ h hs ih =>
      rename_i n w w' w''
      obtain ⟨ws, h1, h2, h3⟩ := ih
      refine ⟨fun m => if m ≤ n then ws m else w'', by simp [h1], by simp, ?_⟩
      intro m hm
      by_cases hmn : m = n
      · subst hmn
        simp only [le_refl, if_true, if_neg (show ¬ m + 1 ≤ m by omega), h2]
        exact hs
      · simp only [if_pos (show m ≤ n by omega), if_pos (show m + 1 ≤ n by omega)]
        exact h3 m (by omega)
  obtain ⟨ws, h1, h2, h3⟩ := hws
  have hholds : ParHolds c (ParField2D.PField.new cpus hashO hashL c.width c.height (1 / 2) true) [] [] :=
    ⟨by simp, by simp, ParField2D.fshows_new hc hashO hashL c.width c.height (1 / 2) true⟩
  have hst := inv_start (parLaws c hw hh) hw hh hr zero adv tb (s := newStatePar cpus hashO hashL c) rfl hholds
  rw [← h1] at hst
  obtain ⟨σ, k1, k2⟩ := inv_steps (parLaws c hw hh) hw hle (adv := adv) (tb := tb) ws hst n
    (fun m hm flock hi => stepRel_par _ threads _ _ (inv_nodup hi) (h3 m hm))
  refine ⟨σ, by simpa [newStatePar] using k1, ?_⟩
  rw [← h2]
  exact inv_follows (parLaws c hw hh) (k2 n (le_refl _))

/-- **C139.** With at least one bird and one thread, `n` parallel steps can always be completed. -/
theorem C139_parallel_steps_complete (c : Config) (hw : 0 < c.width) (hle : c.width ≤ c.height) (hr : UnitDraws c) {cpus : Nat}
    (hc : DBDashMap.shardAmount cpus ≤ 2 ^ 64) (hashO : Nat → Nat) (hashL : Loc → Nat) (zero : T) (adv : T → T)
    (tb : TieBreak T Bird) (threads n : Nat) (ht : 0 < threads) (hb : 0 < c.birds) :
    ∃ w, ParSteps (model adv tb parOps c) threads n
      (Driver.start (sim zero adv tb parOps c) (newStatePar cpus hashO hashL c)) w := by
  induction n with
  | zero => exact ⟨_, .zero _⟩
  | succ n ih =>
    obtain ⟨w, hw'⟩ := ih
    obtain ⟨σ, _, hf⟩ := C139_parallel_birds_move_at_once c hw hle hr hc hashO hashL zero adv tb threads n w hw'
    have hne : (preStep (model adv tb parOps c) w).sched.events ≠ [] := by
      rw [(preStep_model adv tb _).1]
      intro he
      have h1 := hf.agents
      rw [he] at h1
      have h2 := h1.symm.eq_nil
      have h3 := congrArg List.length hf.ids
      rw [List.map_eq_nil_iff] at h2
      rw [h2] at h3
      simp at h3
      omega
    obtain ⟨w', h⟩ := parStep_exists _ threads ht w hne
    exact ⟨w', .succ hw' h⟩

/-- Without randomness the flock does not depend on the random numbers after the start. -/
theorem flockAt_sure {c : Config} (h0 : c.randomness = 0) (r r' : Nat → Nat → ℚ × ℚ) (first : List Bird) (n : Nat) :
    flockAt c r first n = flockAt c r' first n := by
  have hm : ∀ x x' b l, move c x b l = move c x' b l := by
    intro x x' b l
    have : direction c x b l = direction c x' b l := by
      unfold direction
      rw [h0, zero_mul, zero_mul, zero_mul, zero_mul]
    unfold move
    rw [this]
  induction n with
  | zero => rfl
  | succ n ih =>
    unfold flockAt
    rw [ih]
    unfold nextFlock
    apply List.map_congr_left
    intro b _
    exact hm _ _ _ _

/-- **C139.** If `RANDOMNESS` is 0, sequential and parallel runs from the same initial random numbers hold the same birds after every
number of steps, whatever the order of the birds, the number of threads, the interleaving and the hash functions. -/
theorem C139_same_flock (c : Config) (hw : 0 < c.width) (hle : c.width ≤ c.height) (hr : UnitDraws c) (h0 : c.randomness = 0)
    {cpus : Nat} (hc : DBDashMap.shardAmount cpus ≤ 2 ^ 64) (hashO : Nat → Nat) (hashL : Loc → Nat) (zero : T) (adv : T → T)
    (tb tb' : TieBreak T Bird) (threads n : Nat) (w : World T Bird (State (ParField2D.PField Bird Nat)))
    (hs : ParSteps (model adv tb parOps c) threads n
      (Driver.start (sim zero adv tb parOps c) (newStatePar cpus hashO hashL c)) w) :
    w.sched.events.Perm
      (steps (model adv tb' seqOps c) n (Driver.start (sim zero adv tb' seqOps c) (newState c))).sched.events := by
  obtain ⟨σ, _, h1⟩ := C139_parallel_birds_move_at_once c hw hle hr hc hashO hashL zero adv tb threads n w hs
  obtain ⟨σ', _, h2⟩ := C138_birds_move_at_once c hw hle hr zero adv tb' n
  have h3 := (h2 n (le_refl _)).agents
  rw [flockAt_sure h0 _ (fun m i => c.rnd (σ m i))] at h3
  exact h1.agents.trans h3.symm

example : DBDashMap.shardAmount 4 ≤ 2 ^ 64 := by decide +kernel

/-! ### C140 -/

/-- One bird in a world of width 4 and height 1: the first pair of random numbers places it, the second makes it fly down. -/
def flat (x : Rat) : Config :=
  { sqrt := demo.sqrt
    rnd := fun k => if k = 0 then (x, 0) else (1 / 2, 0)
    width := 4
    height := 1
    birds := 1
    randomness := 1 }

/-- **C140** is false: in a world wider than high a bird that leaves at the bottom is put above the top, since both coordinates are
wrapped with the width. Near the right border the field then panics. -/
theorem C140_flat_world_panics_partial :
    UnitDraws (flat (15 / 16)) ∧
    (Driver.start (sim (0 : Nat) (· + 1) (fun _ _ => 0) seqOps (flat (15 / 16))) (newState (flat (15 / 16)))).state.field.isSome = true ∧
    (steps (model (· + 1) (fun _ _ => 0) seqOps (flat (15 / 16))) 1
      (Driver.start (sim (0 : Nat) (· + 1) (fun _ _ => 0) seqOps (flat (15 / 16))) (newState (flat (15 / 16))))).state.field.isNone
        = true := by
  refine ⟨?_, by decide +kernel, by decide +kernel⟩
  intro k
  by_cases h : k = 0
  · subst h; decide +kernel
  · have e : (flat (15 / 16)).rnd k = (1 / 2, 0) := if_neg h
    rw [e]
    decide +kernel

/-- **C140** is false: elsewhere the bird is above the top of the world, and the field shows it in a square one unit to the right of
where it is. -/
theorem C140_flat_world_bird_elsewhere_partial :
    UnitDraws (flat 0) ∧
    (steps (model (· + 1) (fun _ _ => 0) seqOps (flat 0)) 1
      (Driver.start (sim (0 : Nat) (· + 1) (fun _ _ => 0) seqOps (flat 0)) (newState (flat 0)))).sched.events.map
        (fun e => e.1.agent.pos) = [⟨0, 33 / 10⟩] ∧
    ((steps (model (· + 1) (fun _ _ => 0) seqOps (flat 0)) 1
      (Driver.start (sim (0 : Nat) (· + 1) (fun _ _ => 0) seqOps (flat 0)) (newState (flat 0)))).state.field.bind
        (fun f => (getObjects f ⟨1, 0⟩).map (fun l => l.map (fun b => b.pos)))) = some [⟨0, 33 / 10⟩] := by
  refine ⟨?_, by decide +kernel, by decide +kernel⟩
  intro k
  by_cases h : k = 0
  · subst h; decide +kernel
  · have e : (flat 0).rnd k = (1 / 2, 0) := if_neg h
    rw [e]
    decide +kernel

/-- **C140, every world wider than high**: a bird that would come to height `y`, at most one world below or above, ends in the
world at a height that is `y` up to whole worlds if and only if it does not leave, so no bird that crosses the lower or the
upper border is where it should be. -/
theorem C140_flat_world_exactly_partial (c : Config) (hh : 0 < c.height) (hw : c.height < c.width) (r : ℚ × ℚ) (b : Bird)
    (vec : List Bird) (y : ℚ) (hy : y = b.pos.y + (scaled c (direction c r b vec)).y) (h1 : -c.height ≤ y)
    (h2 : y < 2 * c.height) :
    (0 ≤ (move c r b vec).pos.y ∧ (move c r b vec).pos.y < c.height ∧ ∃ k : ℤ, (move c r b vec).pos.y = y + k * c.height) ↔
      0 ≤ y ∧ y < c.height := by
  have hw0 : 0 < c.width := lt_trans hh hw
  have hm : (move c r b vec).pos.y = toroidalTransform y c.width := by rw [hy]; rfl
  rw [hm]
  constructor
  · rintro ⟨a1, a2, k, hk⟩
    by_contra hc
    by_cases hin : 0 ≤ y ∧ y < c.width
    · have : toroidalTransform y c.width = y :=
        (toroidalTransform_unique hw0 hin.1 hin.2 (Cong.refl _)).symm
      rw [this] at a2
      exact hc ⟨hin.1, a2⟩
    · -- the width is a multiple of the height, at least twice
      obtain ⟨s, hs, hs1⟩ : ∃ s : ℤ, toroidalTransform y c.width = y + s * c.width ∧ (s = 1 ∧ y < 0 ∨ s = -1 ∧ c.width ≤ y) := by
        rcases lt_or_ge y 0 with h | h
        · refine ⟨1, (toroidalTransform_unique hw0 (r := y + (1 : ℤ) * c.width) ?_ ?_ ⟨1, rfl⟩).symm, Or.inl ⟨rfl, h⟩⟩
          · push_cast; linarith
          · push_cast; linarith
        · have h' : c.width ≤ y := by
            by_contra hlt
            exact hin ⟨h, not_le.1 hlt⟩
          refine ⟨-1, (toroidalTransform_unique hw0 (r := y + (-1 : ℤ) * c.width) ?_ ?_ ⟨-1, rfl⟩).symm, Or.inr ⟨rfl, h'⟩⟩
          · push_cast; linarith
          · push_cast; linarith
      have hmul : (s : ℚ) * c.width = k * c.height := by linarith [hs.symm.trans hk]
      have hfar : 2 * c.height ≤ c.width := by
        have key : ∀ j : ℤ, c.width = j * c.height → 2 * c.height ≤ c.width := by
          intro j hj
          have h1j : (1 : ℤ) < j := by
            by_contra hle
            have hle' : (j : ℚ) ≤ 1 := by exact_mod_cast not_lt.1 hle
            have : (j : ℚ) * c.height ≤ 1 * c.height := mul_le_mul_of_nonneg_right hle' hh.le
            linarith
          have h2j : (2 : ℚ) ≤ j := by exact_mod_cast h1j
          have : (2 : ℚ) * c.height ≤ j * c.height := mul_le_mul_of_nonneg_right h2j hh.le
          linarith
        rcases hs1 with ⟨rfl, _⟩ | ⟨rfl, _⟩
        · exact key k (by push_cast at hmul; linarith)
        · exact key (-k) (by push_cast at hmul ⊢; linarith)
      rcases hs1 with ⟨rfl, _⟩ | ⟨rfl, h⟩
      · push_cast at hs
        rw [hs] at a2
        linarith
      · linarith
  · rintro ⟨a1, a2⟩
    have : toroidalTransform y c.width = y :=
      (toroidalTransform_unique hw0 a1 (lt_trans a2 hw) (Cong.refl _)).symm
    rw [this]
    exact ⟨a1, a2, 0, by simp⟩

/-- The bird of `flat` flies to height `-7/10`. -/
example : (flat 0).height < (flat 0).width ∧
    (0 : ℚ) + (scaled (flat 0) (direction (flat 0) (1 / 2, 0) ⟨0, ⟨0, 0⟩, ⟨0, 0⟩⟩ [⟨0, ⟨0, 0⟩, ⟨0, 0⟩⟩])).y = -7 / 10 := by
  constructor <;> decide +kernel

end Verif.Flockers
