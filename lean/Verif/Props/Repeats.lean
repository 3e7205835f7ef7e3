import Verif.Spec.Repeats
import Verif.Props.Driver
import Verif.Props.Synchronous
import Verif.Model.DenseNumberGrid

/-!
The repetitions of `simulate!` and `State::reset` (C224). `simulate!`, `simulate_old!` and `simulate!` with the terminal never call
`reset` (src/lib.rs:1011-1120, 1158-1168, 1507-1574); `check_reproducibility!` does (src/lib.rs:1952).
-/

set_option linter.unusedSectionVars false

namespace Verif.Driver

open Schedule

variable {T A S : Type} [LinearOrder T]

theorem runRep_reset {d : Sim T A S} {reset : S → S} (h : ∀ s, d.init (reset s) = d.init s) (n : Nat) (s : S) :
    runRep d n (reset s) = runRep d n s := by
  unfold runRep start
  rw [h]

/-- **C224**, where it holds: if `init` sets everything that `reset` resets, the repetitions of `simulate!` and `simulate_old!` are
those with a reset between them. -/
theorem C224_init_sets_all_partial {d : Sim T A S} {reset : S → S} (h : ∀ s, d.init (reset s) = d.init s) (n reps : Nat) (s : S) :
    runReps d n reps s = resetReps d reset n reps s := by
  suffices hs : ∀ (reps : Nat) (s s' : S), (s' = s ∨ s' = reset s) → runReps d n reps s = resetReps d reset n reps s' from
    hs reps s s (.inl rfl)
  intro reps
  induction reps with
  | zero => intro _ _ _; rfl
  | succ r ih =>
    intro s s' hs
    have : runRep d n s' = runRep d n s := by
      rcases hs with rfl | rfl
      · rfl
      · exact runRep_reset h n s
    rw [runReps, resetReps, this, ih _ _ (.inr rfl)]

/-- **C224**, where it holds: if moreover `reset` undoes a run, all repetitions are the same run; with the terminal too, if no
repetition ends before its last step. -/
theorem C224_same_runs_partial {d : Sim T A S} {reset : S → S} (h : ∀ s, d.init (reset s) = d.init s) (n reps : Nat) (s : S)
    (hr : reset (runRep d n s).state = s) :
    runReps d n reps s = List.replicate reps (runRep d n s) ∧
    ((∀ s, NeverEnds d n (start d s)) → ∀ ui, runRepsT d ui n reps s Term.new = List.replicate reps (runRep d n s)) := by
  have h1 : runReps d n reps s = List.replicate reps (runRep d n s) := by
    rw [C224_init_sets_all_partial h]
    induction reps with
    | zero => rfl
    | succ r ih => rw [resetReps, hr, ih, List.replicate_succ]
  exact ⟨h1, fun hn ui => by rw [C87_terminal_no_end_partial d ui n reps s hn, h1]⟩

/-- **C224** holds only then: if all repetitions, of every number of steps, from every state, are those with a reset between them,
then a second `init` gives the same whether or not the state was reset before it. -/
theorem C224_only_then_partial {d : Sim T A S} {reset : S → S}
    (h : ∀ n reps s, runReps d n reps s = resetReps d reset n reps s) (s : S) :
    start d (reset (start d s).state) = start d (start d s).state := by
  have h1 := h 0 2 s
  rw [runReps, runReps, resetReps, resetReps] at h1
  simp only [List.cons.injEq] at h1
  exact h1.2.1.symm

end Verif.Driver

namespace Verif.Sync

open Schedule

variable {T F B V D : Type} [LinearOrder T] {ops : FieldOps F B V} {ident : B → Nat} {ok : B → Prop} {view : List B → B → V}
  {same : V → V → Prop} {shows : F → List B → Prop} {Holds : F → List B → List B → Prop} {act : D → B → V → B × Bool} {rnd : Nat → D}
  {ord : Nat → Int}

/-- **C224**, where it holds: a model of agents on a double-buffered field as in C141, with a rule without randomness. `init` need not
touch the field that the last repetition left: after every positive number of steps every repetition has the same agents, due at the
same time, and its field shows the same. -/
theorem C224_fields_partial (L : Laws ops ident ok view same shows Holds) (R : Lawful act ident ok same)
    (h0 : ∀ x x' b v, act x b v = act x' b v) (zero : T) (adv : T → T) (tb : TieBreak T (B × Bool)) (agents : List B)
    (hok : ∀ b ∈ agents, ok b) (hid : (agents.map ident).Nodup) {s : State F} {f : F} {r : List B} (hf : s.field = some f)
    (hh : Holds f r []) (n : Nat) (hn : 0 < n) (reps : Nat) :
    ∃ pop : List (Nat × B), ∀ w ∈ Driver.runReps (sim zero adv tb ops act rnd agents ord) n reps s,
      Follows shows ord (adv^[n] zero) n pop w := by
  refine ⟨popAt act view (fun _ _ => rnd 0) (numbered agents) n, fun w hw => ?_⟩
  obtain ⟨_, h⟩ := C141_repetitions (ord := ord) (rnd := rnd) L R zero adv tb agents hok hid hf hh n hn reps
  obtain ⟨k, σ, _, h2⟩ := h w hw
  rwa [popAt_sure h0 _ (fun _ _ => rnd 0)] at h2

end Verif.Sync

namespace Verif.Driver

open Schedule Grid

/-! ### A trail -/

/-- Ants: an agent remembers the number it found at (0, 0) and adds 8 to it, on a `DenseNumberGrid2D`; `update` lets all numbers
evaporate with `apply_to_all_values` and publishes the grid; `init` schedules the agent and does nothing to the grid, as
tests/model/flockers/state.rs:41-56 does nothing to the field but place the agents. -/
def ants : Sim Nat Nat (Option (DenseNumber.DGrid Nat)) where
  model :=
    { update := fun _ g => g.map (fun g => DenseNumber.lazyUpdate (DenseNumber.applyToAllValues g (· / 2) .READWRITE))
      beforeStep := fun g _ => (g, [])
      afterStep := fun g _ => (g, [])
      aBefore := fun a g => (a, g)
      aStep := fun a g =>
        match g.bind (fun g => DenseNumber.getValue g ⟨0, 0⟩) with
        | none => (a, none)
        | some v => (v.getD 0, g.bind (fun g => DenseNumber.setValueLocation g (v.getD 0 + 8) ⟨0, 0⟩))
      aAfter := fun a g => (a, g)
      isStopped := fun a g => (false, a, g)
      adv := fun t => t + 1
      tb := fun _ _ => 0 }
  zero := 0
  init := fun g => (g, [.scheduleRepeating 0 0 0])
  endCondition := fun w => (false, w.state, [])

/-- `reset` of the ants: a new grid. -/
def antsReset (_ : Option (DenseNumber.DGrid Nat)) : Option (DenseNumber.DGrid Nat) := DenseNumber.new 1 1

/-- What the agents of a world remember and what the grid shows at (0, 0). -/
def antsView (w : World Nat Nat (Option (DenseNumber.DGrid Nat))) : List Nat × Option (Option Nat) :=
  (w.sched.getAllEvents, w.state.bind (fun g => DenseNumber.getValue g ⟨0, 0⟩))

/-- **C224** is false: `reset` makes a new grid, and `check_reproducibility!` reports that two runs of the ants are equal, but the
second repetition of `simulate!`, with and without the terminal, begins with the trail of the first and ends differently. -/
theorem C224_trail_partial :
    (runReps ants 2 3 (DenseNumber.new 1 1)).map antsView = [([4], some (some 6)), ([5], some (some 6)), ([5], some (some 6))] ∧
    (runRepsT ants (fun _ => 1) 2 3 (DenseNumber.new 1 1) Term.new).map antsView =
      [([4], some (some 6)), ([5], some (some 6)), ([5], some (some 6))] ∧
    (resetReps ants antsReset 2 3 (DenseNumber.new 1 1)).map antsView =
      [([4], some (some 6)), ([4], some (some 6)), ([4], some (some 6))] ∧
    checkReproducibility ants antsReset (fun _ => 0) (fun a b => a == b) [0] 2 (DenseNumber.new 1 1) = some true := by
  refine ⟨?_, ?_, ?_, ?_⟩ <;> decide +kernel

/-- The ants with a new grid in `init`. -/
def tidyAnts : Sim Nat Nat (Option (DenseNumber.DGrid Nat)) :=
  { ants with init := fun _ => (DenseNumber.new 1 1, [.scheduleRepeating 0 0 0]) }

example : (∀ g, tidyAnts.init (antsReset g) = tidyAnts.init g) ∧
    antsReset (runRep tidyAnts 2 (DenseNumber.new 1 1)).state = DenseNumber.new 1 1 ∧
    (∀ g, NeverEnds tidyAnts 2 (start tidyAnts g)) ∧
    (runReps tidyAnts 2 3 (DenseNumber.new 1 1)).map antsView =
      [([4], some (some 6)), ([4], some (some 6)), ([4], some (some 6))] := by
  refine ⟨fun _ => rfl, rfl, fun _ _ _ h => Bool.false_ne_true h, ?_⟩
  decide +kernel

end Verif.Driver

namespace Verif.Sync

/-- Walkers without randomness on a dense grid: the rule and the agents of C141. -/
example : (∀ x x' b v, Demo.walk x b v = Demo.walk x' b v) ∧ (Demo.agents.map (fun b => b.1)).Nodup :=
  ⟨fun _ _ _ _ => rfl, by decide⟩

end Verif.Sync
