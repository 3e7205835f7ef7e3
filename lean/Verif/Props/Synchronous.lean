import Verif.Lemmas.SynchronousFields

/-!
Properties of the simulations the library is made for (C141-C144): agents that look at the published field, decide, and place
themselves again or die. `tb` resolves ties among agents due at the same time with the same ordering; it is arbitrary. `adv` is
`time + 1.0`, whatever it does with large numbers; `ord` are the orderings the agents are scheduled with.
-/

namespace Verif.Sync

open Schedule
open Grid (Loc InRange)
open Torus (Pos)
open Flockers (StepRel stepRel_seq stepRel_par ParSteps)

variable {T F B V D : Type} [LinearOrder T] {ops : FieldOps F B V} {ident : B → Nat} {ok : B → Prop} {view : List B → B → V}
  {same : V → V → Prop} {shows : F → List B → Prop} {Holds : F → List B → List B → Prop} {act : D → B → V → B × Bool}
  {rnd : Nat → D} {ord : Nat → Int}

theorem seq_steps (L : Laws ops ident ok view same shows Holds) (R : Lawful act ident ok same) (zero : T) (adv : T → T)
    (tb : TieBreak T (B × Bool)) (agents : List B) (hok : ∀ b ∈ agents, ok b) (hid : (agents.map ident).Nodup) {s : State F} {f : F}
    {r : List B} (hf : s.field = some f) (hh : Holds f r []) (n : Nat) :
    ∃ σ : Nat → Nat → Nat, Fresh (popAt act view (fun m i => rnd (σ m i)) (numbered agents)) s.draws n σ ∧ ∀ m ≤ n, ∃ d',
      Inv ident ok Holds ord (adv^[m] zero) m d' (popAt act view (fun m i => rnd (σ m i)) (numbered agents) m)
        (steps (model adv tb ops act rnd) m (Driver.start (sim zero adv tb ops act rnd agents ord) s)) := by
  refine inv_steps L R (adv := adv) (tb := tb)
    (fun m => steps (model adv tb ops act rnd) m (Driver.start (sim zero adv tb ops act rnd agents ord) s))
    (inv_start L zero adv tb hok hid hf hh) n ?_
  intro m _ d' pop hi
  rw [steps_succ']
  refine stepRel_seq _ _ (inv_nodup hi) (adv^[m] zero) ?_
  rw [(preStep_model adv tb _).1]
  intro e he
  obtain ⟨b, _, rfl⟩ := List.mem_map.1 (hi.agents.mem_iff.1 he)
  rfl

/-! ### C141 -/

/-- **C141.** On every lawful field, with every lawful rule, whatever orderings the agents have and whatever the order in which they
run, after every number `m` of steps the scheduled agents and the published field are the population of `m` rounds in which all
agents act at once, each looking at the population of the round before; agents that die are gone; no step panics; no two turns use
the same random value. -/
theorem C141_synchronous (L : Laws ops ident ok view same shows Holds) (R : Lawful act ident ok same) (zero : T) (adv : T → T)
    (tb : TieBreak T (B × Bool)) (agents : List B) (hok : ∀ b ∈ agents, ok b) (hid : (agents.map ident).Nodup) {s : State F} {f : F}
    {r : List B} (hf : s.field = some f) (hh : Holds f r []) (n : Nat) :
    ∃ σ : Nat → Nat → Nat, Fresh (popAt act view (fun m i => rnd (σ m i)) (numbered agents)) s.draws n σ ∧ ∀ m ≤ n,
      Follows shows ord (adv^[m] zero) m (popAt act view (fun m i => rnd (σ m i)) (numbered agents) m)
        (steps (model adv tb ops act rnd) m (Driver.start (sim zero adv tb ops act rnd agents ord) s)) := by
  obtain ⟨σ, h1, h2⟩ := seq_steps L R zero adv tb agents hok hid hf hh n
  refine ⟨σ, h1, fun m hm => ?_⟩
  obtain ⟨d', h3⟩ := h2 m hm
  exact inv_follows L h3

theorem parSteps_worlds {A S : Type} {m : Model T A S} {threads n : Nat} {w0 w : World T A S} (hs : ParSteps m threads n w0 w) :
    ∃ ws : Nat → World T A S, ws 0 = w0 ∧ ws n = w ∧ ∀ k < n, ParStep m threads (ws k) (.ok (ws (k + 1))) := by
  induction hs with
  | zero w => exact ⟨fun _ => w, rfl, rfl, by omega⟩
  | succ h hs ih =>
    rename_i n w w' w''
    obtain ⟨ws, h1, h2, h3⟩ := ih
    refine ⟨fun m => if m ≤ n then ws m else w'', by simp [h1], by simp, ?_⟩
    intro m hm
    by_cases hmn : m = n
    · subst hmn
      simp only [le_refl, if_true, if_neg (show ¬ m + 1 ≤ m by omega), h2]
      exact hs
    · simp only [if_pos (show m ≤ n by omega), if_pos (show m + 1 ≤ n by omega)]
      exact h3 m (by omega)

/-- **C141**, with the feature `parallel`: for every number of threads and every interleaving of the workers, any number of completed
steps is the same kind of run. -/
theorem C141_parallel_synchronous (L : Laws ops ident ok view same shows Holds) (R : Lawful act ident ok same) (zero : T)
    (adv : T → T) (tb : TieBreak T (B × Bool)) (agents : List B) (hok : ∀ b ∈ agents, ok b) (hid : (agents.map ident).Nodup)
    {s : State F} {f : F} {r : List B} (hf : s.field = some f) (hh : Holds f r []) (threads n : Nat)
    (w : World T (B × Bool) (State F))
    (hs : ParSteps (model adv tb ops act rnd) threads n (Driver.start (sim zero adv tb ops act rnd agents ord) s) w) :
    ∃ σ : Nat → Nat → Nat, Fresh (popAt act view (fun m i => rnd (σ m i)) (numbered agents)) s.draws n σ ∧
      Follows shows ord (adv^[n] zero) n (popAt act view (fun m i => rnd (σ m i)) (numbered agents) n) w := by
  obtain ⟨ws, h1, h2, h3⟩ := parSteps_worlds hs
  have hst := inv_start (act := act) (rnd := rnd) (ord := ord) L zero adv tb hok hid hf hh
  rw [← h1] at hst
  obtain ⟨σ, k1, k2⟩ := inv_steps L R (adv := adv) (tb := tb) ws hst n
    (fun m hm _ pop hi => stepRel_par _ threads _ _ (inv_nodup hi) (h3 m hm))
  refine ⟨σ, k1, ?_⟩
  obtain ⟨d', h4⟩ := k2 n (le_refl _)
  rw [h2] at h4
  exact inv_follows L h4

/-- **C141**, the steps with the feature `parallel` can be completed as long as an agent lives (without any the program exits). -/
theorem C141_parallel_steps_complete (L : Laws ops ident ok view same shows Holds) (R : Lawful act ident ok same) (zero : T)
    (adv : T → T) (tb : TieBreak T (B × Bool)) (agents : List B) (hok : ∀ b ∈ agents, ok b) (hid : (agents.map ident).Nodup)
    {s : State F} {f : F} {r : List B} (hf : s.field = some f) (hh : Holds f r []) (threads n : Nat) (ht : 0 < threads)
    (hlive : ∀ (σ : Nat → Nat → Nat), ∀ m < n, popAt act view (fun m i => rnd (σ m i)) (numbered agents) m ≠ []) :
    ∃ w, ParSteps (model adv tb ops act rnd) threads n (Driver.start (sim zero adv tb ops act rnd agents ord) s) w := by
  induction n with
  | zero => exact ⟨_, .zero _⟩
  | succ n ih =>
    obtain ⟨w, hw⟩ := ih (fun σ m hm => hlive σ m (by omega))
    obtain ⟨σ, _, hfo⟩ := C141_parallel_synchronous L R zero adv tb agents hok hid hf hh threads n w hw
    have hne : (preStep (model adv tb ops act rnd) w).sched.events ≠ [] := by
      rw [(preStep_model adv tb _).1]
      intro he
      have h1 := hfo.agents
      rw [he] at h1
      have h2 := h1.symm.eq_nil
      rw [List.map_eq_nil_iff] at h2
      exact hlive σ n (by omega) h2
    obtain ⟨w', h⟩ := parStep_exists _ threads ht w hne
    exact ⟨w', .succ hw h⟩

/-- Without end condition the loop of the driver makes all steps. -/
theorem loop_steps (zero : T) (adv : T → T) (tb : TieBreak T (B × Bool)) (agents : List B) (n : Nat) :
    ∀ w : World T (B × Bool) (State F),
      Driver.loop (sim zero adv tb ops act rnd agents ord) n w = steps (model adv tb ops act rnd) n w := by
  induction n with
  | zero => intro w; rfl
  | succ n ih =>
    intro w
    rw [Driver.loop]
    exact (if_neg (show ¬ (false = true) by decide)).trans (ih _)

/-- **C141**, for `simulate!` with any number of repetitions of `n` steps, `n` positive, whose `init` does not reset the field: every
repetition ends with the population of `n` rounds from the initial agents, and no agent of an earlier repetition is left. -/
theorem C141_repetitions (L : Laws ops ident ok view same shows Holds) (R : Lawful act ident ok same) (zero : T) (adv : T → T)
    (tb : TieBreak T (B × Bool)) (agents : List B) (hok : ∀ b ∈ agents, ok b) (hid : (agents.map ident).Nodup) {s : State F} {f : F}
    {r : List B} (hf : s.field = some f) (hh : Holds f r []) (n : Nat) (hn : 0 < n) (reps : Nat) :
    (Driver.runReps (sim zero adv tb ops act rnd agents ord) n reps s).length = reps ∧
    ∀ w ∈ Driver.runReps (sim zero adv tb ops act rnd agents ord) n reps s,
      ∃ (k : Nat) (σ : Nat → Nat → Nat), Fresh (popAt act view (fun m i => rnd (σ m i)) (numbered agents)) k n σ ∧
        Follows shows ord (adv^[n] zero) n (popAt act view (fun m i => rnd (σ m i)) (numbered agents) n) w := by
  induction reps generalizing s f r with
  | zero => exact ⟨rfl, by simp [Driver.runReps]⟩
  | succ reps ih =>
    obtain ⟨σ, h1, h2⟩ := seq_steps (ord := ord) (rnd := rnd) L R zero adv tb agents hok hid hf hh n
    obtain ⟨d', hi⟩ := h2 n (le_refl _)
    rw [← loop_steps zero adv tb agents n] at hi
    obtain ⟨f', r', wr, k1, k2, k3⟩ := hi.field
    rw [if_neg (by omega)] at k3
    rw [k3.2] at k2
    obtain ⟨i1, i2⟩ := ih (s := (Driver.runRep (sim zero adv tb ops act rnd agents ord) n s).state) k1 k2
    refine ⟨by rw [Driver.runReps, List.length_cons, i1], ?_⟩
    intro w hwm
    rw [Driver.runReps, List.mem_cons] at hwm
    rcases hwm with rfl | hwm
    · exact ⟨s.draws, σ, h1, inv_follows L hi⟩
    · exact i2 w hwm

/-! ### C142 -/

variable [DecidableEq B] {actG : D → B → List (Option (List B)) → B × Bool}

/-- **C142.** Agents on a `DenseGrid2D`. -/
theorem C142_dense_grid {loc : B → Loc} {nbh : B → List Loc} {w h : Int} (hw : 0 ≤ w) (hh : 0 ≤ h)
    (R : Lawful actG ident (GridOk loc nbh w h) SameView) (zero : T) (adv : T → T) (tb : TieBreak T (B × Bool)) (agents : List B)
    (hok : ∀ b ∈ agents, GridOk loc nbh w h b) (hid : (agents.map ident).Nodup) (n : Nat) :
    ∃ σ : Nat → Nat → Nat, Fresh (popAt actG (gridView loc nbh) (fun m i => rnd (σ m i)) (numbered agents)) 0 n σ ∧ ∀ m ≤ n,
      Follows (GridShows DenseObject.getObjects loc w h) ord (adv^[m] zero) m
        (popAt actG (gridView loc nbh) (fun m i => rnd (σ m i)) (numbered agents) m)
        (steps (model adv tb (denseOps loc nbh) actG rnd) m
          (Driver.start (sim zero adv tb (denseOps loc nbh) actG rnd agents ord) ⟨DenseObject.new w h, 0⟩)) := by
  have hnew : ∃ g, (DenseObject.new w h : Option (DenseObject.OGrid B)) = some g := by
    unfold DenseObject.new
    rw [if_neg (by have := mul_nonneg hw hh; omega)]
    exact ⟨_, rfl⟩
  obtain ⟨g, hg⟩ := hnew
  have hs := DenseObject.shows_new hg
  rw [show ((w.natAbs : Int)) = w by omega, show ((h.natAbs : Int)) = h by omega] at hs
  exact C141_synchronous (denseLaws ident loc nbh w h) R zero adv tb agents hok hid (s := ⟨DenseObject.new w h, 0⟩) (r := []) hg hs n

/-- **C142.** Agents on a `SparseGrid2D`. -/
theorem C142_sparse_grid {loc : B → Loc} {nbh : B → List Loc} {w h : Int}
    (R : Lawful actG ident (GridOk loc nbh w h) SameView) (zero : T) (adv : T → T) (tb : TieBreak T (B × Bool)) (agents : List B)
    (hok : ∀ b ∈ agents, GridOk loc nbh w h b) (hid : (agents.map ident).Nodup) (n : Nat) :
    ∃ σ : Nat → Nat → Nat, Fresh (popAt actG (gridView loc nbh) (fun m i => rnd (σ m i)) (numbered agents)) 0 n σ ∧ ∀ m ≤ n,
      Follows (GridShows (fun g l => some (SparseObject.getObjects g l)) loc w h) ord (adv^[m] zero) m
        (popAt actG (gridView loc nbh) (fun m i => rnd (σ m i)) (numbered agents) m)
        (steps (model adv tb (sparseOps loc nbh) actG rnd) m
          (Driver.start (sim zero adv tb (sparseOps loc nbh) actG rnd agents ord) ⟨some (SparseObject.new w h), 0⟩)) :=
  C141_synchronous (sparseLaws ident loc nbh w h) R zero adv tb agents hok hid (s := ⟨some (SparseObject.new w h), 0⟩) (r := []) rfl
    ⟨⟨HMap.WF_nil, HMap.WF_nil⟩, fun l => by simp [SparseObject.new, SparseObject.entry, atLoc],
      fun l => by simp [SparseObject.new, SparseObject.entry, atLoc]⟩ n

/-- **C142.** Agents on either grid with the feature `parallel`. -/
theorem C142_parallel_grid {loc : B → Loc} {nbh : B → List Loc} {w h : Int}
    (R : Lawful actG ident (GridOk loc nbh w h) SameView) {cpus : Nat} (hc : DBDashMap.shardAmount cpus ≤ 2 ^ 64) (hashO : Nat → Nat)
    (hashL : Loc → Nat) (zero : T) (adv : T → T) (tb : TieBreak T (B × Bool)) (agents : List B)
    (hok : ∀ b ∈ agents, GridOk loc nbh w h b) (hid : (agents.map ident).Nodup) (threads n : Nat)
    (wd : World T (B × Bool) (State (ParGrid.OGrid B Nat)))
    (hs : ParSteps (model adv tb (parGridOps ident loc nbh) actG rnd) threads n
      (Driver.start (sim zero adv tb (parGridOps ident loc nbh) actG rnd agents ord)
        ⟨some (ParGrid.OGrid.new cpus hashO hashL w h), 0⟩) wd) :
    ∃ σ : Nat → Nat → Nat, Fresh (popAt actG (gridView loc nbh) (fun m i => rnd (σ m i)) (numbered agents)) 0 n σ ∧
      Follows (GridShows ParGrid.OGrid.getObjects loc w h) ord (adv^[n] zero) n
        (popAt actG (gridView loc nbh) (fun m i => rnd (σ m i)) (numbered agents) n) wd :=
  C141_parallel_synchronous (parGridLaws ident loc nbh w h) R zero adv tb agents hok hid
    (s := ⟨some (ParGrid.OGrid.new cpus hashO hashL w h), 0⟩) (r := []) rfl
    ⟨_, _, (ParGrid.oshows_new hc hashO hashL w h).congr rfl rfl rfl rfl⟩ threads n wd hs

/-! ### C143 -/

variable {actF : D → B → List B → B × Bool}

/-- **C143.** Agents in a `Field2D` of any positive size and discretization, toroidal or not. -/
theorem C143_field {width height d : ℚ} (hw : 0 < width) (hh : 0 < height) (hd : 0 < d) (tor : Bool) {loc : B → Pos} {reach : B → ℚ}
    (R : Lawful actF ident (fun b => Field2D.InField width height (loc b)) List.Perm) (zero : T) (adv : T → T)
    (tb : TieBreak T (B × Bool)) (agents : List B) (hok : ∀ b ∈ agents, Field2D.InField width height (loc b))
    (hid : (agents.map ident).Nodup) (n : Nat) :
    ∃ σ : Nat → Nat → Nat,
      Fresh (popAt actF (fieldView width height d tor loc reach) (fun m i => rnd (σ m i)) (numbered agents)) 0 n σ ∧ ∀ m ≤ n,
      Follows (FieldShows Field2D.getObjects loc width height d) ord (adv^[m] zero) m
        (popAt actF (fieldView width height d tor loc reach) (fun m i => rnd (σ m i)) (numbered agents) m)
        (steps (model adv tb (fieldOps loc reach) actF rnd) m
          (Driver.start (sim zero adv tb (fieldOps loc reach) actF rnd agents ord) ⟨some (Field2D.new width height d tor), 0⟩)) :=
  C141_synchronous (fieldLaws ident hw hh hd tor loc reach) R zero adv tb agents hok hid
    (s := ⟨some (Field2D.new width height d tor), 0⟩) (r := []) rfl ⟨by simp, by simp, Field2D.shows_new tor hw hh hd⟩ n

/-- **C143.** The same with the feature `parallel`. -/
theorem C143_parallel_field {width height d : ℚ} (hw : 0 < width) (hh : 0 < height) (hd : 0 < d) (tor : Bool) {loc : B → Pos}
    {reach : B → ℚ} (R : Lawful actF ident (fun b => Field2D.InField width height (loc b)) List.Perm) {cpus : Nat}
    (hc : DBDashMap.shardAmount cpus ≤ 2 ^ 64) (hashO : Nat → Nat) (hashL : Loc → Nat) (zero : T) (adv : T → T)
    (tb : TieBreak T (B × Bool)) (agents : List B) (hok : ∀ b ∈ agents, Field2D.InField width height (loc b))
    (hid : (agents.map ident).Nodup) (threads n : Nat) (wd : World T (B × Bool) (State (ParField2D.PField B Nat)))
    (hs : ParSteps (model adv tb (parFieldOps ident loc reach) actF rnd) threads n
      (Driver.start (sim zero adv tb (parFieldOps ident loc reach) actF rnd agents ord)
        ⟨some (ParField2D.PField.new cpus hashO hashL width height d tor), 0⟩) wd) :
    ∃ σ : Nat → Nat → Nat,
      Fresh (popAt actF (fieldView width height d tor loc reach) (fun m i => rnd (σ m i)) (numbered agents)) 0 n σ ∧
      Follows (FieldShows ParField2D.PField.getObjects loc width height d) ord (adv^[n] zero) n
        (popAt actF (fieldView width height d tor loc reach) (fun m i => rnd (σ m i)) (numbered agents) n) wd :=
  C141_parallel_synchronous (parFieldLaws ident hw hh hd tor loc reach) R zero adv tb agents hok hid
    (s := ⟨some (ParField2D.PField.new cpus hashO hashL width height d tor), 0⟩) (r := []) rfl
    ⟨by simp, by simp, ParField2D.fshows_new hc hashO hashL width height d tor⟩ threads n wd hs

/-! ### C144 -/

omit [DecidableEq B] [LinearOrder T] in
/-- A rule without randomness gives the same population whatever the random values. -/
theorem popAt_sure (h : ∀ x x' b v, act x b v = act x' b v) (r r' : Nat → Nat → D) (first : List (Nat × B)) (n : Nat) :
    popAt act view r first n = popAt act view r' first n := by
  induction n with
  | zero => rfl
  | succ n ih =>
    unfold popAt
    rw [ih]
    unfold nextPop
    apply List.filterMap_congr
    intro p _
    rw [h (r n p.1) (r' n p.1)]

/-- **C144.** A model whose rule uses no randomness holds the same agents after every number of steps on a `DenseGrid2D`, on a
`SparseGrid2D`, and with the feature `parallel` on either, whatever the order of the agents within a step, the number of threads and
the interleaving. -/
theorem C144_grids_agree {loc : B → Loc} {nbh : B → List Loc} {w h : Int} (hw : 0 ≤ w) (hh : 0 ≤ h)
    (R : Lawful actG ident (GridOk loc nbh w h) SameView) (h0 : ∀ x x' b v, actG x b v = actG x' b v) {cpus : Nat}
    (hc : DBDashMap.shardAmount cpus ≤ 2 ^ 64) (hashO : Nat → Nat) (hashL : Loc → Nat) (zero : T) (adv : T → T)
    (tb tb' tb'' : TieBreak T (B × Bool)) (agents : List B)
    (hok : ∀ b ∈ agents, GridOk loc nbh w h b) (hid : (agents.map ident).Nodup) (threads n : Nat)
    (wd : World T (B × Bool) (State (ParGrid.OGrid B Nat)))
    (hs : ParSteps (model adv tb (parGridOps ident loc nbh) actG rnd) threads n
      (Driver.start (sim zero adv tb (parGridOps ident loc nbh) actG rnd agents ord)
        ⟨some (ParGrid.OGrid.new cpus hashO hashL w h), 0⟩) wd) :
    (steps (model adv tb' (denseOps loc nbh) actG rnd) n
      (Driver.start (sim zero adv tb' (denseOps loc nbh) actG rnd agents ord) ⟨DenseObject.new w h, 0⟩)).sched.events.Perm
        wd.sched.events ∧
    (steps (model adv tb'' (sparseOps loc nbh) actG rnd) n
      (Driver.start (sim zero adv tb'' (sparseOps loc nbh) actG rnd agents ord) ⟨some (SparseObject.new w h), 0⟩)).sched.events.Perm
        wd.sched.events := by
  obtain ⟨σ, _, h1⟩ := C142_parallel_grid R hc hashO hashL zero adv tb agents hok hid threads n wd hs
  obtain ⟨σ', _, h2⟩ := C142_dense_grid (rnd := rnd) (ord := ord) hw hh R zero adv tb' agents hok hid n
  obtain ⟨σ'', _, h3⟩ := C142_sparse_grid (rnd := rnd) (ord := ord) R zero adv tb'' agents hok hid n
  have h2 := (h2 n (le_refl _)).agents
  have h3 := (h3 n (le_refl _)).agents
  rw [popAt_sure h0 _ (fun m i => rnd (σ m i))] at h2 h3
  exact ⟨h2.trans h1.agents.symm, h3.trans h1.agents.symm⟩

/-- **C144**, for `Field2D`. -/
theorem C144_fields_agree {width height d : ℚ} (hw : 0 < width) (hh : 0 < height) (hd : 0 < d) (tor : Bool) {loc : B → Pos}
    {reach : B → ℚ} (R : Lawful actF ident (fun b => Field2D.InField width height (loc b)) List.Perm)
    (h0 : ∀ x x' b v, actF x b v = actF x' b v) {cpus : Nat}
    (hc : DBDashMap.shardAmount cpus ≤ 2 ^ 64) (hashO : Nat → Nat) (hashL : Loc → Nat) (zero : T) (adv : T → T)
    (tb tb' : TieBreak T (B × Bool)) (agents : List B) (hok : ∀ b ∈ agents, Field2D.InField width height (loc b))
    (hid : (agents.map ident).Nodup) (threads n : Nat) (wd : World T (B × Bool) (State (ParField2D.PField B Nat)))
    (hs : ParSteps (model adv tb (parFieldOps ident loc reach) actF rnd) threads n
      (Driver.start (sim zero adv tb (parFieldOps ident loc reach) actF rnd agents ord)
        ⟨some (ParField2D.PField.new cpus hashO hashL width height d tor), 0⟩) wd) :
    (steps (model adv tb' (fieldOps loc reach) actF rnd) n
      (Driver.start (sim zero adv tb' (fieldOps loc reach) actF rnd agents ord)
        ⟨some (Field2D.new width height d tor), 0⟩)).sched.events.Perm wd.sched.events := by
  obtain ⟨σ, _, h1⟩ := C143_parallel_field hw hh hd tor R hc hashO hashL zero adv tb agents hok hid threads n wd hs
  obtain ⟨σ', _, h2⟩ := C143_field (rnd := rnd) (ord := ord) hw hh hd tor R zero adv tb' agents hok hid n
  have h2 := (h2 n (le_refl _)).agents
  rw [popAt_sure h0 _ (fun m i => rnd (σ m i))] at h2
  exact h2.trans h1.agents.symm

/-! ### A concrete model -/

/-- A walker on a ring of five cells: its number and where it is. -/
abbrev Walker := Nat × Int

namespace Demo

/-- Where a walker is. -/
def loc (b : Walker) : Loc := ⟨b.2 % 5, 0⟩

/-- A walker looks at its own cell. -/
def nbh (b : Walker) : List Loc := [loc b]

/-- A walker that is not alone in its cell dies; the others go on by their number plus one. -/
def walk (_ : Unit) (b : Walker) (v : List (Option (List Walker))) : Walker × Bool :=
  ((b.1, b.2 + b.1 + 1), decide ((v.map (fun o => (o.getD []).length)).sum = 1))

/-- Walkers 1 and 3 meet in cell 3 after the first step and are dead after the second. -/
def agents : List Walker := [(0, 0), (1, 1), (3, 4)]

theorem lawful : Lawful walk (fun b => b.1) (GridOk loc nbh 5 1) SameView where
  ident _ _ _ := rfl
  ok x b v _ _ := by
    have h : InRange 5 1 (loc (walk x b v).1) := by
      unfold loc InRange
      refine ⟨?_, ?_, ?_, ?_⟩ <;> dsimp only <;> omega
    refine ⟨h, ?_⟩
    intro l hl
    unfold nbh at hl
    rw [List.mem_singleton] at hl
    rw [hl]
    exact h
  same x b {v v'} h := by
    have : v.map (fun o => (o.getD []).length) = v'.map (fun o => (o.getD []).length) := by
      induction h with
      | nil => rfl
      | cons h _ ih =>
        rw [List.map_cons, List.map_cons, ih]
        congr 1
        cases h with
        | none => rfl
        | some h => exact h.length_eq
    unfold walk
    rw [this]

example : (∀ b ∈ agents, GridOk loc nbh 5 1 b) ∧ (agents.map (fun b => b.1)).Nodup := by
  refine ⟨?_, by decide⟩
  intro b hb
  have h : InRange 5 1 (loc b) := by
    unfold loc InRange
    refine ⟨?_, ?_, ?_, ?_⟩ <;> dsimp only <;> omega
  refine ⟨h, ?_⟩
  intro l hl
  unfold nbh at hl
  rw [List.mem_singleton] at hl
  rw [hl]
  exact h

/-- The run of the model on the dense grid: one step, everybody moved; two steps, the two that met are dead. -/
example :
    ((steps (model (· + 1) (fun _ _ => 0) (denseOps loc nbh) walk (fun _ => ())) 1
      (Driver.start (sim (0 : Nat) (· + 1) (fun _ _ => 0) (denseOps loc nbh) walk (fun _ => ()) agents (fun _ => 0))
        ⟨DenseObject.new 5 1, 0⟩)).sched.events.map (fun e => e.1.agent)).Perm [((0, 1), true), ((1, 3), true), ((3, 8), true)] ∧
    (steps (model (· + 1) (fun _ _ => 0) (denseOps loc nbh) walk (fun _ => ())) 2
      (Driver.start (sim (0 : Nat) (· + 1) (fun _ _ => 0) (denseOps loc nbh) walk (fun _ => ()) agents (fun _ => 0))
        ⟨DenseObject.new 5 1, 0⟩)).sched.events.map (fun e => e.1.agent) = [((0, 2), true)] := by
  decide +kernel

/-- A rule in a `Field2D`: whoever sees somebody else dies. -/
example : Lawful (fun (_ : Unit) (b : Nat × Pos) (v : List (Nat × Pos)) => (b, decide (v.length = 1))) Prod.fst
    (fun b => Field2D.InField 4 4 b.2) List.Perm where
  ident _ _ _ := rfl
  ok _ _ _ h _ := h
  same _ _ {_ _} h := by rw [h.length_eq]

/-- As long as nobody dies somebody lives, and the parallel steps can be completed. -/
example (n : Nat) : ∀ (σ : Nat → Nat → Nat), ∀ m < n,
    popAt (fun (_ : Unit) (b : Walker) (_ : List (Option (List Walker))) => (b, true)) (gridView loc nbh)
      (fun m i => (fun _ => ()) (σ m i)) (numbered agents) m ≠ [] := by
  intro σ m _
  have : ∀ m, (popAt (fun (_ : Unit) (b : Walker) (_ : List (Option (List Walker))) => (b, true)) (gridView loc nbh)
      (fun m i => (fun _ => ()) (σ m i)) (numbered agents) m) = numbered agents := by
    intro m
    induction m with
    | zero => rfl
    | succ m ih => rw [popAt, ih]; rfl
  rw [this]
  decide

end Demo

end Verif.Sync
