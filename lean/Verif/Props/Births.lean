import Verif.Lemmas.Births
import Verif.Props.Synchronous

/-!
Properties of simulations whose population grows (C221, C222): agents place their offspring in the field and leave it in a list of the
state, and `after_step` schedules it with `schedule_repeating(agent, schedule.time + 1.0, ordering)`.
-/

namespace Verif.Births

open Schedule
open Sync (FieldOps Laws GridOk SameView gridView GridShows fieldView FieldShows denseOps sparseOps parGridOps fieldOps parFieldOps
  denseLaws sparseLaws parGridLaws fieldLaws parFieldLaws atLoc)
open Grid (Loc InRange)
open Torus (Pos)
open Flockers (ParSteps)

variable {T F B V C D : Type} [LinearOrder T] {ops : FieldOps F B V} {ident : B → Nat} {ok : B → Prop} {view : List B → B → V}
  {same : V → V → Prop} {shows : F → List B → Prop} {Holds : F → List B → List B → Prop}
  {act : D → B → V → (B × Bool) × List C} {mk : Nat → C → B} {rnd : Nat → D} {ord : Nat → Int}

/-- What C221 says of the worlds after `0 … n` steps: there are a choice `σ` of random values and a choice `nm` of identities for the
newborn, both without repetition, with which they are the generations of the specification. -/
def Grows (shows : F → List B → Prop) (act : D → B → V → (B × Bool) × List C) (mk : Nat → C → B) (ident : B → Nat)
    (view : List B → B → V) (rnd : Nat → D) (ord : Nat → Int) (adv : T → T) (zero : T) (agents : List B) (draws next n : Nat)
    (ws : Nat → World T (B × Bool) (State F B)) : Prop :=
  ∃ (σ : Nat → Nat → Nat) (nm : Nat → Nat → Nat → Nat),
    FreshDraws ident (genAt act mk ident view (fun m i => rnd (σ m i)) nm agents) draws n σ ∧
    FreshNames ident (genAt act mk ident view (fun m i => rnd (σ m i)) nm agents)
      (fun m b => (act (rnd (σ m (ident b))) b (view (genAt act mk ident view (fun m i => rnd (σ m i)) nm agents m) b)).2.length)
      next n nm ∧
    ∀ m ≤ n, Follows ident shows (numOf ident agents next) ord (adv^[m] zero) m
      (genAt act mk ident view (fun m i => rnd (σ m i)) nm agents m) (ws m)

omit [LinearOrder T] in
theorem start_next {zero : T} {adv : T → T} {tb : TieBreak T (B × Bool)} {agents : List B} {s : State F B} {d : Nat}
    (hst : Inv ident ok Holds agents s.next ord zero 0 d agents (Driver.start (sim zero adv tb ops act mk rnd ident ord agents) s)) :
    (Driver.start (sim zero adv tb ops act mk rnd ident ord agents) s).state.next = s.next := by
  have h1 := hst.count
  have h2 := hst.next
  have h3 := exec_count zero (fun b : B × Bool => ord (ident b.1)) (agents.map (fun b => (b, true)))
    ({ state := (init zero ops ident ord agents s).1, sched := Sched.new zero, trace := [] } : World T (B × Bool) (State F B))
  rw [List.map_map, List.length_map] at h3
  have h4 : (Driver.start (sim zero adv tb ops act mk rnd ident ord agents) s).sched.idCount = 0 + agents.length := h3
  omega

omit [LinearOrder T] in
theorem entries_due {first : List B} {k n d : Nat} {time : T} {pop : List B} {w : World T (B × Bool) (State F B)} {adv : T → T}
    {tb : TieBreak T (B × Bool)} (hi : Inv ident ok Holds first k ord time n d pop w) :
    ∀ e ∈ (preStep (model adv tb ops act mk rnd ident ord) w).sched.events, e.2.time = time := by
  rw [(preStep_model adv tb w).1]
  intro e he
  obtain ⟨b, _, rfl⟩ := List.mem_map.1 (hi.agents.mem_iff.1 he)
  rfl

/-! ### C221 -/

/-- **C221.** On every lawful field and with every lawful rule, whatever orderings the agents have and in whatever order they run,
the scheduled agents and the published field after every number of steps are a generation of the specification: survivors and
offspring of the generation before, in which everybody acted once and saw the same population. Every newborn acts for the first time
in the step after its birth, under the next free number of the schedule; nobody is lost, and nobody acts twice. -/
theorem C221_generations (L : Laws ops ident ok view same shows Holds) (R : Lawful act mk ident ok same) (zero : T) (adv : T → T)
    (tb : TieBreak T (B × Bool)) (agents : List B) (hok : ∀ b ∈ agents, ok b) (hid : (agents.map ident).Nodup) {s : State F B}
    (hlt : ∀ b ∈ agents, ident b < s.next) (hb : s.born = []) {f : F} {r : List B} (hf : s.field = some f) (hh : Holds f r []) (n : Nat) :
    Grows shows act mk ident view rnd ord adv zero agents s.draws s.next n
      (fun m => steps (model adv tb ops act mk rnd ident ord) m (Driver.start (sim zero adv tb ops act mk rnd ident ord agents) s)) := by
  have hst := inv_start (act := act) (mk := mk) (rnd := rnd) (ord := ord) L zero adv tb hok hid hlt hb hf hh
  have hnx := start_next hst
  obtain ⟨σ, nm, h1, h2, h3⟩ := inv_steps L R (adv := adv) (tb := tb)
    (fun m => steps (model adv tb ops act mk rnd ident ord) m (Driver.start (sim zero adv tb ops act mk rnd ident ord agents) s))
    hnx hst n (by
      intro m _ d' pop hi
      rw [steps_succ']
      exact stepRel_seq _ _ (inv_nodup hi) _ (entries_due hi))
  refine ⟨σ, nm, h1, h2, fun m hm => ?_⟩
  obtain ⟨d', h4⟩ := h3 m hm
  exact inv_follows L h4

/-- Without end condition the loop of the driver makes all steps. -/
theorem loop_steps (zero : T) (adv : T → T) (tb : TieBreak T (B × Bool)) (agents : List B) (n : Nat) :
    ∀ w : World T (B × Bool) (State F B),
      Driver.loop (sim zero adv tb ops act mk rnd ident ord agents) n w = steps (model adv tb ops act mk rnd ident ord) n w := by
  induction n with
  | zero => intro w; rfl
  | succ n ih =>
    intro w
    rw [Driver.loop]
    exact (if_neg (show ¬ (false = true) by decide)).trans (ih _)

/-- **C221**, for `simulate!` with any number of repetitions of `n` steps, `n` positive, whose `init` resets neither the field nor the
number of the next newborn: every repetition ends with a generation `n` of the initial agents; nobody of an earlier repetition is
left, and no identity of a newborn of an earlier repetition is given again. -/
theorem C221_repetitions (L : Laws ops ident ok view same shows Holds) (R : Lawful act mk ident ok same) (zero : T) (adv : T → T)
    (tb : TieBreak T (B × Bool)) (agents : List B) (hok : ∀ b ∈ agents, ok b) (hid : (agents.map ident).Nodup) {s : State F B}
    (hlt : ∀ b ∈ agents, ident b < s.next) (hb : s.born = []) {f : F} {r : List B} (hf : s.field = some f) (hh : Holds f r []) (n : Nat)
    (hn : 0 < n) (reps : Nat) :
    (Driver.runReps (sim zero adv tb ops act mk rnd ident ord agents) n reps s).length = reps ∧
    ∀ (j : Nat) (w : World T (B × Bool) (State F B)),
      (Driver.runReps (sim zero adv tb ops act mk rnd ident ord agents) n reps s)[j]? = some w →
      ∃ (draws next : Nat) (ws : Nat → World T (B × Bool) (State F B)), ws n = w ∧
        Grows shows act mk ident view rnd ord adv zero agents draws next n ws ∧
        (j = 0 → next = s.next) ∧
        ∀ (i : Nat) (v : World T (B × Bool) (State F B)), i + 1 = j →
          (Driver.runReps (sim zero adv tb ops act mk rnd ident ord agents) n reps s)[i]? = some v → next = v.state.next := by
  induction reps generalizing s f r with
  | zero => exact ⟨rfl, by intro j w h; simp [Driver.runReps] at h⟩
  | succ reps ih =>
    have hst := inv_start (act := act) (mk := mk) (rnd := rnd) (ord := ord) L zero adv tb hok hid hlt hb hf hh
    have hnx := start_next hst
    obtain ⟨σ, nm, h1, h2, h3⟩ := inv_steps L R (adv := adv) (tb := tb)
      (fun m => steps (model adv tb ops act mk rnd ident ord) m (Driver.start (sim zero adv tb ops act mk rnd ident ord agents) s))
      hnx hst n (by
        intro m _ d' pop hi
        rw [steps_succ']
        exact stepRel_seq _ _ (inv_nodup hi) _ (entries_due hi))
    have hrep : Driver.runRep (sim zero adv tb ops act mk rnd ident ord agents) n s =
        steps (model adv tb ops act mk rnd ident ord) n (Driver.start (sim zero adv tb ops act mk rnd ident ord agents) s) :=
      loop_steps zero adv tb agents n _
    obtain ⟨d', hi⟩ := h3 n (le_refl _)
    rw [← hrep] at hi
    obtain ⟨f', r', wr, k1, k2, k3⟩ := hi.field
    rw [if_neg (by omega)] at k3
    rw [k3.2] at k2
    obtain ⟨i1, i2⟩ := ih (s := (Driver.runRep (sim zero adv tb ops act mk rnd ident ord agents) n s).state)
      (fun b hb => lt_of_lt_of_le (hlt b hb) hi.next) hi.nobody k1 k2
    refine ⟨by rw [Driver.runReps, List.length_cons, i1], ?_⟩
    intro j w hw
    rw [Driver.runReps] at hw ⊢
    cases j with
    | zero =>
      obtain rfl := Option.some.inj hw
      refine ⟨s.draws, s.next, _, hrep.symm, C221_generations L R zero adv tb agents hok hid hlt hb hf hh n, fun _ => rfl, ?_⟩
      intro i v hiv
      omega
    | succ j =>
      obtain ⟨d, nx, ws, g1, g2, g3, g4⟩ := i2 j w hw
      refine ⟨d, nx, ws, g1, g2, by intro h; omega, ?_⟩
      intro i v hij hv
      cases i with
      | zero =>
        obtain rfl := Option.some.inj hv
        exact g3 (by omega)
      | succ i => exact g4 i v (by omega) hv

/-- **C221**, with the feature `parallel`: the same for every number of threads and every interleaving of the workers. -/
theorem C221_parallel_generations (L : Laws ops ident ok view same shows Holds) (R : Lawful act mk ident ok same) (zero : T)
    (adv : T → T) (tb : TieBreak T (B × Bool)) (agents : List B) (hok : ∀ b ∈ agents, ok b) (hid : (agents.map ident).Nodup)
    {s : State F B} (hlt : ∀ b ∈ agents, ident b < s.next) (hb : s.born = []) {f : F} {r : List B} (hf : s.field = some f)
    (hh : Holds f r []) (threads n : Nat) (w : World T (B × Bool) (State F B))
    (hs : ParSteps (model adv tb ops act mk rnd ident ord) threads n
      (Driver.start (sim zero adv tb ops act mk rnd ident ord agents) s) w) :
    ∃ ws, ws n = w ∧ Grows shows act mk ident view rnd ord adv zero agents s.draws s.next n ws := by
  obtain ⟨ws, h1, h2, h3⟩ := Sync.parSteps_worlds hs
  have hst := inv_start (act := act) (mk := mk) (rnd := rnd) (ord := ord) L zero adv tb hok hid hlt hb hf hh
  have hnx := start_next hst
  rw [← h1] at hst hnx
  obtain ⟨σ, nm, k1, k2, k3⟩ := inv_steps L R (adv := adv) (tb := tb) ws hnx hst n
    (fun m hm _ pop hi => stepRel_par _ threads _ _ (inv_nodup hi) _ (entries_due hi) (h3 m hm))
  refine ⟨ws, h2, σ, nm, k1, k2, fun m hm => ?_⟩
  obtain ⟨d', h4⟩ := k3 m hm
  exact inv_follows L h4

/-- **C221**, the steps with the feature `parallel` can be completed as long as somebody lives. -/
theorem C221_parallel_completes (L : Laws ops ident ok view same shows Holds) (R : Lawful act mk ident ok same) (zero : T)
    (adv : T → T) (tb : TieBreak T (B × Bool)) (agents : List B) (hok : ∀ b ∈ agents, ok b) (hid : (agents.map ident).Nodup)
    {s : State F B} (hlt : ∀ b ∈ agents, ident b < s.next) (hb : s.born = []) {f : F} {r : List B} (hf : s.field = some f)
    (hh : Holds f r []) (threads n : Nat) (ht : 0 < threads)
    (hlive : ∀ (σ : Nat → Nat → Nat) (nm : Nat → Nat → Nat → Nat), ∀ m < n, genAt act mk ident view (fun m i => rnd (σ m i)) nm agents m ≠ []) :
    ∃ w, ParSteps (model adv tb ops act mk rnd ident ord) threads n
      (Driver.start (sim zero adv tb ops act mk rnd ident ord agents) s) w := by
  induction n with
  | zero => exact ⟨_, .zero _⟩
  | succ n ih =>
    obtain ⟨w, hw⟩ := ih (fun σ nm m hm => hlive σ nm m (by omega))
    obtain ⟨ws, rfl, σ, nm, _, _, hfo⟩ := C221_parallel_generations L R zero adv tb agents hok hid hlt hb hf hh threads n w hw
    have hne : (preStep (model adv tb ops act mk rnd ident ord) (ws n)).sched.events ≠ [] := by
      rw [(preStep_model adv tb _).1]
      intro he
      have h1 := (hfo n (le_refl _)).agents
      rw [he] at h1
      have h2 := h1.symm.eq_nil
      rw [List.map_eq_nil_iff] at h2
      exact hlive σ nm n (by omega) h2
    obtain ⟨w', h⟩ := parStep_exists _ threads ht (ws n) hne
    exact ⟨w', .succ hw h⟩

/-! ### C222 -/

variable [DecidableEq B] {actG : D → B → List (Option (List B)) → (B × Bool) × List C}

/-- **C222.** Populations on a `DenseGrid2D`. -/
theorem C222_dense_grid {loc : B → Loc} {nbh : B → List Loc} {w h : Int} (hw : 0 ≤ w) (hh : 0 ≤ h)
    (R : Lawful actG mk ident (GridOk loc nbh w h) SameView) (zero : T) (adv : T → T) (tb : TieBreak T (B × Bool)) (agents : List B)
    (hok : ∀ b ∈ agents, GridOk loc nbh w h b) (hid : (agents.map ident).Nodup) (k : Nat) (hlt : ∀ b ∈ agents, ident b < k) (n : Nat) :
    Grows (GridShows DenseObject.getObjects loc w h) actG mk ident (gridView loc nbh) rnd ord adv zero agents 0 k n
      (fun m => steps (model adv tb (denseOps loc nbh) actG mk rnd ident ord) m
        (Driver.start (sim zero adv tb (denseOps loc nbh) actG mk rnd ident ord agents) ⟨DenseObject.new w h, 0, k, []⟩)) := by
  have hnew : ∃ g, (DenseObject.new w h : Option (DenseObject.OGrid B)) = some g := by
    unfold DenseObject.new
    rw [if_neg (by have := mul_nonneg hw hh; omega)]
    exact ⟨_, rfl⟩
  obtain ⟨g, hg⟩ := hnew
  have hs := DenseObject.shows_new hg
  rw [show ((w.natAbs : Int)) = w by omega, show ((h.natAbs : Int)) = h by omega] at hs
  exact C221_generations (denseLaws ident loc nbh w h) R zero adv tb agents hok hid (s := ⟨DenseObject.new w h, 0, k, []⟩) hlt rfl
    (r := []) hg hs n

/-- **C222.** Populations on a `SparseGrid2D`. -/
theorem C222_sparse_grid {loc : B → Loc} {nbh : B → List Loc} {w h : Int}
    (R : Lawful actG mk ident (GridOk loc nbh w h) SameView) (zero : T) (adv : T → T) (tb : TieBreak T (B × Bool)) (agents : List B)
    (hok : ∀ b ∈ agents, GridOk loc nbh w h b) (hid : (agents.map ident).Nodup) (k : Nat) (hlt : ∀ b ∈ agents, ident b < k) (n : Nat) :
    Grows (GridShows (fun g l => some (SparseObject.getObjects g l)) loc w h) actG mk ident (gridView loc nbh) rnd ord adv zero agents
      0 k n
      (fun m => steps (model adv tb (sparseOps loc nbh) actG mk rnd ident ord) m
        (Driver.start (sim zero adv tb (sparseOps loc nbh) actG mk rnd ident ord agents)
          ⟨some (SparseObject.new w h), 0, k, []⟩)) :=
  C221_generations (sparseLaws ident loc nbh w h) R zero adv tb agents hok hid (s := ⟨some (SparseObject.new w h), 0, k, []⟩) hlt rfl
    (r := []) rfl
    ⟨⟨HMap.WF_nil, HMap.WF_nil⟩, fun l => by simp [SparseObject.new, SparseObject.entry, atLoc],
      fun l => by simp [SparseObject.new, SparseObject.entry, atLoc]⟩ n

/-- **C222.** Populations on either grid with the feature `parallel`. -/
theorem C222_parallel_grid {loc : B → Loc} {nbh : B → List Loc} {w h : Int}
    (R : Lawful actG mk ident (GridOk loc nbh w h) SameView) {cpus : Nat} (hc : DBDashMap.shardAmount cpus ≤ 2 ^ 64)
    (hashO : Nat → Nat) (hashL : Loc → Nat) (zero : T) (adv : T → T) (tb : TieBreak T (B × Bool)) (agents : List B)
    (hok : ∀ b ∈ agents, GridOk loc nbh w h b) (hid : (agents.map ident).Nodup) (k : Nat) (hlt : ∀ b ∈ agents, ident b < k)
    (threads n : Nat) (wd : World T (B × Bool) (State (ParGrid.OGrid B Nat) B))
    (hs : ParSteps (model adv tb (parGridOps ident loc nbh) actG mk rnd ident ord) threads n
      (Driver.start (sim zero adv tb (parGridOps ident loc nbh) actG mk rnd ident ord agents)
        ⟨some (ParGrid.OGrid.new cpus hashO hashL w h), 0, k, []⟩) wd) :
    ∃ ws, ws n = wd ∧
      Grows (GridShows ParGrid.OGrid.getObjects loc w h) actG mk ident (gridView loc nbh) rnd ord adv zero agents 0 k n ws :=
  C221_parallel_generations (parGridLaws ident loc nbh w h) R zero adv tb agents hok hid
    (s := ⟨some (ParGrid.OGrid.new cpus hashO hashL w h), 0, k, []⟩) hlt rfl (r := []) rfl
    ⟨_, _, (ParGrid.oshows_new hc hashO hashL w h).congr rfl rfl rfl rfl⟩ threads n wd hs

variable {actF : D → B → List B → (B × Bool) × List C}

/-- **C222.** Populations in a `Field2D` of any positive size and discretization, toroidal or not. -/
theorem C222_field {width height d : ℚ} (hw : 0 < width) (hh : 0 < height) (hd : 0 < d) (tor : Bool) {loc : B → Pos} {reach : B → ℚ}
    (R : Lawful actF mk ident (fun b => Field2D.InField width height (loc b)) List.Perm) (zero : T) (adv : T → T)
    (tb : TieBreak T (B × Bool)) (agents : List B) (hok : ∀ b ∈ agents, Field2D.InField width height (loc b))
    (hid : (agents.map ident).Nodup) (k : Nat) (hlt : ∀ b ∈ agents, ident b < k) (n : Nat) :
    Grows (FieldShows Field2D.getObjects loc width height d) actF mk ident (fieldView width height d tor loc reach) rnd ord adv zero
      agents 0 k n
      (fun m => steps (model adv tb (fieldOps loc reach) actF mk rnd ident ord) m
        (Driver.start (sim zero adv tb (fieldOps loc reach) actF mk rnd ident ord agents)
          ⟨some (Field2D.new width height d tor), 0, k, []⟩)) :=
  C221_generations (fieldLaws ident hw hh hd tor loc reach) R zero adv tb agents hok hid
    (s := ⟨some (Field2D.new width height d tor), 0, k, []⟩) hlt rfl (r := []) rfl
    ⟨by simp, by simp, Field2D.shows_new tor hw hh hd⟩ n

/-- **C222.** The same with the feature `parallel`. -/
theorem C222_parallel_field {width height d : ℚ} (hw : 0 < width) (hh : 0 < height) (hd : 0 < d) (tor : Bool) {loc : B → Pos}
    {reach : B → ℚ} (R : Lawful actF mk ident (fun b => Field2D.InField width height (loc b)) List.Perm) {cpus : Nat}
    (hc : DBDashMap.shardAmount cpus ≤ 2 ^ 64) (hashO : Nat → Nat) (hashL : Loc → Nat) (zero : T) (adv : T → T)
    (tb : TieBreak T (B × Bool)) (agents : List B) (hok : ∀ b ∈ agents, Field2D.InField width height (loc b))
    (hid : (agents.map ident).Nodup) (k : Nat) (hlt : ∀ b ∈ agents, ident b < k) (threads n : Nat)
    (wd : World T (B × Bool) (State (ParField2D.PField B Nat) B))
    (hs : ParSteps (model adv tb (parFieldOps ident loc reach) actF mk rnd ident ord) threads n
      (Driver.start (sim zero adv tb (parFieldOps ident loc reach) actF mk rnd ident ord agents)
        ⟨some (ParField2D.PField.new cpus hashO hashL width height d tor), 0, k, []⟩) wd) :
    ∃ ws, ws n = wd ∧
      Grows (FieldShows ParField2D.PField.getObjects loc width height d) actF mk ident (fieldView width height d tor loc reach) rnd ord
        adv zero agents 0 k n ws :=
  C221_parallel_generations (parFieldLaws ident hw hh hd tor loc reach) R zero adv tb agents hok hid
    (s := ⟨some (ParField2D.PField.new cpus hashO hashL width height d tor), 0, k, []⟩) hlt rfl (r := []) rfl
    ⟨by simp, by simp, ParField2D.fshows_new hc hashO hashL width height d tor⟩ threads n wd hs

/-! ### A concrete model -/

namespace Demo

/-- An amoeba on a ring of five cells: its identity and where it is. -/
abbrev Amoeba := Nat × Int

/-- Where it is. -/
def loc (b : Amoeba) : Loc := ⟨b.2 % 5, 0⟩

/-- It looks at its own cell. -/
def nbh (b : Amoeba) : List Loc := [loc b]

/-- An amoeba that is alone in its cell stays and puts a child into the next cell; one that is not dies. -/
def split (_ : Unit) (b : Amoeba) (v : List (Option (List Amoeba))) : (Amoeba × Bool) × List Int :=
  if (v.map (fun o => (o.getD []).length)).sum = 1 then ((b, true), [b.2 + 1]) else ((b, false), [])

/-- A child. -/
def child (k : Nat) (p : Int) : Amoeba := (k, p)

theorem ok_all (b : Amoeba) : GridOk loc nbh 5 1 b := by
  have h : InRange 5 1 (loc b) := by
    unfold loc InRange
    refine ⟨?_, ?_, ?_, ?_⟩ <;> dsimp only <;> omega
  refine ⟨h, ?_⟩
  intro l hl
  unfold nbh at hl
  rw [List.mem_singleton] at hl
  rw [hl]
  exact h

theorem lawful : Lawful split child Prod.fst (GridOk loc nbh 5 1) SameView where
  named _ _ := rfl
  ident _ b v := by unfold split; split <;> rfl
  ok _ _ _ _ _ := ok_all _
  kids _ _ _ _ _ _ _ := ok_all _
  same x b {v v'} h := by
    have : v.map (fun o => (o.getD []).length) = v'.map (fun o => (o.getD []).length) := by
      induction h with
      | nil => rfl
      | cons h _ ih =>
        rw [List.map_cons, List.map_cons, ih]
        congr 1
        cases h with
        | none => rfl
        | some h => exact h.length_eq
    unfold split
    rw [this]

/-- Two amoebas. -/
def agents : List Amoeba := [(7, 0), (3, 2)]

example : (∀ b ∈ agents, GridOk loc nbh 5 1 b) ∧ (agents.map Prod.fst).Nodup ∧ ∀ b ∈ agents, b.1 < 10 :=
  ⟨fun b _ => ok_all b, by decide, by decide⟩

/-- The run: after one step four amoebas, after two the two in the middle of the row have met children and everybody who is alone
has a child. -/
example :
    ((steps (model (· + 1) (fun _ _ => 0) (denseOps loc nbh) split child (fun _ => ()) Prod.fst (fun _ => 0)) 1
      (Driver.start (sim (0 : Nat) (· + 1) (fun _ _ => 0) (denseOps loc nbh) split child (fun _ => ()) Prod.fst (fun _ => 0) agents)
        ⟨DenseObject.new 5 1, 0, 10, []⟩)).sched.events.map (fun e => (e.1.id, e.1.agent.1, e.2.time))).Perm
      [(0, (7, 0), 1), (1, (3, 2), 1), (2, (10, 1), 1), (3, (11, 3), 1)] ∧
    ((steps (model (· + 1) (fun _ _ => 0) (denseOps loc nbh) split child (fun _ => ()) Prod.fst (fun _ => 0)) 2
      (Driver.start (sim (0 : Nat) (· + 1) (fun _ _ => 0) (denseOps loc nbh) split child (fun _ => ()) Prod.fst (fun _ => 0) agents)
        ⟨DenseObject.new 5 1, 0, 10, []⟩)).sched.events.length = 8) ∧
    ((steps (model (· + 1) (fun _ _ => 0) (denseOps loc nbh) split child (fun _ => ()) Prod.fst (fun _ => 0)) 3
      (Driver.start (sim (0 : Nat) (· + 1) (fun _ _ => 0) (denseOps loc nbh) split child (fun _ => ()) Prod.fst (fun _ => 0) agents)
        ⟨DenseObject.new 5 1, 0, 10, []⟩)).sched.events.map (fun e => e.1.agent.1.2)).length = 4 := by
  decide +kernel

/-- A rule in a `Field2D`: whoever is alone has a child at the same place. -/
example : Lawful (fun (_ : Unit) (b : Nat × Pos) (v : List (Nat × Pos)) => ((b, true), if v.length = 1 then [b.2] else []))
    (fun k p => (k, p)) Prod.fst (fun b => Field2D.InField 4 4 b.2) List.Perm where
  named _ _ := rfl
  ident _ _ _ := rfl
  ok _ _ _ h _ := h
  kids _ b v _ h c hc := by
    dsimp only at hc
    split at hc
    · rw [List.mem_singleton] at hc; rw [hc]; exact h
    · cases hc
  same _ _ {_ _} h := by rw [h.length_eq]

/-- With a rule by which nobody dies somebody lives. -/
example (n : Nat) : ∀ (σ : Nat → Nat → Nat) (nm : Nat → Nat → Nat → Nat), ∀ m < n,
    genAt (fun (_ : Unit) (b : Amoeba) (_ : List (Option (List Amoeba))) => ((b, true), [b.2])) child Prod.fst (gridView loc nbh)
      (fun m i => (fun _ => ()) (σ m i)) nm agents m ≠ [] := by
  intro σ nm m _
  induction m with
  | zero => exact (by decide : agents ≠ [])
  | succ m ih =>
    obtain ⟨b, hb⟩ := List.exists_mem_of_ne_nil _ (ih (by omega))
    rw [genAt]
    unfold nextGen
    exact List.ne_nil_of_mem (List.mem_flatMap.2 ⟨b, hb, List.mem_append.2 (Or.inl (by simp; rfl))⟩)

end Demo

end Verif.Births
