import Verif.Lemmas.Arranged
import Verif.Props.Synchronous

/-!
Simulations whose rule depends on the order in which an agent sees the others (C184), as every sum of floats over the neighbours does. The theorems for rules that do
not are in Props/Synchronous.lean (C141-C144).
-/

namespace Verif.Sync

open Schedule
open Grid (Loc InRange)
open Torus (Pos)
open Flockers (StepRel stepRel_seq stepRel_par ParSteps)

variable {T F B V D : Type} [LinearOrder T] {ops : FieldOps F B V} {ident : B → Nat} {ok : B → Prop} {okD : D → Prop} {view : List B → B → V}
  {same : V → V → Prop} {shows : F → List B → Prop} {Holds : F → List B → List B → Prop} {act : D → B → V → B × Bool}
  {rnd : Nat → D} {ord : Nat → Int}

theorem seq_arranged (L : Laws ops ident ok view same shows Holds) (R : Rule act ident ok okD view same) (hD : ∀ k, okD (rnd k))
    (htrans : ∀ {a b c}, same a b → same b c → same a c) [Inhabited V] (zero : T) (adv : T → T)
    (tb : TieBreak T (B × Bool)) (agents : List B) (hok : ∀ b ∈ agents, ok b) (hid : (agents.map ident).Nodup) {s : State F} {f : F}
    {r : List B} (hf : s.field = some f) (hh : Holds f r []) (n : Nat) :
    ∃ pops, Rounds act view same rnd (numbered agents) s.draws n pops ∧ ∀ m ≤ n, ∃ d',
      Inv ident ok Holds ord (adv^[m] zero) m d' (pops m)
        (steps (model adv tb ops act rnd) m (Driver.start (sim zero adv tb ops act rnd agents ord) s)) := by
  refine inv_steps_arranged L R hD htrans (adv := adv) (tb := tb)
    (fun m => steps (model adv tb ops act rnd) m (Driver.start (sim zero adv tb ops act rnd agents ord) s))
    (inv_start L zero adv tb hok hid hf hh) n ?_
  intro m _ d' pop hi
  rw [steps_succ']
  refine stepRel_seq _ _ (inv_nodup hi) (adv^[m] zero) ?_
  rw [(preStep_model adv tb _).1]
  intro e he
  obtain ⟨b, _, rfl⟩ := List.mem_map.1 (hi.agents.mem_iff.1 he)
  rfl

/-- **C184.** On every lawful field, with every rule that keeps proper agents proper, whatever orderings the agents have and whatever the order in which they run, after
every number `m` of steps the scheduled agents and the published field are the population of `m` rounds in which all agents act at once, each looking at the population of
the round before, in some arrangement; agents that die are gone, the others are proper; no step panics; no two turns use the same random value. -/
theorem C184_arranged (L : Laws ops ident ok view same shows Holds) (R : Rule act ident ok okD view same) (hD : ∀ k, okD (rnd k))
    (htrans : ∀ {a b c}, same a b → same b c → same a c) [Inhabited V] (zero : T) (adv : T → T)
    (tb : TieBreak T (B × Bool)) (agents : List B) (hok : ∀ b ∈ agents, ok b) (hid : (agents.map ident).Nodup) {s : State F} {f : F}
    {r : List B} (hf : s.field = some f) (hh : Holds f r []) (n : Nat) :
    ∃ pops, Rounds act view same rnd (numbered agents) s.draws n pops ∧ ∀ m ≤ n,
      Follows shows ord (adv^[m] zero) m (pops m) (steps (model adv tb ops act rnd) m (Driver.start (sim zero adv tb ops act rnd agents ord) s)) ∧
      ∀ p ∈ pops m, ok p.2 := by
  obtain ⟨pops, h1, h2⟩ := seq_arranged L R hD htrans zero adv tb agents hok hid hf hh n
  refine ⟨pops, h1, fun m hm => ?_⟩
  obtain ⟨d', h3⟩ := h2 m hm
  exact ⟨inv_follows L h3, h3.inside⟩

/-- **C184**, with the feature `parallel`: for every number of threads and every interleaving of the workers, any number of completed steps is the same kind of run. -/
theorem C184_parallel_arranged (L : Laws ops ident ok view same shows Holds) (R : Rule act ident ok okD view same) (hD : ∀ k, okD (rnd k))
    (htrans : ∀ {a b c}, same a b → same b c → same a c) [Inhabited V] (zero : T)
    (adv : T → T) (tb : TieBreak T (B × Bool)) (agents : List B) (hok : ∀ b ∈ agents, ok b) (hid : (agents.map ident).Nodup)
    {s : State F} {f : F} {r : List B} (hf : s.field = some f) (hh : Holds f r []) (threads n : Nat)
    (w : World T (B × Bool) (State F))
    (hs : ParSteps (model adv tb ops act rnd) threads n (Driver.start (sim zero adv tb ops act rnd agents ord) s) w) :
    ∃ pops, Rounds act view same rnd (numbered agents) s.draws n pops ∧
      Follows shows ord (adv^[n] zero) n (pops n) w ∧ ∀ p ∈ pops n, ok p.2 := by
  obtain ⟨ws, h1, h2, h3⟩ := parSteps_worlds hs
  have hst := inv_start (act := act) (rnd := rnd) (ord := ord) L zero adv tb hok hid hf hh
  rw [← h1] at hst
  obtain ⟨pops, k1, k2⟩ := inv_steps_arranged L R hD htrans (adv := adv) (tb := tb) ws hst n
    (fun m hm _ pop hi => stepRel_par _ threads _ _ (inv_nodup hi) (h3 m hm))
  refine ⟨pops, k1, ?_⟩
  obtain ⟨d', h4⟩ := k2 n (le_refl _)
  rw [h2] at h4
  exact ⟨inv_follows L h4, h4.inside⟩

/-- **C184**, the steps with the feature `parallel` can be completed as long as an agent lives. -/
theorem C184_parallel_steps_complete (L : Laws ops ident ok view same shows Holds) (R : Rule act ident ok okD view same) (hD : ∀ k, okD (rnd k))
    (htrans : ∀ {a b c}, same a b → same b c → same a c) [Inhabited V] (zero : T)
    (adv : T → T) (tb : TieBreak T (B × Bool)) (agents : List B) (hok : ∀ b ∈ agents, ok b) (hid : (agents.map ident).Nodup)
    {s : State F} {f : F} {r : List B} (hf : s.field = some f) (hh : Holds f r []) (threads n : Nat) (ht : 0 < threads)
    (hlive : ∀ m < n, ∀ pops, Rounds act view same rnd (numbered agents) s.draws m pops → pops m ≠ []) :
    ∃ w, ParSteps (model adv tb ops act rnd) threads n (Driver.start (sim zero adv tb ops act rnd agents ord) s) w := by
  induction n with
  | zero => exact ⟨_, .zero _⟩
  | succ n ih =>
    obtain ⟨w, hw⟩ := ih (fun m hm => hlive m (by omega))
    obtain ⟨pops, hr, hfo, _⟩ := C184_parallel_arranged L R hD htrans zero adv tb agents hok hid hf hh threads n w hw
    have hne : (preStep (model adv tb ops act rnd) w).sched.events ≠ [] := by
      rw [(preStep_model adv tb _).1]
      intro he
      have h1 := hfo.agents
      rw [he] at h1
      have h2 := h1.symm.eq_nil
      rw [List.map_eq_nil_iff] at h2
      exact hlive n (by omega) pops hr h2
    obtain ⟨w', h⟩ := parStep_exists _ threads ht w hne
    exact ⟨w', .succ hw h⟩

/-- **C184**, for `simulate!` with any number of repetitions of `n` steps, `n` positive, whose `init` does not reset the field: every repetition ends with the population of
`n` rounds from the initial agents, and no agent of an earlier repetition is left. -/
theorem C184_repetitions (L : Laws ops ident ok view same shows Holds) (R : Rule act ident ok okD view same) (hD : ∀ k, okD (rnd k))
    (htrans : ∀ {a b c}, same a b → same b c → same a c) [Inhabited V] (zero : T) (adv : T → T)
    (tb : TieBreak T (B × Bool)) (agents : List B) (hok : ∀ b ∈ agents, ok b) (hid : (agents.map ident).Nodup) {s : State F} {f : F}
    {r : List B} (hf : s.field = some f) (hh : Holds f r []) (n : Nat) (hn : 0 < n) (reps : Nat) :
    (Driver.runReps (sim zero adv tb ops act rnd agents ord) n reps s).length = reps ∧
    ∀ w ∈ Driver.runReps (sim zero adv tb ops act rnd agents ord) n reps s,
      ∃ k pops, Rounds act view same rnd (numbered agents) k n pops ∧ Follows shows ord (adv^[n] zero) n (pops n) w ∧ ∀ p ∈ pops n, ok p.2 := by
  induction reps generalizing s f r with
  | zero => exact ⟨rfl, by simp [Driver.runReps]⟩
  | succ reps ih =>
    obtain ⟨pops, h1, h2⟩ := seq_arranged (ord := ord) (rnd := rnd) L R hD htrans zero adv tb agents hok hid hf hh n
    obtain ⟨d', hi⟩ := h2 n (le_refl _)
    rw [← loop_steps zero adv tb agents n] at hi
    obtain ⟨f', r', wr, k1, k2, k3⟩ := hi.field
    rw [if_neg (by omega)] at k3
    rw [k3.2] at k2
    obtain ⟨i1, i2⟩ := ih (s := (Driver.runRep (sim zero adv tb ops act rnd agents ord) n s).state) k1 k2
    refine ⟨by rw [Driver.runReps, List.length_cons, i1], ?_⟩
    intro w hwm
    rw [Driver.runReps, List.mem_cons] at hwm
    rcases hwm with rfl | hwm
    · exact ⟨s.draws, pops, h1, inv_follows L hi, hi.inside⟩
    · exact i2 w hwm

theorem sameView_trans {a b c : List (Option (List B))} (h : SameView a b) (h' : SameView b c) : SameView a c := by
  induction h generalizing c with
  | nil => cases h'; exact .nil
  | cons h _ ih =>
    cases h' with
    | cons k ks =>
      refine .cons ?_ (ih ks)
      cases h with
      | none => exact k
      | some h =>
        cases k with
        | some k => exact .some (h.trans k)

variable [DecidableEq B] {actG : D → B → List (Option (List B)) → B × Bool} {actF : D → B → List B → B × Bool}

/-- **C184.** Agents on a `DenseGrid2D`. -/
theorem C184_dense_grid {loc : B → Loc} {nbh : B → List Loc} {w h : Int} (hw : 0 ≤ w) (hh : 0 ≤ h)
    (R : Rule actG ident (GridOk loc nbh w h) okD (gridView loc nbh) SameView) (hD : ∀ k, okD (rnd k)) (zero : T) (adv : T → T) (tb : TieBreak T (B × Bool))
    (agents : List B) (hok : ∀ b ∈ agents, GridOk loc nbh w h b) (hid : (agents.map ident).Nodup) (n : Nat) :
    ∃ pops, Rounds actG (gridView loc nbh) SameView rnd (numbered agents) 0 n pops ∧ ∀ m ≤ n,
      Follows (GridShows DenseObject.getObjects loc w h) ord (adv^[m] zero) m (pops m)
        (steps (model adv tb (denseOps loc nbh) actG rnd) m
          (Driver.start (sim zero adv tb (denseOps loc nbh) actG rnd agents ord) ⟨DenseObject.new w h, 0⟩)) ∧
      ∀ p ∈ pops m, GridOk loc nbh w h p.2 := by
  have hnew : ∃ g, (DenseObject.new w h : Option (DenseObject.OGrid B)) = some g := by
    unfold DenseObject.new
    rw [if_neg (by have := mul_nonneg hw hh; omega)]
    exact ⟨_, rfl⟩
  obtain ⟨g, hg⟩ := hnew
  have hs := DenseObject.shows_new hg
  rw [show ((w.natAbs : Int)) = w by omega, show ((h.natAbs : Int)) = h by omega] at hs
  exact C184_arranged (denseLaws ident loc nbh w h) R hD sameView_trans zero adv tb agents hok hid (s := ⟨DenseObject.new w h, 0⟩) (r := []) hg hs n

/-- **C184.** Agents on either grid with the feature `parallel`. -/
theorem C184_parallel_grid {loc : B → Loc} {nbh : B → List Loc} {w h : Int}
    (R : Rule actG ident (GridOk loc nbh w h) okD (gridView loc nbh) SameView) (hD : ∀ k, okD (rnd k)) {cpus : Nat} (hc : DBDashMap.shardAmount cpus ≤ 2 ^ 64)
    (hashO : Nat → Nat) (hashL : Loc → Nat) (zero : T) (adv : T → T) (tb : TieBreak T (B × Bool)) (agents : List B)
    (hok : ∀ b ∈ agents, GridOk loc nbh w h b) (hid : (agents.map ident).Nodup) (threads n : Nat)
    (wd : World T (B × Bool) (State (ParGrid.OGrid B Nat)))
    (hs : ParSteps (model adv tb (parGridOps ident loc nbh) actG rnd) threads n
      (Driver.start (sim zero adv tb (parGridOps ident loc nbh) actG rnd agents ord)
        ⟨some (ParGrid.OGrid.new cpus hashO hashL w h), 0⟩) wd) :
    ∃ pops, Rounds actG (gridView loc nbh) SameView rnd (numbered agents) 0 n pops ∧
      Follows (GridShows ParGrid.OGrid.getObjects loc w h) ord (adv^[n] zero) n (pops n) wd ∧ ∀ p ∈ pops n, GridOk loc nbh w h p.2 :=
  C184_parallel_arranged (parGridLaws ident loc nbh w h) R hD sameView_trans zero adv tb agents hok hid
    (s := ⟨some (ParGrid.OGrid.new cpus hashO hashL w h), 0⟩) (r := []) rfl
    ⟨_, _, (ParGrid.oshows_new hc hashO hashL w h).congr rfl rfl rfl rfl⟩ threads n wd hs

/-! ### A rule that depends on the order -/

namespace Demo

/-- A walker goes by the number of the walker it sees first in its cell, plus one. -/
def follow (_ : Unit) (b : Walker) (v : List (Option (List Walker))) : Walker × Bool :=
  ((b.1, b.2 + (((v.map (fun o => ((o.getD []).map Prod.fst).headD 0)).headD 0 : Nat) : Int) + 1), true)

theorem rule : Rule follow (fun b => b.1) (GridOk loc nbh 5 1) (fun _ => True) (gridView loc nbh) SameView where
  ident _ _ _ := rfl
  ok x b r v _ _ _ _ _ := by
    have h : InRange 5 1 (loc (follow x b v).1) := by
      unfold loc InRange
      refine ⟨?_, ?_, ?_, ?_⟩ <;> dsimp only <;> omega
    refine ⟨h, ?_⟩
    intro l hl
    unfold nbh at hl
    rw [List.mem_singleton] at hl
    rw [hl]
    exact h

/-- Two walkers in one cell. -/
def pair : List Walker := [(0, 0), (1, 0)]

/-- The theorem applies to this rule; that of C141 does not: the rule tells two arrangements of the same bag apart. -/
example : ¬ Lawful follow (fun b => b.1) (GridOk loc nbh 5 1) SameView := by
  intro h
  have := h.same () (0, 0) (v := [some [(0, 0), (1, 0)]]) (v' := [some [(1, 0), (0, 0)]]) (.cons (.some (List.Perm.swap _ _ _)) .nil)
  exact absurd this (by decide)

example : (∀ b ∈ pair, GridOk loc nbh 5 1 b) ∧ (pair.map (fun b => b.1)).Nodup := by
  refine ⟨?_, by decide⟩
  intro b hb
  have h : InRange 5 1 (loc b) := by
    unfold loc InRange
    refine ⟨?_, ?_, ?_, ?_⟩ <;> dsimp only <;> omega
  refine ⟨h, ?_⟩
  intro l hl
  unfold nbh at hl
  rw [List.mem_singleton] at hl
  rw [hl]
  exact h

end Demo

open Demo in
/-- **C184**, the order does matter for such a rule: the population after two steps depends on the order in which agents due at the same time with the same ordering run. -/
theorem C184_order_matters :
    ¬ ((steps (model (· + 1) (fun _ _ => 0) (denseOps loc nbh) follow (fun _ => ())) 2
        (Driver.start (sim (0 : Nat) (· + 1) (fun _ _ => 0) (denseOps loc nbh) follow (fun _ => ()) pair (fun _ => 0))
          ⟨DenseObject.new 5 1, 0⟩)).sched.events.map (fun e => e.1.agent)).Perm
      ((steps (model (· + 1) (fun _ _ => 1) (denseOps loc nbh) follow (fun _ => ())) 2
        (Driver.start (sim (0 : Nat) (· + 1) (fun _ _ => 1) (denseOps loc nbh) follow (fun _ => ()) pair (fun _ => 0))
          ⟨DenseObject.new 5 1, 0⟩)).sched.events.map (fun e => e.1.agent)) := by
  decide +kernel

end Verif.Sync
