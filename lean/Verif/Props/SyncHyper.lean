import Verif.Lemmas.SyncHyper
import Verif.Props.SyncNodes

/-!
Agents on a hypernetwork act at once (C216): programs in which every agent is a node, looks at the members of the hyperedges it belongs
to, decides, and puts its new record with `update_node`, or dies. `tb`, `adv` and `ord` are as in `Verif.Props.Synchronous`.
-/

namespace Verif.Sync

open Schedule
open Flockers (StepRel stepRel_seq stepRel_par ParSteps)
open Verif.HNetwork (HNet)

variable {T B D K : Type} [LinearOrder T] [DecidableEq K] {ident : B → K} {rnd : Nat → D} {ord : Nat → Int}
  {act : D → B → List (List B) → B × Bool}

/-- What an `HNetwork` shows of its nodes and hyperedges. -/
abbrev HNetShows (ident : B → K) (H : List (List Nat)) : HNet K B Unit Unit → List B → Prop :=
  HyperShows HNetwork.getObject (fun n b => ((HNetwork.getEdges ident n b).getD []).map (fun e => e.nodes)) H

/-- **C216.** Agents on an `HNetwork` made of any agents with different identities and any different hyperedges between them: after
every number of steps the scheduled agents and the published hypernetwork are those of the rounds in which all act at once, each with a
random value of its own, whatever the order of the agents within a step and whatever the order in which the sets yield the members. -/
theorem C216_hypernetwork (R : ∀ x b v, ident (act x b v).1 = ident b) (iter : List Nat → List Nat) (hi : ∀ h, (iter h).Perm h)
    (zero : T) (adv : T → T) (tb : TieBreak T (B × Bool)) (agents : List B) (hne : agents ≠ []) (hid : (agents.map ident).Nodup)
    (H : List (List Nat)) (hH : HyperOk agents.length H) (s : State (HNet K B Unit Unit)) (n : Nat) :
    ∃ σ : Nat → Nat → Nat,
      Fresh (fun m => living (nodesAt act (hyperView ident iter H) (fun m i => rnd (σ m i)) (allAlive agents) m)) s.draws n σ ∧
      ∀ m ≤ n, FollowsNodes (HNetShows ident H) ord (adv^[m] zero) m
        (nodesAt act (hyperView ident iter H) (fun m i => rnd (σ m i)) (allAlive agents) m)
        (steps (model adv tb (hnetOps ident iter) act rnd) m (Driver.start (simNodes zero adv tb (hnetOps ident iter) act rnd
          (HNetwork.run ident HNet.new (hyperCalls agents H)) agents ord) s)) := by
  obtain ⟨f, h1, h2⟩ := hholds_build (ident := ident) agents hid H hH
  exact nodes_seq (hnetLaws ident iter hi _ H) R zero adv tb hne hid h1 h2 s n

/-- **C216**, for `simulate!` with any number of repetitions whose `init` makes the hypernetwork anew. -/
theorem C216_repetitions (R : ∀ x b v, ident (act x b v).1 = ident b) (iter : List Nat → List Nat) (hi : ∀ h, (iter h).Perm h)
    (zero : T) (adv : T → T) (tb : TieBreak T (B × Bool)) (agents : List B) (hne : agents ≠ []) (hid : (agents.map ident).Nodup)
    (H : List (List Nat)) (hH : HyperOk agents.length H) (s : State (HNet K B Unit Unit)) (n reps : Nat) :
    (Driver.runReps (simNodes zero adv tb (hnetOps ident iter) act rnd (HNetwork.run ident HNet.new (hyperCalls agents H)) agents ord)
      n reps s).length = reps ∧
    ∀ w ∈ Driver.runReps (simNodes zero adv tb (hnetOps ident iter) act rnd (HNetwork.run ident HNet.new (hyperCalls agents H)) agents ord)
        n reps s,
      ∃ (k : Nat) (σ : Nat → Nat → Nat),
        Fresh (fun m => living (nodesAt act (hyperView ident iter H) (fun m i => rnd (σ m i)) (allAlive agents) m)) k n σ ∧
        FollowsNodes (HNetShows ident H) ord (adv^[n] zero) n
          (nodesAt act (hyperView ident iter H) (fun m i => rnd (σ m i)) (allAlive agents) n) w := by
  obtain ⟨f, h1, h2⟩ := hholds_build (ident := ident) agents hid H hH
  exact nodes_reps (hnetLaws ident iter hi _ H) R zero adv tb hne hid h1 h2 n reps s

/-- **C216**, with the feature `parallel` (which `HNetwork` does not look at; the state's lock makes every call of an agent atomic):
for every number of threads and every interleaving. -/
theorem C216_parallel_hypernetwork (R : ∀ x b v, ident (act x b v).1 = ident b) (iter : List Nat → List Nat)
    (hi : ∀ h, (iter h).Perm h) (zero : T) (adv : T → T) (tb : TieBreak T (B × Bool)) (agents : List B) (hne : agents ≠ [])
    (hid : (agents.map ident).Nodup) (H : List (List Nat)) (hH : HyperOk agents.length H) (s : State (HNet K B Unit Unit))
    (threads n : Nat) (w : World T (B × Bool) (State (HNet K B Unit Unit)))
    (hs : ParSteps (model adv tb (hnetOps ident iter) act rnd) threads n (Driver.start (simNodes zero adv tb (hnetOps ident iter) act rnd
      (HNetwork.run ident HNet.new (hyperCalls agents H)) agents ord) s) w) :
    ∃ σ : Nat → Nat → Nat,
      Fresh (fun m => living (nodesAt act (hyperView ident iter H) (fun m i => rnd (σ m i)) (allAlive agents) m)) s.draws n σ ∧
      FollowsNodes (HNetShows ident H) ord (adv^[n] zero) n
        (nodesAt act (hyperView ident iter H) (fun m i => rnd (σ m i)) (allAlive agents) n) w := by
  obtain ⟨f, h1, h2⟩ := hholds_build (ident := ident) agents hid H hH
  exact nodes_par (hnetLaws ident iter hi _ H) R zero adv tb hne hid h1 h2 s threads n w hs

omit [LinearOrder T] in
/-- A rule that does not look at the order of the members leads to the same nodes for every order in which the sets yield them. -/
theorem hyper_order {act : D → B → List (List B) → B × Bool}
    (hact : ∀ x b v v', List.Forall₂ List.Perm v v' → act x b v = act x b v') (iter iter' : List Nat → List Nat)
    (hi : ∀ h, (iter h).Perm h) (hi' : ∀ h, (iter' h).Perm h) (H : List (List Nat)) (r : Nat → Nat → D)
    (first : List (Nat × B × Bool)) (n : Nat) :
    nodesAt act (hyperView ident iter H) r first n = nodesAt act (hyperView ident iter' H) r first n := by
  induction n with
  | zero => rfl
  | succ n ih =>
    unfold nodesAt
    rw [ih]
    unfold nextNodes
    apply List.map_congr_left
    intro p _
    have hv : ∀ all b, List.Forall₂ List.Perm (hyperView ident iter H all b) (hyperView ident iter' H all b) := by
      intro all b
      unfold hyperView
      generalize hyperOf H _ = hs
      induction hs with
      | nil => exact .nil
      | cons h hs ih => exact .cons (((hi h).trans (hi' h).symm).filterMap _) ih
    rw [hact _ _ _ _ (hv _ _)]

/-- **C216.** A model whose rule uses neither randomness nor the order of the members of a hyperedge holds the same agents after every
number of steps, with and without the feature `parallel`, in every order of the agents and of the members. -/
theorem C216_agree (R : ∀ x b v, ident (act x b v).1 = ident b) (h0 : ∀ x x' b v, act x b v = act x' b v)
    (hact : ∀ x b v v', List.Forall₂ List.Perm v v' → act x b v = act x b v') (iter iter' : List Nat → List Nat)
    (hi : ∀ h, (iter h).Perm h) (hi' : ∀ h, (iter' h).Perm h) (zero : T) (adv : T → T) (tb tb' : TieBreak T (B × Bool))
    (agents : List B) (hne : agents ≠ []) (hid : (agents.map ident).Nodup) (H : List (List Nat)) (hH : HyperOk agents.length H)
    (s s' : State (HNet K B Unit Unit)) (threads n : Nat) (w : World T (B × Bool) (State (HNet K B Unit Unit)))
    (hs : ParSteps (model adv tb (hnetOps ident iter) act rnd) threads n (Driver.start (simNodes zero adv tb (hnetOps ident iter) act rnd
      (HNetwork.run ident HNet.new (hyperCalls agents H)) agents ord) s) w) :
    (steps (model adv tb' (hnetOps ident iter') act rnd) n (Driver.start (simNodes zero adv tb' (hnetOps ident iter') act rnd
      (HNetwork.run ident HNet.new (hyperCalls agents H)) agents ord) s')).sched.events.Perm w.sched.events := by
  obtain ⟨σ, _, h1⟩ := C216_parallel_hypernetwork R iter hi zero adv tb agents hne hid H hH s threads n w hs
  obtain ⟨σ', _, h2⟩ := C216_hypernetwork (rnd := rnd) (ord := ord) R iter' hi' zero adv tb' agents hne hid H hH s' n
  have h2 := (h2 n (le_refl _)).agents
  rw [nodesAt_sure h0 _ (fun m i => rnd (σ m i)), hyper_order hact iter' iter hi' hi] at h2
  exact h2.trans h1.agents.symm

/-! ### Concrete cases -/

namespace HyperDemo

/-- Five persons, the first infected; a household of three, one of two, and a person alone in a hyperedge. -/
def agents : List Person := [(10, true), (11, false), (12, false), (13, false), (14, false)]

/-- The hyperedges. -/
def homes : List (List Nat) := [[0, 1, 2], [3, 2], [4]]

/-- A person is infected from then on when some member of one of its hyperedges is. -/
def catch_ (_ : Unit) (b : Person) (v : List (List Person)) : Person × Bool := ((b.1, b.2 || v.any (fun l => l.any (fun x => x.2))), true)

theorem ok : HyperOk agents.length homes := by
  refine ⟨by decide, by decide, ?_⟩
  unfold homes
  refine .cons ?_ (.cons ?_ (.cons (by simp) .nil))
  · intro h hh hc
    simp only [List.mem_cons, List.not_mem_nil, or_false] at hh
    rcases hh with rfl | rfl
    · exact absurd ((hc 0).1 (by simp)) (by simp)
    · exact absurd ((hc 0).1 (by simp)) (by simp)
  · intro h hh hc
    rw [List.mem_singleton] at hh
    subst hh
    exact absurd ((hc 3).1 (by simp)) (by simp)

example : agents ≠ [] ∧ (agents.map Prod.fst).Nodup ∧ ∀ h : List Nat, (List.reverse h).Perm h :=
  ⟨by decide, by decide, List.reverse_perm⟩

/-- The rule meets the hypotheses of `C216_agree`. -/
theorem catch_order (x : Unit) (b : Person) (v v' : List (List Person)) (h : List.Forall₂ List.Perm v v') :
    catch_ x b v = catch_ x b v' := by
  have : v.any (fun l => l.any (fun x => x.2)) = v'.any (fun l => l.any (fun x => x.2)) := by
    induction h with
    | nil => rfl
    | cons hp _ ih =>
      rw [List.any_cons, List.any_cons, ih]
      congr 1
      rw [Bool.eq_iff_iff, List.any_eq_true, List.any_eq_true]
      exact ⟨fun ⟨y, hy, hs⟩ => ⟨y, hp.mem_iff.1 hy, hs⟩, fun ⟨y, hy, hs⟩ => ⟨y, hp.mem_iff.2 hy, hs⟩⟩
  unfold catch_
  rw [this]

/-- The run with the agents in two orders, with the sets read in either direction: after one step the household is infected, after two
the neighbour is too. -/
example : ([fun _ _ => 0, fun _ l => l.length - 1] : List (TieBreak Nat (Person × Bool))).map (fun tb => [1, 2].map (fun k =>
    ((steps (model (· + 1) tb (hnetOps Prod.fst List.reverse) catch_ (fun _ => ())) k
      (Driver.start (simNodes (0 : Nat) (· + 1) tb (hnetOps Prod.fst List.reverse) catch_ (fun _ => ())
        (HNetwork.run Prod.fst HNet.new (hyperCalls agents homes)) agents (fun _ => 0)) ⟨none, 0⟩)).state.field.map
      (fun f => (List.range 5).map (fun i => (HNetwork.getObject f i).map (fun b => b.2)))))) =
    let one := some [some true, some true, some true, some false, some false]
    let two := some [some true, some true, some true, some true, some false]
    [[one, two], [one, two]] := by
  decide +kernel

end HyperDemo

end Verif.Sync
