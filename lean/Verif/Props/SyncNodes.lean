import Verif.Lemmas.SyncNetworks
import Verif.Props.Synchronous

/-!
Agents on a network act at once (C213): programs in which every agent is a node, looks at the nodes it is joined to, decides, and
puts its new record into the network with `update_node`, or dies. `tb`, `adv` and `ord` are as in `Verif.Props.Synchronous`.
-/

namespace Verif.Sync

open Schedule
open Flockers (StepRel stepRel_seq stepRel_par ParSteps)
open Verif.Network (Net GoodPick textbook)

variable {T F B V D K : Type} [LinearOrder T] [DecidableEq K] {ops : FieldOps F B V} {ident : B → K} {view : List B → B → V}
  {shows : F → List B → Prop} {Holds : F → List B → List B → Prop} {act : D → B → V → B × Bool} {rnd : Nat → D} {ord : Nat → Int}

/-- Any number of steps over a field whose nodes stay. -/
theorem nodes_seq (L : NodeLaws ops ident view shows Holds) (R : ∀ x b v, ident (act x b v).1 = ident b) (zero : T) (adv : T → T)
    (tb : TieBreak T (B × Bool)) {build : Option F} {agents : List B} (hne : agents ≠ []) (hid : (agents.map ident).Nodup) {f : F}
    {r : List B} (hf : build = some f) (hh : Holds f r agents) (s : State F) (n : Nat) :
    ∃ σ : Nat → Nat → Nat, Fresh (fun m => living (nodesAt act view (fun m i => rnd (σ m i)) (allAlive agents) m)) s.draws n σ ∧
      ∀ m ≤ n, FollowsNodes shows ord (adv^[m] zero) m (nodesAt act view (fun m i => rnd (σ m i)) (allAlive agents) m)
        (steps (model adv tb ops act rnd) m (Driver.start (simNodes zero adv tb ops act rnd build agents ord) s)) := by
  obtain ⟨σ, h1, h2⟩ := ninv_steps L R (adv := adv) (tb := tb)
    (fun m => steps (model adv tb ops act rnd) m (Driver.start (simNodes zero adv tb ops act rnd build agents ord) s))
    (ninv_start zero adv tb hid hf hh s) n (by
      intro m _ d' nodes hi
      rw [steps_succ']
      refine stepRel_seq _ _ (ninv_nodup hi) (adv^[m] zero) ?_
      rw [(preStep_model adv tb _).1]
      intro e he
      obtain ⟨b, _, rfl⟩ := List.mem_map.1 (hi.agents.mem_iff.1 he)
      rfl)
  refine ⟨σ, h1, fun m hm => ?_⟩
  obtain ⟨d', h3⟩ := h2 m hm
  refine ninv_follows L ?_ h3
  intro he
  have := nodesAt_length (act := act) (view := view) (fun m i => rnd (σ m i)) (allAlive agents) m
  rw [he] at this
  simp [allAlive] at this
  exact hne (List.length_eq_zero_iff.1 this.symm)

/-- Without end condition the loop of the driver makes all steps. -/
theorem nodes_loop (zero : T) (adv : T → T) (tb : TieBreak T (B × Bool)) (build : Option F) (agents : List B) (n : Nat) :
    ∀ w : World T (B × Bool) (State F),
      Driver.loop (simNodes zero adv tb ops act rnd build agents ord) n w = steps (model adv tb ops act rnd) n w := by
  induction n with
  | zero => intro w; rfl
  | succ n ih =>
    intro w
    rw [Driver.loop]
    exact (if_neg (show ¬ (false = true) by decide)).trans (ih _)

/-- Any number of repetitions over a field whose nodes stay. -/
theorem nodes_reps (L : NodeLaws ops ident view shows Holds) (R : ∀ x b v, ident (act x b v).1 = ident b) (zero : T) (adv : T → T)
    (tb : TieBreak T (B × Bool)) {build : Option F} {agents : List B} (hne : agents ≠ []) (hid : (agents.map ident).Nodup) {f : F}
    {r : List B} (hf : build = some f) (hh : Holds f r agents) (n reps : Nat) (s : State F) :
    (Driver.runReps (simNodes zero adv tb ops act rnd build agents ord) n reps s).length = reps ∧
    ∀ w ∈ Driver.runReps (simNodes zero adv tb ops act rnd build agents ord) n reps s,
      ∃ (k : Nat) (σ : Nat → Nat → Nat),
        Fresh (fun m => living (nodesAt act view (fun m i => rnd (σ m i)) (allAlive agents) m)) k n σ ∧
        FollowsNodes shows ord (adv^[n] zero) n (nodesAt act view (fun m i => rnd (σ m i)) (allAlive agents) n) w := by
  induction reps generalizing s with
  | zero => exact ⟨rfl, by simp [Driver.runReps]⟩
  | succ reps ih =>
    obtain ⟨i1, i2⟩ := ih (Driver.runRep (simNodes zero adv tb ops act rnd build agents ord) n s).state
    refine ⟨by rw [Driver.runReps, List.length_cons, i1], ?_⟩
    intro w hw
    rw [Driver.runReps, List.mem_cons] at hw
    rcases hw with rfl | hw
    · obtain ⟨σ, h1, h2⟩ := nodes_seq (ord := ord) (rnd := rnd) L R zero adv tb hne hid hf hh s n
      refine ⟨s.draws, σ, h1, ?_⟩
      rw [Driver.runRep, nodes_loop]
      exact h2 n (le_refl _)
    · exact i2 w hw

theorem nodes_par (L : NodeLaws ops ident view shows Holds) (R : ∀ x b v, ident (act x b v).1 = ident b) (zero : T) (adv : T → T)
    (tb : TieBreak T (B × Bool)) {build : Option F} {agents : List B} (hne : agents ≠ []) (hid : (agents.map ident).Nodup) {f : F}
    {r : List B} (hf : build = some f) (hh : Holds f r agents) (s : State F) (threads n : Nat) (w : World T (B × Bool) (State F))
    (hs : ParSteps (model adv tb ops act rnd) threads n (Driver.start (simNodes zero adv tb ops act rnd build agents ord) s) w) :
    ∃ σ : Nat → Nat → Nat, Fresh (fun m => living (nodesAt act view (fun m i => rnd (σ m i)) (allAlive agents) m)) s.draws n σ ∧
      FollowsNodes shows ord (adv^[n] zero) n (nodesAt act view (fun m i => rnd (σ m i)) (allAlive agents) n) w := by
  obtain ⟨ws, h1, h2, h3⟩ := parSteps_worlds hs
  have hst := ninv_start (ops := ops) (act := act) (rnd := rnd) (ord := ord) zero adv tb hid hf hh s
  rw [← h1] at hst
  obtain ⟨σ, k1, k2⟩ := ninv_steps L R (adv := adv) (tb := tb) ws hst n
    (fun m hm _ nodes hi => stepRel_par _ threads _ _ (ninv_nodup hi) (h3 m hm))
  refine ⟨σ, k1, ?_⟩
  obtain ⟨d', h4⟩ := k2 n (le_refl _)
  rw [h2] at h4
  refine ninv_follows L ?_ h4
  intro he
  have := nodesAt_length (act := act) (view := view) (fun m i => rnd (σ m i)) (allAlive agents) n
  rw [he] at this
  simp [allAlive] at this
  exact hne (List.length_eq_zero_iff.1 this.symm)

/-! ### C213 -/

/-- What a `Network` shows of its nodes and edges. -/
abbrev SeqNetShows (ident : B → K) (d : Bool) (E : List (Nat × Nat)) : Net K B Unit Unit → List B → Prop :=
  NetShows Network.getObject (fun n b => ((Network.getEdges ident n b).getD []).map (fun e => e.v)) d E

/-- What a `Network` with the feature `parallel` shows of its nodes and edges. -/
abbrev ParNetShows (ident : B → K) (d : Bool) (E : List (Nat × Nat)) : ParNetwork.PNet K B Unit Unit → List B → Prop :=
  NetShows (fun p i => (ParNetwork.getObject p i).bind id)
    (fun p b => (((ParNetwork.getEdges ident p b).bind id).getD []).map (fun e => e.v)) d E

variable {act : D → B → List B → B × Bool}

/-- **C213.** Agents on a `Network`, directed or not, made of any agents with different identities and any edges between them: after
every number of steps the scheduled agents and the published network are those of the rounds in which all act at once, each with a
random value of its own, whatever the order of the agents within a step. -/
theorem C213_network (R : ∀ x b v, ident (act x b v).1 = ident b) (zero : T) (adv : T → T) (tb : TieBreak T (B × Bool)) (d : Bool)
    (agents : List B) (hne : agents ≠ []) (hid : (agents.map ident).Nodup) (E : List (Nat × Nat))
    (hE : ∀ e ∈ E, e.1 < agents.length ∧ e.2 < agents.length) (s : State (Net K B Unit Unit)) (n : Nat) :
    ∃ σ : Nat → Nat → Nat,
      Fresh (fun m => living (nodesAt act (graphView ident d E) (fun m i => rnd (σ m i)) (allAlive agents) m)) s.draws n σ ∧
      ∀ m ≤ n, FollowsNodes (SeqNetShows ident d E) ord (adv^[m] zero) m
        (nodesAt act (graphView ident d E) (fun m i => rnd (σ m i)) (allAlive agents) m)
        (steps (model adv tb (netOps ident) act rnd) m (Driver.start (simNodes zero adv tb (netOps ident) act rnd
          (Network.run ident (Net.new d) (buildCalls agents E)) agents ord) s)) := by
  obtain ⟨f, h1, h2, _⟩ := nholds_build (ident := ident) d agents hid E hE
  exact nodes_seq (netLaws ident _ d E) R zero adv tb hne hid h1 h2 s n

/-- **C213**, for `simulate!` with any number of repetitions whose `init` makes the network anew: every repetition ends with the
agents and the network after `n` rounds. -/
theorem C213_repetitions (R : ∀ x b v, ident (act x b v).1 = ident b) (zero : T) (adv : T → T) (tb : TieBreak T (B × Bool)) (d : Bool)
    (agents : List B) (hne : agents ≠ []) (hid : (agents.map ident).Nodup) (E : List (Nat × Nat))
    (hE : ∀ e ∈ E, e.1 < agents.length ∧ e.2 < agents.length) (s : State (Net K B Unit Unit)) (n reps : Nat) :
    (Driver.runReps (simNodes zero adv tb (netOps ident) act rnd (Network.run ident (Net.new d) (buildCalls agents E)) agents ord)
      n reps s).length = reps ∧
    ∀ w ∈ Driver.runReps (simNodes zero adv tb (netOps ident) act rnd (Network.run ident (Net.new d) (buildCalls agents E)) agents ord)
        n reps s,
      ∃ (k : Nat) (σ : Nat → Nat → Nat),
        Fresh (fun m => living (nodesAt act (graphView ident d E) (fun m i => rnd (σ m i)) (allAlive agents) m)) k n σ ∧
        FollowsNodes (SeqNetShows ident d E) ord (adv^[n] zero) n
          (nodesAt act (graphView ident d E) (fun m i => rnd (σ m i)) (allAlive agents) n) w := by
  obtain ⟨f, h1, h2, _⟩ := nholds_build (ident := ident) d agents hid E hE
  exact nodes_reps (netLaws ident _ d E) R zero adv tb hne hid h1 h2 n reps s

/-- **C213**, with the feature `parallel`: for every number of threads and every interleaving. -/
theorem C213_parallel_network (R : ∀ x b v, ident (act x b v).1 = ident b) {cpus : Nat}
    (hc : DBDashMap.shardAmount cpus ≤ 2 ^ 64) (hash : Nat → Nat) (zero : T) (adv : T → T) (tb : TieBreak T (B × Bool)) (d : Bool)
    (agents : List B) (hne : agents ≠ []) (hid : (agents.map ident).Nodup) (E : List (Nat × Nat))
    (hE : ∀ e ∈ E, e.1 < agents.length ∧ e.2 < agents.length) (s : State (ParNetwork.PNet K B Unit Unit)) (threads n : Nat)
    (w : World T (B × Bool) (State (ParNetwork.PNet K B Unit Unit)))
    (hs : ParSteps (model adv tb (parNetOps ident) act rnd) threads n (Driver.start (simNodes zero adv tb (parNetOps ident) act rnd
      (ParNetwork.run ident (ParNetwork.new cpus hash d) (buildCalls agents E)) agents ord) s) w) :
    ∃ σ : Nat → Nat → Nat,
      Fresh (fun m => living (nodesAt act (graphView ident d E) (fun m i => rnd (σ m i)) (allAlive agents) m)) s.draws n σ ∧
      FollowsNodes (ParNetShows ident d E) ord (adv^[n] zero) n
        (nodesAt act (graphView ident d E) (fun m i => rnd (σ m i)) (allAlive agents) n) w := by
  obtain ⟨f, h1, h2⟩ := pholds_build (ident := ident) hc hash d agents hid E hE
  exact nodes_par (parNetLaws ident _ d E) R zero adv tb hne hid h1 h2 s threads n w hs

/-- The publication before the attachment, if there is one. -/
abbrev published (pub : Bool) : List (Network.Op B Unit Unit) := if pub then [.update] else []

/-- **C213**, on a network made by preferential attachment of at least two agents: the graph the agents see is the one of the textbook
process (C212), whether or not the nodes were published before. -/
theorem C213_attachment (R : ∀ x b v, ident (act x b v).1 = ident b) (zero : T) (adv : T → T) (tb : TieBreak T (B × Bool)) (d : Bool)
    (agents : List B) (h2 : 2 ≤ agents.length) (hid : (agents.map ident).Nodup) (node : Nat → B)
    (hnode : ∀ i, i < agents.length → agents[i]? = some (node i)) (pub : Bool)
    (pick : Nat → List (B × Int × Nat) → Nat → List Nat) (hp : GoodPick pick) (k : Nat) (hk : 1 ≤ k)
    (s : State (Net K B Unit Unit)) (n : Nat) :
    ∃ σ : Nat → Nat → Nat,
      Fresh (fun m => living (nodesAt act (graphView ident d (textbook pick node k (agents.length - 2) 2 [(0, 1)]))
        (fun m i => rnd (σ m i)) (allAlive agents) m)) s.draws n σ ∧
      ∀ m ≤ n, FollowsNodes (SeqNetShows ident d (textbook pick node k (agents.length - 2) 2 [(0, 1)])) ord (adv^[m] zero) m
        (nodesAt act (graphView ident d (textbook pick node k (agents.length - 2) 2 [(0, 1)])) (fun m i => rnd (σ m i))
          (allAlive agents) m)
        (steps (model adv tb (netOps ident) act rnd) m (Driver.start (simNodes zero adv tb (netOps ident) act rnd
          ((Network.run ident (Net.new d) (agents.map .addNode ++ published pub)).bind
            (fun n => Network.preferentialAttachment ident pick n agents k)) agents ord) s)) := by
  have hne : agents ≠ [] := by intro he; rw [he] at h2; simp at h2
  have hbuild : ∃ n0 : Net K B Unit Unit, Network.run ident (Net.new d) (agents.map .addNode ++ published pub) = some n0 ∧
      n0.w = (laid ident d agents).w ∧ n0.direct = d := by
    rw [run_append', run_nodes d agents hid, Option.bind_some]
    cases pub with
    | true => exact ⟨_, rfl, rfl, rfl⟩
    | false => exact ⟨_, rfl, rfl, rfl⟩
  obtain ⟨n0, b1, b2, b3⟩ := hbuild
  obtain ⟨f, h1, h3⟩ := nholds_attach hid b2 b3 pick hp k hk h2 node hnode
  exact nodes_seq (netLaws ident _ d _) R zero adv tb hne hid (by rw [b1]; exact h1) h3 s n

/-- **C213**, the same with the feature `parallel`. -/
theorem C213_parallel_attachment (R : ∀ x b v, ident (act x b v).1 = ident b) {cpus : Nat}
    (hc : DBDashMap.shardAmount cpus ≤ 2 ^ 64) (hash : Nat → Nat) (zero : T) (adv : T → T) (tb : TieBreak T (B × Bool)) (d : Bool)
    (agents : List B) (h2 : 2 ≤ agents.length) (hid : (agents.map ident).Nodup) (node : Nat → B)
    (hnode : ∀ i, i < agents.length → agents[i]? = some (node i)) (pub : Bool)
    (pick : Nat → List (B × Int × Nat) → Nat → List Nat) (hp : GoodPick pick) (k : Nat) (hk : 1 ≤ k)
    (s : State (ParNetwork.PNet K B Unit Unit)) (threads n : Nat) (w : World T (B × Bool) (State (ParNetwork.PNet K B Unit Unit)))
    (hs : ParSteps (model adv tb (parNetOps ident) act rnd) threads n (Driver.start (simNodes zero adv tb (parNetOps ident) act rnd
      ((ParNetwork.run ident (ParNetwork.new cpus hash d) (agents.map .addNode ++ published pub)).bind
        (fun n => ParNetwork.preferentialAttachment ident pick n agents k)) agents ord) s) w) :
    ∃ σ : Nat → Nat → Nat,
      Fresh (fun m => living (nodesAt act (graphView ident d (textbook pick node k (agents.length - 2) 2 [(0, 1)]))
        (fun m i => rnd (σ m i)) (allAlive agents) m)) s.draws n σ ∧
      FollowsNodes (ParNetShows ident d (textbook pick node k (agents.length - 2) 2 [(0, 1)])) ord (adv^[n] zero) n
        (nodesAt act (graphView ident d (textbook pick node k (agents.length - 2) 2 [(0, 1)])) (fun m i => rnd (σ m i))
          (allAlive agents) n) w := by
  have hne : agents ≠ [] := by intro he; rw [he] at h2; simp at h2
  have hbuild : ∃ p : ParNetwork.PNet K B Unit Unit, ∃ r,
      ParNetwork.run ident (ParNetwork.new cpus hash d) (agents.map .addNode ++ published pub) = some p ∧
      PHolds ident (agents.map ident) d [] p r agents ∧ p.direct = d := by
    obtain ⟨p, q1, q2⟩ := prun_nodes (ident := ident) hc hash d agents hid
    have hp := pholds_of_sim q2 (nholds_laid d agents hid) rfl
    rw [ParNetwork.run_append, q1, Option.bind_some]
    cases pub with
    | true =>
      obtain ⟨p', e1, e2⟩ := (parNetLaws ident _ d _).publish hp
      cases e1
      exact ⟨_, _, rfl, e2, q2.d⟩
    | false => exact ⟨_, _, rfl, hp, q2.d⟩
  obtain ⟨p, r, b1, b2, b3⟩ := hbuild
  obtain ⟨f, h1, h3⟩ := pholds_attach b2 b3 pick hp k hk h2 node hnode
  exact nodes_par (parNetLaws ident _ d _) R zero adv tb hne hid (by rw [b1]; exact h1) h3 s threads n w hs

omit [LinearOrder T] [DecidableEq K] in
/-- A rule without randomness gives the same nodes whatever the random values. -/
theorem nodesAt_sure {act : D → B → V → B × Bool} (h : ∀ x x' b v, act x b v = act x' b v) (r r' : Nat → Nat → D)
    (first : List (Nat × B × Bool)) (n : Nat) : nodesAt act view r first n = nodesAt act view r' first n := by
  induction n with
  | zero => rfl
  | succ n ih =>
    unfold nodesAt
    rw [ih]
    unfold nextNodes
    apply List.map_congr_left
    intro p _
    rw [h (r n p.1) (r' n p.1)]

/-- **C213.** A model whose rule uses no randomness holds the same agents after every number of steps with and without the feature
`parallel`. -/
theorem C213_agree (R : ∀ x b v, ident (act x b v).1 = ident b) (h0 : ∀ x x' b v, act x b v = act x' b v) {cpus : Nat}
    (hc : DBDashMap.shardAmount cpus ≤ 2 ^ 64) (hash : Nat → Nat) (zero : T) (adv : T → T) (tb tb' : TieBreak T (B × Bool)) (d : Bool)
    (agents : List B) (hne : agents ≠ []) (hid : (agents.map ident).Nodup) (E : List (Nat × Nat))
    (hE : ∀ e ∈ E, e.1 < agents.length ∧ e.2 < agents.length) (s : State (ParNetwork.PNet K B Unit Unit))
    (s' : State (Net K B Unit Unit)) (threads n : Nat)
    (w : World T (B × Bool) (State (ParNetwork.PNet K B Unit Unit)))
    (hs : ParSteps (model adv tb (parNetOps ident) act rnd) threads n (Driver.start (simNodes zero adv tb (parNetOps ident) act rnd
      (ParNetwork.run ident (ParNetwork.new cpus hash d) (buildCalls agents E)) agents ord) s) w) :
    (steps (model adv tb' (netOps ident) act rnd) n (Driver.start (simNodes zero adv tb' (netOps ident) act rnd
      (Network.run ident (Net.new d) (buildCalls agents E)) agents ord) s')).sched.events.Perm w.sched.events := by
  obtain ⟨σ, _, h1⟩ := C213_parallel_network R hc hash zero adv tb d agents hne hid E hE s threads n w hs
  obtain ⟨σ', _, h2⟩ := C213_network (rnd := rnd) (ord := ord) R zero adv tb' d agents hne hid E hE s' n
  have h2 := (h2 n (le_refl _)).agents
  rw [nodesAt_sure h0 _ (fun m i => rnd (σ m i))] at h2
  exact h2.trans h1.agents.symm

/-! ### C214 -/

/-- What is at most `n` edges away. -/
inductive Within (d : Bool) (E : List (Nat × Nat)) : Nat → Nat → Nat → Prop
  | here (i : Nat) : Within d E 0 i i
  | stay {n i j : Nat} : Within d E n i j → Within d E (n + 1) i j
  | go {n i k j : Nat} : k ∈ joinedTo d E i → Within d E n k j → Within d E (n + 1) i j

/-- An agent of a model of an epidemic: its name and whether it is infected. -/
abbrev Person := Nat × Bool

/-- A person is infected from then on when it is joined to an infected one. -/
def infect (_ : D) (b : Person) (v : List Person) : Person × Bool := ((b.1, b.2 || v.any (fun x => x.2)), true)

omit [LinearOrder T] in
theorem infect_nodes (d : Bool) (agents : List Person) (hid : (agents.map Prod.fst).Nodup) (E : List (Nat × Nat))
    (hE : ∀ e ∈ E, e.1 < agents.length ∧ e.2 < agents.length) (r : Nat → Nat → D) (m : Nat) :
    ((nodesAt infect (graphView Prod.fst d E) r (allAlive agents) m).map (fun p => p.2.1)).map Prod.fst = agents.map Prod.fst ∧
    (∀ p ∈ nodesAt infect (graphView Prod.fst d E) r (allAlive agents) m, p.2.2 = true) ∧
    ∀ i b, ((nodesAt infect (graphView Prod.fst d E) r (allAlive agents) m).map (fun p => p.2.1))[i]? = some b →
      (b.2 = true ↔ ∃ j a, agents[j]? = some (a, true) ∧ Within d E m i j) := by
  induction m with
  | zero =>
    refine ⟨by rw [nodesAt, allAlive_records], ?_, ?_⟩
    · intro p hp
      obtain ⟨i, hi, rfl⟩ := List.mem_mapIdx.1 hp
      rfl
    · intro i b hb
      rw [nodesAt, allAlive_records] at hb
      constructor
      · intro h
        exact ⟨i, b.1, by rw [hb, ← h], .here i⟩
      · rintro ⟨j, a, hj, hw⟩
        cases hw
        rw [hb] at hj
        rw [Option.some.inj hj]
  | succ m ih =>
    obtain ⟨h1, h2, h3⟩ := ih
    generalize hnodes : nodesAt infect (graphView Prod.fst d E) r (allAlive agents) m = nodes at h1 h2 h3
    have hnext : (nodesAt infect (graphView Prod.fst d E) r (allAlive agents) (m + 1)) = nodes.map (fun p =>
        (p.1, (infect (r m p.1) p.2.1 (graphView Prod.fst d E (nodes.map (fun q => q.2.1)) p.2.1)).1, true)) := by
      rw [nodesAt, hnodes]
      unfold nextNodes
      apply List.map_congr_left
      intro p hp
      rw [if_pos ⟨h2 p hp, rfl⟩]
    refine ⟨?_, ?_, ?_⟩
    · rw [hnext, ← h1, List.map_map, List.map_map, List.map_map]
      apply List.map_congr_left
      intro p _
      rfl
    · intro p hp
      rw [hnext] at hp
      obtain ⟨q, _, rfl⟩ := List.mem_map.1 hp
      rfl
    · intro i b hb
      rw [hnext, List.map_map, List.getElem?_map, Option.map_eq_some_iff] at hb
      obtain ⟨p, hp, rfl⟩ := hb
      have hpi : (nodes.map (fun p => p.2.1))[i]? = some p.2.1 := by rw [List.getElem?_map, hp]; rfl
      have hnum := number_of (ident := Prod.fst) h1 hid hpi
      have hold := h3 i _ hpi
      simp only [Function.comp, infect, Bool.or_eq_true, List.any_eq_true]
      unfold graphView
      rw [hnum, hold]
      constructor
      · rintro (⟨j, a, hj, hw⟩ | ⟨x, hx, hxi⟩)
        · exact ⟨j, a, hj, .stay hw⟩
        · obtain ⟨k, hk, hkx⟩ := List.mem_filterMap.1 hx
          obtain ⟨j, a, hj, hw⟩ := (h3 k x hkx).1 hxi
          exact ⟨j, a, hj, .go hk hw⟩
      · rintro ⟨j, a, hj, hw⟩
        cases hw with
        | stay hw => exact Or.inl ⟨j, a, hj, hw⟩
        | go hk hw =>
          rename_i k
          refine Or.inr ?_
          have hlt : k < nodes.length := by
            have := joinedTo_lt hE hk
            have hl := congrArg List.length h1
            simp only [List.length_map] at hl
            omega
          have hkx : (nodes.map (fun p => p.2.1))[k]? = some (nodes[k]).2.1 := by
            rw [List.getElem?_map, List.getElem?_eq_getElem hlt]; rfl
          exact ⟨_, List.mem_filterMap.2 ⟨k, hk, hkx⟩, (h3 k _ hkx).2 ⟨j, a, hj, hw⟩⟩

omit [LinearOrder T] in
theorem spread_of_follows {shows : F → List Person → Prop} {get : F → Nat → Option Person} {d : Bool} {agents : List Person}
    (hid : (agents.map Prod.fst).Nodup) {E : List (Nat × Nat)} (hE : ∀ e ∈ E, e.1 < agents.length ∧ e.2 < agents.length)
    (hget : ∀ f l, shows f l → ∀ i b, l[i]? = some b → get f i = some b) {r : Nat → Nat → D} {time : T} {m : Nat} (hm : 0 < m)
    {w : World T (Person × Bool) (State F)}
    (h : FollowsNodes shows ord time m (nodesAt infect (graphView Prod.fst d E) r (allAlive agents) m) w) :
    ∃ f, w.state.field = some f ∧ ∀ i name flag, agents[i]? = some (name, flag) → ∃ b, get f i = some b ∧ b.1 = name ∧
      (b.2 = true ↔ ∃ j a, agents[j]? = some (a, true) ∧ Within d E m i j) := by
  obtain ⟨f, h1, h2⟩ := h.field
  obtain ⟨k1, _, k3⟩ := infect_nodes d agents hid E hE r m
  refine ⟨f, h1, ?_⟩
  intro i name flag hi
  have hn : (agents.map Prod.fst)[i]? = some name := by rw [List.getElem?_map, hi]; rfl
  rw [← k1, List.getElem?_map, Option.map_eq_some_iff] at hn
  obtain ⟨b, hb, hbn⟩ := hn
  exact ⟨b, hget f _ (h2 hm) i b hb, hbn, k3 i b hb⟩

/-- **C214.** An infection on a network passes exactly one edge per step: after `m` steps the persons shown as infected are those at
most `m` edges away from one infected at the start. -/
theorem C214_spread (rnd : Nat → D) (zero : T) (adv : T → T) (tb : TieBreak T (Person × Bool)) (d : Bool) (agents : List Person)
    (hne : agents ≠ []) (hid : (agents.map Prod.fst).Nodup) (E : List (Nat × Nat))
    (hE : ∀ e ∈ E, e.1 < agents.length ∧ e.2 < agents.length) (s : State (Net Nat Person Unit Unit)) (m : Nat) (hm : 0 < m) :
    ∃ f, (steps (model adv tb (netOps Prod.fst) infect rnd) m (Driver.start (simNodes zero adv tb (netOps Prod.fst) infect rnd
        (Network.run Prod.fst (Net.new d) (buildCalls agents E)) agents ord) s)).state.field = some f ∧
      ∀ i name flag, agents[i]? = some (name, flag) → ∃ b, Network.getObject f i = some b ∧ b.1 = name ∧
        (b.2 = true ↔ ∃ j a, agents[j]? = some (a, true) ∧ Within d E m i j) := by
  obtain ⟨σ, _, h⟩ := C213_network (act := infect) (ident := Prod.fst) (rnd := rnd) (ord := ord) (fun _ _ _ => rfl) zero adv tb d
    agents hne hid E hE s m
  exact spread_of_follows hid hE (fun f l hs i b hb => (hs i b hb).1) hm (h m (le_refl _))

/-- **C214**, with the feature `parallel`. -/
theorem C214_parallel_spread (rnd : Nat → D) {cpus : Nat} (hc : DBDashMap.shardAmount cpus ≤ 2 ^ 64) (hash : Nat → Nat) (zero : T)
    (adv : T → T) (tb : TieBreak T (Person × Bool)) (d : Bool) (agents : List Person)
    (hne : agents ≠ []) (hid : (agents.map Prod.fst).Nodup) (E : List (Nat × Nat))
    (hE : ∀ e ∈ E, e.1 < agents.length ∧ e.2 < agents.length) (s : State (ParNetwork.PNet Nat Person Unit Unit)) (threads m : Nat)
    (hm : 0 < m) (w : World T (Person × Bool) (State (ParNetwork.PNet Nat Person Unit Unit)))
    (hs : ParSteps (model adv tb (parNetOps Prod.fst) infect rnd) threads m (Driver.start (simNodes zero adv tb (parNetOps Prod.fst)
      infect rnd (ParNetwork.run Prod.fst (ParNetwork.new cpus hash d) (buildCalls agents E)) agents ord) s) w) :
    ∃ f, w.state.field = some f ∧
      ∀ i name flag, agents[i]? = some (name, flag) → ∃ b, (ParNetwork.getObject f i).bind id = some b ∧ b.1 = name ∧
        (b.2 = true ↔ ∃ j a, agents[j]? = some (a, true) ∧ Within d E m i j) := by
  obtain ⟨σ, _, h⟩ := C213_parallel_network (act := infect) (ident := Prod.fst) (rnd := rnd) (ord := ord) (fun _ _ _ => rfl) hc hash
    zero adv tb d agents hne hid E hE s threads m w hs
  exact spread_of_follows (get := fun p i => (ParNetwork.getObject p i).bind id) hid hE (fun f l hs i b hb => (hs i b hb).1) hm h

/-! ### Concrete cases -/

namespace NodesDemo

/-- Four persons on a line, the first infected. -/
def agents : List Person := [(10, true), (11, false), (12, false), (13, false)]

/-- The line. -/
def line : List (Nat × Nat) := [(0, 1), (1, 2), (2, 3)]

example : agents ≠ [] ∧ (agents.map Prod.fst).Nodup ∧ ∀ e ∈ line, e.1 < agents.length ∧ e.2 < agents.length := by decide

/-- The run with the agents in two orders: after two steps the network shows three persons infected, not four. -/
example : ([fun _ _ => 0, fun _ l => l.length - 1] : List (TieBreak Nat (Person × Bool))).map (fun tb =>
    ((steps (model (· + 1) tb (netOps Prod.fst) infect (fun _ => ())) 2
      (Driver.start (simNodes (0 : Nat) (· + 1) tb (netOps Prod.fst) infect (fun _ => ())
        (Network.run Prod.fst (Net.new false) (buildCalls agents line)) agents (fun _ => 0)) ⟨none, 0⟩)).state.field.map
      (fun f => (List.range 4).map (fun i => (Network.getObject f i).map (fun b => b.2))))) =
    [some [some true, some true, some true, some false], some [some true, some true, some true, some false]] := by
  decide +kernel

/-- The last person is three edges away. -/
example : Within false line 3 3 0 ∧ ¬ Within true line 1 3 2 := by
  refine ⟨.go (by decide : (2 : Nat) ∈ joinedTo false line 3) (.go (by decide : (1 : Nat) ∈ joinedTo false line 2)
    (.go (by decide : (0 : Nat) ∈ joinedTo false line 1) (.here 0))), ?_⟩
  intro h
  cases h with
  | stay h => cases h
  | go h _ => exact absurd h (by simp [joinedTo, line])

/-- A rule by which whoever is joined to somebody infected dies: the next one dies with its record in the network, and the others go on. -/
example : (nodesAt (fun (_ : Unit) (b : Person) v => (b, !v.any (fun x => x.2))) (graphView Prod.fst false line) (fun _ _ => ())
    (allAlive agents) 1) = [(0, (10, true), true), (1, (11, false), false), (2, (12, false), true), (3, (13, false), true)] := by
  decide +kernel

/-- The same on a network made by preferential attachment, every later node drawing the heaviest. -/
example : ((steps (model (· + 1) (fun _ _ => 0) (netOps Prod.fst) infect (fun _ => ())) 1
      (Driver.start (simNodes (0 : Nat) (· + 1) (fun _ _ => 0) (netOps Prod.fst) infect (fun _ => ())
        ((Network.run Prod.fst (Net.new false) (agents.map .addNode ++ published true)).bind
          (fun n => Network.preferentialAttachment Prod.fst (fun i dist _ => Network.heaviest i (dist.map (fun x => (0, x.2))) 1) n
            agents 1)) agents (fun _ => 0)) ⟨none, 0⟩)).state.field.map
      (fun f => (List.range 4).map (fun i => (Network.getObject f i).map (fun b => b.2)))) =
    some [some true, some true, some false, some false] := by decide +kernel

end NodesDemo

end Verif.Sync
