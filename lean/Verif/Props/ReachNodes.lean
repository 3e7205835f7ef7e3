import Verif.Spec.ReachNodes
import Verif.Props.SyncNodes
import Verif.Props.SyncHyper

/-!
C274: influence on a network passes at most one edge per step, on a hypernetwork at most one hyperedge.
-/

set_option linter.unusedSectionVars false

namespace Verif.Sync

open Schedule
open Flockers (ParSteps)
open Verif.Network (Net)
open Verif.HNetwork (HNet)

variable {T F F' B V D K X : Type} [LinearOrder T] [DecidableEq K] {ident : B → K} {rnd : Nat → D} {ord : Nat → Int}

/-! ### Rounds -/

theorem findIdx_own {all : List B} (hid : (all.map ident).Nodup) {i : Nat} {b : B} (h : all[i]? = some b) : all.findIdx (fun x => decide (ident x = ident b)) = i := by
  obtain ⟨hi, hb⟩ := List.getElem?_eq_some_iff.1 h
  rw [List.findIdx_eq hi]
  refine ⟨by rw [hb]; simp, ?_⟩
  intro j hj
  have hj' : j < all.length := by omega
  simp only [decide_eq_false_iff_not]
  intro he
  have hinj := List.nodup_iff_injective_get.1 hid
  have h1 : (all.map ident).get ⟨j, by rw [List.length_map]; exact hj'⟩ = (all.map ident).get ⟨i, by rw [List.length_map]; exact hi⟩ := by
    simp [he, hb]
  have := hinj h1
  rw [Fin.mk.injEq] at this
  omega

theorem nodesAt_idents {act : D → B → V → B × Bool} {view : List B → B → V} (R : ∀ x b v, ident (act x b v).1 = ident b) (r : Nat → Nat → D) (first : List (Nat × B × Bool)) :
    ∀ n, (nodesAt act view r first n).map (fun p => ident p.2.1) = first.map (fun p => ident p.2.1)
  | 0 => rfl
  | n + 1 => by
    rw [nodesAt, nextNodes_idents R, nodesAt_idents R r first n]

theorem nodesAt_fst {act : D → B → V → B × Bool} {view : List B → B → V} (r : Nat → Nat → D) (first : List (Nat × B × Bool)) :
    ∀ n, (nodesAt act view r first n).map Prod.fst = first.map Prod.fst
  | 0 => rfl
  | n + 1 => by
    rw [nodesAt, nextNodes_fst, nodesAt_fst r first n]

/-- Rounds on two networks. -/
theorem nodesAt_away {act : D → B → V → B × Bool} {view view' : List B → B → V} (R : ∀ x b v, ident (act x b v).1 = ident b) {nb : Nat → List Nat} {good : Nat → Prop}
    (hview : ∀ i all all' b, (all.map ident).Nodup → (all'.map ident).Nodup → good i → all[i]? = some b → all'[i]? = some b → (∀ k ∈ nb i, all[k]? = all'[k]?) →
      view all b = view' all' b)
    (r : Nat → Nat → D) {first first' : List (Nat × B × Bool)} (hid : (first.map (fun p => ident p.2.1)).Nodup) (hid' : (first'.map (fun p => ident p.2.1)).Nodup) :
    ∀ n i, (∀ j, Away nb n i j → first[j]? = first'[j]?) → (∀ m < n, ∀ j, Away nb m i j → good j) →
      (nodesAt act view r first n)[i]? = (nodesAt act view' r first' n)[i]?
  | 0, i, h, _ => h i (.here i)
  | n + 1, i, h, hg => by
    have hi := nodesAt_away R hview r hid hid' n i (fun j hj => h j (.stay hj)) (fun m hm j hj => hg m (by omega) j hj)
    have hgi : good i := hg 0 (by omega) i (.here i)
    have hk : ∀ k ∈ nb i, (nodesAt act view r first n)[k]? = (nodesAt act view' r first' n)[k]? := fun k hk =>
      nodesAt_away R hview r hid hid' n k (fun j hj => h j (.go hk hj)) (fun m hm j hj => hg (m + 1) (by omega) j (.go hk hj))
    rw [nodesAt, nodesAt]
    unfold nextNodes
    rw [List.getElem?_map, List.getElem?_map, ← hi]
    cases hp : (nodesAt act view r first n)[i]? with
    | none => rfl
    | some p =>
      have hp' := hi ▸ hp
      have nd : ((nodesAt act view r first n).map (fun q => q.2.1)).map ident = (nodesAt act view r first n).map (fun p => ident p.2.1) := by rw [List.map_map]; rfl
      have nd' : ((nodesAt act view' r first' n).map (fun q => q.2.1)).map ident = (nodesAt act view' r first' n).map (fun p => ident p.2.1) := by rw [List.map_map]; rfl
      have hv := hview i ((nodesAt act view r first n).map (fun q => q.2.1)) ((nodesAt act view' r first' n).map (fun q => q.2.1)) p.2.1
        (by rw [nd, nodesAt_idents R]; exact hid) (by rw [nd', nodesAt_idents R]; exact hid') hgi
        (by rw [List.getElem?_map, hp]; rfl) (by rw [List.getElem?_map, hp']; rfl)
        (fun k hk' => by rw [List.getElem?_map, List.getElem?_map, hk k hk'])
      rw [Option.map_some, Option.map_some, hv]

theorem allAlive_get (agents : List B) (i : Nat) : (allAlive agents)[i]? = (agents[i]?).map (fun b => (i, b, true)) := by
  unfold allAlive
  rw [List.getElem?_mapIdx]

theorem mem_living_iff {nodes : List (Nat × B × Bool)} {k : Nat} (hf : nodes.map Prod.fst = List.range k) {i : Nat} {b : B} : (i, b) ∈ living nodes ↔ nodes[i]? = some (i, b, true) := by
  rw [mem_living]
  constructor
  · intro h
    obtain ⟨j, hj⟩ := List.mem_iff_getElem?.1 h
    have h1 : (nodes.map Prod.fst)[j]? = some i := by rw [List.getElem?_map, hj]; rfl
    rw [hf] at h1
    obtain ⟨_, hj2⟩ := List.getElem?_eq_some_iff.1 h1
    rw [List.getElem_range] at hj2
    subst hj2
    exact hj
  · intro h
    exact List.mem_iff_getElem?.2 ⟨i, h⟩

/-- From rounds to worlds. -/
theorem follows_away {shows : F → List B → Prop} {shows' : F' → List B → Prop} {get : F → Nat → Option B} {get' : F' → Nat → Option B}
    (hget : ∀ f l, shows f l → ∀ i b, l[i]? = some b → get f i = some b) (hget' : ∀ f l, shows' f l → ∀ i b, l[i]? = some b → get' f i = some b)
    {time : T} {n k k' : Nat} (hn : 0 < n) {nodes nodes' : List (Nat × B × Bool)} (hf : nodes.map Prod.fst = List.range k) (hf' : nodes'.map Prod.fst = List.range k')
    {w : World T (B × Bool) (State F)} {w' : World T (B × Bool) (State F')} (h : FollowsNodes shows ord time n nodes w) (h' : FollowsNodes shows' ord time n nodes' w')
    {i : Nat} (hi : i < k) (he : nodes[i]? = nodes'[i]?) : SameNode get get' i w w' := by
  constructor
  · intro e hid
    rw [h.agents.mem_iff, h'.agents.mem_iff, List.mem_map, List.mem_map]
    constructor
    · rintro ⟨⟨j, b⟩, hm, rfl⟩
      dsimp only at hid
      subst hid
      exact ⟨(j, b), (mem_living_iff hf').2 (he ▸ (mem_living_iff hf).1 hm), rfl⟩
    · rintro ⟨⟨j, b⟩, hm, rfl⟩
      dsimp only at hid
      subst hid
      exact ⟨(j, b), (mem_living_iff hf).2 (he ▸ (mem_living_iff hf').1 hm), rfl⟩
  · obtain ⟨f, h1, h2⟩ := h.field
    obtain ⟨f', h1', h2'⟩ := h'.field
    have hl : i < nodes.length := by
      have := congrArg List.length hf
      rw [List.length_map, List.length_range] at this
      omega
    have hx : nodes[i]? = some nodes[i] := List.getElem?_eq_getElem hl
    exact ⟨f, f', nodes[i].2.1, h1, h1', hget f _ (h2 hn) i _ (by rw [List.getElem?_map, hx]; rfl), hget' f' _ (h2' hn) i _ (by rw [List.getElem?_map, ← he, hx]; rfl)⟩

/-! ### Networks -/

section

variable {act : D → B → List B → B × Bool}

theorem graph_away (R : ∀ x b v, ident (act x b v).1 = ident b) (d : Bool) {E E' : List (Nat × Nat)} {agents agents' : List B} (hid : (agents.map ident).Nodup)
    (hid' : (agents'.map ident).Nodup) {n i : Nat} (h : SameUpTo (joinedTo d E) (joinedTo d E) (joinedTo d E') agents agents' n i) (r : Nat → Nat → D) :
    (nodesAt act (graphView ident d E) r (allAlive agents) n)[i]? = (nodesAt act (graphView ident d E') r (allAlive agents') n)[i]? := by
  have idn : ∀ {as : List B}, (as.map ident).Nodup → ((allAlive as).map (fun p => ident p.2.1)).Nodup := by
    intro as h
    have e : (allAlive as).map (fun p => ident p.2.1) = ((allAlive as).map (fun p => p.2.1)).map ident := by rw [List.map_map]; rfl
    rw [e, allAlive_records]
    exact h
  refine nodesAt_away (good := fun j => joinedTo d E j = joinedTo d E' j) R ?_ r (idn hid) (idn hid') n i (fun j hj => ?_) h.edges
  · intro i all all' b h1 h2 hg h3 h4 hk
    unfold graphView
    rw [findIdx_own h1 h3, findIdx_own h2 h4, ← hg]
    exact List.filterMap_congr hk
  · rw [allAlive_get, allAlive_get, h.nodes j hj]

theorem away_self (nb : Nat → List Nat) : ∀ n i, Away nb n i i
  | 0, i => .here i
  | n + 1, i => .stay (away_self nb n i)

/-- **C274, networks.** Two networks with the same nodes up to `n` edges away from a node, and the same edges at the nodes less than `n` edges away, show the same of this
node after `n` steps, and schedule it alike, whatever else they hold and however ties are broken. -/
theorem C274_network (R : ∀ x b v, ident (act x b v).1 = ident b) (h0 : ∀ x x' b v, act x b v = act x' b v) (zero : T) (adv : T → T) (tb tb' : TieBreak T (B × Bool)) (d : Bool)
    {agents agents' : List B} (hid : (agents.map ident).Nodup) (hid' : (agents'.map ident).Nodup) {E E' : List (Nat × Nat)}
    (hE : ∀ e ∈ E, e.1 < agents.length ∧ e.2 < agents.length) (hE' : ∀ e ∈ E', e.1 < agents'.length ∧ e.2 < agents'.length) (s s' : State (Net K B Unit Unit))
    {n i : Nat} (hn : 0 < n) (hi : i < agents.length) (h : SameUpTo (joinedTo d E) (joinedTo d E) (joinedTo d E') agents agents' n i) :
    SameNode Network.getObject Network.getObject i
      (steps (model adv tb (netOps ident) act rnd) n (Driver.start (simNodes zero adv tb (netOps ident) act rnd (Network.run ident (Net.new d) (buildCalls agents E)) agents ord) s))
      (steps (model adv tb' (netOps ident) act rnd) n
        (Driver.start (simNodes zero adv tb' (netOps ident) act rnd (Network.run ident (Net.new d) (buildCalls agents' E')) agents' ord) s')) := by
  have hne : agents ≠ [] := by rintro rfl; simp at hi
  have hne' : agents' ≠ [] := by
    rintro rfl
    have := h.nodes i (away_self _ n i)
    rw [List.getElem?_eq_getElem hi] at this
    cases this
  obtain ⟨σ, _, h1⟩ := C213_network (rnd := rnd) (ord := ord) R zero adv tb d agents hne hid E hE s n
  obtain ⟨σ', _, h2⟩ := C213_network (rnd := rnd) (ord := ord) R zero adv tb' d agents' hne' hid' E' hE' s' n
  have h1 := h1 n (le_refl _)
  have h2 := h2 n (le_refl _)
  rw [nodesAt_sure h0 _ (fun m i => rnd (σ m i))] at h2
  exact follows_away (fun f l hs i b hb => (hs i b hb).1) (fun f l hs i b hb => (hs i b hb).1) hn ((nodesAt_fst _ _ n).trans (allAlive_fst agents))
    ((nodesAt_fst _ _ n).trans (allAlive_fst agents')) h1 h2 hi (graph_away R d hid hid' h _)

/-- **C274, networks under the feature `parallel`.** -/
theorem C274_parallel_network (R : ∀ x b v, ident (act x b v).1 = ident b) (h0 : ∀ x x' b v, act x b v = act x' b v) {cpus : Nat}
    (hc : DBDashMap.shardAmount cpus ≤ 2 ^ 64) (hash : Nat → Nat) (zero : T) (adv : T → T) (tb tb' : TieBreak T (B × Bool)) (d : Bool)
    {agents agents' : List B} (hid : (agents.map ident).Nodup) (hid' : (agents'.map ident).Nodup) {E E' : List (Nat × Nat)}
    (hE : ∀ e ∈ E, e.1 < agents.length ∧ e.2 < agents.length) (hE' : ∀ e ∈ E', e.1 < agents'.length ∧ e.2 < agents'.length)
    (s s' : State (ParNetwork.PNet K B Unit Unit)) (threads threads' : Nat)
    {n i : Nat} (hn : 0 < n) (hi : i < agents.length) (h : SameUpTo (joinedTo d E) (joinedTo d E) (joinedTo d E') agents agents' n i)
    (w w' : World T (B × Bool) (State (ParNetwork.PNet K B Unit Unit)))
    (hs : ParSteps (model adv tb (parNetOps ident) act rnd) threads n (Driver.start (simNodes zero adv tb (parNetOps ident) act rnd
      (ParNetwork.run ident (ParNetwork.new cpus hash d) (buildCalls agents E)) agents ord) s) w)
    (hs' : ParSteps (model adv tb' (parNetOps ident) act rnd) threads' n (Driver.start (simNodes zero adv tb' (parNetOps ident) act rnd
      (ParNetwork.run ident (ParNetwork.new cpus hash d) (buildCalls agents' E')) agents' ord) s') w') :
    SameNode (fun p i => (ParNetwork.getObject p i).bind id) (fun p i => (ParNetwork.getObject p i).bind id) i w w' := by
  have hne : agents ≠ [] := by rintro rfl; simp at hi
  have hne' : agents' ≠ [] := by
    rintro rfl
    have := h.nodes i (away_self _ n i)
    rw [List.getElem?_eq_getElem hi] at this
    cases this
  obtain ⟨σ, _, h1⟩ := C213_parallel_network (rnd := rnd) (ord := ord) R hc hash zero adv tb d agents hne hid E hE s threads n w hs
  obtain ⟨σ', _, h2⟩ := C213_parallel_network (rnd := rnd) (ord := ord) R hc hash zero adv tb' d agents' hne' hid' E' hE' s' threads' n w' hs'
  rw [nodesAt_sure h0 _ (fun m i => rnd (σ m i))] at h2
  exact follows_away (fun f l hs i b hb => (hs i b hb).1) (fun f l hs i b hb => (hs i b hb).1) hn ((nodesAt_fst _ _ n).trans (allAlive_fst agents))
    ((nodesAt_fst _ _ n).trans (allAlive_fst agents')) h1 h2 hi (graph_away R d hid hid' h _)

end

/-! ### Hypernetworks -/

section

variable {act : D → B → List (List B) → B × Bool}

theorem hyper_away (R : ∀ x b v, ident (act x b v).1 = ident b) (iter : List Nat → List Nat) (hit : ∀ h, (iter h).Perm h) {H H' : List (List Nat)} {agents agents' : List B}
    (hid : (agents.map ident).Nodup) (hid' : (agents'.map ident).Nodup) {n i : Nat}
    (h : SameUpTo (fun i => (hyperOf H i).flatten) (hyperOf H) (hyperOf H') agents agents' n i) (r : Nat → Nat → D) :
    (nodesAt act (hyperView ident iter H) r (allAlive agents) n)[i]? = (nodesAt act (hyperView ident iter H') r (allAlive agents') n)[i]? := by
  have idn : ∀ {as : List B}, (as.map ident).Nodup → ((allAlive as).map (fun p => ident p.2.1)).Nodup := by
    intro as h
    have e : (allAlive as).map (fun p => ident p.2.1) = ((allAlive as).map (fun p => p.2.1)).map ident := by rw [List.map_map]; rfl
    rw [e, allAlive_records]
    exact h
  refine nodesAt_away (good := fun j => hyperOf H j = hyperOf H' j) R ?_ r (idn hid) (idn hid') n i (fun j hj => ?_) h.edges
  · intro i all all' b h1 h2 hg h3 h4 hk
    unfold hyperView
    rw [findIdx_own h1 h3, findIdx_own h2 h4, ← hg]
    refine List.map_congr_left (fun m hm => List.filterMap_congr (fun k hk' => hk k ?_))
    exact List.mem_flatten.2 ⟨m, hm, (hit m).mem_iff.1 hk'⟩
  · rw [allAlive_get, allAlive_get, h.nodes j hj]

/-- **C274, hypernetworks.** -/
theorem C274_hypernetwork (R : ∀ x b v, ident (act x b v).1 = ident b) (h0 : ∀ x x' b v, act x b v = act x' b v) (iter : List Nat → List Nat) (hit : ∀ h, (iter h).Perm h)
    (zero : T) (adv : T → T) (tb tb' : TieBreak T (B × Bool)) {agents agents' : List B} (hid : (agents.map ident).Nodup) (hid' : (agents'.map ident).Nodup)
    {H H' : List (List Nat)} (hH : HyperOk agents.length H) (hH' : HyperOk agents'.length H') (s s' : State (HNet K B Unit Unit))
    {n i : Nat} (hn : 0 < n) (hi : i < agents.length) (h : SameUpTo (fun i => (hyperOf H i).flatten) (hyperOf H) (hyperOf H') agents agents' n i) :
    SameNode HNetwork.getObject HNetwork.getObject i
      (steps (model adv tb (hnetOps ident iter) act rnd) n (Driver.start (simNodes zero adv tb (hnetOps ident iter) act rnd (HNetwork.run ident HNet.new (hyperCalls agents H)) agents ord) s))
      (steps (model adv tb' (hnetOps ident iter) act rnd) n
        (Driver.start (simNodes zero adv tb' (hnetOps ident iter) act rnd (HNetwork.run ident HNet.new (hyperCalls agents' H')) agents' ord) s')) := by
  have hne : agents ≠ [] := by rintro rfl; simp at hi
  have hne' : agents' ≠ [] := by
    rintro rfl
    have := h.nodes i (away_self _ n i)
    rw [List.getElem?_eq_getElem hi] at this
    cases this
  obtain ⟨σ, _, h1⟩ := C216_hypernetwork (rnd := rnd) (ord := ord) R iter hit zero adv tb agents hne hid H hH s n
  obtain ⟨σ', _, h2⟩ := C216_hypernetwork (rnd := rnd) (ord := ord) R iter hit zero adv tb' agents' hne' hid' H' hH' s' n
  have h1 := h1 n (le_refl _)
  have h2 := h2 n (le_refl _)
  rw [nodesAt_sure h0 _ (fun m i => rnd (σ m i))] at h2
  exact follows_away (fun f l hs i b hb => (hs i b hb).1) (fun f l hs i b hb => (hs i b hb).1) hn ((nodesAt_fst _ _ n).trans (allAlive_fst agents))
    ((nodesAt_fst _ _ n).trans (allAlive_fst agents')) h1 h2 hi (hyper_away R iter hit hid hid' h _)

/-- **C274, hypernetworks under the feature `parallel`.** -/
theorem C274_parallel_hypernetwork (R : ∀ x b v, ident (act x b v).1 = ident b) (h0 : ∀ x x' b v, act x b v = act x' b v) (iter : List Nat → List Nat) (hit : ∀ h, (iter h).Perm h)
    (zero : T) (adv : T → T) (tb tb' : TieBreak T (B × Bool)) {agents agents' : List B} (hid : (agents.map ident).Nodup) (hid' : (agents'.map ident).Nodup)
    {H H' : List (List Nat)} (hH : HyperOk agents.length H) (hH' : HyperOk agents'.length H') (s s' : State (HNet K B Unit Unit)) (threads threads' : Nat)
    {n i : Nat} (hn : 0 < n) (hi : i < agents.length) (h : SameUpTo (fun i => (hyperOf H i).flatten) (hyperOf H) (hyperOf H') agents agents' n i)
    (w w' : World T (B × Bool) (State (HNet K B Unit Unit)))
    (hs : ParSteps (model adv tb (hnetOps ident iter) act rnd) threads n
      (Driver.start (simNodes zero adv tb (hnetOps ident iter) act rnd (HNetwork.run ident HNet.new (hyperCalls agents H)) agents ord) s) w)
    (hs' : ParSteps (model adv tb' (hnetOps ident iter) act rnd) threads' n
      (Driver.start (simNodes zero adv tb' (hnetOps ident iter) act rnd (HNetwork.run ident HNet.new (hyperCalls agents' H')) agents' ord) s') w') :
    SameNode HNetwork.getObject HNetwork.getObject i w w' := by
  have hne : agents ≠ [] := by rintro rfl; simp at hi
  have hne' : agents' ≠ [] := by
    rintro rfl
    have := h.nodes i (away_self _ n i)
    rw [List.getElem?_eq_getElem hi] at this
    cases this
  obtain ⟨σ, _, h1⟩ := C216_parallel_hypernetwork (rnd := rnd) (ord := ord) R iter hit zero adv tb agents hne hid H hH s threads n w hs
  obtain ⟨σ', _, h2⟩ := C216_parallel_hypernetwork (rnd := rnd) (ord := ord) R iter hit zero adv tb' agents' hne' hid' H' hH' s' threads' n w' hs'
  rw [nodesAt_sure h0 _ (fun m i => rnd (σ m i))] at h2
  exact follows_away (fun f l hs i b hb => (hs i b hb).1) (fun f l hs i b hb => (hs i b hb).1) hn ((nodesAt_fst _ _ n).trans (allAlive_fst agents))
    ((nodesAt_fst _ _ n).trans (allAlive_fst agents')) h1 h2 hi (hyper_away R iter hit hid hid' h _)

end

/-! ### Concrete networks -/

namespace AwayDemo

/-- Five persons, of whom the last is infected or not, or four. -/
def five (ill : Bool) : List Person := [(10, false), (11, false), (12, false), (13, false), (14, ill)]

/-- A line. -/
def line : List (Nat × Nat) := [(0, 1), (1, 2), (2, 3), (3, 4)]

/-- The same with a loop at its end. -/
def looped : List (Nat × Nat) := [(0, 1), (1, 2), (2, 3), (3, 4), (4, 4)]

theorem away_line {n i j : Nat} (h : Away (joinedTo false line) n i j) : j ≤ i + n := by
  induction h with
  | here i => omega
  | stay _ ih => omega
  | go hk _ ih =>
    have : ∀ {k i : Nat}, k ∈ joinedTo false line i → k ≤ i + 1 := by
      intro k i hk
      unfold joinedTo line at hk
      simp only [List.flatMap_cons, List.flatMap_nil, List.mem_append, List.mem_ite_nil_right, List.mem_singleton, List.append_nil] at hk
      omega
    have := this hk
    omega

/-- The hypotheses for the first person and three steps. -/
example : SameUpTo (joinedTo false line) (joinedTo false line) (joinedTo false looped) (five true) (five false) 3 0 := by
  constructor
  · intro j hj
    have := away_line hj
    have h : j = 0 ∨ j = 1 ∨ j = 2 ∨ j = 3 := by omega
    rcases h with rfl | rfl | rfl | rfl <;> rfl
  · intro m hm j hj
    have := away_line hj
    have h : j = 0 ∨ j = 1 ∨ j = 2 := by omega
    rcases h with rfl | rfl | rfl <;> rfl

/-- After three steps the first person is still healthy in both, after four no longer in the one. -/
example : ([(3, true), (3, false), (4, true), (4, false)] : List (Nat × Bool)).map (fun q =>
    (steps (model (· + 1) (fun _ _ => 0) (netOps Prod.fst) infect (fun _ => ())) q.1
      (Driver.start (simNodes (0 : Nat) (· + 1) (fun _ _ => 0) (netOps Prod.fst) infect (fun _ => ())
        (Network.run Prod.fst (Net.new false) (buildCalls (five q.2) line)) (five q.2) (fun _ => 0)) ⟨none, 0⟩)).state.field.bind (fun f => Network.getObject f 0)) =
    [some (10, false), some (10, false), some (10, true), some (10, false)] := by
  decide +kernel

/-- Two households with a common member, and another that has nobody in common with them: one step away from the first person are only the members of its household. -/
example : SameUpTo (fun i => (hyperOf [[0, 1], [1, 2], [3, 4]] i).flatten) (hyperOf [[0, 1], [1, 2], [3, 4]]) (hyperOf [[0, 1], [1, 2], [4]]) (five true) (five false) 1 0 := by
  constructor
  · intro j hj
    have h : j = 0 ∨ j = 1 := by
      cases hj with
      | stay h => cases h; exact Or.inl rfl
      | go hk h =>
        cases h
        have : j ∈ ([0, 1] : List Nat) := hk
        simpa using this
    rcases h with rfl | rfl <;> rfl
  · intro m hm j hj
    have : m = 0 := by omega
    subst this
    cases hj
    rfl

end AwayDemo

end Verif.Sync
