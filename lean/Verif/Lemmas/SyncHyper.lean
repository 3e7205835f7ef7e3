import Verif.Spec.SyncHyper
import Verif.Lemmas.SyncNetworks
import Verif.Lemmas.HNetwork

/-! The hypernetwork as field of a synchronous simulation. -/

namespace Verif.Sync

open Verif.HNetwork (HNet HEdge listOf)

variable {B K : Type} [DecidableEq K] {ident : B → K}

/-- The hypernetwork holds the records `w` of the nodes `ks` with the hyperedges `H`, and either nothing or the records `r` are
published. -/
structure HHolds (ident : B → K) (ks : List K) (H : List (List Nat)) (n : HNet K B Unit Unit) (r w : List B) : Prop where
  keys : w.map ident = ks
  nodup : ks.Nodup
  inside : ∀ h ∈ H, ∀ j ∈ h, j < ks.length
  ids : ∀ k i, HMap.get n.nodes2id k = some i ↔ ks[i]? = some k
  nodes : ∀ i, HMap.get n.id2nodes i = w[i]?
  edges : ∀ i, (listOf n.edges i).map (fun e => e.nodes) = hyperOf H i
  shown : r = [] ∨ (r.map ident = ks ∧ (∀ i, HMap.get n.rid2nodes i = r[i]?) ∧
    ∀ i, (listOf n.redges i).map (fun e => e.nodes) = hyperOf H i)

theorem mapM_hyper (r : List B) (iter : List Nat → List Nat) (hi : ∀ h, (iter h).Perm h) (hs : List (List Nat))
    (h : ∀ x ∈ hs, ∀ j ∈ x, j < r.length) :
    hs.mapM (fun x => (iter x).mapM (fun j => r[j]?)) = some (hs.map (fun x => (iter x).filterMap (fun j => r[j]?))) := by
  induction hs with
  | nil => rfl
  | cons x hs ih =>
    rw [List.mapM_cons, List.map_cons, mapM_get r (iter x) (fun j hj => h x List.mem_cons_self j ((hi x).mem_iff.1 hj)),
      ih (fun y hy => h y (List.mem_cons_of_mem _ hy))]
    rfl

theorem hnetLaws (ident : B → K) (iter : List Nat → List Nat) (hi : ∀ h, (iter h).Perm h) (ks : List K) (H : List (List Nat)) :
    NodeLaws (hnetOps ident iter) ident (hyperView ident iter H)
      (HyperShows HNetwork.getObject (fun n b => ((HNetwork.getEdges ident n b).getD []).map (fun e => e.nodes)) H)
      (HHolds ident ks H) where
  place {f r w} b h _ := by
    refine ⟨_, rfl, ?_⟩
    unfold HNetwork.updateNode
    cases hb : HMap.get f.nodes2id (ident b) with
    | none =>
      dsimp only
      refine ⟨replace_keys h.keys b, h.nodup, h.inside, h.ids, ?_, h.edges, h.shown⟩
      intro i
      rw [replace_get h.keys h.nodup, if_neg]
      · exact h.nodes i
      · intro hc
        rw [(h.ids _ _).2 hc] at hb
        cases hb
    | some uid =>
      dsimp only
      refine ⟨replace_keys h.keys b, h.nodup, h.inside, h.ids, ?_, h.edges, h.shown⟩
      intro i
      have hu := (h.ids _ _).1 hb
      rw [HMap.get_adjustBy, replace_get h.keys h.nodup, h.nodes]
      have : (ks[i]? = some (ident b)) ↔ i = uid := by
        rw [← h.ids, hb]; simp [eq_comm]
      simp only [this]
      split
      · rename_i he; rw [he]
      · exact h.nodes i
  publish {f r w} h := ⟨_, rfl, ⟨h.keys, h.nodup, h.inside, h.ids, h.nodes, h.edges, Or.inr ⟨h.keys, h.nodes, h.edges⟩⟩⟩
  look {f r w} b h hb := by
    obtain ⟨hk, s2, s3⟩ := h.shown.resolve_left (by intro he; rw [he] at hb; simp at hb)
    obtain ⟨i, hii, rfl⟩ := List.getElem_of_mem hb
    have hget : r[i]? = some r[i] := List.getElem?_eq_getElem hii
    have hid : HMap.get f.nodes2id (ident r[i]) = some i := (h.ids _ _).2 (by rw [← hk, List.getElem?_map, hget]; rfl)
    have hlen : r.length = ks.length := by rw [← hk, List.length_map]
    have hnum := number_of hk h.nodup hget
    show ((HNetwork.getEdges ident f r[i]).getD []).mapM (fun e => (iter e.nodes).mapM (fun j => HNetwork.getObject f j)) = _
    have he : (HNetwork.getEdges ident f r[i]).getD [] = listOf f.redges i := by
      unfold HNetwork.getEdges listOf
      rw [hid]
    have hm : (listOf f.redges i).mapM (fun e => (iter e.nodes).mapM (fun j => HNetwork.getObject f j)) =
        ((listOf f.redges i).map (fun e => e.nodes)).mapM (fun x => (iter x).mapM (fun j => r[j]?)) := by
      rw [List.mapM_map]
      congr 1
      funext e
      congr 1
      funext j
      exact s2 j
    rw [he, hm, s3, mapM_hyper r iter hi _ (fun x hx j hj => by
      rw [hlen]; exact h.inside x (List.mem_of_mem_filter hx) j hj)]
    unfold hyperView
    rw [hnum]
  shows {f r w} h hr := by
    obtain ⟨hk, s2, s3⟩ := h.shown.resolve_left hr
    intro i b hb
    have hid : HMap.get f.nodes2id (ident b) = some i := (h.ids _ _).2 (by rw [← hk, List.getElem?_map, hb]; rfl)
    refine ⟨(s2 i).trans hb, ?_⟩
    show ((HNetwork.getEdges ident f b).getD []).map (fun e => e.nodes) = _
    unfold HNetwork.getEdges
    rw [hid]
    exact s3 i

/-! ### Making the hypernetwork -/

/-- The hypernetwork after `add_node` of these agents. -/
def hlaid (ident : B → K) (agents : List B) : HNet K B Unit Unit :=
  ⟨agents.mapIdx (fun i _ => (i, [])), [], agents.mapIdx (fun i b => (ident b, i)), agents.mapIdx (fun i b => (i, b)), []⟩

theorem addNode_hlaid (agents : List B) (u : B) (hn : ((agents ++ [u]).map ident).Nodup) :
    HNetwork.addNode ident (hlaid ident agents) u = hlaid ident (agents ++ [u]) := by
  have h1 : HMap.get (hlaid ident agents).nodes2id (ident u) = none := by
    cases hg : HMap.get (hlaid ident agents).nodes2id (ident u) with
    | none => rfl
    | some i =>
      rw [List.map_append, List.nodup_append] at hn
      have := (get_ids hn.1 _ _).1 hg
      exact absurd rfl (hn.2.2 _ (List.mem_iff_getElem?.2 ⟨i, this⟩) _ (by simp))
  have hlen : (hlaid ident agents).nodes2id.length = agents.length := by simp [hlaid]
  have h2 : HMap.get (hlaid ident agents).id2nodes agents.length = none := by
    show HMap.get (agents.mapIdx (fun i b => (i, b))) _ = none
    rw [get_mapIdx (fun _ b => b)]; simp
  have h3 : HMap.get (hlaid ident agents).edges agents.length = none := by
    show HMap.get (agents.mapIdx (fun i _ => (i, []))) _ = none
    rw [get_mapIdx (fun _ _ => [])]; simp
  unfold HNetwork.addNode HNetwork.ensureList
  rw [hlen, h3]
  dsimp only
  rw [HMap.insert_absent h1, HMap.insert_absent h2, HMap.insert_absent h3]
  simp [hlaid, List.mapIdx_append]

theorem hrun_append (ops ops' : List (HNetwork.Op B Unit Unit)) : ∀ n : HNet K B Unit Unit,
    HNetwork.run ident n (ops ++ ops') = (HNetwork.run ident n ops).bind (fun n' => HNetwork.run ident n' ops') := by
  induction ops with
  | nil => intro n; rfl
  | cons op ops ih =>
    intro n
    rw [List.cons_append, HNetwork.run, HNetwork.run]
    cases HNetwork.exec ident n op with
    | none => rfl
    | some n' => exact ih n'

theorem hrun_nodes (agents : List B) (hn : (agents.map ident).Nodup) :
    HNetwork.run ident HNet.new (agents.map .addNode) = some (hlaid ident agents) := by
  induction agents using List.reverseRecOn with
  | nil => rfl
  | append_singleton l x ih =>
    rw [List.map_append, hrun_append, ih (hn.sublist (by simp))]
    show some (HNetwork.addNode ident (hlaid ident l) x) = _
    rw [addNode_hlaid l x hn]

theorem hholds_laid (agents : List B) (hn : (agents.map ident).Nodup) :
    HHolds ident (agents.map ident) [] (hlaid ident agents) [] agents := by
  refine ⟨rfl, hn, by simp, get_ids hn, ?_, ?_, Or.inl rfl⟩
  · intro i
    show HMap.get (agents.mapIdx (fun i b => (i, b))) i = _
    rw [get_mapIdx (fun _ b => b)]; simp
  · intro i
    have : listOf (hlaid ident agents).edges i = [] := by
      show (HMap.get (agents.mapIdx (fun i _ => (i, []))) i).getD [] = []
      rw [get_mapIdx (fun _ _ => [])]
      cases agents[i]? <;> rfl
    rw [this]; rfl

theorem idsOf_members {ks : List K} {n : HNet K B Unit Unit} {w : List B} (hk : w.map ident = ks)
    (hids : ∀ k i, HMap.get n.nodes2id k = some i ↔ ks[i]? = some k) (h : List Nat) (hh : ∀ j ∈ h, j < w.length) :
    HNetwork.idsOf ident n (h.filterMap (fun i => w[i]?)) = some h := by
  induction h with
  | nil => rfl
  | cons j h ih =>
    have hj := List.getElem?_eq_getElem (hh j List.mem_cons_self)
    have : HMap.get n.nodes2id (ident (w[j]'(hh j List.mem_cons_self))) = some j :=
      (hids _ _).2 (by rw [← hk, List.getElem?_map, hj]; rfl)
    rw [List.filterMap_cons, hj]
    simp only [HNetwork.idsOf, this, ih (fun j hj => hh j (List.mem_cons_of_mem _ hj)), Option.map_some]

theorem foldl_setInsert_nodup (l : List Nat) : ∀ s : List Nat, (s ++ l).Nodup → l.foldl HNetwork.setInsert s = s ++ l := by
  induction l with
  | nil => intro s _; simp
  | cons x l ih =>
    intro s h
    have hx : ¬ x ∈ s := by
      rw [List.nodup_append] at h
      intro hc
      exact h.2.2 x hc x List.mem_cons_self rfl
    rw [List.foldl_cons]
    have : HNetwork.setInsert s x = s ++ [x] := by
      unfold HNetwork.setInsert
      rw [if_neg (by simpa using hx)]
    rw [this, ih (s ++ [x]) (by simpa using h)]
    simp

theorem hyperOf_append (H : List (List Nat)) (h : List Nat) (i : Nat) :
    hyperOf (H ++ [h]) i = hyperOf H i ++ (if i ∈ h then [h] else []) := by
  unfold hyperOf
  rw [List.filter_append]
  congr 1
  by_cases hi : i ∈ h <;> simp [hi]

/-- One more hyperedge of an unpublished hypernetwork. -/
theorem hholds_addEdge {ks : List K} {H : List (List Nat)} {n : HNet K B Unit Unit} {w : List B} (hh : HHolds ident ks H n [] w)
    {h : List Nat} (hne : h ≠ []) (hn : h.Nodup) (hj : ∀ j ∈ h, j < w.length) (hd : ∀ x ∈ H, ¬ ∀ j, j ∈ x ↔ j ∈ h) :
    HHolds ident ks (H ++ [h]) (HNetwork.addEdge ident n (h.filterMap (fun i => w[i]?)) .simple).1 [] w := by
  have hids := idsOf_members hh.keys hh.ids h hj
  have hnodes : (HEdge.new h .simple : HEdge Unit Unit).nodes = h := by
    rw [HNetwork.new_nodes, foldl_setInsert_nodup h [] (by simpa using hn)]; rfl
  have hlist := (HNetwork.addLoop_true (HEdge.new h .simple : HEdge Unit Unit) h n.edges hn (by
    intro i _ x hx hs
    have hx' : x.nodes ∈ hyperOf H i := by
      rw [← hh.edges i]; exact List.mem_map_of_mem hx
    refine hd _ (List.mem_of_mem_filter hx') ?_
    intro j
    have := hs j
    rw [hnodes] at this
    exact this)).2
  have hadd : (HNetwork.addEdge ident n (h.filterMap (fun i => w[i]?)) .simple).1 =
      { n with edges := (HNetwork.addLoop (HEdge.new h .simple) h n.edges).1 } := by
    rcases HNetwork.addEdge_eq (ident := ident) n (h.filterMap (fun i => w[i]?)) .simple with he | ⟨u, us, i, ids, h1, h2, h3⟩
    · exfalso
      unfold HNetwork.addEdge at he
      cases hl : h.filterMap (fun i => w[i]?) with
      | nil =>
        rw [hl] at hids
        simp only [HNetwork.idsOf, Option.some.injEq] at hids
        exact hne hids.symm
      | cons u us =>
        rw [hl] at he hids
        simp only [hids] at he
        have h2 := congrArg Prod.snd he
        have h3 := (HNetwork.addLoop_true (HEdge.new h .simple : HEdge Unit Unit) h n.edges hn (by
          intro i _ x hx hs
          have hx' : x.nodes ∈ hyperOf H i := by
            rw [← hh.edges i]; exact List.mem_map_of_mem hx
          refine hd _ (List.mem_of_mem_filter hx') ?_
          intro j
          have := hs j
          rw [hnodes] at this
          exact this)).1
        simp only [h3] at h2
        cases h2
    · rw [hids] at h2
      rw [h3, ← Option.some.inj h2]
  rw [hadd]
  refine ⟨hh.keys, hh.nodup, ?_, hh.ids, hh.nodes, ?_, Or.inl rfl⟩
  · intro x hx j hjx
    rcases List.mem_append.1 hx with hx | hx
    · exact hh.inside x hx j hjx
    · rw [List.mem_singleton] at hx
      subst hx
      have := hj j hjx
      rwa [← hh.keys, List.length_map]
  · intro i
    show (listOf (HNetwork.addLoop (HEdge.new h .simple) h n.edges).1 i).map (fun e => e.nodes) = _
    rw [hlist i, List.map_append, hh.edges i, hyperOf_append]
    congr 1
    split
    · rw [List.map_cons, hnodes]; rfl
    · rfl

/-- The hypernetwork made by the calls. -/
theorem hholds_build (agents : List B) (hn : (agents.map ident).Nodup) (H : List (List Nat)) (hH : HyperOk agents.length H) :
    ∃ n, HNetwork.run ident HNet.new (hyperCalls agents H) = some n ∧ HHolds ident (agents.map ident) H n [] agents := by
  unfold hyperCalls
  rw [hrun_append, hrun_nodes agents hn, Option.bind_some]
  have key : ∀ (H' H0 : List (List Nat)) (n : HNet K B Unit Unit), HyperOk agents.length (H0 ++ H') →
      HHolds ident (agents.map ident) H0 n [] agents →
      ∃ n', HNetwork.run ident n (H'.map (fun h => .addEdge (h.filterMap (fun i => agents[i]?)) .simple)) = some n' ∧
        HHolds ident (agents.map ident) (H0 ++ H') n' [] agents := by
    intro H'
    induction H' with
    | nil => intro H0 n _ h; exact ⟨n, rfl, by rw [List.append_nil]; exact h⟩
    | cons x H' ih =>
      intro H0 n hok h
      have hx : x ∈ H0 ++ x :: H' := by simp
      have h1 := hholds_addEdge h (hok.nonempty x hx) (hok.members x hx).1 (hok.members x hx).2
        (fun y hy => (List.pairwise_append.1 hok.different).2.2 y hy x List.mem_cons_self)
      obtain ⟨n', k1, k2⟩ := ih (H0 ++ [x]) _ (by rw [List.append_assoc]; exact hok) h1
      exact ⟨n', k1, by rw [List.append_assoc] at k2; exact k2⟩
  obtain ⟨n, h1, h2⟩ := key H [] (hlaid ident agents) hH (hholds_laid agents hn)
  exact ⟨n, h1, h2⟩

end Verif.Sync
