import Verif.Spec.RenameNetwork

/-!
C253 "The names of nodes, labels and weights do not influence a network".
-/

namespace Verif.HMap

variable {K K' V V' : Type} [DecidableEq K] [DecidableEq K']

/-- The map with all keys and values changed. -/
def bimap (ψ : K → K') (f : V → V') (m : HMap K V) : HMap K' V' := m.map (fun e => (ψ e.1, f e.2))

/-- `ψ` keeps different keys different. -/
def Inj (ψ : K → K') : Prop := ∀ a b, ψ a = ψ b → a = b

theorem beq_inj {ψ : K → K'} (h : Inj ψ) (a b : K) : (ψ a == ψ b) = (a == b) := by
  by_cases e : a = b
  · rw [e, beq_self_eq_true, beq_self_eq_true]
  · rw [beq_eq_false_iff_ne.mpr e, beq_eq_false_iff_ne.mpr (fun x => e (h _ _ x))]

theorem find_bimap {ψ : K → K'} (h : Inj ψ) (f : V → V') (m : HMap K V) (k : K) :
    (bimap ψ f m).find? (fun e => e.1 == ψ k) = (m.find? (fun e => e.1 == k)).map (fun e => (ψ e.1, f e.2)) := by
  unfold bimap
  rw [List.find?_map]
  congr 1
  congr 1
  funext e
  exact beq_inj h _ _

theorem get_bimap {ψ : K → K'} (h : Inj ψ) (f : V → V') (m : HMap K V) (k : K) : get (bimap ψ f m) (ψ k) = (get m k).map f := by
  unfold get
  rw [find_bimap h, Option.map_map, Option.map_map]
  rfl

theorem insert_bimap {ψ : K → K'} (h : Inj ψ) (f : V → V') (m : HMap K V) (k : K) (v : V) :
    (insert (bimap ψ f m) (ψ k) (f v)).1 = bimap ψ f (insert m k v).1 := by
  unfold insert
  rw [find_bimap h]
  cases m.find? (fun e => e.1 == k) with
  | none => simp [bimap]
  | some e =>
    show (bimap ψ f m).map _ = bimap ψ f (m.map _)
    unfold bimap
    rw [List.map_map, List.map_map]
    apply List.map_congr_left
    intro e _
    show (if (ψ e.1 == ψ k) = true then (ψ e.1, f v) else (ψ e.1, f e.2)) =
      (ψ (if (e.1 == k) = true then (e.1, v) else e).1, f (if (e.1 == k) = true then (e.1, v) else e).2)
    rw [beq_inj h]
    by_cases hc : (e.1 == k) = true
    · rw [if_pos hc, if_pos hc]
    · rw [if_neg hc, if_neg hc]

theorem remove_bimap {ψ : K → K'} (h : Inj ψ) (f : V → V') (m : HMap K V) (k : K) :
    (remove (bimap ψ f m) (ψ k)).1 = bimap ψ f (remove m k).1 := by
  show List.filter _ (List.map _ m) = List.map _ (List.filter _ m)
  rw [List.filter_map]
  congr 1
  refine List.filter_congr (fun e _ => ?_)
  show (ψ e.1 != ψ k) = (e.1 != k)
  unfold bne
  rw [beq_inj h]

theorem adjust_bimap {ψ : K → K'} (h : Inj ψ) (f : V → V') (u : V → V) (u' : V' → V') (hu : ∀ v, u' (f v) = f (u v)) (m : HMap K V)
    (k : K) : adjust (bimap ψ f m) (ψ k) u' = bimap ψ f (adjust m k u) := by
  unfold adjust bimap
  rw [List.map_map, List.map_map]
  apply List.map_congr_left
  intro e _
  show (if (ψ e.1 == ψ k) = true then (ψ e.1, u' (f e.2)) else (ψ e.1, f e.2)) =
    (ψ (if (e.1 == k) = true then (e.1, u e.2) else e).1, f (if (e.1 == k) = true then (e.1, u e.2) else e).2)
  rw [beq_inj h]
  by_cases hc : (e.1 == k) = true
  · rw [if_pos hc, if_pos hc, hu]
  · rw [if_neg hc, if_neg hc]

omit [DecidableEq K] in
theorem inj_id : Inj (id : K → K) := fun _ _ h => h

omit [DecidableEq K] in
theorem keys_bimap (f : V → V') (m : HMap K V) : keys (bimap id f m) = keys m := by
  unfold keys bimap
  rw [List.map_map]
  rfl

end Verif.HMap

namespace Verif.Network

open HMap

variable {K K' O P L L' W W' : Type} [DecidableEq K] [DecidableEq K']

/-- The maps under the new names; the ids are kept. -/
def Side.rename (ψ : K → K') (φ : O → P) (lab : L → L') (wt : W → W') (s : Side K O L W) : Side K' P L' W' :=
  ⟨bimap id (List.map (Edge.rename lab wt)) s.edges, bimap ψ id s.nodes2id, bimap id φ s.id2nodes⟩

/-- The network under the new names. -/
def Net.rename (ψ : K → K') (φ : O → P) (lab : L → L') (wt : W → W') (n : Net K O L W) : Net K' P L' W' :=
  ⟨n.r.rename ψ φ lab wt, n.w.rename ψ φ lab wt, n.direct⟩

/-- The answers of the second network are those of the first one under the new names. -/
structure RenamedAnswers (ident : O → K) (ident' : P → K') (φ : O → P) (lab : L → L') (wt : W → W') (n : Net K O L W)
    (n' : Net K' P L' W') : Prop where
  edge : ∀ u v, getEdge ident' n' (φ u) (φ v) = (getEdge ident n u v).map (Option.map (Edge.rename lab wt))
  edges : ∀ u, getEdges ident' n' (φ u) = (getEdges ident n u).map (List.map (Edge.rename lab wt))
  object : ∀ i, getObject n' i = (getObject n i).map φ
  id : ∀ u, getId ident' n' (φ u) = getId ident n u
  added : ∀ u v o, (addEdge ident' n' (φ u) (φ v) (o.rename lab wt)).2 = (addEdge ident n u v o).2
  removed : ∀ u v, (removeEdge ident' n' (φ u) (φ v)).map Prod.snd =
    ((removeEdge ident n u v).map Prod.snd).map (Option.map (Edge.rename lab wt))
  removedOf : ∀ inc u, (removeEdgesOf ident' inc n' (φ u)).map Prod.snd =
    ((removeEdgesOf ident inc n u).map Prod.snd).map (Option.map (List.map (Edge.rename lab wt)))
  removedNode : ∀ u, (removeNode ident' n' (φ u)).map Prod.snd = (removeNode ident n u).map Prod.snd

variable {ident : O → K} {ident' : P → K'} {ψ : K → K'} {φ : O → P}

omit [DecidableEq K] [DecidableEq K'] in
theorem edge_new_rename (lab : L → L') (wt : W → W') (u v : Nat) (o : EdgeOptions L W) :
    Edge.new u v (o.rename lab wt) = (Edge.new u v o).rename lab wt := by cases o <;> rfl

omit [DecidableEq K] [DecidableEq K'] in
theorem pushEdge_rename (lab : L → L') (wt : W → W') (m : EdgeMap L W) (k : Nat) (e : Edge L W) :
    pushEdge (bimap id (List.map (Edge.rename lab wt)) m) k (e.rename lab wt) =
      bimap id (List.map (Edge.rename lab wt)) (pushEdge m k e) := by
  have hg := get_bimap inj_id (List.map (Edge.rename lab wt)) m k
  unfold pushEdge
  rw [show HMap.get (bimap id (List.map (Edge.rename lab wt)) m) k = _ from hg]
  cases HMap.get m k with
  | none => exact insert_bimap inj_id (List.map (Edge.rename lab wt)) m k [e]
  | some es =>
    exact adjust_bimap inj_id (List.map (Edge.rename lab wt)) (fun es => es ++ [e]) (fun es => es ++ [e.rename lab wt])
      (fun es => by simp) m k

omit [DecidableEq K] [DecidableEq K'] in
theorem ensureList_rename (lab : L → L') (wt : W → W') (m : EdgeMap L W) (k : Nat) :
    ensureList (bimap id (List.map (Edge.rename lab wt)) m) k = bimap id (List.map (Edge.rename lab wt)) (ensureList m k) := by
  have hg := get_bimap inj_id (List.map (Edge.rename lab wt)) m k
  unfold ensureList
  rw [show HMap.get (bimap id (List.map (Edge.rename lab wt)) m) k = _ from hg]
  cases HMap.get m k with
  | none => exact insert_bimap inj_id (List.map (Edge.rename lab wt)) m k []
  | some es => rfl

theorem id_rename (hi : Inj ψ) (h : ∀ o, ident' (φ o) = ψ (ident o)) (m : HMap K Nat) (u : O) :
    HMap.get (bimap ψ id m) (ident' (φ u)) = HMap.get m (ident u) := by
  rw [h, get_bimap hi, Option.map_id_fun]
  rfl

theorem addEdge_rename (hi : Inj ψ) (h : ∀ o, ident' (φ o) = ψ (ident o)) (lab : L → L') (wt : W → W') (n : Net K O L W) (u v : O)
    (o : EdgeOptions L W) :
    addEdge ident' (n.rename ψ φ lab wt) (φ u) (φ v) (o.rename lab wt) =
      ((addEdge ident n u v o).1.rename ψ φ lab wt, (addEdge ident n u v o).2) := by
  have hu := id_rename hi h n.w.nodes2id u
  have hv := id_rename hi h n.w.nodes2id v
  unfold addEdge
  rw [show HMap.get (n.rename ψ φ lab wt).w.nodes2id (ident' (φ u)) = _ from hu,
    show HMap.get (n.rename ψ φ lab wt).w.nodes2id (ident' (φ v)) = _ from hv]
  cases HMap.get n.w.nodes2id (ident u) with
  | none => rfl
  | some uid =>
    cases HMap.get n.w.nodes2id (ident v) with
    | none => rfl
    | some vid =>
      have e1 := pushEdge_rename lab wt n.w.edges uid (Edge.new uid vid o)
      have e2 := pushEdge_rename lab wt (pushEdge n.w.edges uid (Edge.new uid vid o)) vid (Edge.new vid uid o)
      simp only [edge_new_rename]
      by_cases hd : n.direct = true
      · rw [if_pos (show (n.rename ψ φ lab wt).direct = true from hd), if_pos hd]
        show ((⟨_, ⟨pushEdge (bimap id _ n.w.edges) uid _, _, _⟩, _⟩ : Net K' P L' W'), true, false) = _
        rw [e1]
        rfl
      · rw [if_neg (show ¬ (n.rename ψ φ lab wt).direct = true from hd), if_neg hd]
        show ((⟨_, ⟨pushEdge (pushEdge (bimap id _ n.w.edges) uid _) vid _, _, _⟩, _⟩ : Net K' P L' W'), true, true) = _
        rw [e1, e2]
        rfl

theorem addNode_rename (hi : Inj ψ) (h : ∀ o, ident' (φ o) = ψ (ident o)) (lab : L → L') (wt : W → W') (n : Net K O L W) (u : O) :
    addNode ident' (n.rename ψ φ lab wt) (φ u) = (addNode ident n u).rename ψ φ lab wt := by
  have hl : (bimap ψ id n.w.nodes2id).length = n.w.nodes2id.length := List.length_map _
  show (⟨_, ⟨ensureList (bimap id (List.map (Edge.rename lab wt)) n.w.edges) (bimap ψ id n.w.nodes2id).length,
    (HMap.insert (bimap ψ id n.w.nodes2id) (ident' (φ u)) (bimap ψ id n.w.nodes2id).length).1,
    (HMap.insert (bimap id φ n.w.id2nodes) (bimap ψ id n.w.nodes2id).length (φ u)).1⟩, _⟩ : Net K' P L' W') = _
  rw [hl, ensureList_rename, h, show (HMap.insert (bimap ψ id n.w.nodes2id) (ψ (ident u)) n.w.nodes2id.length).1 = _ from
      insert_bimap hi id n.w.nodes2id (ident u) n.w.nodes2id.length,
    show (HMap.insert (bimap id φ n.w.id2nodes) n.w.nodes2id.length (φ u)).1 = _ from insert_bimap inj_id φ n.w.id2nodes _ u]
  rfl

theorem removeEdgeIds_rename (lab : L → L') (wt : W → W') (d : Bool) (m : EdgeMap L W) (uid vid : Nat) :
    removeEdgeIds d (bimap id (List.map (Edge.rename lab wt)) m) uid vid =
      (removeEdgeIds d m uid vid).map (fun x => (bimap id (List.map (Edge.rename lab wt)) x.1, x.2.map (Edge.rename lab wt))) := by
  have hu := get_bimap inj_id (List.map (Edge.rename lab wt)) m uid
  have hv := get_bimap inj_id (List.map (Edge.rename lab wt)) m vid
  have hp : (between uid vid : Edge L' W' → Bool) ∘ Edge.rename lab wt = between uid vid := rfl
  have he : ∀ es : List (Edge L W), (es.map (Edge.rename lab wt)).eraseP (between uid vid) =
      (es.eraseP (between uid vid)).map (Edge.rename lab wt) := by
    intro es
    rw [List.eraseP_map, hp]
  have hf : ∀ es : List (Edge L W), (es.map (Edge.rename lab wt)).filter (fun e => !between uid vid e) =
      (es.filter (fun e => !between uid vid e)).map (Edge.rename lab wt) := by
    intro es
    rw [List.filter_map]
    rfl
  unfold removeEdgeIds
  rw [show HMap.get (bimap id (List.map (Edge.rename lab wt)) m) uid = _ from hu,
    show HMap.get (bimap id (List.map (Edge.rename lab wt)) m) vid = _ from hv]
  have ha1 : HMap.adjust (bimap id (List.map (Edge.rename lab wt)) m) uid (fun es => es.eraseP (between uid vid)) = _ :=
    adjust_bimap inj_id (List.map (Edge.rename lab wt)) (fun es => es.eraseP (between uid vid)) _ he m uid
  have ha2 : HMap.adjust (bimap id (List.map (Edge.rename lab wt)) (HMap.adjust m uid (fun es => es.eraseP (between uid vid)))) vid
      (fun es => es.filter (fun e => !between uid vid e)) = _ :=
    adjust_bimap inj_id (List.map (Edge.rename lab wt)) (fun es => es.filter (fun e => !between uid vid e)) _ hf _ vid
  rw [ha1, ha2]
  cases HMap.get m uid with
  | none => rfl
  | some ues =>
    show (match (ues.map (Edge.rename lab wt)).find? (between uid vid) with
      | none => _
      | some e => _) = _
    rw [List.find?_map, hp]
    dsimp only
    cases ues.find? (between uid vid) with
    | none => rfl
    | some e =>
      by_cases hd : d = true
      · subst hd; rfl
      · have hd' : d = false := by simpa using hd
        subst hd'
        cases HMap.get m vid with
        | none => rfl
        | some _ => rfl

theorem removeEdge_rename (hi : Inj ψ) (h : ∀ o, ident' (φ o) = ψ (ident o)) (lab : L → L') (wt : W → W') (n : Net K O L W)
    (u v : O) :
    removeEdge ident' (n.rename ψ φ lab wt) (φ u) (φ v) =
      (removeEdge ident n u v).map (fun x => (x.1.rename ψ φ lab wt, x.2.map (Edge.rename lab wt))) := by
  have hu := id_rename hi h n.r.nodes2id u
  have hv := id_rename hi h n.r.nodes2id v
  unfold removeEdge
  rw [show HMap.get (n.rename ψ φ lab wt).r.nodes2id (ident' (φ u)) = _ from hu,
    show HMap.get (n.rename ψ φ lab wt).r.nodes2id (ident' (φ v)) = _ from hv]
  cases HMap.get n.r.nodes2id (ident u) with
  | none => rfl
  | some uid =>
    cases HMap.get n.r.nodes2id (ident v) with
    | none => rfl
    | some vid =>
      have hr := removeEdgeIds_rename lab wt n.direct n.w.edges uid vid
      show (match removeEdgeIds n.direct (bimap id (List.map (Edge.rename lab wt)) n.w.edges) uid vid with
        | none => none
        | some x => some ((⟨_, ⟨x.1, _, _⟩, _⟩ : Net K' P L' W'), x.2)) = _
      rw [hr]
      dsimp only
      cases removeEdgeIds n.direct n.w.edges uid vid with
      | none => rfl
      | some x => rfl

theorem removeStep_rename (hi : Inj ψ) (h : ∀ o, ident' (φ o) = ψ (ident o)) (lab : L → L') (wt : W → W') (inc : Bool)
    (ids : HMap Nat O) (uid : Nat) (u : O) (acc : Option (Net K O L W × List (Edge L W))) (v : Nat) :
    removeStep ident' inc (bimap id φ ids) uid (φ u)
        (acc.map (fun x => (x.1.rename ψ φ lab wt, x.2.map (Edge.rename lab wt)))) v =
      (removeStep ident inc ids uid u acc v).map (fun x => (x.1.rename ψ φ lab wt, x.2.map (Edge.rename lab wt))) := by
  cases acc with
  | none => rfl
  | some x =>
    obtain ⟨n, ris⟩ := x
    have hg : HMap.get (bimap id φ ids) v = _ := get_bimap inj_id φ ids v
    unfold removeStep
    by_cases hv : v = uid
    · simp only [Option.map_some, if_pos hv]
    · simp only [Option.map_some, if_neg hv, hg]
      cases HMap.get ids v with
      | none => rfl
      | some vnode =>
        have h1 := removeEdge_rename hi h lab wt n vnode u
        have h2 := removeEdge_rename hi h lab wt n u vnode
        have h3 : (if inc = true then removeEdge ident' (n.rename ψ φ lab wt) (φ vnode) (φ u)
            else removeEdge ident' (n.rename ψ φ lab wt) (φ u) (φ vnode)) =
            (if inc = true then removeEdge ident n vnode u else removeEdge ident n u vnode).map
              (fun x => (x.1.rename ψ φ lab wt, x.2.map (Edge.rename lab wt))) := by
          cases inc
          · exact h2
          · exact h1
        show (match (if inc = true then removeEdge ident' (n.rename ψ φ lab wt) (φ vnode) (φ u)
            else removeEdge ident' (n.rename ψ φ lab wt) (φ u) (φ vnode)) with
          | none => none
          | some (n', none) => some (n', ris.map (Edge.rename lab wt))
          | some (n', some e) => some (n', ris.map (Edge.rename lab wt) ++ [e])) = _
        rw [h3]
        dsimp only
        cases (if inc = true then removeEdge ident n vnode u else removeEdge ident n u vnode) with
        | none => rfl
        | some y =>
          obtain ⟨n', oe⟩ := y
          cases oe with
          | none => rfl
          | some e => simp

theorem removeEdgesOf_rename (hi : Inj ψ) (h : ∀ o, ident' (φ o) = ψ (ident o)) (lab : L → L') (wt : W → W') (inc : Bool)
    (n : Net K O L W) (u : O) :
    removeEdgesOf ident' inc (n.rename ψ φ lab wt) (φ u) =
      (removeEdgesOf ident inc n u).map (fun x => (x.1.rename ψ φ lab wt, x.2.map (List.map (Edge.rename lab wt)))) := by
  have hu := id_rename hi h n.r.nodes2id u
  unfold removeEdgesOf
  rw [show HMap.get (n.rename ψ φ lab wt).r.nodes2id (ident' (φ u)) = _ from hu]
  cases HMap.get n.r.nodes2id (ident u) with
  | none => rfl
  | some uid =>
    have key : ∀ (vs : List Nat) (acc : Option (Net K O L W × List (Edge L W))),
        vs.foldl (removeStep ident' inc (bimap id φ n.w.id2nodes) uid (φ u))
          (acc.map (fun x => (x.1.rename ψ φ lab wt, x.2.map (Edge.rename lab wt)))) =
        (vs.foldl (removeStep ident inc n.w.id2nodes uid u) acc).map
          (fun x => (x.1.rename ψ φ lab wt, x.2.map (Edge.rename lab wt))) := by
      intro vs
      induction vs with
      | nil => intro acc; rfl
      | cons v vs ih =>
        intro acc
        rw [List.foldl_cons, List.foldl_cons, removeStep_rename hi h, ih]
    have hk : (HMap.keys (bimap id φ n.w.id2nodes)) = HMap.keys n.w.id2nodes := keys_bimap φ n.w.id2nodes
    show (match (HMap.keys (bimap id φ n.w.id2nodes)).foldl (removeStep ident' inc (bimap id φ n.w.id2nodes) uid (φ u))
        (some (n.rename ψ φ lab wt, [])) with
      | none => none
      | some (n', ris) => some (n', some ris)) = _
    rw [hk, show (some (n.rename ψ φ lab wt, []) : Option (Net K' P L' W' × List (Edge L' W'))) =
      (some (n, []) : Option (Net K O L W × List (Edge L W))).map
        (fun x => (x.1.rename ψ φ lab wt, x.2.map (Edge.rename lab wt))) from rfl, key]
    dsimp only
    cases (HMap.keys n.w.id2nodes).foldl (removeStep ident inc n.w.id2nodes uid u) (some (n, [])) with
    | none => rfl
    | some y => rfl

theorem removeNode_rename (hi : Inj ψ) (h : ∀ o, ident' (φ o) = ψ (ident o)) (lab : L → L') (wt : W → W') (n : Net K O L W) (u : O) :
    removeNode ident' (n.rename ψ φ lab wt) (φ u) =
      (removeNode ident n u).map (fun x => (x.1.rename ψ φ lab wt, x.2)) := by
  have hu := id_rename hi h n.w.nodes2id u
  have hd : ∀ (n1 : Net K O L W) (uid : Nat), dropList (n1.rename ψ φ lab wt) uid = (dropList n1 uid).rename ψ φ lab wt := by
    intro n1 uid
    show (⟨_, ⟨(HMap.remove (bimap id (List.map (Edge.rename lab wt)) n1.w.edges) uid).1, _, _⟩, _⟩ : Net K' P L' W') = _
    rw [show (HMap.remove (bimap id (List.map (Edge.rename lab wt)) n1.w.edges) uid).1 = _ from
      remove_bimap inj_id _ n1.w.edges uid]
    rfl
  unfold removeNode
  rw [show HMap.get (n.rename ψ φ lab wt).w.nodes2id (ident' (φ u)) = _ from hu]
  cases HMap.get n.w.nodes2id (ident u) with
  | none => rfl
  | some uid =>
    show (match removeEdgesOf ident' false (n.rename ψ φ lab wt) (φ u) with
      | none => none
      | some (n1, none) => some (n1, false)
      | some (n1, some _) =>
        match removeEdgesOf ident' true (dropList n1 uid) (φ u) with
        | none => none
        | some (n2, none) => some (n2, false)
        | some (n2, some _) =>
          some ((⟨n2.r, ⟨(HMap.remove n2.w.edges uid).1, (HMap.remove n2.w.nodes2id (ident' (φ u))).1,
            (HMap.remove n2.w.id2nodes uid).1⟩, n2.direct⟩ : Net K' P L' W'), true)) = _
    rw [removeEdgesOf_rename hi h]
    dsimp only
    cases removeEdgesOf ident false n u with
    | none => rfl
    | some x =>
      obtain ⟨n1, o1⟩ := x
      cases o1 with
      | none => rfl
      | some l1 =>
        show (match removeEdgesOf ident' true (dropList (n1.rename ψ φ lab wt) uid) (φ u) with
          | none => none
          | some (n2, none) => some (n2, false)
          | some (n2, some _) =>
            some ((⟨n2.r, ⟨(HMap.remove n2.w.edges uid).1, (HMap.remove n2.w.nodes2id (ident' (φ u))).1,
              (HMap.remove n2.w.id2nodes uid).1⟩, n2.direct⟩ : Net K' P L' W'), true)) = _
        rw [hd, removeEdgesOf_rename hi h]
        show _ = Option.map _ (match removeEdgesOf ident true (dropList n1 uid) u with
          | none => none
          | some (n2, none) => some (n2, false)
          | some (n2, some _) =>
            some ((⟨n2.r, ⟨(HMap.remove n2.w.edges uid).1, (HMap.remove n2.w.nodes2id (ident u)).1,
              (HMap.remove n2.w.id2nodes uid).1⟩, n2.direct⟩ : Net K O L W), true))
        cases removeEdgesOf ident true (dropList n1 uid) u with
        | none => rfl
        | some y =>
          obtain ⟨n2, o2⟩ := y
          cases o2 with
          | none => rfl
          | some l2 =>
            show some ((⟨_, ⟨(HMap.remove (bimap id (List.map (Edge.rename lab wt)) n2.w.edges) uid).1,
              (HMap.remove (bimap ψ id n2.w.nodes2id) (ident' (φ u))).1, (HMap.remove (bimap id φ n2.w.id2nodes) uid).1⟩, _⟩ :
                Net K' P L' W'), true) = _
            rw [h, show (HMap.remove (bimap id (List.map (Edge.rename lab wt)) n2.w.edges) uid).1 = _ from
                remove_bimap inj_id _ n2.w.edges uid,
              show (HMap.remove (bimap id φ n2.w.id2nodes) uid).1 = _ from remove_bimap inj_id φ n2.w.id2nodes uid,
              remove_bimap hi]
            rfl

theorem exec_rename (hi : Inj ψ) (h : ∀ o, ident' (φ o) = ψ (ident o)) (lab : L → L') (wt : W → W') (n : Net K O L W) (op : Op O L W) :
    exec ident' (n.rename ψ φ lab wt) (op.rename φ lab wt) = (exec ident n op).map (Net.rename ψ φ lab wt) := by
  cases op with
  | addNode u => exact congrArg some (addNode_rename hi h lab wt n u)
  | addEdge u v o => exact congrArg some (congrArg Prod.fst (addEdge_rename hi h lab wt n u v o))
  | removeEdge u v =>
    show (removeEdge ident' _ _ _).map _ = _
    rw [removeEdge_rename hi h, Option.map_map]
    show _ = ((removeEdge ident n u v).map Prod.fst).map _
    rw [Option.map_map]
    rfl
  | removeIncoming u =>
    show (removeEdgesOf ident' true _ _).map _ = _
    rw [removeEdgesOf_rename hi h, Option.map_map]
    show _ = ((removeEdgesOf ident true n u).map Prod.fst).map _
    rw [Option.map_map]
    rfl
  | removeOutgoing u =>
    show (removeEdgesOf ident' false _ _).map _ = _
    rw [removeEdgesOf_rename hi h, Option.map_map]
    show _ = ((removeEdgesOf ident false n u).map Prod.fst).map _
    rw [Option.map_map]
    rfl
  | removeNode u =>
    show (removeNode ident' _ _).map _ = _
    rw [removeNode_rename hi h, Option.map_map]
    show _ = ((removeNode ident n u).map Prod.fst).map _
    rw [Option.map_map]
    rfl
  | removeAllEdges => rfl
  | updateNode u =>
    have hu := id_rename hi h n.w.nodes2id u
    show some (updateNode ident' (n.rename ψ φ lab wt) (φ u)) = some ((updateNode ident n u).rename ψ φ lab wt)
    unfold updateNode
    rw [show HMap.get (n.rename ψ φ lab wt).w.nodes2id (ident' (φ u)) = _ from hu]
    cases HMap.get n.w.nodes2id (ident u) with
    | none => rfl
    | some uid =>
      have ha : HMap.adjust (bimap id φ n.w.id2nodes) uid (fun _ => φ u) = _ :=
        adjust_bimap inj_id φ (fun _ => u) _ (fun _ => rfl) n.w.id2nodes uid
      show some (⟨_, ⟨_, _, HMap.adjust (bimap id φ n.w.id2nodes) uid (fun _ => φ u)⟩, _⟩ : Net K' P L' W') = _
      rw [ha]
      rfl
  | update => rfl
  | lazyUpdate => rfl

theorem run_rename (hi : Inj ψ) (h : ∀ o, ident' (φ o) = ψ (ident o)) (lab : L → L') (wt : W → W') :
    ∀ (ops : List (Op O L W)) (n : Net K O L W),
      run ident' (n.rename ψ φ lab wt) (ops.map (Op.rename φ lab wt)) = (run ident n ops).map (Net.rename ψ φ lab wt)
  | [], _ => rfl
  | op :: ops, n => by
    rw [List.map_cons, run, run, exec_rename hi h]
    cases exec ident n op with
    | none => rfl
    | some n1 => exact run_rename hi h lab wt ops n1

theorem scanEdge_rename (hi : Inj ψ) (h : ∀ o, ident' (φ o) = ψ (ident o)) (lab : L → L') (wt : W → W') (s : Side K O L W) (d : Bool)
    (uid vid : Nat) : ∀ es : List (Edge L W),
    scanEdge ident' (s.rename ψ φ lab wt) d uid vid (es.map (Edge.rename lab wt)) =
      (scanEdge ident s d uid vid es).map (Option.map (Edge.rename lab wt))
  | [] => rfl
  | e :: es => by
    have hg : HMap.get (bimap id φ s.id2nodes) e.v = _ := get_bimap inj_id φ s.id2nodes e.v
    rw [List.map_cons, scanEdge, scanEdge]
    rw [show HMap.get (s.rename ψ φ lab wt).id2nodes (e.rename lab wt).v = _ from hg]
    cases HMap.get s.id2nodes e.v with
    | none => rfl
    | some o =>
      have ho := id_rename hi h s.nodes2id o
      show (match HMap.get (bimap ψ id s.nodes2id) (ident' (φ o)) with
        | none => none
        | some ve => if (e.u = uid ∧ ve = vid) ∨ (d = false ∧ ve = uid ∧ e.u = vid) then some (some (e.rename lab wt))
          else scanEdge ident' (s.rename ψ φ lab wt) d uid vid (es.map (Edge.rename lab wt))) = _
      rw [ho]
      cases hn : HMap.get s.nodes2id (ident o) with
      | none => simp only [hn]; rfl
      | some ve =>
        simp only [hn]
        by_cases hc : (e.u = uid ∧ ve = vid) ∨ (d = false ∧ ve = uid ∧ e.u = vid)
        · rw [if_pos hc, if_pos hc]; rfl
        · rw [if_neg hc, if_neg hc]; exact scanEdge_rename hi h lab wt s d uid vid es

theorem rename_answers (hi : Inj ψ) (h : ∀ o, ident' (φ o) = ψ (ident o)) (lab : L → L') (wt : W → W') (n : Net K O L W) :
    RenamedAnswers ident ident' φ lab wt n (n.rename ψ φ lab wt) where
  edge u v := by
    have hu := id_rename hi h n.r.nodes2id u
    have hv := id_rename hi h n.r.nodes2id v
    unfold getEdge
    rw [show HMap.get (n.rename ψ φ lab wt).r.nodes2id (ident' (φ u)) = _ from hu,
      show HMap.get (n.rename ψ φ lab wt).r.nodes2id (ident' (φ v)) = _ from hv]
    cases HMap.get n.r.nodes2id (ident u) with
    | none => rfl
    | some uid =>
      have hg : HMap.get (bimap id (List.map (Edge.rename lab wt)) n.r.edges) uid = _ :=
        get_bimap inj_id (List.map (Edge.rename lab wt)) n.r.edges uid
      show (match HMap.get (bimap id (List.map (Edge.rename lab wt)) n.r.edges) uid with
        | none => some none
        | some ues => _) = _
      rw [hg]
      cases hes : HMap.get n.r.edges uid with
      | none => simp only [hes]; rfl
      | some ues =>
        simp only [hes]
        cases HMap.get n.r.nodes2id (ident v) with
        | none => rfl
        | some vid => exact scanEdge_rename hi h lab wt n.r n.direct uid vid ues
  edges u := by
    have hu := id_rename hi h n.r.nodes2id u
    unfold getEdges
    rw [show HMap.get (n.rename ψ φ lab wt).r.nodes2id (ident' (φ u)) = _ from hu]
    cases HMap.get n.r.nodes2id (ident u) with
    | none => rfl
    | some uid => exact get_bimap inj_id (List.map (Edge.rename lab wt)) n.r.edges uid
  object i := get_bimap inj_id φ n.r.id2nodes i
  id u := id_rename hi h n.r.nodes2id u
  added u v o := by rw [addEdge_rename hi h]
  removed u v := by rw [removeEdge_rename hi h, Option.map_map, Option.map_map]; rfl
  removedOf inc u := by rw [removeEdgesOf_rename hi h, Option.map_map, Option.map_map]; rfl
  removedNode u := by rw [removeNode_rename hi h, Option.map_map]; rfl

/-- C253: a network does to the renamed program what it does to the original one. -/
theorem C253_history (hi : ∀ a b, ψ a = ψ b → a = b) (h : ∀ o, ident' (φ o) = ψ (ident o)) (lab : L → L') (wt : W → W') (d : Bool)
    (ops : List (Op O L W)) :
    (run ident (Net.new d) ops = none → run ident' (Net.new d) (ops.map (Op.rename φ lab wt)) = none) ∧
    ∀ n, run ident (Net.new d) ops = some n →
      ∃ n', run ident' (Net.new d) (ops.map (Op.rename φ lab wt)) = some n' ∧ RenamedAnswers ident ident' φ lab wt n n' := by
  have key : run ident' (Net.new d) (ops.map (Op.rename φ lab wt)) = (run ident (Net.new d) ops).map (Net.rename ψ φ lab wt) :=
    run_rename hi h lab wt ops (Net.new d)
  exact ⟨fun h0 => by rw [key, h0]; rfl, fun n hn => ⟨n.rename ψ φ lab wt, by rw [key, hn]; rfl, rename_answers hi h lab wt n⟩⟩

/-- The entries of the distribution under the new names. -/
def renameDist (φ : O → P) (dist : List (O × Int × Nat)) : List (P × Int × Nat) := dist.map (fun x => (φ x.1, x.2))

omit [DecidableEq K] [DecidableEq K'] in
theorem bump_rename (φ : O → P) : ∀ (cs : List Nat) (dist : List (O × Int × Nat)),
    bump (renameDist φ dist) cs = renameDist φ (bump dist cs)
  | [], _ => rfl
  | c :: cs, dist => by
    have e : (renameDist φ dist).modify c (fun x => (x.1, x.2.1 + 1, x.2.2)) =
        renameDist φ (dist.modify c (fun x => (x.1, x.2.1 + 1, x.2.2))) := by
      unfold renameDist
      apply List.ext_getElem?
      intro i
      rw [List.getElem?_modify, List.getElem?_map, List.getElem?_map, List.getElem?_modify]
      cases dist[i]? with
      | none => rfl
      | some x =>
        show some (if c = i then (φ x.1, x.2.1 + 1, x.2.2) else (φ x.1, x.2)) =
          some (φ (if c = i then (x.1, x.2.1 + 1, x.2.2) else x).1, (if c = i then (x.1, x.2.1 + 1, x.2.2) else x).2)
        by_cases hc : c = i
        · rw [if_pos hc, if_pos hc]
        · rw [if_neg hc, if_neg hc]
    show bump ((renameDist φ dist).modify c _) cs = renameDist φ (bump (dist.modify c _) cs)
    rw [e]
    exact bump_rename φ cs _

theorem attach_rename (hi : Inj ψ) (h : ∀ o, ident' (φ o) = ψ (ident o)) (lab : L → L') (wt : W → W') (node : O) :
    ∀ (chosen : List (O × Int × Nat)) (n : Net K O L W),
      attach ident' (n.rename ψ φ lab wt) (φ node) (renameDist φ chosen) = (attach ident n node chosen).rename ψ φ lab wt
  | [], _ => rfl
  | c :: cs, n => by
    show attach ident' (addEdge ident' (n.rename ψ φ lab wt) (φ node) (φ c.1) (EdgeOptions.rename lab wt .simple)).1 (φ node)
      (renameDist φ cs) = _
    rw [addEdge_rename hi h]
    exact attach_rename hi h lab wt node cs _

theorem attachLoop_rename (hi : Inj ψ) (h : ∀ o, ident' (φ o) = ψ (ident o)) (lab : L → L') (wt : W → W')
    {pick : Nat → List (O × Int × Nat) → Nat → List Nat} {pick' : Nat → List (P × Int × Nat) → Nat → List Nat}
    (hp : ∀ i dist a, pick' i (renameDist φ dist) a = pick i dist a) (nodes : List O) (ie : Nat) :
    ∀ (k i : Nat) (n : Net K O L W) (dist : List (O × Int × Nat)),
      attachLoop ident' pick' (nodes.map φ) ie k i (n.rename ψ φ lab wt) (renameDist φ dist) =
        (attachLoop ident pick nodes ie k i n dist).map (Net.rename ψ φ lab wt)
  | 0, _, _, _ => rfl
  | k + 1, i, n, dist => by
    rw [attachLoop, attachLoop, List.getElem?_map]
    cases nodes[i]? with
    | none => rfl
    | some node =>
      have hl : (renameDist φ dist).length = dist.length := List.length_map _
      have hc : ∀ a, (pick' i (renameDist φ dist) a).filterMap (fun c => (renameDist φ dist)[c]?) =
          renameDist φ ((pick i dist a).filterMap (fun c => dist[c]?)) := by
        intro a
        rw [hp]
        unfold renameDist
        rw [List.map_filterMap]
        congr 1
        funext c
        rw [List.getElem?_map]
      have hb : ∀ cs : List (O × Int × Nat), (renameDist φ cs).map (fun c => c.2.2) = cs.map (fun c => c.2.2) := by
        intro cs
        unfold renameDist
        rw [List.map_map]
        rfl
      show attachLoop ident' pick' (nodes.map φ) ie k (i + 1) (attach ident' (n.rename ψ φ lab wt) (φ node) _) _ = _
      rw [hl, hc, attach_rename hi h, hb, bump_rename]
      have e : ∀ a : Int, renameDist φ (bump dist (((pick i dist (if dist.length < ie then dist.length else ie)).filterMap
            (fun c => dist[c]?)).map (fun c => c.2.2))) ++ [(φ node, a, i)] =
          renameDist φ (bump dist (((pick i dist (if dist.length < ie then dist.length else ie)).filterMap
            (fun c => dist[c]?)).map (fun c => c.2.2)) ++ [(node, a, i)]) := by
        intro a
        unfold renameDist
        rw [List.map_append]
        rfl
      rw [e]
      exact attachLoop_rename hi h lab wt hp nodes ie k (i + 1) _ _

/-- C253, preferential attachment: with draws that do not depend on the names, the grown network is the renamed one. -/
theorem C253_attachment (hi : ∀ a b, ψ a = ψ b → a = b) (h : ∀ o, ident' (φ o) = ψ (ident o)) (lab : L → L') (wt : W → W') (d : Bool)
    {pick : Nat → List (O × Int × Nat) → Nat → List Nat} {pick' : Nat → List (P × Int × Nat) → Nat → List Nat}
    (hp : ∀ i dist a, pick' i (dist.map (fun x => (φ x.1, x.2))) a = pick i dist a) (ops : List (Op O L W)) (nodes : List O) (ie : Nat) :
    (((run ident (Net.new d) ops).bind (fun n => preferentialAttachment ident pick n nodes ie)) = none →
      ((run ident' (Net.new d) (ops.map (Op.rename φ lab wt))).bind (fun n => preferentialAttachment ident' pick' n (nodes.map φ) ie)) =
        none) ∧
    ∀ n, ((run ident (Net.new d) ops).bind (fun n => preferentialAttachment ident pick n nodes ie)) = some n →
      ∃ n', ((run ident' (Net.new d) (ops.map (Op.rename φ lab wt))).bind
          (fun n => preferentialAttachment ident' pick' n (nodes.map φ) ie)) = some n' ∧
        RenamedAnswers ident ident' φ lab wt n n' := by
  have hpa : ∀ n : Net K O L W, preferentialAttachment ident' pick' (n.rename ψ φ lab wt) (nodes.map φ) ie =
      (preferentialAttachment ident pick n nodes ie).map (Net.rename ψ φ lab wt) := by
    intro n
    match nodes with
    | [] => rfl
    | [a] => rfl
    | a :: b :: r =>
      have hl : (bimap id φ n.w.id2nodes).length = n.w.id2nodes.length := List.length_map _
      have ha := addEdge_rename hi h lab wt (removeAllEdges n) a b .simple
      have hr : removeAllEdges (n.rename ψ φ lab wt) = (removeAllEdges n).rename ψ φ lab wt := rfl
      show (match attachLoop ident' pick' ((a :: b :: r).map φ) ie ((bimap id φ n.w.id2nodes).length - 2) 2
          (addEdge ident' (removeAllEdges (n.rename ψ φ lab wt)) (φ a) (φ b) (EdgeOptions.rename lab wt .simple)).1
          (renameDist φ [(a, 1, 0), (b, 1, 1)]) with
        | none => none
        | some n' => some (update n')) = _
      rw [hl, hr, ha, attachLoop_rename hi h lab wt hp]
      unfold preferentialAttachment
      dsimp only
      cases attachLoop ident pick (a :: b :: r) ie (n.w.id2nodes.length - 2) 2 (addEdge ident (removeAllEdges n) a b .simple).1
        [(a, 1, 0), (b, 1, 1)] with
      | none => rfl
      | some n' => rfl
  have key : run ident' (Net.new d) (ops.map (Op.rename φ lab wt)) = (run ident (Net.new d) ops).map (Net.rename ψ φ lab wt) :=
    run_rename hi h lab wt ops (Net.new d)
  have all : ((run ident' (Net.new d) (ops.map (Op.rename φ lab wt))).bind
      (fun n => preferentialAttachment ident' pick' n (nodes.map φ) ie)) =
      ((run ident (Net.new d) ops).bind (fun n => preferentialAttachment ident pick n nodes ie)).map (Net.rename ψ φ lab wt) := by
    rw [key]
    cases run ident (Net.new d) ops with
    | none => rfl
    | some n => exact hpa n
  exact ⟨fun h0 => by rw [all, h0]; rfl, fun n hn => ⟨n.rename ψ φ lab wt, by rw [all, hn]; rfl, rename_answers hi h lab wt n⟩⟩

/-- Numbers renamed to words, labels forgotten, weights doubled. -/
example :
    let ops : List (Op Nat String Nat) := [.addNode 1, .addNode 2, .addNode 3, .update, .addEdge 1 2 (.labeled "friend"),
      .addEdge 2 3 (.weighted 5), .removeEdge 1 2, .update]
    ((run id (Net.new false) ops).bind (fun n => getEdges id n 2)) = some [⟨1, 2, none, some 5⟩] ∧
    ((run id (Net.new false) (ops.map (Op.rename (fun n => (n, n)) (fun _ => ()) (fun w => 2 * w)))).bind
      (fun n => getEdges id n (2, 2))) = some [⟨1, 2, none, some 10⟩] := by
  decide

/-- A renaming that confuses two nodes is noticed: one list of edges instead of two. -/
theorem C253_confused :
    ∃ (φ : Nat → Nat) (ops : List (Op Nat Unit Unit)),
      ((run id (Net.new false) ops).bind (fun n => getId id n 2)) = some 1 ∧
      ((run id (Net.new false) (ops.map (Op.rename φ id id))).bind (fun n => getId id n (φ 1))) = some 1 ∧
      ((run id (Net.new false) ops).bind (fun n => getId id n 1)) = some 0 :=
  ⟨fun _ => 0, [.addNode 1, .addNode 2, .update], by decide⟩

end Verif.Network
