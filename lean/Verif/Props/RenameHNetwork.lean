import Verif.Spec.RenameHNetwork
import Verif.Props.RenameNetwork

/-!
C254 "The names of nodes, labels and weights do not influence a hypernetwork".
-/

namespace Verif.HNetwork

open Verif.Network (EdgeOptions)
open HMap (bimap Inj)

variable {K K' O P L L' W W' : Type} [DecidableEq K] [DecidableEq K']

/-- The lists with other labels and weights. -/
def renameMap (lab : L → L') (wt : W → W') (m : HEdgeMap L W) : HEdgeMap L' W' := bimap id (List.map (HEdge.rename lab wt)) m

/-- The hypernetwork under the new names. -/
def HNet.rename (ψ : K → K') (φ : O → P) (lab : L → L') (wt : W → W') (n : HNet K O L W) : HNet K' P L' W' :=
  ⟨renameMap lab wt n.edges, renameMap lab wt n.redges, bimap ψ id n.nodes2id, bimap id φ n.id2nodes, bimap id φ n.rid2nodes⟩

/-- `n'` answers every question about renamed nodes as `n` does, with the new names. -/
structure RenamedAnswers (ident : O → K) (ident' : P → K') (φ : O → P) (lab : L → L') (wt : W → W') (n : HNet K O L W)
    (n' : HNet K' P L' W') : Prop where
  edge : ∀ us, getEdge ident' n' (us.map φ) = (getEdge ident n us).map (HEdge.rename lab wt)
  edges : ∀ u, getEdges ident' n' (φ u) = (getEdges ident n u).map (List.map (HEdge.rename lab wt))
  id : ∀ u, getId ident' n' (φ u) = getId ident n u
  object : ∀ i, getObject n' i = (getObject n i).map φ
  added : ∀ us o, (addEdge ident' n' (us.map φ) (o.rename lab wt)).2 = (addEdge ident n us o).2
  removed : ∀ us, (removeEdge ident' n' (us.map φ)).map Prod.snd =
    ((removeEdge ident n us).map Prod.snd).map (Option.map (HEdge.rename lab wt))
  gone : ∀ u, (removeObject ident' n' (φ u)).map Prod.snd = (removeObject ident n u).map Prod.snd

variable {ident : O → K} {ident' : P → K'} {ψ : K → K'} {φ : O → P}

theorem hedge_new_rename (lab : L → L') (wt : W → W') (ids : List Nat) (o : EdgeOptions L W) :
    HEdge.new ids (o.rename lab wt) = (HEdge.new ids o).rename lab wt := by
  cases o <;> rfl

theorem eq_rename (lab : L → L') (wt : W → W') (a b : HEdge L W) : (a.rename lab wt).eq (b.rename lab wt) = a.eq b := rfl

theorem get_renameMap (lab : L → L') (wt : W → W') (m : HEdgeMap L W) (k : Nat) :
    HMap.get (renameMap lab wt m) k = (HMap.get m k).map (List.map (HEdge.rename lab wt)) :=
  HMap.get_bimap (ψ := id) HMap.inj_id _ m k

theorem id_rename (hi : Inj ψ) (h : ∀ o, ident' (φ o) = ψ (ident o)) (m : HMap K Nat) (u : O) :
    HMap.get (bimap ψ id m) (ident' (φ u)) = HMap.get m (ident u) := by
  rw [h, HMap.get_bimap hi]
  exact Option.map_id'

theorem idsOf_rename (hi : Inj ψ) (h : ∀ o, ident' (φ o) = ψ (ident o)) (lab : L → L') (wt : W → W') (n : HNet K O L W) :
    ∀ us : List O, idsOf ident' (n.rename ψ φ lab wt) (us.map φ) = idsOf ident n us
  | [] => rfl
  | u :: us => by
    rw [List.map_cons, idsOf, idsOf]
    show (match HMap.get (bimap ψ id n.nodes2id) (ident' (φ u)) with
      | none => none
      | some i => (idsOf ident' (n.rename ψ φ lab wt) (us.map φ)).map (fun is => i :: is)) = _
    rw [id_rename hi h, idsOf_rename hi h lab wt n us]
    rfl

theorem any_rename (lab : L → L') (wt : W → W') (e : HEdge L W) (es : List (HEdge L W)) :
    (es.map (HEdge.rename lab wt)).any (fun x => x.eq (e.rename lab wt)) = es.any (fun x => x.eq e) := by
  rw [List.any_map]
  rfl

theorem addLoop_rename (lab : L → L') (wt : W → W') (e : HEdge L W) : ∀ (ids : List Nat) (m : HEdgeMap L W),
    addLoop (e.rename lab wt) ids (renameMap lab wt m) = (renameMap lab wt (addLoop e ids m).1, (addLoop e ids m).2)
  | [], _ => rfl
  | id :: ids, m => by
    rw [addLoop, addLoop, get_renameMap]
    cases HMap.get m id with
    | none =>
      dsimp only [Option.map_none]
      have := HMap.insert_bimap (ψ := _root_.id) HMap.inj_id (List.map (HEdge.rename lab wt)) m id [e]
      rw [show (HMap.insert (renameMap lab wt m) id [e.rename lab wt]).1 = renameMap lab wt (HMap.insert m id [e]).1 from this]
      exact addLoop_rename lab wt e ids _
    | some es =>
      dsimp only [Option.map_some]
      rw [any_rename]
      by_cases hc : es.any (fun x => x.eq e) = true
      · rw [if_pos hc, if_pos hc]
      · rw [if_neg hc, if_neg hc]
        have := HMap.adjust_bimap (ψ := _root_.id) HMap.inj_id (List.map (HEdge.rename lab wt)) (fun es => es ++ [e])
          (fun es => es ++ [e.rename lab wt]) (fun v => by rw [List.map_append]; rfl) m id
        rw [show HMap.adjust (renameMap lab wt m) id (fun es => es ++ [e.rename lab wt]) =
          renameMap lab wt (HMap.adjust m id (fun es => es ++ [e])) from this]
        exact addLoop_rename lab wt e ids _

theorem addEdge_rename (hi : Inj ψ) (h : ∀ o, ident' (φ o) = ψ (ident o)) (lab : L → L') (wt : W → W') (n : HNet K O L W)
    (us : List O) (o : EdgeOptions L W) :
    addEdge ident' (n.rename ψ φ lab wt) (us.map φ) (o.rename lab wt) =
      ((addEdge ident n us o).1.rename ψ φ lab wt, (addEdge ident n us o).2) := by
  cases us with
  | nil => rfl
  | cons u us =>
    have hids := idsOf_rename hi h lab wt n (u :: us)
    rw [List.map_cons] at hids ⊢
    unfold addEdge
    dsimp only
    rw [hids]
    cases idsOf ident n (u :: us) with
    | none => rfl
    | some ids =>
      dsimp only
      rw [hedge_new_rename]
      show (HNet.mk _ _ _ _ _, (addLoop _ ids (renameMap lab wt n.edges)).2) = _
      rw [show (addLoop ((HEdge.new ids o).rename lab wt) ids (n.rename ψ φ lab wt).edges) = _ from
        addLoop_rename lab wt (HEdge.new ids o) ids n.edges, addLoop_rename]
      rfl

theorem ensureList_rename (lab : L → L') (wt : W → W') (m : HEdgeMap L W) (k : Nat) :
    ensureList (renameMap lab wt m) k = renameMap lab wt (ensureList m k) := by
  unfold ensureList
  rw [get_renameMap]
  cases HMap.get m k with
  | some es => rfl
  | none => exact HMap.insert_bimap (ψ := id) HMap.inj_id (List.map (HEdge.rename lab wt)) m k []

theorem addNode_rename (hi : Inj ψ) (h : ∀ o, ident' (φ o) = ψ (ident o)) (lab : L → L') (wt : W → W') (n : HNet K O L W) (u : O) :
    addNode ident' (n.rename ψ φ lab wt) (φ u) = (addNode ident n u).rename ψ φ lab wt := by
  have hl : (bimap ψ id n.nodes2id).length = n.nodes2id.length := List.length_map _
  have h1 := HMap.insert_bimap hi id n.nodes2id (ident u) n.nodes2id.length
  have h2 := HMap.insert_bimap (ψ := id) HMap.inj_id φ n.id2nodes n.nodes2id.length u
  show HNet.mk (ensureList (renameMap lab wt n.edges) (bimap ψ id n.nodes2id).length) _
    (HMap.insert (bimap ψ id n.nodes2id) (ident' (φ u)) (bimap ψ id n.nodes2id).length).1
    (HMap.insert (bimap id φ n.id2nodes) (bimap ψ id n.nodes2id).length (φ u)).1 _ = _
  rw [hl, h, ensureList_rename]
  show HNet.mk _ _ (HMap.insert (bimap ψ id n.nodes2id) (ψ (ident u)) (id n.nodes2id.length)).1
    (HMap.insert (bimap id φ n.id2nodes) (id n.nodes2id.length) (φ u)).1 _ = _
  rw [h1, h2]
  rfl

theorem find_rename (lab : L → L') (wt : W → W') (t : HEdge L W) (es : List (HEdge L W)) :
    (es.map (HEdge.rename lab wt)).find? (fun x => x.eq (t.rename lab wt)) =
      (es.find? (fun x => x.eq t)).map (HEdge.rename lab wt) := by
  rw [List.find?_map]
  rfl

theorem eraseP_rename (lab : L → L') (wt : W → W') (t : HEdge L W) : ∀ es : List (HEdge L W),
    (es.map (HEdge.rename lab wt)).eraseP (fun x => x.eq (t.rename lab wt)) =
      (es.eraseP (fun x => x.eq t)).map (HEdge.rename lab wt)
  | [] => rfl
  | e :: es => by
    rw [List.map_cons, List.eraseP_cons, List.eraseP_cons, eq_rename, eraseP_rename lab wt t es]
    cases e.eq t <;> rfl

/-- The removal under the new names. -/
def renameRemoved (lab : L → L') (wt : W → W') (x : HEdgeMap L W × Option (HEdge L W)) : HEdgeMap L' W' × Option (HEdge L' W') :=
  (renameMap lab wt x.1, x.2.map (HEdge.rename lab wt))

theorem removeLoop_rename (lab : L → L') (wt : W → W') (t : HEdge L W) : ∀ (ids : List Nat) (m : HEdgeMap L W) (r : Option (HEdge L W)),
    removeLoop (t.rename lab wt) ids (renameMap lab wt m) (r.map (HEdge.rename lab wt)) =
      (removeLoop t ids m r).map (renameRemoved lab wt)
  | [], _, _ => rfl
  | id :: ids, m, r => by
    rw [removeLoop, removeLoop, get_renameMap]
    cases HMap.get m id with
    | none => rfl
    | some es =>
      dsimp only [Option.map_some]
      rw [find_rename]
      cases es.find? (fun x => x.eq t) with
      | none => exact removeLoop_rename lab wt t ids m r
      | some e =>
        dsimp only [Option.map_some]
        have := HMap.adjust_bimap (ψ := _root_.id) HMap.inj_id (List.map (HEdge.rename lab wt)) (fun es => es.eraseP (fun x => x.eq t))
          (fun es => es.eraseP (fun x => x.eq (t.rename lab wt))) (fun v => eraseP_rename lab wt t v) m id
        rw [show HMap.adjust (renameMap lab wt m) id (fun es => es.eraseP (fun x => x.eq (t.rename lab wt))) =
          renameMap lab wt (HMap.adjust m id (fun es => es.eraseP (fun x => x.eq t))) from this]
        exact removeLoop_rename lab wt t ids _ (some e)

theorem removeEdge_rename (hi : Inj ψ) (h : ∀ o, ident' (φ o) = ψ (ident o)) (lab : L → L') (wt : W → W') (n : HNet K O L W)
    (us : List O) :
    removeEdge ident' (n.rename ψ φ lab wt) (us.map φ) =
      (removeEdge ident n us).map (fun x => (x.1.rename ψ φ lab wt, x.2.map (HEdge.rename lab wt))) := by
  cases us with
  | nil => rfl
  | cons u us =>
    have hids := idsOf_rename hi h lab wt n (u :: us)
    rw [List.map_cons] at hids ⊢
    unfold removeEdge
    dsimp only
    rw [hids]
    cases idsOf ident n (u :: us) with
    | none => rfl
    | some ids =>
      dsimp only
      have := removeLoop_rename lab wt (HEdge.new ids .simple) ids n.edges none
      rw [show removeLoop (HEdge.new ids .simple) ids (n.rename ψ φ lab wt).edges none = _ from this]
      cases removeLoop (HEdge.new ids .simple) ids n.edges none with
      | none => rfl
      | some x => rfl

theorem removeAll_rename (lab : L → L') (wt : W → W') : ∀ (ts : List (HEdge L W)) (m : HEdgeMap L W),
    removeAll (ts.map (HEdge.rename lab wt)) (renameMap lab wt m) = (removeAll ts m).map (renameMap lab wt)
  | [], _ => rfl
  | t :: ts, m => by
    rw [List.map_cons, removeAll, removeAll]
    have := removeLoop_rename lab wt t t.nodes m none
    rw [show removeLoop (t.rename lab wt) (t.rename lab wt).nodes (renameMap lab wt m) none = _ from this]
    cases removeLoop t t.nodes m none with
    | none => rfl
    | some x => exact removeAll_rename lab wt ts x.1

theorem getEdges_rename (hi : Inj ψ) (h : ∀ o, ident' (φ o) = ψ (ident o)) (lab : L → L') (wt : W → W') (n : HNet K O L W) (u : O) :
    getEdges ident' (n.rename ψ φ lab wt) (φ u) = (getEdges ident n u).map (List.map (HEdge.rename lab wt)) := by
  unfold getEdges
  rw [show HMap.get (n.rename ψ φ lab wt).nodes2id (ident' (φ u)) = _ from id_rename hi h n.nodes2id u]
  cases HMap.get n.nodes2id (ident u) with
  | none => rfl
  | some i => exact get_renameMap lab wt n.redges i

theorem removeObject_rename (hi : Inj ψ) (h : ∀ o, ident' (φ o) = ψ (ident o)) (lab : L → L') (wt : W → W') (n : HNet K O L W)
    (u : O) :
    removeObject ident' (n.rename ψ φ lab wt) (φ u) =
      (removeObject ident n u).map (fun x => (x.1.rename ψ φ lab wt, x.2)) := by
  unfold removeObject
  rw [show HMap.get (n.rename ψ φ lab wt).nodes2id (ident' (φ u)) = _ from id_rename hi h n.nodes2id u, getEdges_rename hi h]
  cases HMap.get n.nodes2id (ident u) with
  | none => rfl
  | some uid =>
    dsimp only
    have e : ((getEdges ident n u).map (List.map (HEdge.rename lab wt))).getD [] =
        ((getEdges ident n u).getD []).map (HEdge.rename lab wt) := by
      cases getEdges ident n u <;> rfl
    rw [e, show removeAll (((getEdges ident n u).getD []).map (HEdge.rename lab wt)) (n.rename ψ φ lab wt).edges = _ from
      removeAll_rename lab wt _ n.edges]
    cases removeAll ((getEdges ident n u).getD []) n.edges with
    | none => rfl
    | some m =>
      dsimp only [Option.map_some]
      have h1 := HMap.remove_bimap (ψ := id) HMap.inj_id φ n.id2nodes uid
      have h2 := HMap.remove_bimap hi id n.nodes2id (ident u)
      show some (HNet.mk _ _ (HMap.remove (bimap ψ id n.nodes2id) (ident' (φ u))).1
        (HMap.remove (bimap id φ n.id2nodes) (id uid)).1 _, true) = _
      rw [h, h1, h2]
      rfl

theorem updateNode_rename (hi : Inj ψ) (h : ∀ o, ident' (φ o) = ψ (ident o)) (lab : L → L') (wt : W → W') (n : HNet K O L W)
    (u : O) : updateNode ident' (n.rename ψ φ lab wt) (φ u) = (updateNode ident n u).rename ψ φ lab wt := by
  unfold updateNode
  rw [show HMap.get (n.rename ψ φ lab wt).nodes2id (ident' (φ u)) = _ from id_rename hi h n.nodes2id u]
  cases HMap.get n.nodes2id (ident u) with
  | none => rfl
  | some uid =>
    have h1 := HMap.adjust_bimap (ψ := id) HMap.inj_id φ (fun _ => u) (fun _ => φ u) (fun _ => rfl) n.id2nodes uid
    show HNet.mk _ _ _ (HMap.adjust (bimap id φ n.id2nodes) (id uid) (fun _ => φ u)) _ = _
    rw [h1]
    rfl

theorem exec_rename (hi : Inj ψ) (h : ∀ o, ident' (φ o) = ψ (ident o)) (lab : L → L') (wt : W → W') (n : HNet K O L W)
    (op : Op O L W) : exec ident' (n.rename ψ φ lab wt) (op.rename φ lab wt) = (exec ident n op).map (HNet.rename ψ φ lab wt) := by
  cases op with
  | addNode u => exact congrArg some (addNode_rename hi h lab wt n u)
  | addEdge us o => exact congrArg (fun x => some x.1) (addEdge_rename hi h lab wt n us o)
  | removeEdge us =>
    show (removeEdge ident' (n.rename ψ φ lab wt) (us.map φ)).map Prod.fst = ((removeEdge ident n us).map Prod.fst).map _
    rw [removeEdge_rename hi h, Option.map_map, Option.map_map]
    rfl
  | removeObject u =>
    show (removeObject ident' (n.rename ψ φ lab wt) (φ u)).map Prod.fst = ((removeObject ident n u).map Prod.fst).map _
    rw [removeObject_rename hi h, Option.map_map, Option.map_map]
    rfl
  | removeAllEdges => rfl
  | updateNode u => exact congrArg some (updateNode_rename hi h lab wt n u)
  | update => rfl

theorem run_rename (hi : Inj ψ) (h : ∀ o, ident' (φ o) = ψ (ident o)) (lab : L → L') (wt : W → W') :
    ∀ (ops : List (Op O L W)) (n : HNet K O L W),
      run ident' (n.rename ψ φ lab wt) (ops.map (Op.rename φ lab wt)) = (run ident n ops).map (HNet.rename ψ φ lab wt)
  | [], _ => rfl
  | op :: ops, n => by
    rw [List.map_cons, run, run, exec_rename hi h]
    cases exec ident n op with
    | none => rfl
    | some n' => exact run_rename hi h lab wt ops n'

theorem rename_answers (hi : Inj ψ) (h : ∀ o, ident' (φ o) = ψ (ident o)) (lab : L → L') (wt : W → W') (n : HNet K O L W) :
    RenamedAnswers ident ident' φ lab wt n (n.rename ψ φ lab wt) where
  edge us := by
    unfold getEdge
    rw [idsOf_rename hi h]
    cases idsOf ident n us with
    | none => rfl
    | some ids =>
      cases ids with
      | nil => rfl
      | cons i is =>
        dsimp only
        rw [show HMap.get (n.rename ψ φ lab wt).redges i = _ from get_renameMap lab wt n.redges i]
        cases HMap.get n.redges i with
        | none => rfl
        | some es => exact find_rename lab wt (HEdge.new (i :: is) .simple) es
  edges := getEdges_rename hi h lab wt n
  id := id_rename hi h n.nodes2id
  object i := HMap.get_bimap (ψ := _root_.id) HMap.inj_id φ n.rid2nodes i
  added us o := by rw [addEdge_rename hi h]
  removed us := by
    rw [removeEdge_rename hi h, Option.map_map, Option.map_map]
    rfl
  gone u := by
    rw [removeObject_rename hi h, Option.map_map]
    rfl

/-- C254: under a renaming of the nodes that confuses none, and under any change of labels and weights, the hypernetwork built by
the renamed calls panics exactly when the original does and otherwise answers every question in the same way. -/
theorem C254_history (hi : ∀ a b, ψ a = ψ b → a = b) (h : ∀ o, ident' (φ o) = ψ (ident o)) (lab : L → L') (wt : W → W')
    (ops : List (Op O L W)) :
    (run ident HNet.new ops = none → run ident' HNet.new (ops.map (Op.rename φ lab wt)) = none) ∧
    ∀ n, run ident HNet.new ops = some n →
      ∃ n', run ident' HNet.new (ops.map (Op.rename φ lab wt)) = some n' ∧ RenamedAnswers ident ident' φ lab wt n n' := by
  have key : run ident' HNet.new (ops.map (Op.rename φ lab wt)) = (run ident HNet.new ops).map (HNet.rename ψ φ lab wt) :=
    run_rename hi h lab wt ops HNet.new
  exact ⟨fun h0 => by rw [key, h0]; rfl, fun n hn => ⟨n.rename ψ φ lab wt, by rw [key, hn]; rfl, rename_answers hi h lab wt n⟩⟩

/-- Numbers renamed to pairs, labels forgotten, weights doubled. -/
example :
    let ops : List (Op Nat String Nat) := [.addNode 1, .addNode 2, .addNode 3, .addEdge [1, 2] (.labeled "friends"),
      .addEdge [1, 2, 3] (.weightedLabeled "team" 5), .removeEdge [2, 1], .update]
    ((run id HNet.new ops).bind (fun n => getEdges id n 2)) = some [⟨[0, 1, 2], some "team", some 5⟩] ∧
    ((run id HNet.new (ops.map (Op.rename (fun n => (n, n)) (fun _ => ()) (fun w => 2 * w)))).bind
      (fun n => getEdges id n (2, 2))) = some [⟨[0, 1, 2], some (), some 10⟩] := by
  decide

/-- Also the panics agree: after `remove_all_edges` a removal fails under every name. -/
example :
    let ops : List (Op Nat Unit Unit) := [.addNode 1, .addNode 2, .addEdge [1, 2] .simple, .removeAllEdges, .removeEdge [1, 2]]
    (run id HNet.new ops).isNone = true ∧
      (run id HNet.new (ops.map (Op.rename (fun n => (n, n)) id id))).isNone = true := by
  decide

/-- A renaming that confuses two nodes is noticed: the hyperedge of two nodes becomes one of a single node. -/
theorem C254_confused :
    ∃ (φ : Nat → Nat) (ops : List (Op Nat Unit Unit)),
      ((run id HNet.new ops).bind (fun n => getEdges id n 1)) = some [⟨[0, 1], none, none⟩] ∧
      ((run id HNet.new (ops.map (Op.rename φ id id))).bind (fun n => getEdges id n (φ 1))) = some [⟨[1], none, none⟩] :=
  ⟨fun _ => 0, [.addNode 1, .addNode 2, .addEdge [1, 2] .simple, .update], by decide⟩

end Verif.HNetwork
