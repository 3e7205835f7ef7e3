import Verif.Model.Network
import Verif.Model.DBDashMap

/-!
Model of `Network` under the features `parallel`, `visualization` and `visualization_wasm`
(src/engine/fields/network.rs:80-574). The edge lists and the map from ids to nodes are `DBDashMap`s,
the map from nodes to ids is one plain `HashMap` without a read side. All calls take `&self` or
`&mut self` of a type with a `RefCell`, which cannot be shared between threads, so a call is one atomic step. The
conventions are those of `Verif.Model.Network`: `ident` is what `Eq` and `Hash` look at, `none` is a panic (an
`expect` that fails, or a shard index out of bounds).
-/

namespace Verif.ParNetwork

open Verif.Network (Edge EdgeOptions between bump Op)
open Verif.DBDashMap (DB)

/-- src/engine/fields/network.rs:83-88 (`Network`). -/
structure PNet (K O L W : Type) where
  edges : DB Nat (List (Edge L W))
  nodes2id : HMap K Nat
  id2nodes : DB Nat O
  direct : Bool

variable {K O L W : Type} [DecidableEq K]

/-- src/engine/fields/network.rs:93-100 (`new`). Both maps have `u32` keys and use the process-wide hasher. -/
def new (cpus : Nat) (hash : Nat → Nat) (d : Bool) : PNet K O L W :=
  ⟨DBDashMap.new cpus hash, [], DBDashMap.new cpus hash, d⟩

/-- Appending to the written list of `k`, creating it if absent: src/engine/fields/network.rs:116-125, 129-138. -/
def pushEdge (m : DB Nat (List (Edge L W))) (k : Nat) (e : Edge L W) : Option (DB Nat (List (Edge L W))) :=
  match DBDashMap.getWrite m k with
  | none => none
  | some (some _) => DBDashMap.modifyWrite m k (fun es => es ++ [e])
  | some none => (DBDashMap.insert m k [e]).map Prod.fst

/-- src/engine/fields/network.rs:102-142 (`add_edge`). -/
def addEdge (ident : O → K) (n : PNet K O L W) (u v : O) (o : EdgeOptions L W) :
    Option (PNet K O L W × Bool × Bool) :=
  match HMap.get n.nodes2id (ident u) with
  | none => some (n, false, false)
  | some uid =>
    match HMap.get n.nodes2id (ident v) with
    | none => some (n, false, false)
    | some vid =>
      match pushEdge n.edges uid (Edge.new uid vid o) with
      | none => none
      | some m =>
        if n.direct then some ({ n with edges := m }, true, false)
        else
          match pushEdge m vid (Edge.new vid uid o) with
          | none => none
          | some m' => some ({ n with edges := m' }, true, true)

/-- The list of a new id, src/engine/fields/network.rs:150-156: the *published* lists are asked whether there is
one, the new list goes to the written ones. -/
def ensureList (m : DB Nat (List (Edge L W))) (k : Nat) : Option (DB Nat (List (Edge L W))) :=
  match DBDashMap.getRead m k with
  | none => none
  | some (some _) => some m
  | some none => (DBDashMap.insert m k []).map Prod.fst

/-- src/engine/fields/network.rs:144-157 (`add_node`): the new id is the number of nodes. -/
def addNode (ident : O → K) (n : PNet K O L W) (u : O) : Option (PNet K O L W) :=
  match DBDashMap.insert n.id2nodes n.nodes2id.length u with
  | none => none
  | some (i2n, _) =>
    match ensureList n.edges n.nodes2id.length with
    | none => none
    | some m =>
      some { n with
        edges := m
        nodes2id := (HMap.insert n.nodes2id (ident u) n.nodes2id.length).1
        id2nodes := i2n }

/-- The loop of `get_edge`, src/engine/fields/network.rs:207-221. -/
def scanEdge (ident : O → K) (n : PNet K O L W) (uid vid : Nat) :
    List (Edge L W) → Option (Option (Edge L W))
  | [] => some none
  | e :: es =>
    match DBDashMap.getRead n.id2nodes e.v with
    | some (some o) =>
      match HMap.get n.nodes2id (ident o) with
      | none => none
      | some ve =>
        if (e.u = uid ∧ ve = vid) ∨ (n.direct = false ∧ ve = uid ∧ e.u = vid) then some (some e)
        else scanEdge ident n uid vid es
    | _ => none

/-- src/engine/fields/network.rs:193-225 (`get_edge`). -/
def getEdge (ident : O → K) (n : PNet K O L W) (u v : O) : Option (Option (Edge L W)) :=
  match HMap.get n.nodes2id (ident u) with
  | none => some none
  | some uid =>
    match DBDashMap.getRead n.edges uid with
    | none => none
    | some none => some none
    | some (some ues) =>
      match HMap.get n.nodes2id (ident v) with
      | none => some none
      | some vid => scanEdge ident n uid vid ues

/-- src/engine/fields/network.rs:227-237 (`get_edges`). -/
def getEdges (ident : O → K) (n : PNet K O L W) (u : O) : Option (Option (List (Edge L W))) :=
  match HMap.get n.nodes2id (ident u) with
  | none => some none
  | some uid => DBDashMap.getRead n.edges uid

/-- src/engine/fields/network.rs:239-244 (`get_object`). -/
def getObject (n : PNet K O L W) (uid : Nat) : Option (Option O) := DBDashMap.getRead n.id2nodes uid

/-- src/engine/fields/network.rs:419-421 (`remove_all_edges`). -/
def removeAllEdges (n : PNet K O L W) : PNet K O L W := { n with edges := DBDashMap.clear n.edges }

/-- `remove_edge` once the ids are known: src/engine/fields/network.rs:436-459. `position` + `remove` is
`find?` + `eraseP`. -/
def removeEdgeIds (direct : Bool) (m : DB Nat (List (Edge L W))) (uid vid : Nat) :
    Option (DB Nat (List (Edge L W)) × Option (Edge L W)) :=
  match DBDashMap.getWrite m uid with
  | some (some ues) =>
    match ues.find? (between uid vid) with
    | none => some (m, none)
    | some e =>
      match DBDashMap.modifyWrite m uid (fun es => es.eraseP (between uid vid)) with
      | none => none
      | some m' =>
        if direct then some (m', some e)
        else
          match DBDashMap.getWrite m' vid with
          | some (some _) =>
            (DBDashMap.modifyWrite m' vid (fun es => es.filter (fun e => !between uid vid e))).map
              (fun m'' => (m'', some e))
          | _ => none
  | _ => none

/-- src/engine/fields/network.rs:423-460 (`remove_edge`). -/
def removeEdge (ident : O → K) (n : PNet K O L W) (u v : O) : Option (PNet K O L W × Option (Edge L W)) :=
  match HMap.get n.nodes2id (ident u) with
  | none => some (n, none)
  | some uid =>
    match HMap.get n.nodes2id (ident v) with
    | none => some (n, none)
    | some vid =>
      match removeEdgeIds n.direct n.edges uid vid with
      | none => none
      | some x => some ({ n with edges := x.1 }, x.2)

/-- One iteration of the loops of `remove_incoming_edges` / `remove_outgoing_edges`
(src/engine/fields/network.rs:472-480, 495-503); `inc` selects which. -/
def removeStep (ident : O → K) (inc : Bool) (uid : Nat) (u : O)
    (acc : Option (PNet K O L W × List (Edge L W))) (v : Nat) : Option (PNet K O L W × List (Edge L W)) :=
  match acc with
  | none => none
  | some (n, ris) =>
    if v = uid then some (n, ris)
    else
      match DBDashMap.getRead n.id2nodes v with
      | some (some vnode) =>
        match (if inc then removeEdge ident n vnode u else removeEdge ident n u vnode) with
        | none => none
        | some (n', none) => some (n', ris)
        | some (n', some e) => some (n', ris ++ [e])
      | _ => none

/-- src/engine/fields/network.rs:462-482 (`remove_incoming_edges`, `inc = true`) and 485-505
(`remove_outgoing_edges`, `inc = false`): the loop goes over the published lists. -/
def removeEdgesOf (ident : O → K) (inc : Bool) (n : PNet K O L W) (u : O) :
    Option (PNet K O L W × Option (List (Edge L W))) :=
  match HMap.get n.nodes2id (ident u) with
  | none => some (n, none)
  | some uid =>
    match (DBDashMap.keys n.edges).foldl (removeStep ident inc uid u) (some (n, [])) with
    | none => none
    | some (n', ris) => some (n', some ris)

/-- `edges.remove(&uid)`: src/engine/fields/network.rs:520-522, 527-529. -/
def dropList (n : PNet K O L W) (uid : Nat) : Option (PNet K O L W) :=
  (DBDashMap.remove n.edges uid).map (fun r => { n with edges := r.1 })

/-- src/engine/fields/network.rs:507-538 (`remove_node`). -/
def removeNode (ident : O → K) (n : PNet K O L W) (u : O) : Option (PNet K O L W × Bool) :=
  match HMap.get n.nodes2id (ident u) with
  | none => some (n, false)
  | some uid =>
    match removeEdgesOf ident false n u with
    | none => none
    | some (n1, none) => some (n1, false)
    | some (n1, some _) =>
      match dropList n1 uid with
      | none => none
      | some n2 =>
        match removeEdgesOf ident true n2 u with
        | none => none
        | some (n3, none) => some (n3, false)
        | some (n3, some _) =>
          match dropList n3 uid with
          | none => none
          | some n4 =>
            match DBDashMap.remove n4.id2nodes uid with
            | none => none
            | some (i2n, _) =>
              some ({ n4 with id2nodes := i2n, nodes2id := (HMap.remove n4.nodes2id (ident u)).1 }, true)

/-- src/engine/fields/network.rs:540-561 (`update_node`): the entry of the old node is replaced by one of the new
node, which is equal to it as far as `Eq` and `Hash` can see, if the maps agree. -/
def updateNode (ident : O → K) (n : PNet K O L W) (u : O) : Option (PNet K O L W) :=
  match HMap.get n.nodes2id (ident u) with
  | none => some n
  | some uid =>
    match DBDashMap.getWrite n.id2nodes uid with
    | none => none
    | some none => some n
    | some (some value) =>
      match DBDashMap.modifyWrite n.id2nodes uid (fun _ => u) with
      | none => none
      | some i2n =>
        some { n with
          nodes2id := (match HMap.get n.nodes2id (ident value) with
            | some _ => (HMap.insert (HMap.remove n.nodes2id (ident value)).1 (ident u) uid).1
            | none => n.nodes2id)
          id2nodes := i2n }

/-- src/engine/fields/network.rs:565-568 (`update`) and 569-572 (`lazy_update`), which are the same. -/
def update (n : PNet K O L W) : PNet K O L W :=
  { n with edges := DBDashMap.update n.edges, id2nodes := DBDashMap.update n.id2nodes }

/-! ### Random attachment -/

/-- The distribution of `add_prob_edge`, src/engine/fields/network.rs:166-173: the nodes of the published lists with
the lengths of their lists. -/
def degrees (ident : O → K) (n : PNet K O L W) : List Nat → Option (List (O × Nat))
  | [] => some []
  | k :: ks =>
    match DBDashMap.getRead n.id2nodes k with
    | some (some o) =>
      match getEdges ident n o with
      | none => none
      | some none => degrees ident n ks
      | some (some es) => (degrees ident n ks).map (fun d => (o, es.length) :: d)
    | _ => none

/-- Edges from `u` to each node of a list: src/engine/fields/network.rs:188-190, 291-294. -/
def attach (ident : O → K) (n : PNet K O L W) (u : O) : List O → Option (PNet K O L W)
  | [] => some n
  | v :: vs =>
    match addEdge ident n u v .simple with
    | none => none
    | some x => attach ident x.1 u vs

/-- src/engine/fields/network.rs:161-191 (`add_prob_edge`). `pick dist amount` are the positions that
`choose_multiple_weighted` returns; a position outside `dist` cannot be returned by it and is skipped here. -/
def addProbEdge (ident : O → K) (pick : List (O × Nat) → Nat → List Nat) (n : PNet K O L W) (u : O)
    (nSample : Nat) : Option (PNet K O L W) :=
  match degrees ident n (DBDashMap.keys n.edges) with
  | none => none
  | some dist =>
    attach ident n u
      (((pick dist (if DBDashMap.len n.edges < nSample then DBDashMap.len n.edges else nSample)).filterMap
        (fun c => dist[c]?)).map Prod.fst)

/-- The loop `for i in 2..n_nodes`, src/engine/fields/network.rs:276-305 (and 346-378). `k` is the number
of iterations left; `none` = `node_set[i]` out of bounds. -/
def attachLoop (ident : O → K) (pick : Nat → List (O × Int × Nat) → Nat → List Nat) (nodes : List O)
    (initEdges : Nat) : Nat → Nat → PNet K O L W → List (O × Int × Nat) → Option (PNet K O L W)
  | 0, _, n, _ => some n
  | k + 1, i, n, dist =>
    match nodes[i]? with
    | none => none
    | some node =>
      match attach ident n node
          (((pick i dist (if dist.length < initEdges then dist.length else initEdges)).filterMap
            (fun c => dist[c]?)).map (fun c => c.1)) with
      | none => none
      | some n' =>
        attachLoop ident pick nodes initEdges k (i + 1) n'
          (bump dist (((pick i dist (if dist.length < initEdges then dist.length else initEdges)).filterMap
            (fun c => dist[c]?)).map (fun c => c.2.2)) ++
            [(node, ((if dist.length < initEdges then dist.length else initEdges : Nat) : Int), i)])

/-- src/engine/fields/network.rs:251-309 (`preferential_attachment_BA`) and 317-382
(`preferential_attachment_BA_with_seed`), which differ in the random generator only. -/
def preferentialAttachment (ident : O → K) (pick : Nat → List (O × Int × Nat) → Nat → List Nat)
    (n : PNet K O L W) (nodes : List O) (initEdges : Nat) : Option (PNet K O L W) :=
  match nodes with
  | a :: b :: _ =>
    match addEdge ident (removeAllEdges n) a b .simple with
    | none => none
    | some x =>
      match attachLoop ident pick nodes initEdges (DBDashMap.len n.id2nodes - 2) 2 x.1 [(a, 1, 0), (b, 1, 1)] with
      | none => none
      | some n' => some (update n')
  | _ => some (removeAllEdges n)

/-! ### Histories -/

/-- One call; `none` if it panics (the methods of src/engine/fields/network.rs:102-572). -/
def exec (ident : O → K) (n : PNet K O L W) : Op O L W → Option (PNet K O L W)
  | .addNode u => addNode ident n u
  | .addEdge u v o => (addEdge ident n u v o).map Prod.fst
  | .removeEdge u v => (removeEdge ident n u v).map Prod.fst
  | .removeIncoming u => (removeEdgesOf ident true n u).map Prod.fst
  | .removeOutgoing u => (removeEdgesOf ident false n u).map Prod.fst
  | .removeNode u => (removeNode ident n u).map Prod.fst
  | .removeAllEdges => some (removeAllEdges n)
  | .updateNode u => updateNode ident n u
  | .update => some (update n)
  | .lazyUpdate => some (update n)

/-- A history, oldest call first; `none` if some call panics (the methods of
src/engine/fields/network.rs:102-572). -/
def run (ident : O → K) (n : PNet K O L W) : List (Op O L W) → Option (PNet K O L W)
  | [] => some n
  | op :: ops => (exec ident n op).bind (fun n' => run ident n' ops)

end Verif.ParNetwork
