import Verif.Model.Network

/-!
Model of src/engine/fields/hnetwork.rs (lines 1-621): `HNetwork<O, L>`.

Conventions as in Model/Network.lean (`ident`, `HMap`, natural number ids, `none` = panic). A `HashSet<u32>` is the
list of its elements in insertion order (its iteration order, arbitrary in Rust, is used only by
`remove_edge_with_hedge`, whose effect the theorems state as a set of removals); equality of node sets is
equality as sets. The two `EdgeOptions` enums (network.rs:22-32 and hnetwork.rs:10-19) have the same variants.
-/

namespace Verif.HNetwork

open Verif.Network (EdgeOptions)

/-- src/engine/fields/hnetwork.rs:23-28 (`HEdge`). -/
structure HEdge (L W : Type) where
  nodes : List Nat
  label : Option L
  weight : Option W
deriving DecidableEq, Repr

variable {K O L W : Type} [DecidableEq K]

/-- `HashSet::insert`: src/engine/fields/hnetwork.rs:60-62. -/
def setInsert (s : List Nat) (i : Nat) : List Nat := if s.contains i then s else s ++ [i]

/-- src/engine/fields/hnetwork.rs:35-65 (`HEdge::new`). -/
def HEdge.new (ids : List Nat) : EdgeOptions L W → HEdge L W
  | .simple => ⟨ids.foldl setInsert [], none, none⟩
  | .labeled l => ⟨ids.foldl setInsert [], some l, none⟩
  | .weighted w => ⟨ids.foldl setInsert [], none, some w⟩
  | .weightedLabeled l w => ⟨ids.foldl setInsert [], some l, some w⟩

/-- src/engine/fields/hnetwork.rs:68-76 (`PartialEq for HEdge`): the node sets are equal; labels and weights do not
count. -/
def HEdge.eq (a b : HEdge L W) : Bool :=
  a.nodes.all (fun i => b.nodes.contains i) && b.nodes.all (fun i => a.nodes.contains i)

/-- Hyperedge lists (src/engine/fields/hnetwork.rs:113-125). -/
abbrev HEdgeMap (L W : Type) := HMap Nat (List (HEdge L W))

/-- src/engine/fields/hnetwork.rs:114-125 (`HNetwork`). -/
structure HNet (K O L W : Type) where
  edges : HEdgeMap L W
  redges : HEdgeMap L W
  nodes2id : HMap K Nat
  id2nodes : HMap Nat O
  rid2nodes : HMap Nat O
deriving DecidableEq, Repr

/-- src/engine/fields/hnetwork.rs:129-137 (`new`). -/
def HNet.new : HNet K O L W := ⟨[], [], [], [], []⟩

/-- The ids of the nodes of a slice, if all are present: src/engine/fields/hnetwork.rs:169-175, 261-267, 419-425. -/
def idsOf (ident : O → K) (n : HNet K O L W) : List O → Option (List Nat)
  | [] => some []
  | u :: us =>
    match HMap.get n.nodes2id (ident u) with
    | none => none
    | some i => (idsOf ident n us).map (fun is => i :: is)

/-- The loop of `add_edge`, src/engine/fields/hnetwork.rs:180-193; `false` = returned from inside the loop, with what
was pushed before still there. -/
def addLoop (e : HEdge L W) : List Nat → HEdgeMap L W → HEdgeMap L W × Bool
  | [], m => (m, true)
  | id :: ids, m =>
    match HMap.get m id with
    | some es =>
      if es.any (fun x => x.eq e) then (m, false)
      else addLoop e ids (HMap.adjust m id (fun es => es ++ [e]))
    | none => addLoop e ids (HMap.insert m id [e]).1

/-- src/engine/fields/hnetwork.rs:162-196 (`add_edge`). -/
def addEdge (ident : O → K) (n : HNet K O L W) (nodes : List O) (o : EdgeOptions L W) : HNet K O L W × Bool :=
  match nodes with
  | [] => (n, false)
  | _ =>
    match idsOf ident n nodes with
    | none => (n, false)
    | some ids => ({ n with edges := (addLoop (HEdge.new ids o) ids n.edges).1 },
        (addLoop (HEdge.new ids o) ids n.edges).2)

/-- src/engine/fields/hnetwork.rs:221-227 (giving the new id an empty list unless it has one). -/
def ensureList (m : HEdgeMap L W) (k : Nat) : HEdgeMap L W :=
  match HMap.get m k with
  | some _ => m
  | none => (HMap.insert m k []).1

/-- src/engine/fields/hnetwork.rs:213-228 (`add_node`). -/
def addNode (ident : O → K) (n : HNet K O L W) (u : O) : HNet K O L W :=
  { n with
    nodes2id := (HMap.insert n.nodes2id (ident u) n.nodes2id.length).1
    id2nodes := (HMap.insert n.id2nodes n.nodes2id.length u).1
    edges := ensureList n.edges n.nodes2id.length }

/-- src/engine/fields/hnetwork.rs:254-282 (`get_edge`). -/
def getEdge (ident : O → K) (n : HNet K O L W) (nodes : List O) : Option (HEdge L W) :=
  match idsOf ident n nodes with
  | none => none
  | some [] => none
  | some (i :: is) =>
    match HMap.get n.redges i with
    | none => none
    | some es => es.find? (fun e => e.eq (HEdge.new (i :: is) .simple))

/-- src/engine/fields/hnetwork.rs:306-314 (`get_edges`). -/
def getEdges (ident : O → K) (n : HNet K O L W) (u : O) : Option (List (HEdge L W)) :=
  match HMap.get n.nodes2id (ident u) with
  | none => none
  | some uid => HMap.get n.redges uid

/-- src/engine/fields/hnetwork.rs:333-335 (`get_object`). -/
def getObject (n : HNet K O L W) (uid : Nat) : Option O := HMap.get n.rid2nodes uid

/-- src/engine/fields/hnetwork.rs:353-355 (`get_id`). -/
def getId (ident : O → K) (n : HNet K O L W) (u : O) : Option Nat := HMap.get n.nodes2id (ident u)

/-- src/engine/fields/hnetwork.rs:383-386 (`remove_all_edges`). -/
def removeAllEdges (n : HNet K O L W) : HNet K O L W := { n with edges := [] }

/-- The loops of `remove_edge` (src/engine/fields/hnetwork.rs:431-444) and `remove_edge_with_hedge` (480-493): from the
list of each id the first equal hyperedge is removed; the last one removed is remembered. `none` = `expect` fails. -/
def removeLoop (t : HEdge L W) : List Nat → HEdgeMap L W → Option (HEdge L W) →
    Option (HEdgeMap L W × Option (HEdge L W))
  | [], m, removed => some (m, removed)
  | id :: ids, m, removed =>
    match HMap.get m id with
    | none => none
    | some es =>
      match es.find? (fun x => x.eq t) with
      | none => removeLoop t ids m removed
      | some e => removeLoop t ids (HMap.adjust m id (fun es => es.eraseP (fun x => x.eq t))) (some e)

/-- src/engine/fields/hnetwork.rs:413-447 (`remove_edge`). -/
def removeEdge (ident : O → K) (n : HNet K O L W) (nodes : List O) : Option (HNet K O L W × Option (HEdge L W)) :=
  match nodes with
  | [] => some (n, none)
  | _ =>
    match idsOf ident n nodes with
    | none => some (n, none)
    | some ids =>
      match removeLoop (HEdge.new ids .simple) ids n.edges none with
      | none => none
      | some x => some ({ n with edges := x.1 }, x.2)

/-- The loop of `remove_object` over the published hyperedges of the node, each removed with
`remove_edge_with_hedge`: src/engine/fields/hnetwork.rs:537-539, 476-496. -/
def removeAll : List (HEdge L W) → HEdgeMap L W → Option (HEdgeMap L W)
  | [], m => some m
  | t :: ts, m =>
    match removeLoop t t.nodes m none with
    | none => none
    | some x => removeAll ts x.1

/-- src/engine/fields/hnetwork.rs:526-548 (`remove_object`): the hyperedges are those `get_edges` (published) shows. -/
def removeObject (ident : O → K) (n : HNet K O L W) (u : O) : Option (HNet K O L W × Bool) :=
  match HMap.get n.nodes2id (ident u) with
  | none => some (n, false)
  | some uid =>
    match removeAll ((getEdges ident n u).getD []) n.edges with
    | none => none
    | some m => some ({ n with
        edges := m
        id2nodes := (HMap.remove n.id2nodes uid).1
        nodes2id := (HMap.remove n.nodes2id (ident u)).1 }, true)

/-- src/engine/fields/hnetwork.rs:580-590 (`update_node`). -/
def updateNode (ident : O → K) (n : HNet K O L W) (u : O) : HNet K O L W :=
  match HMap.get n.nodes2id (ident u) with
  | none => n
  | some uid => { n with id2nodes := HMap.adjust n.id2nodes uid (fun _ => u) }

/-- src/engine/fields/hnetwork.rs:600-609 (`update`) and 611-620 (`lazy_update`), the same statements. -/
def update (n : HNet K O L W) : HNet K O L W := { n with redges := n.edges, rid2nodes := n.id2nodes }

/-- The calls that change a hypernetwork (the methods of src/engine/fields/hnetwork.rs:127-620). -/
inductive Op (O L W : Type) where
  | addNode (u : O)
  | addEdge (us : List O) (o : EdgeOptions L W)
  | removeEdge (us : List O)
  | removeObject (u : O)
  | removeAllEdges
  | updateNode (u : O)
  | update

/-- One call; `none` if it panics (the methods of src/engine/fields/hnetwork.rs:127-620). -/
def exec (ident : O → K) (n : HNet K O L W) : Op O L W → Option (HNet K O L W)
  | .addNode u => some (addNode ident n u)
  | .addEdge us o => some (addEdge ident n us o).1
  | .removeEdge us => (removeEdge ident n us).map Prod.fst
  | .removeObject u => (removeObject ident n u).map Prod.fst
  | .removeAllEdges => some (removeAllEdges n)
  | .updateNode u => some (updateNode ident n u)
  | .update => some (update n)

/-- A history, oldest call first; `none` if some call panics (the methods of src/engine/fields/hnetwork.rs:127-620). -/
def run (ident : O → K) (n : HNet K O L W) : List (Op O L W) → Option (HNet K O L W)
  | [] => some n
  | op :: ops => (exec ident n op).bind (fun n' => run ident n' ops)

end Verif.HNetwork
