import Verif.Model.HashMap

/-!
Model of src/engine/fields/network.rs, sequential variant (lines 592-1659): `Network<O, L>`.

* `O: Hash + Eq`: the hash maps see an object only through its `Eq`/`Hash`, so an object type comes with
  `ident : O → K` into keys with decidable equality (objects with the same `ident` are `==`).
* `HashMap` is `HMap` (association list, order = iteration order, arbitrary); `u32` ids are natural numbers
  (no overflow of `nodes2id.len() as u32`); weights (`f32`) are only stored, so any type.
* The two `RefCell`s of each vector (`[self.read]`, `[self.write]`, always 0 and 1) are the sides `r` and `w`.
  No method holds a `RefCell` borrow that conflicts with a nested one (checked by reading), so borrow
  panics do not occur; the other panics (`expect`) are the outer `none` of the results.
* `println!` in `remove_edge` is dropped.
-/

namespace Verif.Network

/-- src/engine/fields/network.rs:22-32 (`EdgeOptions`). -/
inductive EdgeOptions (L W : Type) where
  | simple
  | labeled (l : L)
  | weighted (w : W)
  | weightedLabeled (l : L) (w : W)

/-- src/engine/fields/network.rs:34-46 (`Edge`). -/
structure Edge (L W : Type) where
  u : Nat
  v : Nat
  label : Option L
  weight : Option W
deriving DecidableEq, Repr

/-- src/engine/fields/network.rs:51-78 (`Edge::new`). -/
def Edge.new {L W : Type} (u v : Nat) : EdgeOptions L W → Edge L W
  | .simple => ⟨u, v, none, none⟩
  | .labeled l => ⟨u, v, some l, none⟩
  | .weighted w => ⟨u, v, none, some w⟩
  | .weightedLabeled l w => ⟨u, v, some l, some w⟩

/-- Adjacency lists (src/engine/fields/network.rs:612-624). -/
abbrev EdgeMap (L W : Type) := HMap Nat (List (Edge L W))

/-- One side (read or write) of the three double buffered maps of `Network` (src/engine/fields/network.rs:612-624). -/
structure Side (K O L W : Type) where
  edges : EdgeMap L W
  nodes2id : HMap K Nat
  id2nodes : HMap Nat O
deriving DecidableEq, Repr

/-- src/engine/fields/network.rs:612-624 (`Network`). -/
structure Net (K O L W : Type) where
  r : Side K O L W
  w : Side K O L W
  direct : Bool
deriving DecidableEq, Repr

variable {K O L W : Type} [DecidableEq K]

/-- src/engine/fields/network.rs:672-687 (`new`). -/
def Net.new (d : Bool) : Net K O L W := ⟨⟨[], [], []⟩, ⟨[], [], []⟩, d⟩

/-- Appending to the list of `k`, creating it if absent: src/engine/fields/network.rs:757-765. -/
def pushEdge (m : EdgeMap L W) (k : Nat) (e : Edge L W) : EdgeMap L W :=
  match HMap.get m k with
  | some _ => HMap.adjust m k (fun es => es ++ [e])
  | none => (HMap.insert m k [e]).1

/-- src/engine/fields/network.rs:741-781 (`add_edge`). -/
def addEdge (ident : O → K) (n : Net K O L W) (u v : O) (o : EdgeOptions L W) :
    Net K O L W × Bool × Bool :=
  match HMap.get n.w.nodes2id (ident u) with
  | none => (n, false, false)
  | some uid =>
    match HMap.get n.w.nodes2id (ident v) with
    | none => (n, false, false)
    | some vid =>
      if n.direct then
        ({ n with w := { n.w with edges := pushEdge n.w.edges uid (Edge.new uid vid o) } }, true, false)
      else
        ({ n with
            w := { n.w with
              edges := pushEdge (pushEdge n.w.edges uid (Edge.new uid vid o)) vid (Edge.new vid uid o) } },
          true, true)

/-- Giving `k` an empty list unless it has one: src/engine/fields/network.rs:808-814. -/
def ensureList (m : EdgeMap L W) (k : Nat) : EdgeMap L W :=
  match HMap.get m k with
  | some _ => m
  | none => (HMap.insert m k []).1

/-- src/engine/fields/network.rs:800-815 (`add_node`): the new id is the number of nodes. -/
def addNode (ident : O → K) (n : Net K O L W) (u : O) : Net K O L W :=
  { n with w :=
    { edges := ensureList n.w.edges n.w.nodes2id.length
      nodes2id := (HMap.insert n.w.nodes2id (ident u) n.w.nodes2id.length).1
      id2nodes := (HMap.insert n.w.id2nodes n.w.nodes2id.length u).1 } }

/-- The loop of `get_edge`, src/engine/fields/network.rs:888-893; `none` = one of the `expect`s fails. -/
def scanEdge (ident : O → K) (s : Side K O L W) (direct : Bool) (uid vid : Nat) :
    List (Edge L W) → Option (Option (Edge L W))
  | [] => some none
  | e :: es =>
    match HMap.get s.id2nodes e.v with
    | none => none
    | some o =>
      match HMap.get s.nodes2id (ident o) with
      | none => none
      | some ve =>
        if (e.u = uid ∧ ve = vid) ∨ (direct = false ∧ ve = uid ∧ e.u = vid) then some (some e)
        else scanEdge ident s direct uid vid es

/-- src/engine/fields/network.rs:870-898 (`get_edge`). -/
def getEdge (ident : O → K) (n : Net K O L W) (u v : O) : Option (Option (Edge L W)) :=
  match HMap.get n.r.nodes2id (ident u) with
  | none => some none
  | some uid =>
    match HMap.get n.r.edges uid with
    | none => some none
    | some ues =>
      match HMap.get n.r.nodes2id (ident v) with
      | none => some none
      | some vid => scanEdge ident n.r n.direct uid vid ues

/-- src/engine/fields/network.rs:963-972 (`get_edges`). -/
def getEdges (ident : O → K) (n : Net K O L W) (u : O) : Option (List (Edge L W)) :=
  match HMap.get n.r.nodes2id (ident u) with
  | none => none
  | some uid => HMap.get n.r.edges uid

/-- src/engine/fields/network.rs:1000-1003 (`get_object`). -/
def getObject (n : Net K O L W) (uid : Nat) : Option O := HMap.get n.r.id2nodes uid

/-- src/engine/fields/network.rs:1031-1033 (`get_id`). -/
def getId (ident : O → K) (n : Net K O L W) (u : O) : Option Nat := HMap.get n.r.nodes2id (ident u)

/-- src/engine/fields/network.rs:1266-1269 (`remove_all_edges`). -/
def removeAllEdges (n : Net K O L W) : Net K O L W := { n with w := { n.w with edges := [] } }

/-- The test used by `remove_edge`, src/engine/fields/network.rs:1332 and 1344. -/
def between (uid vid : Nat) (e : Edge L W) : Bool :=
  (e.u == uid && e.v == vid) || (e.u == vid && e.v == uid)

/-- `remove_edge` once the ids are known: src/engine/fields/network.rs:1328-1348. `position` + `remove` is
`find?` + `eraseP`. -/
def removeEdgeIds (direct : Bool) (m : EdgeMap L W) (uid vid : Nat) :
    Option (EdgeMap L W × Option (Edge L W)) :=
  match HMap.get m uid with
  | none => none
  | some ues =>
    match ues.find? (between uid vid) with
    | none => some (m, none)
    | some e =>
      if direct then some (HMap.adjust m uid (fun es => es.eraseP (between uid vid)), some e)
      else
        match HMap.get m vid with
        | none => none
        | some _ =>
          some (HMap.adjust (HMap.adjust m uid (fun es => es.eraseP (between uid vid))) vid
            (fun es => es.filter (fun e => !between uid vid e)), some e)

/-- src/engine/fields/network.rs:1314-1351 (`remove_edge`): ids from the *read* side, lists of the write
side. -/
def removeEdge (ident : O → K) (n : Net K O L W) (u v : O) :
    Option (Net K O L W × Option (Edge L W)) :=
  match HMap.get n.r.nodes2id (ident u) with
  | none => some (n, none)
  | some uid =>
    match HMap.get n.r.nodes2id (ident v) with
    | none => some (n, none)
    | some vid =>
      match removeEdgeIds n.direct n.w.edges uid vid with
      | none => none
      | some x => some ({ n with w := { n.w with edges := x.1 } }, x.2)

/-- One iteration of the loops of `remove_incoming_edges` / `remove_outgoing_edges`
(src/engine/fields/network.rs:1415-1421, 1488-1494); `inc` selects which. `id2nodes` is the write side
map, which the loop does not change. -/
def removeStep (ident : O → K) (inc : Bool) (id2nodes : HMap Nat O) (uid : Nat) (u : O)
    (acc : Option (Net K O L W × List (Edge L W))) (v : Nat) : Option (Net K O L W × List (Edge L W)) :=
  match acc with
  | none => none
  | some (n, ris) =>
    if v = uid then some (n, ris)
    else
      match HMap.get id2nodes v with
      | none => none
      | some vnode =>
        match (if inc then removeEdge ident n vnode u else removeEdge ident n u vnode) with
        | none => none
        | some (n', none) => some (n', ris)
        | some (n', some e) => some (n', ris ++ [e])

/-- src/engine/fields/network.rs:1404-1425 (`remove_incoming_edges`, `inc = true`) and 1477-1498
(`remove_outgoing_edges`, `inc = false`). -/
def removeEdgesOf (ident : O → K) (inc : Bool) (n : Net K O L W) (u : O) :
    Option (Net K O L W × Option (List (Edge L W))) :=
  match HMap.get n.r.nodes2id (ident u) with
  | none => some (n, none)
  | some uid =>
    match (HMap.keys n.w.id2nodes).foldl (removeStep ident inc n.w.id2nodes uid u) (some (n, [])) with
    | none => none
    | some (n', ris) => some (n', some ris)

/-- `edges.remove(&uid)` on the write side: src/engine/fields/network.rs:1562-1563, 1570-1571. -/
def dropList (n : Net K O L W) (uid : Nat) : Net K O L W :=
  { n with w := { n.w with edges := (HMap.remove n.w.edges uid).1 } }

/-- src/engine/fields/network.rs:1548-1582 (`remove_node`). -/
def removeNode (ident : O → K) (n : Net K O L W) (u : O) : Option (Net K O L W × Bool) :=
  match HMap.get n.w.nodes2id (ident u) with
  | none => some (n, false)
  | some uid =>
    match removeEdgesOf ident false n u with
    | none => none
    | some (n1, none) => some (n1, false)
    | some (n1, some _) =>
      match removeEdgesOf ident true (dropList n1 uid) u with
      | none => none
      | some (n2, none) => some (n2, false)
      | some (n2, some _) =>
        some ({ n2 with w :=
          { edges := (HMap.remove n2.w.edges uid).1
            nodes2id := (HMap.remove n2.w.nodes2id (ident u)).1
            id2nodes := (HMap.remove n2.w.id2nodes uid).1 } }, true)

/-- src/engine/fields/network.rs:1614-1625 (`update_node`). -/
def updateNode (ident : O → K) (n : Net K O L W) (u : O) : Net K O L W :=
  match HMap.get n.w.nodes2id (ident u) with
  | none => n
  | some uid => { n with w := { n.w with id2nodes := HMap.adjust n.w.id2nodes uid (fun _ => u) } }

/-- src/engine/fields/network.rs:1631-1643 (`update`). -/
def update (n : Net K O L W) : Net K O L W :=
  { n with r := { edges := n.w.edges, nodes2id := n.w.nodes2id, id2nodes := n.w.id2nodes } }

/-- src/engine/fields/network.rs:1645-1658 (`lazy_update`). -/
def lazyUpdate (n : Net K O L W) : Net K O L W :=
  { n with r := { edges := n.w.edges, nodes2id := n.w.nodes2id, id2nodes := n.w.id2nodes } }

/-! ### Preferential attachment -/

/-- `dist[choice_pos[i]].1 += 1` for each choice: src/engine/fields/network.rs:1119-1121. -/
def bump (dist : List (O × Int × Nat)) (choices : List Nat) : List (O × Int × Nat) :=
  choices.foldl (fun d c => d.modify c (fun x => (x.1, x.2.1 + 1, x.2.2))) dist

/-- The edges from the new node to the chosen ones: src/engine/fields/network.rs:1114-1117. -/
def attach (ident : O → K) (n : Net K O L W) (node : O) (chosen : List (O × Int × Nat)) : Net K O L W :=
  chosen.foldl (fun n c => (addEdge ident n node c.1 .simple).1) n

/-- The loop `for i in 2..n_nodes`, src/engine/fields/network.rs:1098-1124 (and 1210-1236). `k` is the number
of iterations left. `pick i dist amount` are the positions in `dist` that `choose_multiple_weighted`
returns (arbitrary here; the theorems state what they assume of it); a position outside `dist`
cannot be returned by it and is skipped here. `none` = `node_set[i]` out of bounds. -/
def attachLoop (ident : O → K) (pick : Nat → List (O × Int × Nat) → Nat → List Nat) (nodes : List O)
    (initEdges : Nat) : Nat → Nat → Net K O L W → List (O × Int × Nat) → Option (Net K O L W)
  | 0, _, n, _ => some n
  | k + 1, i, n, dist =>
    match nodes[i]? with
    | none => none
    | some node =>
      let amount := if dist.length < initEdges then dist.length else initEdges
      let chosen := (pick i dist amount).filterMap (fun c => dist[c]?)
      attachLoop ident pick nodes initEdges k (i + 1) (attach ident n node chosen)
        (bump dist (chosen.map (fun c => c.2.2)) ++ [(node, (amount : Int), i)])

/-- src/engine/fields/network.rs:1062-1131 (`preferential_attachment_BA`) and 1179-1254
(`preferential_attachment_BA_with_seed`), which differ in the random generator only. -/
def preferentialAttachment (ident : O → K) (pick : Nat → List (O × Int × Nat) → Nat → List Nat)
    (n : Net K O L W) (nodes : List O) (initEdges : Nat) : Option (Net K O L W) :=
  match nodes with
  | a :: b :: _ =>
    match attachLoop ident pick nodes initEdges (n.w.id2nodes.length - 2) 2
        (addEdge ident (removeAllEdges n) a b .simple).1 [(a, 1, 0), (b, 1, 1)] with
    | none => none
    | some n' => some (update n')
  | _ => some (removeAllEdges n)

/-! ### Histories -/

/-- The calls that change a network (the methods of src/engine/fields/network.rs:688-1659). -/
inductive Op (O L W : Type) where
  | addNode (u : O)
  | addEdge (u v : O) (o : EdgeOptions L W)
  | removeEdge (u v : O)
  | removeIncoming (u : O)
  | removeOutgoing (u : O)
  | removeNode (u : O)
  | removeAllEdges
  | updateNode (u : O)
  | update
  | lazyUpdate

/-- One call; `none` if it panics (the methods of src/engine/fields/network.rs:688-1659). -/
def exec (ident : O → K) (n : Net K O L W) : Op O L W → Option (Net K O L W)
  | .addNode u => some (addNode ident n u)
  | .addEdge u v o => some (addEdge ident n u v o).1
  | .removeEdge u v => (removeEdge ident n u v).map Prod.fst
  | .removeIncoming u => (removeEdgesOf ident true n u).map Prod.fst
  | .removeOutgoing u => (removeEdgesOf ident false n u).map Prod.fst
  | .removeNode u => (removeNode ident n u).map Prod.fst
  | .removeAllEdges => some (removeAllEdges n)
  | .updateNode u => some (updateNode ident n u)
  | .update => some (update n)
  | .lazyUpdate => some (lazyUpdate n)

/-- A history; `none` if some call panics (the methods of src/engine/fields/network.rs:688-1659). -/
def run (ident : O → K) (n : Net K O L W) : List (Op O L W) → Option (Net K O L W)
  | [] => some n
  | op :: ops => (exec ident n op).bind (fun n' => run ident n' ops)

end Verif.Network
