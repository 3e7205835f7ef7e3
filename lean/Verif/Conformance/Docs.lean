import Verif.Conformance.Networks
import Verif.Conformance.Objects

/-!
The examples in the documentation of the continuous field and of the networks, run on the model (the examples of the crate are
not compiled: they lack their imports). Each list holds the outcomes of the assertions of one example in their order; `none`
is a panic before the assertion (an `unwrap` of `None`). A `false` or `none` is an assertion that the code does not meet.
-/

namespace Verif.Conformance.Docs

open Verif.Network (Net)
open Verif.HNetwork (HNet)

/-- Adding nodes (src/engine/fields/network.rs:800-815). -/
def nodes (n : NumNet) (l : List Nat) : NumNet := l.foldl (fun n i => Network.addNode id n i) n

/-- Adding edges (src/engine/fields/network.rs:741-781). -/
def edges (n : NumNet) (l : List (Nat × Nat)) : NumNet := l.foldl (fun n e => (Network.addEdge id n e.1 e.2 .simple).1) n

/-- `get_edges(u).unwrap().len()`. -/
def count (n : NumNet) (u : Nat) : Option Nat := (Network.getEdges id n u).map List.length

/-- Nodes 0 to 3 with the edges 0-1 and 0-2, the network of the examples of `get_edges`. -/
def star (d : Bool) : NumNet := Network.update (edges (nodes (Net.new d) [0, 1, 2, 3]) [(0, 1), (0, 2)])

/-- src/engine/fields/network.rs:908-933, `get_edges`, directed: the second assertion fails, node 1 lists no edge. -/
example : [count (star true) 0 == some 2, count (star true) 1 == some 1, count (star true) 3 == some 0,
    count (star true) 4 == none] = [true, false, true, true] := by decide +kernel

/-- src/engine/fields/network.rs:935-962, `get_edges`, undirected: each edge is listed once at each end, not twice. -/
example : [count (star false) 0 == some 4, count (star false) 1 == some 2, count (star false) 3 == some 0,
    count (star false) 4 == none] = [false, false, true, true] := by decide +kernel

/-- src/engine/fields/network.rs:783-798, 982-998, 1013-1029, `add_node`, `get_object`, `get_id`. -/
example : [Network.getObject (Network.update (nodes (Net.new true) [0])) 0 == some 0,
    Network.getObject (Network.update (nodes (Net.new true) [1])) 0 == some 1,
    Network.getObject (Network.update (nodes (Net.new true) [1])) 1 == none,
    Network.getId id (Network.update (nodes (Net.new true : NumNet) [1])) 1 == some 0,
    Network.getId id (Network.update (nodes (Net.new true : NumNet) [1])) 0 == none] = [true, true, true, true, true] := by
  decide +kernel

/-- src/engine/fields/network.rs:832-869, `get_edge`. -/
example : (let n := edges (nodes (Net.new true) [0, 1]) [(0, 1)]
    let m := edges (nodes (Net.new false) [0, 1]) [(0, 1)]
    [(Network.getEdge id (Network.update n) 0 1).map Option.isSome, (Network.getEdge id (Network.update n) 1 0).map Option.isNone,
      (Network.getEdge id m 1 0).map Option.isNone, (Network.getEdge id (Network.update m) 0 1).map Option.isSome,
      (Network.getEdge id (Network.update m) 1 0).map Option.isSome]) =
    [some true, some true, some true, some true, some true] := by decide +kernel

/-- src/engine/fields/network.rs:1246-1264, `remove_all_edges`: all three `unwrap`s panic, the lists are gone. -/
example : (let n := Network.update (Network.removeAllEdges (edges (nodes (Net.new false) [0, 1, 2]) [(0, 1), (0, 2), (1, 2)]))
    [count n 0, count n 1, count n 2]) = [none, none, none] := by decide +kernel

/-- src/engine/fields/network.rs:1280-1296, `remove_edge`, directed: without an `update` before it nothing is removed, since the
ids are looked up in the read state; with one, both assertions hold. -/
example : (let n := edges (nodes (Net.new true) [0, 1]) [(0, 1), (1, 0)]
    [(Network.removeEdge id n 0 1).bind (fun r => (count (Network.update r.1) 0).map (· == 0)),
      (Network.removeEdge id n 0 1).bind (fun r => (count (Network.update r.1) 1).map (· == 1)),
      (Network.removeEdge id (Network.update n) 0 1).bind (fun r => (count (Network.update r.1) 0).map (· == 0)),
      (Network.removeEdge id (Network.update n) 0 1).bind (fun r => (count (Network.update r.1) 1).map (· == 1))]) =
    [some false, some true, some true, some true] := by decide +kernel

/-- src/engine/fields/network.rs:1298-1313, `remove_edge`, undirected: the same, without an `update` before it nothing is
removed. -/
example : (let n := edges (nodes (Net.new false) [0, 1]) [(0, 1)]
    [(Network.removeEdge id n 0 1).bind (fun r => (count (Network.update r.1) 0).map (· == 0)),
      (Network.removeEdge id n 0 1).bind (fun r => (count (Network.update r.1) 1).map (· == 0)),
      (Network.removeEdge id (Network.update n) 0 1).bind (fun r => (count (Network.update r.1) 0).map (· == 0)),
      (Network.removeEdge id (Network.update n) 0 1).bind (fun r => (count (Network.update r.1) 1).map (· == 0))]) =
    [some false, some false, some true, some true] := by decide +kernel

/-- The counts of nodes 0, 1, 2 after removing the incoming (`inc`) or outgoing edges of 0 and publishing. -/
def after (inc : Bool) (n : NumNet) : Option (List (Option Nat)) :=
  (Network.removeEdgesOf id inc n 0).map (fun r => [count (Network.update r.1) 0, count (Network.update r.1) 1,
    count (Network.update r.1) 2])

/-- src/engine/fields/network.rs:1360-1379, `remove_incoming_edges`, directed; documented 1, 0, 0. Without an `update` before it
nothing is removed. With one, the edge 0-1 is counted as documented (`remove_edge` matches both directions, but in the list of
the other node only). -/
example : (let n := edges (nodes (Net.new true) [0, 1, 2]) [(1, 0), (2, 0), (0, 1)]
    [after true n, after true (Network.update n)]) =
    [some [some 1, some 1, some 1], some [some 1, some 0, some 0]] := by decide +kernel

/-- src/engine/fields/network.rs:1381-1403, `remove_incoming_edges`, undirected; documented 0, 1, 1. -/
example : (let n := edges (nodes (Net.new false) [0, 1, 2]) [(1, 0), (2, 0), (1, 2)]
    [after true n, after true (Network.update n)]) =
    [some [some 2, some 2, some 2], some [some 0, some 1, some 1]] := by decide +kernel

/-- src/engine/fields/network.rs:1435-1453, `remove_outgoing_edges`, directed; documented 0 for node 0 and 1 for node 2. -/
example : (let n := edges (nodes (Net.new true) [0, 1, 2]) [(0, 1), (0, 2), (2, 0)]
    [after false n, after false (Network.update n)]) =
    [some [some 2, some 0, some 1], some [some 0, some 0, some 1]] := by decide +kernel

/-- src/engine/fields/network.rs:1455-1475, `remove_outgoing_edges`, undirected; documented 0, 1, 1. -/
example : (let n := edges (nodes (Net.new false) [0, 1, 2]) [(0, 1), (0, 2), (1, 2)]
    [after false n, after false (Network.update n)]) =
    [some [some 2, some 2, some 2], some [some 0, some 1, some 1]] := by decide +kernel

/-- The counts of nodes 0, 1, 2 after removing node 0 and publishing. -/
def without (n : NumNet) : Option (List (Option Nat)) :=
  (Network.removeNode id n 0).map (fun r => [count (Network.update r.1) 0, count (Network.update r.1) 1,
    count (Network.update r.1) 2])

/-- src/engine/fields/network.rs:1509-1527, `remove_node`, directed; documented `None` for node 0 and 0 for node 2. -/
example : (let n := edges (nodes (Net.new true) [0, 1, 2]) [(0, 1), (0, 2), (2, 0)]
    [without n, without (Network.update n)]) =
    [some [some 2, some 0, some 1], some [none, some 0, some 0]] := by decide +kernel

/-- src/engine/fields/network.rs:1529-1547, `remove_node`, undirected; documented `None`, 0, 0. -/
example : (let n := edges (nodes (Net.new false) [0, 1, 2]) [(0, 1), (0, 2)]
    [without n, without (Network.update n)]) =
    [some [some 2, some 1, some 1], some [none, some 0, some 0]] := by decide +kernel

/-- Adding nodes (src/engine/fields/hnetwork.rs:213-228). -/
def hnodes (l : List Nat) : NumHNet := l.foldl (fun n i => HNetwork.addNode id n i) HNet.new

/-- Adding hyperedges (src/engine/fields/hnetwork.rs:163-196). -/
def hedges (n : NumHNet) (l : List (List Nat)) : NumHNet := l.foldl (fun n e => (HNetwork.addEdge id n e .simple).1) n

/-- src/engine/fields/hnetwork.rs:148-161, `add_edge`. -/
example : [(HNetwork.addEdge id (hnodes [1, 2, 3]) [1, 2, 3] .simple).2,
    (HNetwork.addEdge id (hedges (hnodes [1, 2, 3]) [[1, 2, 3]]) [2, 3, 1] .simple).2] = [true, false] := by decide +kernel

/-- src/engine/fields/hnetwork.rs:238-253, 289-304, `get_edge` and `get_edges`. -/
example : (let n := HNetwork.update (hedges (hnodes [1, 2, 3]) [[1, 2, 3]])
    let m := HNetwork.update (hedges (hnodes [1, 2, 3]) [[1, 2, 3], [1, 2]])
    ([(HNetwork.getEdge id n [1, 2, 3]).isSome, (HNetwork.getEdge id n [3, 1, 2]).isSome, (HNetwork.getEdge id n [1, 2]).isNone],
      [1, 2, 3].map (fun u => (HNetwork.getEdges id m u).map List.length))) =
    ([true, true, true], [some 2, some 2, some 1]) := by decide +kernel

/-- src/engine/fields/hnetwork.rs:323-351, `get_node` (called `get_object` in the code) and `get_id`. -/
example : (let n := HNetwork.update (hnodes [10])
    [HNetwork.getObject n 0 == some 10, HNetwork.getObject n 10 == none, HNetwork.getId id n 10 == some 0,
      HNetwork.getId id n 0 == none]) = [true, true, true, true] := by decide +kernel

/-- src/engine/fields/hnetwork.rs:358-381, `clear_edges` (`remove_all_edges` in the code). -/
example : (let n := HNetwork.update (HNetwork.removeAllEdges (hedges (hnodes [1, 2, 3]) [[1, 2, 3], [1, 2]]))
    [1, 2, 3].map (fun u => (HNetwork.getEdges id n u).isNone)) = [true, true, true] := by decide +kernel

/-- src/engine/fields/hnetwork.rs:396-411, `remove_edge`: the example does not publish before the call. -/
example : (HNetwork.removeEdge id (hedges (hnodes [1, 2, 3]) [[1, 2, 3], [1, 2]]) [1, 2, 3]).map (fun r =>
      [(HNetwork.getEdge id (HNetwork.update r.1) [1, 2, 3]).isNone, (HNetwork.getEdge id (HNetwork.update r.1) [1, 2]).isSome]) =
    some [true, true] := by decide +kernel

/-- src/engine/fields/hnetwork.rs:506-524, `remove_node` (`remove_object` in the code): the last assertion fails, `get_node` takes
an id and 1 is the id of the node 2. -/
example : (HNetwork.removeObject id (HNetwork.update (hedges (hnodes [1, 2]) [[1, 2]])) 1).map (fun r =>
      [(HNetwork.getEdge id (HNetwork.update r.1) [1, 2]).isNone, (HNetwork.getObject (HNetwork.update r.1) 1).isNone]) =
    some [true, false] := by decide +kernel

/-- Placing objects with their positions (src/engine/fields/field_2d.rs:838-846). -/
def place (l : List Bird) : Option (Field2D.Field Bird) := l.foldlM put flocker

/-- src/engine/fields/field_2d.rs:362-385 and 448-471: the searches within a distance. -/
example : ((place [bird 0, bird 1 ⟨3, 3⟩]).bind Field2D.lazyUpdate).map (fun f =>
      [(Field2D.getNeighborsWithinDistance f Bird.pos ⟨0, 0⟩ 2).map List.length,
        (Field2D.getNeighborsWithinDistance f Bird.pos ⟨0, 0⟩ 5).map List.length,
        (Field2D.getNeighborsWithinDistance f Bird.pos ⟨6, 6⟩ 1).map List.length,
        (Field2D.getNeighborsWithinRelaxDistance f ⟨0, 0⟩ 2).map List.length,
        (Field2D.getNeighborsWithinRelaxDistance f ⟨0, 0⟩ 5).map List.length,
        (Field2D.getNeighborsWithinRelaxDistance f ⟨6, 6⟩ 1).map List.length]) =
    some [some 1, some 2, some 0, some 1, some 2, some 0] := by decide +kernel

/-- src/engine/fields/field_2d.rs:523-543 and 556-576, `get_objects` and `get_objects_unbuffered`. -/
example : (place [bird 0 ⟨5, 5⟩, bird 1 ⟨5, 5⟩]).bind (fun f => (Field2D.lazyUpdate f).map (fun g =>
      [(Field2D.getObjects f ⟨5, 5⟩).map List.length, (Field2D.getObjects g ⟨5, 5⟩).map List.length,
        (Field2D.getObjectsUnbuffered f ⟨5, 5⟩).map List.length, (Field2D.getObjectsUnbuffered g ⟨5, 5⟩).map List.length])) =
    some [some 0, some 2, some 2, some 0] := by decide +kernel

/-- src/engine/fields/field_2d.rs:589-617 and 646-676, `iter_objects` and `iter_objects_unbuffered`. -/
example : (place [bird 0 ⟨5, 5⟩, bird 1 ⟨4, 4⟩, bird 2 ⟨3 / 2, 3 / 2⟩]).bind (fun f => (Field2D.lazyUpdate f).bind (fun g =>
      (Field2D.iterObjects g).bind (fun a => (Field2D.iterObjectsUnbuffered f).map (fun b =>
        (a.map (fun e => (e.1.x, e.1.y, e.2.id)), b.map (fun e => (e.1.x, e.1.y, e.2.id))))))) =
    some ([(3 / 2, 3 / 2, 2), (4, 4, 1), (5, 5, 0)], [(3 / 2, 3 / 2, 2), (4, 4, 1), (5, 5, 0)]) := by decide +kernel

/-- src/engine/fields/field_2d.rs:701-725, `get_empty_bags`; documented 400, 400, 397. The field has 21 × 21 bags, see `C211`. -/
example : (Field2D.getEmptyBags flocker).map List.length = some 441 ∧
    (place [bird 0 ⟨5, 5⟩, bird 1 ⟨4, 4⟩, bird 2 ⟨3 / 2, 3 / 2⟩]).bind (fun f => (Field2D.lazyUpdate f).map (fun g =>
      [(Field2D.getEmptyBags f).map List.length, (Field2D.getEmptyBags g).map List.length])) =
    some [some 441, some 438] := by decide +kernel

/-- src/engine/fields/field_2d.rs:743-763, `get_random_empty_bag`: the last assertion fails if the same bag is drawn twice. -/
example : (Field2D.getRandomEmptyBag flocker (fun _ => 0)) = some (some ⟨0, 0⟩) ∧
    ((place [bird 0 ⟨5, 5⟩]).bind Field2D.lazyUpdate).bind (fun f => Field2D.getRandomEmptyBag f (fun _ => 0)) =
      some (some ⟨0, 0⟩) := by decide +kernel

/-- src/engine/fields/field_2d.rs:779-801, `get_number_of_objects_at_location` (`num_objects_at_location` in the code);
documented 1, 2, 0, but the example places one object at (1.5, 1.5). -/
example : ((place [bird 0 ⟨5, 5⟩, bird 1 ⟨3 / 2, 3 / 2⟩, bird 2 ⟨4, 4⟩]).bind Field2D.lazyUpdate).map (fun f =>
      [Field2D.numObjectsAtLocation f ⟨5, 5⟩, Field2D.numObjectsAtLocation f ⟨3 / 2, 3 / 2⟩,
        Field2D.numObjectsAtLocation f ⟨8, 8⟩]) = some [some 1, some 1, some 0] := by decide +kernel

/-- src/engine/fields/field_2d.rs:857-883, `remove_object_location`. -/
example : ((place [bird 0 ⟨5, 5⟩, bird 1 ⟨3 / 2, 3 / 2⟩, bird 2 ⟨5, 5⟩]).bind (fun f =>
      (Field2D.removeObjectLocation f (bird 0) ⟨5, 5⟩).bind (fun f =>
        (Field2D.removeObjectLocation f (bird 1) ⟨3 / 2, 3 / 2⟩).bind Field2D.lazyUpdate))).map (fun f =>
      [(Field2D.getObjects f ⟨5, 5⟩).map (List.map Bird.id), (Field2D.getObjects f ⟨3 / 2, 3 / 2⟩).map (List.map Bird.id)]) =
    some [some [2], some []] := by decide +kernel

end Verif.Conformance.Docs
