import Verif.Model.Network
import Verif.Model.HNetwork
import Verif.Model.Schedule
import Verif.Conformance.NumberGrids
import Mathlib.Data.Rat.Defs
import Mathlib.Algebra.Order.Ring.Rat

/-!
The tests of the networks and of the schedule that krABMaga ships, run on the model (see `NumberGrids`). Labels are strings,
weights are written in thousandths.
-/

namespace Verif.Conformance

open Network (Net EdgeOptions Edge)

/-- A network of numbers. -/
abbrev NumNet := Net Nat Nat String Nat

/-- tests/engine/network.rs:28-79, `network_edge_types`. -/
def networkEdgeTypes : Option Unit := do
  let n : NumNet := Net.new false
  let n := Network.addNode id n 1
  let n := Network.addNode id n 2
  let n := Network.update n
  let n := (Network.addEdge id n 1 2 (.labeled "Edge12")).1
  let n := Network.update n
  let e ← Network.getEdge id n 1 2
  let e ← e
  check (e.label == some "Edge12")
  let (n, r) ← Network.removeEdge id n 1 2
  let r ← r
  check (r.label == some "Edge12")
  let n := (Network.addEdge id n 1 2 (.weighted 123)).1
  let n := Network.update n
  let e ← Network.getEdge id n 1 2
  let e ← e
  check (e.weight == some 123)
  let (n, r) ← Network.removeEdge id n 1 2
  let r ← r
  check (r.weight == some 123)
  let n := (Network.addEdge id n 1 2 (.weightedLabeled "Edge12" 123)).1
  let n := Network.update n
  let e ← Network.getEdge id n 1 2
  let e ← e
  check (e.weight == some 123 && e.label == some "Edge12")
  let (_, r) ← Network.removeEdge id n 1 2
  let r ← r
  check (r.weight == some 123 && r.label == some "Edge12")

example : networkEdgeTypes = some () := by decide +kernel

/-- tests/engine/network.rs:87-98, `network_gets_fault`. -/
def networkGetsFault : Option Unit := do
  let n : NumNet := Net.new true
  let e ← Network.getEdge id n 1 2
  check e.isNone
  check (Network.getObject n 1).isNone
  let n := Network.addNode id n 1
  let n := Network.update n
  let e ← Network.getEdge id n 1 2
  check e.isNone
  let n := Network.addNode id n 2
  let e ← Network.getEdge id n 1 2
  check e.isNone

example : networkGetsFault = some () := by decide +kernel

/-- tests/engine/network.rs:106-145, `network_update_nodes`; a node is its id with a flag, compared by its id. -/
def networkUpdateNodes : Option Unit := do
  let n : Net Nat (Nat × Bool) String Nat := Net.new false
  let n := Network.addNode Prod.fst n (1, false)
  let n := Network.updateNode Prod.fst n (1, true)
  let n := Network.update n
  let u ← Network.getObject n 0
  check (u.1 == 1 && u.2)

example : networkUpdateNodes = some () := by decide +kernel

/-- The ten nodes. -/
def tenNodes (n : NumNet) : NumNet := (List.range 10).foldl (fun n i => Network.addNode id n i) n

/-- A ring of edges through the ten nodes. -/
def ring (n : NumNet) : NumNet := (List.range 10).foldl (fun n i => (Network.addEdge id n i ((i + 1) % 10) .simple).1) n

/-- The same edges backwards. -/
def ringBack (n : NumNet) : NumNet := (List.range 10).foldl (fun n i => (Network.addEdge id n ((i + 1) % 10) i .simple).1) n

/-- tests/engine/network.rs:153-193, `network_directed`. -/
def networkDirected : Option Unit := do
  let n : NumNet := Net.new true
  let (n, added, _) := Network.addEdge id n 1 2 .simple
  check (!added)
  let n := Network.update (ring (tenNodes n))
  (List.range 10).forM (fun i => do
    let u ← Network.getObject n i
    check (u == i)
    let es ← Network.getEdges id n i
    check (es.length == 1)
    let e ← Network.getEdge id n i ((i + 1) % 10)
    let e ← e
    check (e.u == i && e.v == (i + 1) % 10))
  let n := Network.lazyUpdate (ringBack n)
  (List.range 10).forM (fun i => do
    let u ← Network.getObject n i
    check (u == i)
    let es ← Network.getEdges id n i
    check (es.length == 2))

example : networkDirected = some () := by decide +kernel

/-- tests/engine/network.rs:201-228, `network_undirected`. -/
def networkUndirected : Option Unit := do
  let n : NumNet := Net.new false
  let (n, added1, added2) := Network.addEdge id n 1 2 .simple
  check (!added1 && !added2)
  let n := Network.lazyUpdate (ring (tenNodes n))
  (List.range 10).forM (fun i => do
    let u ← Network.getObject n i
    check (u == i)
    let es ← Network.getEdges id n i
    check (es.length == 2)
    let e ← Network.getEdge id n i ((i + 1) % 10)
    let e ← e
    check (e.u == i && e.v == (i + 1) % 10))

example : networkUndirected = some () := by decide +kernel

/-- tests/engine/network.rs:236-282 and 290-335, `network_remove_directed` and `network_remove_undirected`, which only differ in
how the edges are made. -/
def networkRemove (n : NumNet) : Option Unit := do
  let n := Network.lazyUpdate n
  let (n, _) ← Network.removeEdge id n 0 1
  let n := Network.lazyUpdate n
  let es ← Network.getEdges id n 0
  check (es.length == 1)
  let (n, b) ← Network.removeNode id n 0
  check b
  let n := Network.lazyUpdate n
  check (Network.getObject n 0).isNone
  let es ← Network.getEdges id n 1
  check (es.length == 1)
  let es ← Network.getEdges id n 9
  check (es.length == 1)
  let (n, es) ← Network.removeEdgesOf id false n 3
  let es ← es
  check (es.length == 2)
  let n := Network.lazyUpdate n
  let es ← Network.getEdges id n 3
  check (es.length == 0)

example : networkRemove ((List.range 10).foldl (fun n i => (Network.addEdge id
    (Network.addEdge id n i ((i + 1) % 10) .simple).1 ((i + 1) % 10) i .simple).1) (tenNodes (Net.new true))) = some () := by
  decide +kernel

example : networkRemove (ring (tenNodes (Net.new false))) = some () := by decide +kernel

/-- tests/engine/network.rs:343-360, `network_scale_free_1`; `pick` are the random choices. -/
def networkScaleFree (pick : Nat → List (Nat × Int × Nat) → Nat → List Nat) : Option Unit := do
  let n : NumNet := Network.lazyUpdate (tenNodes (Net.new false))
  let n ← Network.preferentialAttachment id pick n (List.range 10) 1
  (List.range 10).forM (fun i => check (decide (((Network.getEdges id n i).getD []).length ≥ 1)))

example : networkScaleFree (fun _ _ _ => [0]) = some () ∧ networkScaleFree (fun _ d _ => [d.length - 1]) = some () := by
  decide +kernel

open HNetwork (HNet HEdge)

/-- A hypernetwork of numbers. -/
abbrev NumHNet := HNet Nat Nat String Nat

/-- tests/engine/hnetwork.rs:15-66, `hnetwork_hedge_types`. -/
def hnetworkEdgeTypes : Option Unit := do
  let n : NumHNet := HNet.new
  let n := HNetwork.addNode id n 1
  let n := HNetwork.addNode id n 2
  let n := HNetwork.update n
  let n := (HNetwork.addEdge id n [1, 2] (.labeled "Edge12")).1
  let n := HNetwork.update n
  let e ← HNetwork.getEdge id n [1, 2]
  check (e.label == some "Edge12")
  let (n, r) ← HNetwork.removeEdge id n [1, 2]
  let r ← r
  check (r.label == some "Edge12")
  let n := (HNetwork.addEdge id n [1, 2] (.weighted 123)).1
  let n := HNetwork.update n
  let e ← HNetwork.getEdge id n [1, 2]
  check (e.weight == some 123)
  let (n, r) ← HNetwork.removeEdge id n [1, 2]
  let r ← r
  check (r.weight == some 123)
  let n := (HNetwork.addEdge id n [1, 2] (.weightedLabeled "Edge12" 123)).1
  let n := HNetwork.update n
  let e ← HNetwork.getEdge id n [1, 2]
  check (e.weight == some 123 && e.label == some "Edge12")
  let (_, r) ← HNetwork.removeEdge id n [1, 2]
  let r ← r
  check (r.weight == some 123 && r.label == some "Edge12")

example : hnetworkEdgeTypes = some () := by decide +kernel

/-- tests/engine/hnetwork.rs:73-86, `hnetwork_update`; `assert_eq!` on nodes compares the ids only. -/
def hnetworkUpdate : Option Unit := do
  let n : HNet Nat (Nat × Bool) String Nat := HNet.new
  let n := HNetwork.updateNode Prod.fst n (0, false)
  let n := HNetwork.addNode Prod.fst n (0, false)
  let n := HNetwork.updateNode Prod.fst n (0, true)
  let n := HNetwork.update n
  let u ← HNetwork.getObject n 0
  check (u.1 == 0)

example : hnetworkUpdate = some () := by decide +kernel

/-- tests/engine/hnetwork.rs:93-129, `hnetwork_nodes`. -/
def hnetworkNodes : Option Unit := do
  let n : NumHNet := HNet.new
  let n := HNetwork.addNode id n 1
  let n := HNetwork.addNode id n 2
  let n := HNetwork.update n
  let n := (HNetwork.addEdge id n [1, 2] .simple).1
  let n := (HNetwork.addEdge id n [1, 2] .simple).1
  let n := (HNetwork.addEdge id n [2, 1] .simple).1
  let n := HNetwork.update n
  let es ← HNetwork.getEdges id n 1
  check (es.length == 1)
  let i ← HNetwork.getId id n 1
  check (i == 0)
  let n := HNetwork.addNode id n 3
  let n := HNetwork.addNode id n 4
  let n := HNetwork.update n
  let n := (HNetwork.addEdge id n [3, 1, 2, 4] .simple).1
  let n := (HNetwork.addEdge id n [1, 2, 4] .simple).1
  let n := HNetwork.update n
  let n := HNetwork.update n
  check (HNetwork.getEdge id n [2, 4, 3, 1]).isSome
  let before ← HNetwork.getEdges id n 1
  let (n, b) ← HNetwork.removeObject id n 6
  check (!b)
  let (n, b) ← HNetwork.removeObject id n 4
  check b
  let n := HNetwork.update n
  check (HNetwork.getEdge id n [2, 4, 3, 1]).isNone
  check (HNetwork.getObject n 4).isNone
  check (HNetwork.getEdges id n 4).isNone
  let after ← HNetwork.getEdges id n 1
  check (decide (before.length > after.length))

example : hnetworkNodes = some () := by decide +kernel

/-- tests/engine/hnetwork.rs:136-196, `hnetwork_edges`. -/
def hnetworkEdges : Option Unit := do
  let e : HEdge String Nat := HEdge.new [1, 1, 2, 3, 3, 3] .simple
  check (decide (6 > e.nodes.length) && e.weight.isNone && e.nodes.length == 3)
  let n : NumHNet := HNet.new
  let (n, b) := HNetwork.addEdge id n [1, 2] .simple
  check (!b)
  let n := HNetwork.update (HNetwork.addNode id n 1)
  let (n, b) := HNetwork.addEdge id n [1, 2] .simple
  check (!b)
  let n := HNetwork.update (HNetwork.addNode id n 2)
  let (n, b) := HNetwork.addEdge id n [1, 2] .simple
  check b
  let n := HNetwork.update n
  let e ← HNetwork.getEdge id n [2, 1, 1]
  check (e.nodes.length == 2)
  check (HNetwork.getEdge id n [2, 1, 3]).isNone
  let n := HNetwork.update (HNetwork.addNode id (HNetwork.addNode id n 3) 4)
  let n := (HNetwork.addEdge id n [3, 1, 2, 4] .simple).1
  let n := (HNetwork.addEdge id n [1, 2, 4] .simple).1
  let n := HNetwork.update n
  let e ← HNetwork.getEdge id n [2, 4, 3, 1]
  check (e.nodes.length == 4)
  let es ← HNetwork.getEdges id n 1
  check (es.length == 3)
  let (n, removed) ← HNetwork.removeEdge id n [1, 2, 3, 4]
  let n := HNetwork.update n
  let removed ← removed
  check (HEdge.eq removed e)
  check (HNetwork.getEdge id n [2, 4, 3, 1]).isNone
  let n := HNetwork.update (HNetwork.removeAllEdges n)
  check ([1, 2, 3, 4].all (fun i => (HNetwork.getEdges id n i).isNone))

example : hnetworkEdges = some () := by decide +kernel

/-- tests/engine/schedule.rs:8-39 and 48-85, `schedule_operations` and `distributed_schedule_operations`. -/
def scheduleOperations : Option Unit := do
  let s : Schedule.Sched Rat Nat := Schedule.Sched.new 0
  let (s, id1, opt1) := s.scheduleRepeating 0 0 0
  let (s, id2, opt2) := s.scheduleRepeating 1 0 0
  check (id1 == 0 && opt1 && id2 == 1 && opt2)
  check (s.getAllEvents == [0, 1])
  let (s, b) := s.dequeue 0
  check (b && s.getAllEvents == [1])
  let (s, b) := s.dequeue 1
  check (b && s.getAllEvents == [])

example : scheduleOperations = some () := by decide +kernel

end Verif.Conformance
