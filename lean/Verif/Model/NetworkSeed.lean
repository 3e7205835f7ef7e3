import Verif.Model.ParNetwork

/-!
Model of `preferential_attachment_BA_with_seed` (src/engine/fields/network.rs:317-382 with the feature `parallel`,
1179-1254 without) with the random generator it makes from the seed.

Simplifications: the generator (`StdRng`) and `choose_multiple_weighted` are parameters; the latter sees the weights and
the amount asked for and moves the generator on (its closure returns the weight of an element and nothing else). The
weights are integers without bound (C51). A position outside `dist` cannot be returned and is skipped here.
-/

namespace Verif.NetworkSeed

open Verif.Network (Net bump)
open Verif.ParNetwork (PNet)

variable {K O L W G : Type} [DecidableEq K]

/-- The crates used: `StdRng::seed_from_u64` and `choose_multiple_weighted` (src/engine/fields/network.rs:340, 354-357,
1202, 1220-1223). -/
structure Gen (G : Type) where
  start : Nat → G
  draw : G → List Int → Nat → List Nat × G

/-- `amount`: src/engine/fields/network.rs:348-352, 1214-1218. -/
def amountOf (dist : List (O × Int × Nat)) (initEdges : Nat) : Nat :=
  if dist.length < initEdges then dist.length else initEdges

/-- The call of `choose_multiple_weighted`: src/engine/fields/network.rs:354-357, 1220-1223. -/
def drawn (gen : Gen G) (g : G) (dist : List (O × Int × Nat)) (initEdges : Nat) : List (O × Int × Nat) :=
  (gen.draw g (dist.map (fun x => x.2.1)) (amountOf dist initEdges)).1.filterMap (fun c => dist[c]?)

/-- The generator after that call. -/
def moved (gen : Gen G) (g : G) (dist : List (O × Int × Nat)) (initEdges : Nat) : G :=
  (gen.draw g (dist.map (fun x => x.2.1)) (amountOf dist initEdges)).2

/-- `dist` after one round: src/engine/fields/network.rs:371-375, 1230-1235. -/
def nextDist (gen : Gen G) (g : G) (dist : List (O × Int × Nat)) (initEdges i : Nat) (node : O) : List (O × Int × Nat) :=
  bump dist ((drawn gen g dist initEdges).map (fun c => c.2.2)) ++ [(node, (amountOf dist initEdges : Int), i)]

/-- The loop of the sequential network: src/engine/fields/network.rs:1210-1236. `none`: `node_set[i]` out of bounds. -/
def seededLoop (ident : O → K) (gen : Gen G) (nodes : List O) (initEdges : Nat) :
    Nat → Nat → G → Net K O L W → List (O × Int × Nat) → Option (Net K O L W)
  | 0, _, _, n, _ => some n
  | k + 1, i, g, n, dist =>
    match nodes[i]? with
    | none => none
    | some node =>
      seededLoop ident gen nodes initEdges k (i + 1) (moved gen g dist initEdges)
        (Network.attach ident n node (drawn gen g dist initEdges)) (nextDist gen g dist initEdges i node)

/-- `preferential_attachment_BA_with_seed` of the sequential network: src/engine/fields/network.rs:1179-1254. -/
def seeded (ident : O → K) (gen : Gen G) (seed : Nat) (n : Net K O L W) (nodes : List O) (initEdges : Nat) :
    Option (Net K O L W) :=
  match nodes with
  | a :: b :: _ =>
    match seededLoop ident gen nodes initEdges (n.w.id2nodes.length - 2) 2 (gen.start seed)
        (Network.addEdge ident (Network.removeAllEdges n) a b .simple).1 [(a, 1, 0), (b, 1, 1)] with
    | none => none
    | some n' => some (Network.update n')
  | _ => some (Network.removeAllEdges n)

/-- The loop of the parallel network: src/engine/fields/network.rs:346-378. -/
def seededLoopPar (ident : O → K) (gen : Gen G) (nodes : List O) (initEdges : Nat) :
    Nat → Nat → G → PNet K O L W → List (O × Int × Nat) → Option (PNet K O L W)
  | 0, _, _, n, _ => some n
  | k + 1, i, g, n, dist =>
    match nodes[i]? with
    | none => none
    | some node =>
      match ParNetwork.attach ident n node ((drawn gen g dist initEdges).map (fun c => c.1)) with
      | none => none
      | some n' =>
        seededLoopPar ident gen nodes initEdges k (i + 1) (moved gen g dist initEdges) n'
          (nextDist gen g dist initEdges i node)

/-- `preferential_attachment_BA_with_seed` of the parallel network: src/engine/fields/network.rs:317-382. -/
def seededPar (ident : O → K) (gen : Gen G) (seed : Nat) (n : PNet K O L W) (nodes : List O) (initEdges : Nat) :
    Option (PNet K O L W) :=
  match nodes with
  | a :: b :: _ =>
    match ParNetwork.addEdge ident (ParNetwork.removeAllEdges n) a b .simple with
    | none => none
    | some x =>
      match seededLoopPar ident gen nodes initEdges (DBDashMap.len n.id2nodes - 2) 2 (gen.start seed) x.1
          [(a, 1, 0), (b, 1, 1)] with
      | none => none
      | some n' => some (ParNetwork.update n')
  | _ => some (ParNetwork.removeAllEdges n)

end Verif.NetworkSeed
