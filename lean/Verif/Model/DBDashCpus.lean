import Verif.Model.DBDashMap

/-!
`DBDashMap` (src/utils/dbdashmap.rs) on a machine whose number of processors, as `num_cpus::get()` reports it, changes while the program runs (the set of
processors a process may use can be changed from outside). `lazy_update`, `merge_r_shards` and `update` ask for the number again; the other methods use the
number of shards fixed at creation. `n` is the answer of `shard_amount()` at the call. A panic (index out of bounds) is `none`.
-/

namespace Verif.DBDashMap

variable {K V : Type} [DecidableEq K]

/-- The loop of `lazy_update` (src/utils/dbdashmap.rs:151-159): write shards and read shards after `n` rounds. -/
def lazyLoop : Nat → List (HMap K V) → List (HMap K V) → Option (List (HMap K V) × List (HMap K V))
  | 0, ws, rs => some (ws, rs)
  | n + 1, w :: ws, _ :: rs => (lazyLoop n ws rs).map (fun p => ([] :: p.1, w :: p.2))
  | _ + 1, _, _ => none

/-- `lazy_update` (src/utils/dbdashmap.rs:149-160). -/
def lazyUpdateAt (n : Nat) (db : DB K V) : Option (DB K V) :=
  (lazyLoop n db.shards db.rShards).map (fun p => { db with shards := p.1, rShards := p.2 })

/-- The loop of `merge_r_shards` (src/utils/dbdashmap.rs:164-166): the write shards after `n` rounds and the drained entries. -/
def mergeLoop : Nat → List (HMap K V) → Option (List (HMap K V) × List (K × V))
  | 0, ws => some (ws, [])
  | n + 1, w :: ws => (mergeLoop n ws).map (fun p => ([] :: p.1, w ++ p.2))
  | _ + 1, [] => none

/-- `merge_r_shards` (src/utils/dbdashmap.rs:162-168). -/
def mergeRShardsAt (n : Nat) (db : DB K V) : Option (DB K V × HMap K V) :=
  (mergeLoop n db.shards).map (fun p => ({ db with shards := p.1 }, p.2.foldl (fun m e => (HMap.insert m e.1 e.2).1) []))

/-- The loop of `update` (src/utils/dbdashmap.rs:219-224): the read shards after `n` rounds. -/
def updateLoop : Nat → List (HMap K V) → List (HMap K V) → Option (List (HMap K V))
  | 0, _, rs => some rs
  | n + 1, w :: ws, r :: rs => (updateLoop n ws rs).map (fun l => updateShard w r :: l)
  | _ + 1, _, _ => none

/-- `update` (src/utils/dbdashmap.rs:217-225). -/
def updateAt (n : Nat) (db : DB K V) : Option (DB K V) :=
  (updateLoop n db.shards db.rShards).map (fun l => { db with rShards := l })

/-- One call at a moment when `shard_amount()` answers `n` (the methods of src/utils/dbdashmap.rs:92-292). -/
def execAt (n : Nat) (db : DB K V) : Cmd K V → Option (DB K V × Out K V)
  | .lazyUpdate => (lazyUpdateAt n db).map (fun d => (d, .unit))
  | .update => (updateAt n db).map (fun d => (d, .unit))
  | .mergeRShards => (mergeRShardsAt n db).map (fun r => (r.1, .map r.2))
  | c => exec db c

/-- A program, each call with the number of processors at that moment (the methods of src/utils/dbdashmap.rs:92-292). -/
def runAt (db : DB K V) : List (Nat × Cmd K V) → Option (DB K V × List (Out K V))
  | [] => some (db, [])
  | c :: cs =>
    match execAt (shardAmount c.1) db c.2 with
    | none => none
    | some (db', o) => (runAt db' cs).map (fun r => (r.1, o :: r.2))

end Verif.DBDashMap
