import Verif.Spec.Moments

/-!
Calls of `DBDashMap` made while other threads write to the same map (src/utils/dbdashmap.rs). `insert`, `remove` and
`get_write` lock one shard and do all their work under that lock (92-111, 133-147; the guard inside `RefMut` keeps the
lock while the value is changed), so they are single steps. `len`, `clear`, `w_keys` and `apply_to_all_values_write` lock
one shard after the other: between two of these locks, before the first and after the last, the other threads may do any
number of steps. `others i` are the steps done just before shard `i` is locked; those after the last shard have the
number of shards as index.

Simplifications: an entry written through a `RefMut` is changed by a function of its old value; poisoned locks are not
modelled; the capacity that `w_keys` reserves with `len` is ignored.
-/

namespace Verif.DBDashMap

variable {K V : Type} [DecidableEq K]

/-- One step of another thread (src/utils/dbdashmap.rs:92-111, 133-147). -/
def perform (db : DB K V) : Change K V → Option (DB K V)
  | .insert k v => (insert db k v).map Prod.fst
  | .remove k => (remove db k).map Prod.fst
  | .modify k f => modifyWrite db k f

/-- Steps of other threads, one after the other (src/utils/dbdashmap.rs:92-111, 133-147). -/
def performAll (db : DB K V) : List (Change K V) → Option (DB K V)
  | [] => some db
  | c :: cs => (perform db c).bind fun db => performAll db cs

/-- The loop `for shard in self.shards.iter()` of src/utils/dbdashmap.rs:170-175, 201-205, 241-247 and 284-289: `act` is
what is done to a shard while it is locked, and what is kept of it. `left` shards remain, the next one is `i`. -/
def visit {R : Type} (act : HMap K V → HMap K V × R) (others : Nat → List (Change K V)) :
    (left i : Nat) → DB K V → Option (DB K V × List R)
  | 0, i, db => (performAll db (others i)).map fun db => (db, [])
  | left + 1, i, db => (performAll db (others i)).bind fun db =>
      match db.shards[i]? with
      | none => none
      | some shard =>
        (visit act others left (i + 1) { db with shards := db.shards.set i (act shard).1 }).map
          fun r => (r.1, (act shard).2 :: r.2)

/-- `len` (src/utils/dbdashmap.rs:170-175). -/
def lenDuring (others : Nat → List (Change K V)) (db : DB K V) : Option (DB K V × Nat) :=
  (visit (fun s => (s, s.length)) others db.shards.length 0 db).map fun r => (r.1, r.2.sum)

/-- `is_empty` (src/utils/dbdashmap.rs:207-209). -/
def isEmptyDuring (others : Nat → List (Change K V)) (db : DB K V) : Option (DB K V × Bool) :=
  (lenDuring others db).map fun r => (r.1, r.2 == 0)

/-- `w_keys` (src/utils/dbdashmap.rs:281-290). -/
def wKeysDuring (others : Nat → List (Change K V)) (db : DB K V) : Option (DB K V × List K) :=
  (visit (fun s => (s, HMap.keys s)) others db.shards.length 0 db).map fun r => (r.1, r.2.flatten)

/-- `clear` (src/utils/dbdashmap.rs:201-205). -/
def clearDuring (others : Nat → List (Change K V)) (db : DB K V) : Option (DB K V) :=
  (visit (fun _ => (([] : HMap K V), ())) others db.shards.length 0 db).map Prod.fst

/-- `apply_to_all_values_write` (src/utils/dbdashmap.rs:237-248). -/
def applyWriteDuring (f : V → V) (others : Nat → List (Change K V)) (db : DB K V) : Option (DB K V) :=
  (visit (fun s => (s.map fun e => (e.1, f e.2), ())) others db.shards.length 0 db).map Prod.fst

end Verif.DBDashMap
