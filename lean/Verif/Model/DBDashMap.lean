import Verif.Model.HashMap

/-!
Model of `DBDashMap` (src/utils/dbdashmap.rs): a double-buffered map split into shards by a hash.

Simplifications: `num_cpus::get()` is a constant `cpus` (the code asks again in `lazy_update`, `update`
and `merge_r_shards`, see `DBDashCpus`); `usize` has 64 bits; locks are not modelled (each method is one atomic step);
the hash is an arbitrary function of the key; capacities are ignored. An index out of bounds
is the result `none` (the rust code panics).
-/

namespace Verif.DBDashMap

/-- Bits of a `usize` (src/utils/dbdashmap.rs:294-296, on a 64-bit machine). -/
def ptrSizeBits : Nat := 64

/-- `shard_amount` (src/utils/dbdashmap.rs:14-16). -/
def shardAmount (cpus : Nat) : Nat := (cpus * 4).nextPowerOfTwo

/-- `usize::trailing_zeros` for a non-zero argument, by bit inspection (used at
src/utils/dbdashmap.rs:18-20); `fuel` bounds the number of bits. -/
def trailingZeros : (fuel : Nat) → Nat → Nat
  | 0, _ => 0
  | fuel + 1, n => if n % 2 = 1 then 0 else 1 + trailingZeros fuel (n / 2)

/-- `ncb` (src/utils/dbdashmap.rs:18-20). -/
def ncb (shardAmount : Nat) : Nat := trailingZeros ptrSizeBits shardAmount

variable {K V : Type} [DecidableEq K]

/-- `DBDashMap` (src/utils/dbdashmap.rs:22-27). `hash` is `hash_usize` (80-86), the process-wide hasher. -/
structure DB (K V : Type) where
  shift : Nat
  shards : List (HMap K V)
  rShards : List (HMap K V)
  hash : K → Nat

/-- `with_capacity_and_hasher` (src/utils/dbdashmap.rs:54-78). -/
def new (cpus : Nat) (hash : K → Nat) : DB K V :=
  { shift := ptrSizeBits - ncb (shardAmount cpus)
    shards := List.replicate (shardAmount cpus) []
    rShards := List.replicate (shardAmount cpus) []
    hash := hash }

/-- `determine_shard` (src/utils/dbdashmap.rs:88-90): the left shift drops the bits above 64. -/
def determineShard (shift : Nat) (hash : Nat) : Nat := ((hash <<< 7) % 2 ^ ptrSizeBits) >>> shift

/-- The shard of a key: `determine_shard(hash_usize(key))` (src/utils/dbdashmap.rs:80-90). -/
def DB.idx (db : DB K V) (k : K) : Nat := determineShard db.shift (db.hash k)

/-- `insert` (src/utils/dbdashmap.rs:92-101): the key is removed first, then inserted. -/
def insert (db : DB K V) (k : K) (v : V) : Option (DB K V × Option V) :=
  match db.shards[db.idx k]? with
  | none => none
  | some shard =>
    let r := HMap.insert (HMap.remove shard k).1 k v
    some ({ db with shards := db.shards.set (db.idx k) r.1 }, r.2)

/-- `remove` (src/utils/dbdashmap.rs:103-111). -/
def remove (db : DB K V) (k : K) : Option (DB K V × Option (K × V)) :=
  match db.shards[db.idx k]? with
  | none => none
  | some shard =>
    let r := HMap.remove shard k
    some ({ db with shards := db.shards.set (db.idx k) r.1 }, r.2)

/-- `get_read` (src/utils/dbdashmap.rs:113-121). -/
def getRead (db : DB K V) (k : K) : Option (Option V) :=
  match db.rShards[db.idx k]? with
  | none => none
  | some shard => some (HMap.get shard k)

/-- `get_key_value` (src/utils/dbdashmap.rs:123-131). -/
def getKeyValue (db : DB K V) (k : K) : Option (Option (K × V)) :=
  match db.rShards[db.idx k]? with
  | none => none
  | some shard => some (HMap.getKeyValue shard k)

/-- `get_write` (src/utils/dbdashmap.rs:133-147): the value behind the returned reference. -/
def getWrite (db : DB K V) (k : K) : Option (Option V) :=
  match db.shards[db.idx k]? with
  | none => none
  | some shard => some (HMap.get shard k)

/-- `get_write` followed by a write through the returned `RefMut` (src/utils/dbdashmap.rs:133-147). -/
def modifyWrite (db : DB K V) (k : K) (f : V → V) : Option (DB K V) :=
  match db.shards[db.idx k]? with
  | none => none
  | some shard => some { db with shards := db.shards.set (db.idx k) (HMap.adjust shard k f) }

/-- `lazy_update` (src/utils/dbdashmap.rs:149-160): shard by shard, swap and clear the write shard. The
loop over `0..shard_amount` touches only index `i` in iteration `i`, so it is written on whole lists. -/
def lazyUpdate (db : DB K V) : DB K V :=
  { db with rShards := db.shards, shards := db.rShards.map (fun _ => []) }

/-- `merge_r_shards` (src/utils/dbdashmap.rs:162-168): drains the (write) shards into one map. -/
def mergeRShards (db : DB K V) : DB K V × HMap K V :=
  ({ db with shards := db.shards.map (fun _ => []) },
   db.shards.flatten.foldl (fun m e => (HMap.insert m e.1 e.2).1) [])

/-- `len` (src/utils/dbdashmap.rs:170-175). -/
def len (db : DB K V) : Nat := (db.shards.map List.length).sum

/-- `r_len` (src/utils/dbdashmap.rs:177-179). -/
def rLen (db : DB K V) : Nat := (db.rShards.map List.length).sum

/-- `keys` (src/utils/dbdashmap.rs:181-189). -/
def keys (db : DB K V) : List K := db.rShards.flatMap HMap.keys

/-- `values` (src/utils/dbdashmap.rs:191-199). -/
def values (db : DB K V) : List V := db.rShards.flatMap (fun s => s.map Prod.snd)

/-- `clear` (src/utils/dbdashmap.rs:201-205). -/
def clear (db : DB K V) : DB K V := { db with shards := db.shards.map (fun _ => []) }

/-- `is_empty` (src/utils/dbdashmap.rs:207-209). -/
def isEmpty (db : DB K V) : Bool := len db == 0

/-- `is_empty_r` (src/utils/dbdashmap.rs:211-213). -/
def isEmptyR (db : DB K V) : Bool := rLen db == 0

/-- One shard of `update` (src/utils/dbdashmap.rs:220-223). -/
def updateShard (w r : HMap K V) : HMap K V :=
  w.foldl (fun r e => (HMap.insert (HMap.remove r e.1).1 e.1 e.2).1) r

/-- `update` (src/utils/dbdashmap.rs:217-225). -/
def update (db : DB K V) : DB K V :=
  { db with rShards := List.zipWith updateShard db.shards db.rShards }

/-- `apply_to_all_values` (src/utils/dbdashmap.rs:227-236). -/
def applyToAllValues (db : DB K V) (closure : V → V) : Option (DB K V) :=
  db.rShards.flatten.foldlM (fun db e => (insert db e.1 (closure e.2)).map Prod.fst) db

/-- `apply_to_all_values_write` (src/utils/dbdashmap.rs:237-248). -/
def applyToAllValuesWrite (db : DB K V) (closure : V → V) : DB K V :=
  { db with shards := db.shards.map (fun s => s.map (fun e => (e.1, closure e.2))) }

/-- One shard of `apply_to_all_values_read_write` (src/utils/dbdashmap.rs:254-263). -/
def applyRWShard (closure : V → V) (w r : HMap K V) : HMap K V :=
  r.foldl (fun locs e =>
    match HMap.get locs e.1 with
    | some _ => HMap.adjust locs e.1 closure
    | none => (HMap.insert locs e.1 (closure e.2)).1) w

/-- `apply_to_all_values_read_write` (src/utils/dbdashmap.rs:249-265). -/
def applyToAllValuesReadWrite (db : DB K V) (closure : V → V) : DB K V :=
  { db with shards := List.zipWith (applyRWShard closure) db.shards db.rShards }

/-- One entry of `apply_to_all_keys` (src/utils/dbdashmap.rs:273-277). -/
def applyKey (closure : V → K → Option K) (db : DB K V) (e : K × V) : Option (DB K V) :=
  match closure e.2 e.1 with
  | none => some db
  | some x => (remove db e.1).bind (fun r => (insert r.1 x e.2).map Prod.fst)

/-- `apply_to_all_keys` (src/utils/dbdashmap.rs:267-280). -/
def applyToAllKeys (db : DB K V) (closure : V → K → Option K) : Option (DB K V) :=
  db.rShards.flatten.foldlM (applyKey closure) db

/-- `w_keys` (src/utils/dbdashmap.rs:282-291). -/
def wKeys (db : DB K V) : List K := db.shards.flatMap HMap.keys

/-- The calls a program can make (src/utils/dbdashmap.rs:92-292). -/
inductive Cmd (K V : Type) where
  | insert (k : K) (v : V)
  | remove (k : K)
  | getRead (k : K)
  | getKeyValue (k : K)
  | getWrite (k : K)
  | modifyWrite (k : K) (f : V → V)
  | lazyUpdate
  | update
  | clear
  | mergeRShards
  | len
  | rLen
  | isEmpty
  | isEmptyR
  | keys
  | wKeys
  | values
  | applyToAllValues (f : V → V)
  | applyToAllValuesWrite (f : V → V)
  | applyToAllValuesReadWrite (f : V → V)
  | applyToAllKeys (f : V → K → Option K)

/-- What a call returns (src/utils/dbdashmap.rs:92-292). -/
inductive Out (K V : Type) where
  | unit
  | value (v : Option V)
  | entry (e : Option (K × V))
  | num (n : Nat)
  | bool (b : Bool)
  | keyList (l : List K)
  | valueList (l : List V)
  | map (m : HMap K V)

/-- One call; `none` is a panic (the methods of src/utils/dbdashmap.rs:92-292). -/
def exec (db : DB K V) : Cmd K V → Option (DB K V × Out K V)
  | .insert k v => (insert db k v).map (fun r => (r.1, .value r.2))
  | .remove k => (remove db k).map (fun r => (r.1, .entry r.2))
  | .getRead k => (getRead db k).map (fun r => (db, .value r))
  | .getKeyValue k => (getKeyValue db k).map (fun r => (db, .entry r))
  | .getWrite k => (getWrite db k).map (fun r => (db, .value r))
  | .modifyWrite k f => (modifyWrite db k f).map (fun r => (r, .unit))
  | .lazyUpdate => some (lazyUpdate db, .unit)
  | .update => some (update db, .unit)
  | .clear => some (clear db, .unit)
  | .mergeRShards => some ((mergeRShards db).1, .map (mergeRShards db).2)
  | .len => some (db, .num (len db))
  | .rLen => some (db, .num (rLen db))
  | .isEmpty => some (db, .bool (isEmpty db))
  | .isEmptyR => some (db, .bool (isEmptyR db))
  | .keys => some (db, .keyList (keys db))
  | .wKeys => some (db, .keyList (wKeys db))
  | .values => some (db, .valueList (values db))
  | .applyToAllValues f => (applyToAllValues db f).map (fun r => (r, .unit))
  | .applyToAllValuesWrite f => some (applyToAllValuesWrite db f, .unit)
  | .applyToAllValuesReadWrite f => some (applyToAllValuesReadWrite db f, .unit)
  | .applyToAllKeys f => (applyToAllKeys db f).map (fun r => (r, .unit))

/-- A program: calls in sequence, collecting the answers (the methods of src/utils/dbdashmap.rs:92-292). -/
def run (db : DB K V) : List (Cmd K V) → Option (DB K V × List (Out K V))
  | [] => some (db, [])
  | c :: cs =>
    match exec db c with
    | none => none
    | some (db', o) => (run db' cs).map (fun r => (r.1, o :: r.2))

end Verif.DBDashMap
