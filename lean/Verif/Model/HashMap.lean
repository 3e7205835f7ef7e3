/-!
Model of `HashMap` (hashbrown / std), as used by the sparse grids, `DBDashMap`, `Network`, `HNetwork`.

A map is an association list with pairwise distinct keys (`HMap.WF`). The order of the list stands for the
iteration order, which hashbrown does not specify: theorems that depend on iteration quantify over all
well-formed lists.
-/

namespace Verif

/-- A hash map (the hash maps of src/utils/dbdashmap.rs:20-27, src/engine/fields/network.rs,
src/engine/fields/sparse_number_grid_2d.rs). -/
abbrev HMap (K V : Type) := List (K × V)

namespace HMap

variable {K V : Type} [DecidableEq K]

/-- Keys are pairwise distinct (the hash maps of src/utils/dbdashmap.rs:20-27, src/engine/fields/network.rs,
src/engine/fields/sparse_number_grid_2d.rs). -/
def WF (m : HMap K V) : Prop := (m.map Prod.fst).Nodup

/-- `HashMap::get` (the hash maps of src/utils/dbdashmap.rs:20-27, src/engine/fields/network.rs,
src/engine/fields/sparse_number_grid_2d.rs). -/
def get (m : HMap K V) (k : K) : Option V := (m.find? (fun e => e.1 == k)).map Prod.snd

/-- `HashMap::get_key_value` (the hash maps of src/utils/dbdashmap.rs:20-27, src/engine/fields/network.rs,
src/engine/fields/sparse_number_grid_2d.rs). -/
def getKeyValue (m : HMap K V) (k : K) : Option (K × V) := m.find? (fun e => e.1 == k)

/-- `HashMap::insert`: replaces the value of a present key (keeping the old key), returns the old value (the hash maps of
src/utils/dbdashmap.rs:20-27, src/engine/fields/network.rs, src/engine/fields/sparse_number_grid_2d.rs). -/
def insert (m : HMap K V) (k : K) (v : V) : HMap K V × Option V :=
  match m.find? (fun e => e.1 == k) with
  | none => (m ++ [(k, v)], none)
  | some e => (m.map (fun e => if e.1 == k then (e.1, v) else e), some e.2)

/-- `HashMap::remove_entry` (and `remove`, which drops the key of the result) (the hash maps of src/utils/dbdashmap.rs:20-27,
src/engine/fields/network.rs, src/engine/fields/sparse_number_grid_2d.rs). -/
def remove (m : HMap K V) (k : K) : HMap K V × Option (K × V) :=
  (m.filter (fun e => e.1 != k), m.find? (fun e => e.1 == k))

/-- `HashMap::keys` (the hash maps of src/utils/dbdashmap.rs:20-27, src/engine/fields/network.rs,
src/engine/fields/sparse_number_grid_2d.rs). -/
def keys (m : HMap K V) : List K := m.map Prod.fst

/-- `HashMap::get_mut` followed by an assignment through the reference: nothing happens if absent (the hash maps of
src/utils/dbdashmap.rs:20-27, src/engine/fields/network.rs, src/engine/fields/sparse_number_grid_2d.rs). -/
def adjust (m : HMap K V) (k : K) (f : V → V) : HMap K V :=
  m.map (fun e => if e.1 == k then (e.1, f e.2) else e)

end HMap
end Verif
