import Verif.Model.DBDashMap

/-!
Specification of `DBDashMap`: a pair of plain maps, no hash, no shards. A plain map is a function
`K → Option V`.
-/

namespace Verif.DBDashMap

variable {K V : Type} [DecidableEq K]

/-- The read map and the write map. -/
structure Pair (K V : Type) where
  read : K → Option V
  write : K → Option V

/-- Function update. -/
def set (f : K → Option V) (k : K) (v : Option V) : K → Option V := fun k' => if k' = k then v else f k'

/-- Moves one entry: its old key leaves the map, its value is stored under the key given by `f`, if any. -/
def moveKey (f : V → K → Option K) (w : K → Option V) (e : K × V) : K → Option V :=
  match f e.2 e.1 with
  | none => w
  | some x => set (set w e.1 none) x (some e.2)

/-- What each call does to the pair of plain maps. For `apply_to_all_keys` the result depends on the
visiting order, so the specification is a relation. -/
inductive Pair.Step : Pair K V → Cmd K V → Pair K V → Prop where
  | insert (p : Pair K V) (k : K) (v : V) : Step p (.insert k v) ⟨p.read, set p.write k (some v)⟩
  | remove (p : Pair K V) (k : K) : Step p (.remove k) ⟨p.read, set p.write k none⟩
  | getRead (p : Pair K V) (k : K) : Step p (.getRead k) p
  | getKeyValue (p : Pair K V) (k : K) : Step p (.getKeyValue k) p
  | getWrite (p : Pair K V) (k : K) : Step p (.getWrite k) p
  | modifyWrite (p : Pair K V) (k : K) (f : V → V) :
      Step p (.modifyWrite k f) ⟨p.read, set p.write k ((p.write k).map f)⟩
  | lazyUpdate (p : Pair K V) : Step p .lazyUpdate ⟨p.write, fun _ => none⟩
  | update (p : Pair K V) : Step p .update ⟨fun k => (p.write k).or (p.read k), p.write⟩
  | clear (p : Pair K V) : Step p .clear ⟨p.read, fun _ => none⟩
  | mergeRShards (p : Pair K V) : Step p .mergeRShards ⟨p.read, fun _ => none⟩
  | len (p : Pair K V) : Step p .len p
  | rLen (p : Pair K V) : Step p .rLen p
  | isEmpty (p : Pair K V) : Step p .isEmpty p
  | isEmptyR (p : Pair K V) : Step p .isEmptyR p
  | keys (p : Pair K V) : Step p .keys p
  | wKeys (p : Pair K V) : Step p .wKeys p
  | values (p : Pair K V) : Step p .values p
  | applyToAllValues (p : Pair K V) (f : V → V) :
      Step p (.applyToAllValues f) ⟨p.read, fun k => ((p.read k).map f).or (p.write k)⟩
  | applyToAllValuesWrite (p : Pair K V) (f : V → V) :
      Step p (.applyToAllValuesWrite f) ⟨p.read, fun k => (p.write k).map f⟩
  | applyToAllValuesReadWrite (p : Pair K V) (f : V → V) :
      Step p (.applyToAllValuesReadWrite f)
        ⟨p.read, fun k => match p.read k with
          | none => p.write k
          | some r => some (f ((p.write k).getD r))⟩
  /-- The read entries are visited once each, in some order `l`. -/
  | applyToAllKeys (p : Pair K V) (f : V → K → Option K) (l : List (K × V))
      (hn : (l.map Prod.fst).Nodup) (hl : ∀ k v, (k, v) ∈ l ↔ p.read k = some v) :
      Step p (.applyToAllKeys f)
        ⟨p.read, l.foldl (moveKey f) p.write⟩

/-- `n` is the number of keys of the plain map `f`. -/
def HasSize (f : K → Option V) (n : Nat) : Prop :=
  ∃ l : List K, l.Nodup ∧ (∀ k, k ∈ l ↔ f k ≠ none) ∧ l.length = n

/-- What each call answers on the pair of plain maps. `insert`'s answer is treated in C19: the code
never returns the old value. Lists are in an unspecified order. -/
def Pair.Answers (p : Pair K V) : Cmd K V → Out K V → Prop
  | .insert _ _, o => o = .value none
  | .remove k, o => o = .entry ((p.write k).map (fun v => (k, v)))
  | .getRead k, o => o = .value (p.read k)
  | .getKeyValue k, o => o = .entry ((p.read k).map (fun v => (k, v)))
  | .getWrite k, o => o = .value (p.write k)
  | .len, o => ∃ n, o = .num n ∧ HasSize p.write n
  | .rLen, o => ∃ n, o = .num n ∧ HasSize p.read n
  | .isEmpty, o => ∃ b, o = .bool b ∧ (b = true ↔ ∀ k, p.write k = none)
  | .isEmptyR, o => ∃ b, o = .bool b ∧ (b = true ↔ ∀ k, p.read k = none)
  | .keys, o => ∃ l, o = .keyList l ∧ l.Nodup ∧ ∀ k, k ∈ l ↔ p.read k ≠ none
  | .wKeys, o => ∃ l, o = .keyList l ∧ l.Nodup ∧ ∀ k, k ∈ l ↔ p.write k ≠ none
  | .values, o => ∃ l : List (K × V), o = .valueList (l.map Prod.snd) ∧ (l.map Prod.fst).Nodup ∧
      ∀ k v, (k, v) ∈ l ↔ p.read k = some v
  | .mergeRShards, o => ∃ l : List (K × V), o = .map l ∧ (l.map Prod.fst).Nodup ∧
      ∀ k v, (k, v) ∈ l ↔ p.write k = some v
  | _, o => o = .unit

/-- A run of a program on a pair of plain maps, ending in `p'` with the answers `os`. -/
inductive Pair.Run : Pair K V → List (Cmd K V) → Pair K V → List (Out K V) → Prop where
  | nil (p : Pair K V) : Run p [] p []
  | cons {p p' p'' : Pair K V} {c : Cmd K V} {cs : List (Cmd K V)} {o : Out K V} {os : List (Out K V)} :
      Step p c p' → Answers p c o → Run p' cs p'' os → Run p (c :: cs) p'' (o :: os)

/-- The empty pair. -/
def Pair.empty : Pair K V := ⟨fun _ => none, fun _ => none⟩

end Verif.DBDashMap
