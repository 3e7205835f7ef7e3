import Verif.Lemmas.DBDashMap

/-!
Properties of `DBDashMap` (C15-C19). A map is `Reachable` when some program made it from a new map, on a
machine with any number of CPUs (at least one) and with any hash function. `2 ^ 64` bounds the shard
count because it is a `usize`.
-/

set_option linter.unusedSectionVars false

namespace Verif.DBDashMap

variable {K V : Type} [DecidableEq K]

/-- Some program, on some machine, with some hash function, got to this map. -/
def Reachable (db : DB K V) : Prop :=
  ∃ (cpus : Nat) (hash : K → Nat) (cs : List (Cmd K V)) (os : List (Out K V)),
    shardAmount cpus ≤ 2 ^ 64 ∧ run (new cpus hash) cs = some (db, os)

theorem reachable_inv {db : DB K V} (h : Reachable db) : Inv db := by
  obtain ⟨cpus, hash, cs, os, hc, hr⟩ := h
  obtain ⟨db', os', hr', hi, _⟩ := run_sim cs (inv_new (V := V) hc hash)
  rw [hr] at hr'
  simp only [Option.some.injEq, Prod.mk.injEq] at hr'
  rw [hr'.1]; exact hi

/-- A four-CPU machine, keys are numbers hashed badly on purpose (many collisions). -/
def demoHash (k : Nat) : Nat := (k % 3) * 2 ^ 56

/-- A program with inserts in both buffers, a removal, and an update. -/
def demoCmds : List (Cmd Nat Nat) :=
  [.insert 1 10, .insert 4 40, .insert 2 20, .insert 1 11, .remove 2, .lazyUpdate, .insert 4 41, .insert 7 70,
   .getRead 1, .getRead 2, .getWrite 4, .len, .rLen, .remove 7]

/-- The answers of that program. -/
def demoRun : Option (DB Nat Nat × List (Out Nat Nat)) := run (new 4 demoHash) demoCmds

/-! ### C15 -/

/-- **C15.** Any program on a new `DBDashMap`, whatever the hash function and the number of CPUs, never
panics and gives the answers that a pair of plain maps gives to the same program. -/
theorem C15_sharded_map_is_a_pair_of_plain_maps (cpus : Nat) (hc : shardAmount cpus ≤ 2 ^ 64)
    (hash : K → Nat) (cs : List (Cmd K V)) :
    ∃ db os p, run (new cpus hash) cs = some (db, os) ∧ Pair.Run Pair.empty cs p os ∧
      (∀ k, getRead db k = some (p.read k)) ∧ (∀ k, getWrite db k = some (p.write k)) := by
  obtain ⟨db, os, hr, hi, hrun⟩ := run_sim cs (inv_new (V := V) hc hash)
  rw [abs_new] at hrun
  refine ⟨db, os, abs db, hr, hrun, ?_, ?_⟩
  · intro k
    obtain ⟨s, hs, _, hg⟩ := rshard_exists hi k
    simp [getRead, hs, hg]
  · intro k
    obtain ⟨s, hs, _, hg⟩ := shard_exists hi k
    simp [getWrite, hs, hg]

/-- The specification leaves no freedom, except for the visiting order of `apply_to_all_keys`. -/
theorem step_unique {p p1 p2 : Pair K V} {c : Cmd K V} (hc : ∀ f, c ≠ .applyToAllKeys f)
    (h1 : Pair.Step p c p1) (h2 : Pair.Step p c p2) : p1 = p2 := by
  cases h1 <;> cases h2 <;> first | rfl | exact absurd rfl (hc _)

theorem run_unique {cs : List (Cmd K V)} : ∀ {p p1 p2 : Pair K V} {os1 os2 : List (Out K V)},
    (∀ c ∈ cs, ∀ f, c ≠ .applyToAllKeys f) → Pair.Run p cs p1 os1 → Pair.Run p cs p2 os2 → p1 = p2 := by
  induction cs with
  | nil => intro p p1 p2 os1 os2 _ h1 h2; cases h1; cases h2; rfl
  | cons c cs ih =>
    intro p p1 p2 os1 os2 hc h1 h2
    cases h1 with
    | cons s1 _ r1 =>
      cases h2 with
      | cons s2 _ r2 =>
        have := step_unique (hc c List.mem_cons_self) s1 s2
        subst this
        exact ih (fun c h => hc c (List.mem_cons_of_mem _ h)) r1 r2

theorem hasSize_unique {f : K → Option V} {n m : Nat} (h1 : HasSize f n) (h2 : HasSize f m) : n = m := by
  obtain ⟨l1, hn1, hm1, rfl⟩ := h1
  obtain ⟨l2, hn2, hm2, rfl⟩ := h2
  refine List.Perm.length_eq ((List.perm_ext_iff_of_nodup hn1 hn2).2 ?_)
  intro k; rw [hm1, hm2]

/-- **C15**, seen from outside: after the same program, two maps with different hash functions and shard
counts give the same answers. -/
theorem C15_independent_of_hash_and_shards (cpus cpus' : Nat) (hc : shardAmount cpus ≤ 2 ^ 64)
    (hc' : shardAmount cpus' ≤ 2 ^ 64) (hash hash' : K → Nat) (cs : List (Cmd K V))
    (hcs : ∀ c ∈ cs, ∀ f, c ≠ .applyToAllKeys f) :
    ∃ db os db' os', run (new cpus hash) cs = some (db, os) ∧ run (new cpus' hash') cs = some (db', os') ∧
      (∀ k, getRead db k = getRead db' k ∧ getWrite db k = getWrite db' k) ∧
      len db = len db' ∧ rLen db = rLen db' := by
  obtain ⟨db, os, p, hr, hrun, h1, h2⟩ := C15_sharded_map_is_a_pair_of_plain_maps cpus hc hash cs
  obtain ⟨db', os', p', hr', hrun', h1', h2'⟩ := C15_sharded_map_is_a_pair_of_plain_maps cpus' hc' hash' cs
  have hp := run_unique hcs hrun hrun'
  subst hp
  have hi : Inv db := reachable_inv ⟨cpus, hash, cs, os, hc, hr⟩
  have hi' : Inv db' := reachable_inv ⟨cpus', hash', cs, os', hc', hr'⟩
  have hread : look db.idx db.rShards = look db'.idx db'.rShards := by
    funext k
    obtain ⟨s, hs, _, hg⟩ := rshard_exists hi k
    obtain ⟨s', hs', _, hg'⟩ := rshard_exists hi' k
    have a := h1 k
    have b := h1' k
    simp only [getRead, hs, hs', hg, hg', Option.some.injEq] at a b
    exact a.trans b.symm
  have hwrite : look db.idx db.shards = look db'.idx db'.shards := by
    funext k
    obtain ⟨s, hs, _, hg⟩ := shard_exists hi k
    obtain ⟨s', hs', _, hg'⟩ := shard_exists hi' k
    have a := h2 k
    have b := h2' k
    simp only [getWrite, hs, hs', hg, hg', Option.some.injEq] at a b
    exact a.trans b.symm
  refine ⟨db, os, db', os', hr, hr', fun k => ⟨by rw [h1, h1'], by rw [h2, h2']⟩, ?_, ?_⟩
  · refine hasSize_unique (f := look db.idx db.shards) (hasSize_flatten hi.w) ?_
    rw [hwrite]; exact hasSize_flatten hi'.w
  · refine hasSize_unique (f := look db.idx db.rShards) (hasSize_flatten hi.r) ?_
    rw [hread]; exact hasSize_flatten hi'.r

example : shardAmount 4 = 16 ∧ shardAmount 4 ≤ 2 ^ 64 ∧
    demoRun.map (fun r => [getRead r.1 1, getRead r.1 2, getRead r.1 4, getWrite r.1 4, getWrite r.1 7]) =
      some [some (some 11), some none, some (some 40), some (some 41), some none] ∧
    demoRun.map (fun r => (len r.1, rLen r.1)) = some (1, 2) ∧
    ∀ c ∈ demoCmds, ∀ f, c ≠ .applyToAllKeys f := by
  refine ⟨by decide +kernel, by decide +kernel, by decide +kernel, by decide +kernel, ?_⟩
  intro c hc f
  simp only [demoCmds, List.mem_cons, List.not_mem_nil, or_false] at hc
  rcases hc with h | h | h | h | h | h | h | h | h | h | h | h | h | h <;> subst h <;> exact fun h => by cases h

/-! ### C16 -/

/-- **C16.** The shard index computed from any hash value is smaller than the number of shards, for any
number of CPUs. -/
theorem C16_shard_index_in_bounds (cpus : Nat) (hc : shardAmount cpus ≤ 2 ^ 64) (hash : Nat) :
    determineShard (new (K := K) (V := V) cpus (fun _ => hash)).shift hash <
      (new (K := K) (V := V) cpus (fun _ => hash)).shards.length ∧
    (new (K := K) (V := V) cpus (fun _ => hash)).shards.length =
      (new (K := K) (V := V) cpus (fun _ => hash)).rShards.length := by
  refine ⟨?_, by simp [new]⟩
  obtain ⟨n, hn⟩ := shardAmount_pow (cpus := cpus)
  rw [hn] at hc
  have hn64 : n ≤ 64 := (Nat.pow_le_pow_iff_right (by decide)).1 hc
  simp only [new, List.length_replicate, ncb, hn, ptrSizeBits, trailingZeros_pow 64 n hn64]
  exact determineShard_lt hn64

/-- **C16**, in use: no call on a reachable map indexes a shard out of bounds. -/
theorem C16_no_call_panics (db : DB K V) (h : Reachable db) (c : Cmd K V) : (exec db c).isSome = true := by
  obtain ⟨db', o, he, _⟩ := exec_sim (reachable_inv h) c
  rw [he]; rfl

example : determineShard (new (K := Nat) (V := Nat) 4 (fun _ => 2 ^ 64 - 1)).shift (2 ^ 64 - 1) = 15 := by
  decide +kernel

/-! ### C17 -/

/-- **C17.** `lazy_update` publishes the write map and empties it. -/
theorem C17_lazy_update_publishes_and_clears (db : DB K V) (h : Reachable db) :
    (∀ k, getRead (lazyUpdate db) k = getWrite db k) ∧
    (∀ k, getWrite (lazyUpdate db) k = some none) ∧
    keys (lazyUpdate db) = wKeys db ∧ rLen (lazyUpdate db) = len db ∧
    len (lazyUpdate db) = 0 ∧ wKeys (lazyUpdate db) = [] := by
  have hi := reachable_inv h
  refine ⟨fun k => rfl, ?_, rfl, rfl, ?_, ?_⟩
  · intro k
    have : db.idx k < db.rShards.length := hi.r.inRange k
    simp only [getWrite, lazyUpdate, DB.idx, List.getElem?_map] at *
    rw [List.getElem?_eq_getElem this]
    rfl
  · simp only [len, lazyUpdate, List.map_map]
    induction db.rShards with
    | nil => rfl
    | cons a l ih => simpa using ih
  · simp [wKeys, lazyUpdate, HMap.keys]

/-- **C17.** Until `update` or `lazy_update` is called, nothing changes what is read. -/
theorem C17_reads_stable_between_updates (cs : List (Cmd K V)) :
    ∀ (db db' : DB K V) (os : List (Out K V)), Cmd.lazyUpdate ∉ cs → Cmd.update ∉ cs →
      run db cs = some (db', os) →
      (∀ k, getRead db' k = getRead db k) ∧ (∀ k, getKeyValue db' k = getKeyValue db k) ∧
      keys db' = keys db ∧ values db' = values db ∧ rLen db' = rLen db ∧ isEmptyR db' = isEmptyR db := by
  have insKeep : ∀ {db db' : DB K V} {k v}, ((insert db k v).map Prod.fst) = some db' →
      db'.rShards = db.rShards ∧ db'.hash = db.hash ∧ db'.shift = db.shift := by
    intro db db' k v h
    unfold insert at h
    split at h
    · exact absurd h (by simp)
    · simp only [Option.map_some, Option.some.injEq] at h; subst h; exact ⟨rfl, rfl, rfl⟩
  have foldKeep : ∀ (f : DB K V → K × V → Option (DB K V)),
      (∀ db e db', f db e = some db' → db'.rShards = db.rShards ∧ db'.hash = db.hash ∧ db'.shift = db.shift) →
      ∀ (l : List (K × V)) (db db' : DB K V), l.foldlM f db = some db' →
        db'.rShards = db.rShards ∧ db'.hash = db.hash ∧ db'.shift = db.shift := by
    intro f hf l
    induction l with
    | nil => intro db db' h; simp at h; subst h; exact ⟨rfl, rfl, rfl⟩
    | cons e l ih =>
      intro db db' h
      rw [List.foldlM_cons] at h
      cases he : f db e with
      | none => rw [he] at h; exact absurd h (by simp)
      | some db1 =>
        rw [he] at h
        have a := hf _ _ _ he
        have b := ih db1 db' h
        exact ⟨b.1.trans a.1, b.2.1.trans a.2.1, b.2.2.trans a.2.2⟩
  have key : ∀ (c : Cmd K V) (db db' : DB K V) (o : Out K V), c ≠ .lazyUpdate → c ≠ .update →
      exec db c = some (db', o) → db'.rShards = db.rShards ∧ db'.hash = db.hash ∧ db'.shift = db.shift := by
    intro c db db' o h1 h2 he
    cases c with
    | insert k v =>
      simp only [exec, Option.map_eq_some_iff, Prod.mk.injEq] at he
      obtain ⟨r, hr, rfl, _⟩ := he
      exact insKeep (by rw [hr]; rfl)
    | remove k =>
      simp only [exec, remove] at he
      split at he
      · exact absurd he (by simp)
      · simp only [Option.map_some, Option.some.injEq, Prod.mk.injEq] at he
        rw [← he.1]; exact ⟨rfl, rfl, rfl⟩
    | modifyWrite k f =>
      simp only [exec, modifyWrite] at he
      split at he
      · exact absurd he (by simp)
      · simp only [Option.map_some, Option.some.injEq, Prod.mk.injEq] at he
        rw [← he.1]; exact ⟨rfl, rfl, rfl⟩
    | lazyUpdate => exact absurd rfl h1
    | update => exact absurd rfl h2
    | applyToAllValues f =>
      simp only [exec, Option.map_eq_some_iff, Prod.mk.injEq] at he
      obtain ⟨r, hr, rfl, _⟩ := he
      exact foldKeep _ (fun db e db' h => insKeep h) _ _ _ hr
    | applyToAllKeys f =>
      simp only [exec, Option.map_eq_some_iff, Prod.mk.injEq] at he
      obtain ⟨r, hr, rfl, _⟩ := he
      refine foldKeep _ ?_ _ _ _ hr
      intro db e db' h
      unfold applyKey at h
      split at h
      · simp only [Option.some.injEq] at h; subst h; exact ⟨rfl, rfl, rfl⟩
      · unfold remove at h
        split at h
        · exact absurd h (by simp)
        · simp only [Option.bind_some] at h
          have := insKeep h
          exact ⟨this.1, this.2.1, this.2.2⟩
    | _ =>
      simp only [exec, Option.map_eq_some_iff, Prod.mk.injEq, Option.some.injEq] at he
      first
        | (obtain ⟨rfl, _⟩ := he; exact ⟨rfl, rfl, rfl⟩)
        | (obtain ⟨_, _, rfl, _⟩ := he; exact ⟨rfl, rfl, rfl⟩)
  have keyRun : ∀ (cs : List (Cmd K V)) (db db' : DB K V) (os : List (Out K V)), Cmd.lazyUpdate ∉ cs →
      Cmd.update ∉ cs → run db cs = some (db', os) →
      db'.rShards = db.rShards ∧ db'.hash = db.hash ∧ db'.shift = db.shift := by
    intro cs
    induction cs with
    | nil =>
      intro db db' os _ _ h
      simp only [run, Option.some.injEq, Prod.mk.injEq] at h
      rw [h.1]; exact ⟨rfl, rfl, rfl⟩
    | cons c cs ih =>
      intro db db' os h1 h2 h
      simp only [List.mem_cons, not_or] at h1 h2
      cases he : exec db c with
      | none => simp [run, he] at h
      | some r =>
        obtain ⟨db1, o⟩ := r
        simp only [run, he, Option.map_eq_some_iff, Prod.mk.injEq] at h
        obtain ⟨r', hr', rfl, _⟩ := h
        have a := key c db db1 o (Ne.symm h1.1) (Ne.symm h2.1) he
        have b := ih db1 r'.1 r'.2 h1.2 h2.2 hr'
        exact ⟨b.1.trans a.1, b.2.1.trans a.2.1, b.2.2.trans a.2.2⟩
  intro db db' os h1 h2 h
  obtain ⟨a, b, c⟩ := keyRun cs db db' os h1 h2 h
  refine ⟨?_, ?_, ?_, ?_, ?_, ?_⟩
  · intro k; simp only [getRead, DB.idx, a, b, c]
  · intro k; simp only [getKeyValue, DB.idx, a, b, c]
  · simp only [keys, a]
  · simp only [values, a]
  · simp only [rLen, a]
  · simp only [isEmptyR, rLen, a]

/-- The map after the demo program. -/
def demoDb : DB Nat Nat := (demoRun.map Prod.fst).getD (new 4 demoHash)

theorem reachable_of_run {cpus : Nat} (hc : shardAmount cpus ≤ 2 ^ 64) (hash : K → Nat) (cs : List (Cmd K V)) :
    Reachable (((run (new cpus hash) cs).map Prod.fst).getD (new cpus hash)) := by
  obtain ⟨db, os, _, h, _⟩ := C15_sharded_map_is_a_pair_of_plain_maps (V := V) cpus hc hash cs
  exact ⟨cpus, hash, cs, os, hc, by rw [h]; rfl⟩

example : Reachable demoDb ∧ getRead (lazyUpdate demoDb) 4 = some (some 41) ∧ getRead demoDb 4 = some (some 40) :=
  ⟨reachable_of_run (by decide +kernel) _ _, by decide +kernel, by decide +kernel⟩

/-! ### C18 -/

/-- **C18**, correct part. `update` publishes every key that is on the write side, but keys that are not on
the write side keep their old read value. -/
theorem C18_update_partial (db : DB K V) (h : Reachable db) (k : K) :
    ∃ r w, getRead db k = some r ∧ getWrite db k = some w ∧
      getRead (update db) k = some (w.or r) ∧ getWrite (update db) k = some w ∧
      (getRead (update db) k = getWrite (update db) k ↔ (w = none → r = none)) := by
  have hi := reachable_inv h
  obtain ⟨hi', ha⟩ := update_sim hi
  have hr : ∀ {db : DB K V}, Inv db → getRead db k = some ((abs db).read k) := by
    intro db hi
    obtain ⟨s, hs, _, hg⟩ := rshard_exists hi k
    simp [getRead, hs, hg]
  have hw : ∀ {db : DB K V}, Inv db → getWrite db k = some ((abs db).write k) := by
    intro db hi
    obtain ⟨s, hs, _, hg⟩ := shard_exists hi k
    simp [getWrite, hs, hg]
  refine ⟨(abs db).read k, (abs db).write k, hr hi, hw hi, by rw [hr hi', ha], by rw [hw hi', ha], ?_⟩
  rw [hr hi', hw hi', ha]
  dsimp only
  cases (abs db).write k <;> simp

/-- **C18** is false: insert, update, remove, update leaves the removed key readable. -/
theorem C18_update_keeps_removed_keys_partial :
    ¬ ∀ (db : DB Nat Nat), Reachable db → ∀ k, getRead (update db) k = getWrite (update db) k := by
  intro hall
  have := hall _ (reachable_of_run (cpus := 1) (by decide +kernel) (fun k => k)
    [.insert 3 30, .update, .remove 3]) 3
  exact absurd this (by decide +kernel)

example : ((run (new 4 demoHash) (demoCmds ++ [.update]) :
    Option (DB Nat Nat × List (Out Nat Nat))).map (fun r => (getRead r.1 1, getRead r.1 4, getWrite r.1 1))) =
      some (some (some 11), some (some 41), some none) := by decide +kernel

/-! ### C19 -/

/-- **C19**, correct part: the insertion itself does what is expected, and the answer is `None` always. -/
theorem C19_insert_partial (db : DB K V) (h : Reachable db) (k : K) (v : V) :
    ∃ db', insert db k v = some (db', none) ∧ getWrite db' k = some (some v) ∧
      ∀ k', k' ≠ k → getWrite db' k' = getWrite db k' := by
  have hi := reachable_inv h
  obtain ⟨db', h1, hi', _, ha⟩ := insert_sim hi k v
  have hw : ∀ {db : DB K V} (k), Inv db → getWrite db k = some ((abs db).write k) := by
    intro db k hi
    obtain ⟨s, hs, _, hg⟩ := shard_exists hi k
    simp [getWrite, hs, hg]
  refine ⟨db', h1, by rw [hw k hi', ha]; simp [set], ?_⟩
  intro k' hk'
  rw [hw k' hi', hw k' hi, ha]
  simp [set, hk']

/-- **C19** is false: a second insert of a key does not return the first value. -/
theorem C19_insert_never_returns_the_old_value_partial :
    ¬ ∀ (db : DB Nat Nat), Reachable db → ∀ k v, (insert db k v).map Prod.snd = getWrite db k := by
  intro hall
  have := hall _ (reachable_of_run (cpus := 1) (by decide +kernel) (fun k => k) [.insert 3 30]) 3 31
  exact absurd this (by decide +kernel)

example : ((run (new 4 demoHash) demoCmds : Option (DB Nat Nat × List (Out Nat Nat))).bind
    (fun r => insert r.1 4 42)).map (fun r => (r.2, getWrite r.1 4)) = some (none, some (some 42)) := by decide +kernel

end Verif.DBDashMap
