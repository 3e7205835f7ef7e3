import Verif.Model.DBDashCpus
import Verif.Props.DBDashMap
import Mathlib.Tactic.IntervalCases

/-!
C209: the double-buffered map when the number of processors changes.
-/

set_option linter.unusedSectionVars false

namespace Verif.DBDashMap

variable {K V : Type} [DecidableEq K]

/-! ### the loops -/

/-- The first `n` shards of one list and the others of another. -/
def splice (n : Nat) (l l' : List (HMap K V)) : List (HMap K V) := l.take n ++ l'.drop n

theorem lazyLoop_eq : ∀ (n : Nat) (ws rs : List (HMap K V)), ws.length = rs.length →
    lazyLoop n ws rs = if n ≤ ws.length then some (splice n (ws.map (fun _ => [])) ws, splice n ws rs) else none := by
  intro n
  induction n with
  | zero => intro ws rs _; simp [lazyLoop, splice]
  | succ n ih =>
    intro ws rs h
    match ws, rs, h with
    | [], [], _ => simp [lazyLoop]
    | w :: ws, r :: rs, h =>
      simp only [List.length_cons, Nat.add_right_cancel_iff] at h
      simp only [lazyLoop, ih ws rs h, List.length_cons, Nat.add_le_add_iff_right]
      split_ifs <;> simp [splice]

theorem mergeLoop_eq : ∀ (n : Nat) (ws : List (HMap K V)),
    mergeLoop n ws = if n ≤ ws.length then some (splice n (ws.map (fun _ => [])) ws, (ws.take n).flatten) else none := by
  intro n
  induction n with
  | zero => intro ws; simp [mergeLoop, splice]
  | succ n ih =>
    intro ws
    match ws with
    | [] => simp [mergeLoop]
    | w :: ws =>
      simp only [mergeLoop, ih ws, List.length_cons, Nat.add_le_add_iff_right]
      split_ifs <;> simp [splice]

theorem updateLoop_eq : ∀ (n : Nat) (ws rs : List (HMap K V)), ws.length = rs.length →
    updateLoop n ws rs = if n ≤ ws.length then some (splice n (List.zipWith updateShard ws rs) rs) else none := by
  intro n
  induction n with
  | zero => intro ws rs _; simp [updateLoop, splice]
  | succ n ih =>
    intro ws rs h
    match ws, rs, h with
    | [], [], _ => simp [updateLoop]
    | w :: ws, r :: rs, h =>
      simp only [List.length_cons, Nat.add_right_cancel_iff] at h
      simp only [updateLoop, ih ws rs h, List.length_cons, Nat.add_le_add_iff_right]
      split_ifs <;> simp [splice]

theorem splice_all (l l' : List (HMap K V)) (h : l.length = l'.length) : splice l.length l l' = l := by
  unfold splice
  rw [List.take_length, h, List.drop_length, List.append_nil]

theorem splice_get (n : Nat) (l l' : List (HMap K V)) (hn : n ≤ l.length) (i : Nat) :
    (splice n l l')[i]? = if i < n then l[i]? else l'[i]? := by
  unfold splice
  rw [List.getElem?_append, List.length_take, Nat.min_eq_left hn]
  split_ifs with hi
  · rw [List.getElem?_take, if_pos hi]
  · rw [List.getElem?_drop, Nat.add_sub_cancel' (Nat.le_of_not_lt hi)]

theorem splice_length (n : Nat) (l l' : List (HMap K V)) (h : l.length = l'.length) (hn : n ≤ l.length) : (splice n l l').length = l.length := by
  unfold splice
  rw [List.length_append, List.length_take, List.length_drop]
  omega

theorem Sharded.splice {idx : K → Nat} {l l' : List (HMap K V)} (h1 : Sharded idx l) (h2 : Sharded idx l') (h : l.length = l'.length) {n : Nat} (hn : n ≤ l.length) :
    Sharded idx (splice n l l') := by
  refine ⟨?_, ?_, ?_⟩
  · intro k
    rw [splice_length n l l' h hn]
    exact h1.inRange k
  · intro s hs
    rcases List.mem_append.1 hs with hs | hs
    · exact h1.wf s (List.mem_of_mem_take hs)
    · exact h2.wf s (List.mem_of_mem_drop hs)
  · intro i s hs
    rw [splice_get n l l' hn] at hs
    split_ifs at hs
    · exact h1.home i s hs
    · exact h2.home i s hs

theorem look_splice {idx : K → Nat} {l l' : List (HMap K V)} {n : Nat} (hn : n ≤ l.length) (k : K) :
    look idx (splice n l l') k = if idx k < n then look idx l k else look idx l' k := by
  unfold look
  rw [splice_get n l l' hn]
  split_ifs <;> rfl

/-! ### one call -/

/-- `lazy_update`, `update` and `merge_r_shards` are the calls that ask for the number of processors. -/
def Asks : Cmd K V → Prop
  | .lazyUpdate | .update | .mergeRShards => True
  | _ => False

theorem execAt_same {db : DB K V} (h : db.shards.length = db.rShards.length) (c : Cmd K V) : execAt db.shards.length db c = exec db c := by
  cases c <;> try rfl
  · simp only [execAt, lazyUpdateAt, lazyLoop_eq _ _ _ h, le_refl, if_true, Option.map_some, exec, lazyUpdate]
    rw [splice_all _ _ h]
    have := splice_all (db.shards.map (fun _ => ([] : HMap K V))) db.shards (List.length_map _)
    rw [List.length_map] at this
    rw [this, List.map_const', List.map_const', h]
  · simp only [execAt, updateAt, updateLoop_eq _ _ _ h, le_refl, if_true, Option.map_some, exec, update]
    have e : (List.zipWith updateShard db.shards db.rShards).length = db.shards.length := by rw [List.length_zipWith, ← h, Nat.min_self]
    have := splice_all (List.zipWith updateShard db.shards db.rShards) db.rShards (by rw [e, h])
    rw [e] at this
    rw [this]
  · simp only [execAt, mergeRShardsAt, mergeLoop_eq, le_refl, if_true, Option.map_some, exec, mergeRShards]
    have := splice_all (db.shards.map (fun _ => ([] : HMap K V))) db.shards (List.length_map _)
    rw [List.length_map] at this
    rw [this, List.take_length]

/-- The map has `m` shards on both sides. -/
def Has (m : Nat) (db : DB K V) : Prop := db.shards.length = m ∧ db.rShards.length = m

theorem insert_has {m : Nat} {db : DB K V} (h : Has m db) {k : K} {v : V} {r : DB K V × Option V} (he : insert db k v = some r) : Has m r.1 := by
  unfold insert at he
  split at he
  · cases he
  · obtain rfl := Option.some.inj he
    exact ⟨by rw [List.length_set]; exact h.1, h.2⟩

theorem remove_has {m : Nat} {db : DB K V} (h : Has m db) {k : K} {r : DB K V × Option (K × V)} (he : remove db k = some r) : Has m r.1 := by
  unfold remove at he
  split at he
  · cases he
  · obtain rfl := Option.some.inj he
    exact ⟨by rw [List.length_set]; exact h.1, h.2⟩

theorem fold_has {m : Nat} {α : Type} {f : DB K V → α → Option (DB K V)} (hf : ∀ db a db', Has m db → f db a = some db' → Has m db') :
    ∀ (l : List α) (db db' : DB K V), Has m db → l.foldlM f db = some db' → Has m db' := by
  intro l
  induction l with
  | nil =>
    intro db db' h he
    obtain rfl := Option.some.inj he
    exact h
  | cons a l ih =>
    intro db db' h he
    rw [List.foldlM_cons] at he
    obtain ⟨d, h1, h2⟩ := Option.bind_eq_some_iff.1 he
    exact ih d db' (hf db a d h h1) h2

theorem exec_has {m : Nat} {db : DB K V} (h : Has m db) {c : Cmd K V} {r : DB K V × Out K V} (he : exec db c = some r) : Has m r.1 := by
  cases c with
  | insert k v => obtain ⟨p, h1, rfl⟩ := Option.map_eq_some_iff.1 he; exact insert_has h h1
  | remove k => obtain ⟨p, h1, rfl⟩ := Option.map_eq_some_iff.1 he; exact remove_has h h1
  | getRead k => obtain ⟨p, h1, rfl⟩ := Option.map_eq_some_iff.1 he; exact h
  | getKeyValue k => obtain ⟨p, h1, rfl⟩ := Option.map_eq_some_iff.1 he; exact h
  | getWrite k => obtain ⟨p, h1, rfl⟩ := Option.map_eq_some_iff.1 he; exact h
  | modifyWrite k f =>
    obtain ⟨p, h1, rfl⟩ := Option.map_eq_some_iff.1 he
    unfold modifyWrite at h1
    split at h1
    · cases h1
    · obtain rfl := Option.some.inj h1
      exact ⟨by rw [List.length_set]; exact h.1, h.2⟩
  | lazyUpdate => obtain rfl := Option.some.inj he; exact ⟨by show (db.rShards.map _).length = m; rw [List.length_map]; exact h.2, h.1⟩
  | update =>
    obtain rfl := Option.some.inj he
    exact ⟨h.1, by show (List.zipWith _ _ _).length = m; rw [List.length_zipWith, h.1, h.2, Nat.min_self]⟩
  | clear => obtain rfl := Option.some.inj he; exact ⟨by show (db.shards.map _).length = m; rw [List.length_map]; exact h.1, h.2⟩
  | mergeRShards => obtain rfl := Option.some.inj he; exact ⟨by show (db.shards.map _).length = m; rw [List.length_map]; exact h.1, h.2⟩
  | len => obtain rfl := Option.some.inj he; exact h
  | rLen => obtain rfl := Option.some.inj he; exact h
  | isEmpty => obtain rfl := Option.some.inj he; exact h
  | isEmptyR => obtain rfl := Option.some.inj he; exact h
  | keys => obtain rfl := Option.some.inj he; exact h
  | wKeys => obtain rfl := Option.some.inj he; exact h
  | values => obtain rfl := Option.some.inj he; exact h
  | applyToAllValues f =>
    obtain ⟨p, h1, rfl⟩ := Option.map_eq_some_iff.1 he
    refine fold_has ?_ _ db p h h1
    intro d a d' hd hd'
    obtain ⟨q, h2, rfl⟩ := Option.map_eq_some_iff.1 hd'
    exact insert_has hd h2
  | applyToAllValuesWrite f => obtain rfl := Option.some.inj he; exact ⟨by show (db.shards.map _).length = m; rw [List.length_map]; exact h.1, h.2⟩
  | applyToAllValuesReadWrite f =>
    obtain rfl := Option.some.inj he
    exact ⟨by show (List.zipWith _ _ _).length = m; rw [List.length_zipWith, h.1, h.2, Nat.min_self], h.2⟩
  | applyToAllKeys f =>
    obtain ⟨p, h1, rfl⟩ := Option.map_eq_some_iff.1 he
    refine fold_has ?_ _ db p h h1
    intro d a d' hd hd'
    unfold applyKey at hd'
    split at hd'
    · obtain rfl := Option.some.inj hd'; exact hd
    · obtain ⟨q, h2, h3⟩ := Option.bind_eq_some_iff.1 hd'
      obtain ⟨q', h4, rfl⟩ := Option.map_eq_some_iff.1 h3
      exact insert_has (remove_has hd h2) h4

/-! ### what a changed number does -/

theorem lazyAt_effect {db : DB K V} (hi : Inv db) {n : Nat} (hn : n ≤ db.shards.length) :
    ∃ db', lazyUpdateAt n db = some db' ∧ Inv db' ∧ (∀ k, db'.idx k = db.idx k) ∧ db'.shards.length = db.shards.length ∧
      abs db' = ⟨fun k => if db.idx k < n then (abs db).write k else (abs db).read k, fun k => if db.idx k < n then none else (abs db).write k⟩ := by
  have hc : (db.shards.map (fun _ => ([] : HMap K V))).length = db.shards.length := List.length_map _
  refine ⟨{ db with shards := splice n (db.shards.map (fun _ => [])) db.shards, rShards := splice n db.shards db.rShards }, by rw [lazyUpdateAt, lazyLoop_eq _ _ _ hi.len, if_pos hn]; rfl, ⟨?_, ?_, ?_⟩, fun _ => rfl, ?_, ?_⟩
  · exact (Sharded.cleared hi.w rfl).splice hi.w hc (by rw [hc]; exact hn)
  · exact hi.w.splice hi.r hi.len hn
  · show (splice _ _ _).length = (splice _ _ _).length
    rw [splice_length _ _ _ hc (by rw [hc]; exact hn), splice_length _ _ _ hi.len hn, hc]
  · show (splice _ _ _).length = _
    rw [splice_length _ _ _ hc (by rw [hc]; exact hn), hc]
  · unfold abs
    congr 1 <;> funext k
    · exact look_splice hn k
    · exact (look_splice (by rw [hc]; exact hn) k).trans (by rw [look_cleared]; rfl)

theorem updateAt_effect {db : DB K V} (hi : Inv db) {n : Nat} (hn : n ≤ db.shards.length) :
    ∃ db', updateAt n db = some db' ∧ Inv db' ∧ (∀ k, db'.idx k = db.idx k) ∧ db'.shards.length = db.shards.length ∧
      abs db' = ⟨fun k => if db.idx k < n then ((abs db).write k).or ((abs db).read k) else (abs db).read k, (abs db).write⟩ := by
  have hc : (List.zipWith updateShard db.shards db.rShards).length = db.rShards.length := by rw [List.length_zipWith, hi.len, Nat.min_self]
  have hn' : n ≤ (List.zipWith updateShard db.shards db.rShards).length := by rw [hc, ← hi.len]; exact hn
  obtain ⟨u1, u2⟩ := update_sim hi
  refine ⟨{ db with rShards := splice n (List.zipWith updateShard db.shards db.rShards) db.rShards }, by rw [updateAt, updateLoop_eq _ _ _ hi.len, if_pos hn]; rfl, ⟨hi.w, ?_, ?_⟩, fun _ => rfl, rfl, ?_⟩
  · exact u1.r.splice hi.r hc hn'
  · show db.shards.length = (splice _ _ _).length
    rw [splice_length _ _ _ hc hn', hc, hi.len]
  · unfold abs
    congr 1
    funext k
    refine (look_splice hn' k).trans ?_
    have : look db.idx (List.zipWith updateShard db.shards db.rShards) k = ((abs db).write k).or ((abs db).read k) := congrFun (congrArg Pair.read u2) k
    show (if db.idx k < n then look db.idx (List.zipWith updateShard db.shards db.rShards) k else _) = _
    rw [this]
    rfl

theorem mergeAt_effect {db : DB K V} (hi : Inv db) {n : Nat} (hn : n ≤ db.shards.length) :
    ∃ db' m, mergeRShardsAt n db = some (db', m) ∧ Inv db' ∧ (∀ k, db'.idx k = db.idx k) ∧ db'.shards.length = db.shards.length ∧
      abs db' = ⟨(abs db).read, fun k => if db.idx k < n then none else (abs db).write k⟩ ∧
      ∀ k, HMap.get m k = if db.idx k < n then (abs db).write k else none := by
  have hc : (db.shards.map (fun _ => ([] : HMap K V))).length = db.shards.length := List.length_map _
  refine ⟨{ db with shards := splice n (db.shards.map (fun _ => [])) db.shards }, _, by rw [mergeRShardsAt, mergeLoop_eq, if_pos hn]; rfl, ⟨?_, hi.r, ?_⟩, fun _ => rfl, ?_, ?_, ?_⟩
  · exact (Sharded.cleared hi.w rfl).splice hi.w hc (by rw [hc]; exact hn)
  · show (splice _ _ _).length = _
    rw [splice_length _ _ _ hc (by rw [hc]; exact hn), hc, hi.len]
  · show (splice _ _ _).length = _
    rw [splice_length _ _ _ hc (by rw [hc]; exact hn), hc]
  · unfold abs
    congr 1
    funext k
    exact (look_splice (by rw [hc]; exact hn) k).trans (by rw [look_cleared]; rfl)
  · intro k
    have hs := hi.w.splice (Sharded.cleared hi.w rfl) hc.symm hn
    have e : (db.shards.take n).flatten = (splice n db.shards (db.shards.map (fun _ => []))).flatten := by
      unfold splice
      rw [List.flatten_append, ← List.map_drop, List.map_const']
      simp
    obtain ⟨m1, m2⟩ := merge_list hs.wf_flatten
    rw [← e] at m1 m2
    have key : ∀ v, HMap.get ((db.shards.take n).flatten.foldl (fun m e => (HMap.insert m e.1 e.2).1) []) k = some v ↔
        (if db.idx k < n then (abs db).write k else none) = some v := by
      intro v
      rw [HMap.get_eq_some_iff m1, m2, e, hs.get_flatten, look_splice hn, look_cleared]
      rfl
    exact Option.ext key

/-! ### C209 -/

/-- Some program, on a machine that had `cpus` processors when the map was made and any number at each later call, got to this map. -/
def ReachableAt (cpus : Nat) (hash : K → Nat) (db : DB K V) : Prop :=
  ∃ (cs : List (Nat × Cmd K V)) (os : List (Out K V)), runAt (new cpus hash) cs = some (db, os)

theorem execAt_inv {n : Nat} {db : DB K V} (hi : Inv db) {c : Cmd K V} {r : DB K V × Out K V} (he : execAt n db c = some r) :
    Inv r.1 ∧ r.1.shards.length = db.shards.length := by
  have base : exec db c = some r → Inv r.1 ∧ r.1.shards.length = db.shards.length := by
    intro he
    obtain ⟨d, o, h1, h2, -⟩ := exec_sim hi c
    rw [h1] at he
    have h3 := exec_has (m := db.shards.length) ⟨rfl, hi.len.symm⟩ h1
    obtain rfl := Option.some.inj he
    exact ⟨h2, h3.1⟩
  cases c with
  | lazyUpdate =>
    obtain ⟨d, h1, rfl⟩ := Option.map_eq_some_iff.1 he
    by_cases hn : n ≤ db.shards.length
    · obtain ⟨d', h2, h3, -, h4, -⟩ := lazyAt_effect hi hn
      rw [h1] at h2
      obtain rfl := Option.some.inj h2
      exact ⟨h3, h4⟩
    · rw [lazyUpdateAt, lazyLoop_eq _ _ _ hi.len, if_neg hn] at h1
      cases h1
  | update =>
    obtain ⟨d, h1, rfl⟩ := Option.map_eq_some_iff.1 he
    by_cases hn : n ≤ db.shards.length
    · obtain ⟨d', h2, h3, -, h4, -⟩ := updateAt_effect hi hn
      rw [h1] at h2
      obtain rfl := Option.some.inj h2
      exact ⟨h3, h4⟩
    · rw [updateAt, updateLoop_eq _ _ _ hi.len, if_neg hn] at h1
      cases h1
  | mergeRShards =>
    obtain ⟨d, h1, rfl⟩ := Option.map_eq_some_iff.1 he
    by_cases hn : n ≤ db.shards.length
    · obtain ⟨d', m, h2, h3, -, h4, -⟩ := mergeAt_effect hi hn
      rw [h1] at h2
      obtain rfl := Option.some.inj h2
      exact ⟨h3, h4⟩
    · rw [mergeRShardsAt, mergeLoop_eq, if_neg hn] at h1
      cases h1
  | _ => exact base he

theorem runAt_inv : ∀ (cs : List (Nat × Cmd K V)) {db : DB K V} {r : DB K V × List (Out K V)}, Inv db → runAt db cs = some r →
    Inv r.1 ∧ r.1.shards.length = db.shards.length := by
  intro cs
  induction cs with
  | nil =>
    intro db r hi he
    obtain rfl := Option.some.inj he
    exact ⟨hi, rfl⟩
  | cons c cs ih =>
    intro db r hi he
    unfold runAt at he
    split at he
    · cases he
    · rename_i db' o h1
      obtain ⟨q, h2, rfl⟩ := Option.map_eq_some_iff.1 he
      obtain ⟨a, b⟩ := execAt_inv hi h1
      obtain ⟨a', b'⟩ := ih a h2
      exact ⟨a', b'.trans b⟩

theorem reachableAt_inv {cpus : Nat} (hc : shardAmount cpus ≤ 2 ^ 64) {hash : K → Nat} {db : DB K V} (h : ReachableAt cpus hash db) :
    Inv db ∧ db.shards.length = shardAmount cpus := by
  obtain ⟨cs, os, h⟩ := h
  obtain ⟨a, b⟩ := runAt_inv cs (inv_new hc hash) h
  exact ⟨a, b.trans (List.length_replicate ..)⟩

theorem get_of_abs {db : DB K V} (hi : Inv db) (k : K) : getRead db k = some ((abs db).read k) ∧ getWrite db k = some ((abs db).write k) := by
  obtain ⟨s, hs, _, hg⟩ := rshard_exists hi k
  obtain ⟨s', hs', _, hg'⟩ := shard_exists hi k
  exact ⟨by simp [getRead, hs, hg], by simp [getWrite, hs', hg']⟩

/-- **C209 (partial).** As long as four times the number of processors, rounded up to a power of two, is at every call what it was when the map was made, every
program does what it does on an unchanging machine (C15-C19). Missing: false when that number changes, see below. -/
theorem C209_unchanged_partial (cpus : Nat) (hc : shardAmount cpus ≤ 2 ^ 64) (hash : K → Nat) (cs : List (Nat × Cmd K V))
    (hs : ∀ c ∈ cs, shardAmount c.1 = shardAmount cpus) : runAt (new cpus hash) cs = run (new cpus hash) (cs.map Prod.snd) := by
  have key : ∀ (cs : List (Nat × Cmd K V)) (db : DB K V), Inv db → db.shards.length = shardAmount cpus → (∀ c ∈ cs, shardAmount c.1 = shardAmount cpus) →
      runAt db cs = run db (cs.map Prod.snd) := by
    intro cs
    induction cs with
    | nil => intros; rfl
    | cons c cs ih =>
      intro db hi hl hs
      have e : execAt (shardAmount c.1) db c.2 = exec db c.2 := by
        rw [hs c (List.mem_cons_self ..), ← hl]
        exact execAt_same hi.len c.2
      simp only [runAt, List.map_cons, run]
      rw [e]
      cases h : exec db c.2 with
      | none => rfl
      | some r =>
        rw [← e] at h
        obtain ⟨a, b⟩ := execAt_inv hi h
        simp only
        rw [ih r.1 a (b.trans hl) (fun c hc => hs c (List.mem_cons_of_mem _ hc))]
  exact key cs _ (inv_new hc hash) (List.length_replicate ..) hs

/-- **C209** is false of the code: when the number of processors has grown past a power of two, `lazy_update`, `update` and `merge_r_shards` panic on every map. -/
theorem C209_more_processors_partial (cpus cpus' : Nat) (hc : shardAmount cpus ≤ 2 ^ 64) (h : shardAmount cpus < shardAmount cpus') (hash : K → Nat) (db : DB K V)
    (hr : ReachableAt cpus hash db) (c : Cmd K V) (ha : Asks c) : execAt (shardAmount cpus') db c = none := by
  obtain ⟨hi, hl⟩ := reachableAt_inv hc hr
  have hn : ¬ shardAmount cpus' ≤ db.shards.length := by omega
  cases c with
  | lazyUpdate => simp only [execAt, lazyUpdateAt, lazyLoop_eq _ _ _ hi.len, if_neg hn, Option.map_none]
  | update => simp only [execAt, updateAt, updateLoop_eq _ _ _ hi.len, if_neg hn, Option.map_none]
  | mergeRShards => simp only [execAt, mergeRShardsAt, mergeLoop_eq, if_neg hn, Option.map_none]
  | _ => exact absurd ha id

/-- **C209** is false of the code: when the number of processors has shrunk past a power of two, `lazy_update` publishes and empties only the entries of the
first shards, as many as there would be shards now; every other key keeps what was published and what was written. -/
theorem C209_fewer_processors_partial (cpus cpus' : Nat) (hc : shardAmount cpus ≤ 2 ^ 64) (h : shardAmount cpus' ≤ shardAmount cpus) (hash : K → Nat) (db : DB K V)
    (hr : ReachableAt cpus hash db) : ∃ db', execAt (shardAmount cpus') db .lazyUpdate = some (db', .unit) ∧
      (∀ k, db.idx k < shardAmount cpus' → getRead db' k = getWrite db k ∧ getWrite db' k = some none) ∧
      (∀ k, shardAmount cpus' ≤ db.idx k → getRead db' k = getRead db k ∧ getWrite db' k = getWrite db k) := by
  obtain ⟨hi, hl⟩ := reachableAt_inv hc hr
  obtain ⟨db', h1, h2, -, -, h5⟩ := lazyAt_effect hi (n := shardAmount cpus') (by omega)
  refine ⟨db', by simp only [execAt, h1, Option.map_some], ?_, ?_⟩
  · intro k hk
    rw [(get_of_abs h2 k).1, (get_of_abs h2 k).2, (get_of_abs hi k).2, h5]
    simp only [if_pos hk, and_self]
  · intro k hk
    rw [(get_of_abs h2 k).1, (get_of_abs h2 k).2, (get_of_abs hi k).1, (get_of_abs hi k).2, h5]
    simp only [if_neg (Nat.not_lt.2 hk), and_self]

/-- **C209 (partial), `update` and `merge_r_shards`** with fewer processors: the keys of the other shards are not published, and not in the merged map. -/
theorem C209_fewer_processors_merge_partial (cpus cpus' : Nat) (hc : shardAmount cpus ≤ 2 ^ 64) (h : shardAmount cpus' ≤ shardAmount cpus) (hash : K → Nat) (db : DB K V)
    (hr : ReachableAt cpus hash db) :
    (∃ db', execAt (shardAmount cpus') db .update = some (db', .unit) ∧ (∀ k, getWrite db' k = getWrite db k) ∧
      ∀ k, shardAmount cpus' ≤ db.idx k → getRead db' k = getRead db k) ∧
    ∃ db' m, execAt (shardAmount cpus') db .mergeRShards = some (db', .map m) ∧ (∀ k, db.idx k < shardAmount cpus' → some (HMap.get m k) = getWrite db k) ∧
      ∀ k, shardAmount cpus' ≤ db.idx k → HMap.get m k = none ∧ getWrite db' k = getWrite db k := by
  obtain ⟨hi, hl⟩ := reachableAt_inv hc hr
  constructor
  · obtain ⟨db', h1, h2, -, -, h5⟩ := updateAt_effect hi (n := shardAmount cpus') (by omega)
    refine ⟨db', by simp only [execAt, h1, Option.map_some], fun k => ?_, fun k hk => ?_⟩
    · rw [(get_of_abs h2 k).2, (get_of_abs hi k).2, h5]
    · rw [(get_of_abs h2 k).1, (get_of_abs hi k).1, h5]
      simp only [if_neg (Nat.not_lt.2 hk)]
  · obtain ⟨db', m, h1, h2, -, -, h5, h6⟩ := mergeAt_effect hi (n := shardAmount cpus') (by omega)
    refine ⟨db', m, by simp only [execAt, h1, Option.map_some], fun k hk => ?_, fun k hk => ⟨?_, ?_⟩⟩
    · rw [h6, if_pos hk, (get_of_abs hi k).2]
    · rw [h6, if_neg (Nat.not_lt.2 hk)]
    · rw [(get_of_abs h2 k).2, (get_of_abs hi k).2, h5]
      simp only [if_neg (Nat.not_lt.2 hk)]

-- 4 processors when the map is made: 16 shards; then 3 (still 16), 2 (8 shards: key 0 in shard 0 is published, key 1 in shard 15 is not), 5 (32 shards: panic)
example : shardAmount 4 = 16 ∧ shardAmount 3 = 16 ∧ shardAmount 2 = 8 ∧ shardAmount 5 = 32 := by decide +kernel

example : (runAt (new 4 (fun k : Nat => k * (2 ^ 57 - 1))) [(4, .insert 0 10), (4, .insert 1 11), (3, .lazyUpdate)]).map
      (fun r => (getRead r.1 0, getRead r.1 1)) = some (some (some 10), some (some 11)) ∧
    (runAt (new 4 (fun k : Nat => k * (2 ^ 57 - 1))) [(4, .insert 0 10), (4, .insert 1 11), (2, .lazyUpdate)]).map
      (fun r => (getRead r.1 0, getRead r.1 1)) = some (some (some 10), some none) ∧
    (runAt (new 4 (fun k : Nat => k * (2 ^ 57 - 1))) [(4, .insert 0 10), (4, .insert 1 11), (5, .lazyUpdate)]).isNone = true := by decide +kernel

/-- **C209** is false of the code: whatever the number of processors was and has become, if it shrank past a power of two there is a hash function with which
a freshly inserted entry is not published by the next `lazy_update`. -/
theorem C209_lost_partial (cpus cpus' : Nat) (hc : shardAmount cpus ≤ 2 ^ 57) (h : shardAmount cpus' < shardAmount cpus) (k : K) (v : V) :
    ∃ (hash : K → Nat) (db : DB K V) (os : List (Out K V)), runAt (new cpus hash) [(cpus, .insert k v), (cpus', .lazyUpdate)] = some (db, os) ∧
      getRead db k = some none ∧ getWrite db k = some (some v) := by
  have hc' : shardAmount cpus ≤ 2 ^ 64 := le_trans hc (by decide)
  have hidx : (new cpus (fun _ => 2 ^ 57 - 1) : DB K V).idx k = shardAmount cpus - 1 := by
    obtain ⟨n, hn⟩ := shardAmount_pow (cpus := cpus)
    rw [hn] at hc
    have hn57 : n ≤ 57 := (Nat.pow_le_pow_iff_right (by decide)).1 hc
    unfold new DB.idx ncb determineShard
    dsimp only
    rw [hn, ptrSizeBits, trailingZeros_pow 64 n (by omega), Nat.shiftRight_eq_div_pow]
    interval_cases n <;> rfl
  refine ⟨fun _ => 2 ^ 57 - 1, ?_⟩
  obtain ⟨d, h1, h2, h3, h4⟩ := insert_sim (inv_new (V := V) hc' (fun _ => 2 ^ 57 - 1)) k v
  have hd : d.idx k = shardAmount cpus - 1 := by
    rw [← hidx]
    unfold insert at h1
    split at h1
    · cases h1
    · obtain ⟨rfl, -⟩ := Prod.mk.inj (Option.some.inj h1)
      rfl
  have hr : runAt (new cpus (fun _ => 2 ^ 57 - 1)) [(cpus, .insert k v)] = some (d, [.value none]) := by
    simp only [runAt, execAt, exec, h1, Option.map_some]
  obtain ⟨db', h5, -, h6⟩ := C209_fewer_processors_partial cpus cpus' hc' h.le (fun _ => 2 ^ 57 - 1) d ⟨_, _, hr⟩
  obtain ⟨h7, h8⟩ := h6 k (by omega)
  refine ⟨db', [.value none, .unit], ?_, ?_, ?_⟩
  · simp only [runAt, Option.map_some]
    simp only [execAt, exec, h1, Option.map_some]
    simp only [execAt] at h5
    rw [h5]
    rfl
  · rw [h7, (get_of_abs h2 k).1, h4, abs_new]
    rfl
  · rw [h8, (get_of_abs h2 k).2, h4]
    simp [set]

end Verif.DBDashMap
