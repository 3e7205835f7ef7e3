import Verif.Spec.DBDashMap
import Verif.Lemmas.HashMap
import Mathlib.Data.Nat.Log

/-! Lemmas for C15-C19: shard arithmetic, the shard invariant, and the simulation by a pair of maps. -/

set_option linter.unusedSectionVars false

namespace Verif.DBDashMap

variable {K V : Type} [DecidableEq K]

/-! ### Shard arithmetic -/

theorem trailingZeros_pow : ∀ (fuel k : Nat), k ≤ fuel → trailingZeros fuel (2 ^ k) = k := by
  intro fuel
  induction fuel with
  | zero => intro k hk; have : k = 0 := by omega
            subst this; rfl
  | succ fuel ih =>
    intro k hk
    cases k with
    | zero => simp [trailingZeros]
    | succ k =>
      have h1 : 2 ^ (k + 1) % 2 = 0 := by rw [Nat.pow_succ]; omega
      have h2 : 2 ^ (k + 1) / 2 = 2 ^ k := by rw [Nat.pow_succ]; omega
      simp only [trailingZeros, h1, h2, ih k (by omega)]
      simp
      omega

theorem shardAmount_pow {cpus : Nat} : ∃ k, shardAmount cpus = 2 ^ k := by
  obtain ⟨k, hk⟩ := Nat.isPowerOfTwo_nextPowerOfTwo (cpus * 4)
  exact ⟨k, hk⟩

theorem determineShard_lt {k h : Nat} (hk : k ≤ 64) : determineShard (64 - k) h < 2 ^ k := by
  unfold determineShard ptrSizeBits
  rw [Nat.shiftRight_eq_div_pow]
  apply Nat.div_lt_of_lt_mul
  rw [← Nat.pow_add]
  have : 64 - k + k = 64 := by omega
  rw [this]
  exact Nat.mod_lt _ (by decide)

/-! ### The shard invariant -/

/-- Every key is stored in its shard, shards have distinct keys, and every shard index exists. -/
structure Sharded (idx : K → Nat) (l : List (HMap K V)) : Prop where
  inRange : ∀ k, idx k < l.length
  wf : ∀ s ∈ l, HMap.WF s
  home : ∀ i s, l[i]? = some s → ∀ k ∈ s.keys, idx k = i

/-- Lookup through the shards. -/
def look (idx : K → Nat) (l : List (HMap K V)) (k : K) : Option V := (l[idx k]?).bind (HMap.get · k)

theorem Sharded.mem_flatten {idx : K → Nat} {l : List (HMap K V)} (h : Sharded idx l) (k : K) (v : V) :
    (k, v) ∈ l.flatten ↔ look idx l k = some v := by
  have hi := h.inRange k
  have hget : l[idx k]? = some l[idx k] := List.getElem?_eq_getElem hi
  unfold look
  rw [hget, Option.bind_some, HMap.get_eq_some_iff (h.wf _ (List.getElem_mem hi)), List.mem_flatten]
  constructor
  · rintro ⟨s, hs, he⟩
    obtain ⟨i, hi', rfl⟩ := List.mem_iff_getElem.1 hs
    have : idx k = i := h.home i _ (List.getElem?_eq_getElem hi') k (List.mem_map.2 ⟨_, he, rfl⟩)
    subst this
    exact he
  · intro he
    exact ⟨_, List.getElem_mem hi, he⟩

theorem Sharded.wf_flatten {idx : K → Nat} {l : List (HMap K V)} (h : Sharded idx l) :
    HMap.WF l.flatten := by
  unfold HMap.WF
  rw [List.map_flatten, List.nodup_flatten]
  refine ⟨?_, ?_⟩
  · intro s hs
    obtain ⟨s', hs', rfl⟩ := List.mem_map.1 hs
    exact h.wf s' hs'
  · rw [List.pairwise_map, List.pairwise_iff_getElem]
    intro i j hi hj hij k hk hk'
    have h1 := h.home i _ (List.getElem?_eq_getElem hi) k hk
    have h2 := h.home j _ (List.getElem?_eq_getElem hj) k hk'
    omega

theorem Sharded.get_flatten {idx : K → Nat} {l : List (HMap K V)} (h : Sharded idx l) (k : K) :
    HMap.get l.flatten k = look idx l k := by
  cases hl : look idx l k with
  | some v => exact HMap.get_of_mem h.wf_flatten ((h.mem_flatten k v).2 hl)
  | none =>
    cases hg : HMap.get l.flatten k with
    | none => rfl
    | some v =>
      rw [HMap.get_eq_some_iff h.wf_flatten, h.mem_flatten, hl] at hg
      exact absurd hg (by simp)

theorem Sharded.set {idx : K → Nat} {l : List (HMap K V)} (h : Sharded idx l) {i : Nat} {s : HMap K V}
    (hw : HMap.WF s) (hk : ∀ k ∈ s.keys, idx k = i) : Sharded idx (l.set i s) := by
  refine ⟨by simpa using h.inRange, ?_, ?_⟩
  · intro s' hs'
    rcases List.mem_or_eq_of_mem_set hs' with h' | rfl
    · exact h.wf _ h'
    · exact hw
  · intro j s' hj k hk'
    rw [List.getElem?_set] at hj
    by_cases hij : i = j
    · rw [if_pos hij] at hj
      split at hj
      · simp only [Option.some.injEq] at hj
        subst hj hij
        exact hk k hk'
      · exact absurd hj (by simp)
    · rw [if_neg hij] at hj
      exact h.home j s' hj k hk'

theorem look_set {idx : K → Nat} {l : List (HMap K V)} (h : Sharded idx l) (i : Nat) (s : HMap K V) (k : K) :
    look idx (l.set i s) k = if idx k = i then HMap.get s k else look idx l k := by
  unfold look
  rw [List.getElem?_set]
  by_cases hi : i = idx k
  · have := h.inRange k
    simp [hi, this]
  · simp [hi, Ne.symm hi]

theorem Sharded.cleared {idx : K → Nat} {l l' : List (HMap K V)} (h : Sharded idx l) (hlen : l'.length = l.length) :
    Sharded idx (l'.map (fun _ => ([] : HMap K V))) := by
  refine ⟨by simpa [hlen] using h.inRange, ?_, ?_⟩
  · intro s hs
    obtain ⟨_, _, rfl⟩ := List.mem_map.1 hs
    simp
  · intro i s hs k hk
    rw [List.getElem?_map] at hs
    cases h' : l'[i]? with
    | none => rw [h'] at hs; exact absurd hs (by simp)
    | some x =>
      rw [h'] at hs
      simp only [Option.map_some, Option.some.injEq] at hs
      subst hs
      exact absurd hk (by simp [HMap.keys])

theorem look_cleared (idx : K → Nat) (l' : List (HMap K V)) (k : K) :
    look idx (l'.map (fun _ => ([] : HMap K V))) k = none := by
  unfold look
  rw [List.getElem?_map]
  cases l'[idx k]? <;> rfl

theorem look_zip {idx : K → Nat} {l l' : List (HMap K V)} (h : Sharded idx l) (h' : Sharded idx l')
    (f : HMap K V → HMap K V → HMap K V) (k : K) :
    ∃ s s', l[idx k]? = some s ∧ l'[idx k]? = some s' ∧ HMap.get s k = look idx l k ∧
      HMap.get s' k = look idx l' k ∧ HMap.WF s ∧ HMap.WF s' ∧
      look idx (List.zipWith f l l') k = HMap.get (f s s') k := by
  have hi := h.inRange k
  have hi' := h'.inRange k
  refine ⟨l[idx k], l'[idx k], List.getElem?_eq_getElem hi, List.getElem?_eq_getElem hi', ?_, ?_,
    h.wf _ (List.getElem_mem hi), h'.wf _ (List.getElem_mem hi'), ?_⟩
  · simp [look, hi]
  · simp [look, hi']
  · simp [look, hi, hi', List.getElem?_zipWith]

theorem Sharded.zip {idx : K → Nat} {l l' : List (HMap K V)} (h : Sharded idx l) (h' : Sharded idx l')
    (f : HMap K V → HMap K V → HMap K V) (hwf : ∀ s s', HMap.WF s → HMap.WF s' → HMap.WF (f s s'))
    (hk : ∀ s s' k, k ∈ (f s s').keys → k ∈ s.keys ∨ k ∈ s'.keys) : Sharded idx (List.zipWith f l l') := by
  refine ⟨?_, ?_, ?_⟩
  · intro k
    rw [List.length_zipWith]
    exact Nat.lt_min.2 ⟨h.inRange k, h'.inRange k⟩
  · intro s hs
    obtain ⟨i, hi, rfl⟩ := List.mem_iff_getElem.1 hs
    rw [List.getElem_zipWith]
    exact hwf _ _ (h.wf _ (List.getElem_mem _)) (h'.wf _ (List.getElem_mem _))
  · intro i s hs k hkk
    rw [List.getElem?_eq_some_iff] at hs
    obtain ⟨hi, rfl⟩ := hs
    rw [List.getElem_zipWith] at hkk
    rcases hk _ _ k hkk with h1 | h1
    · exact h.home i _ (List.getElem?_eq_getElem _) k h1
    · exact h'.home i _ (List.getElem?_eq_getElem _) k h1

/-! ### The state invariant and its abstraction -/

/-- Both sides are well sharded and have the same number of shards. -/
structure Inv (db : DB K V) : Prop where
  w : Sharded db.idx db.shards
  r : Sharded db.idx db.rShards
  len : db.shards.length = db.rShards.length

/-- The pair of plain maps a state stands for. -/
def abs (db : DB K V) : Pair K V := ⟨look db.idx db.rShards, look db.idx db.shards⟩

omit [DecidableEq K] in
theorem new_idx_lt {cpus : Nat} (hc : shardAmount cpus ≤ 2 ^ 64) (hash : K → Nat) (k : K) :
    (new cpus hash : DB K V).idx k < shardAmount cpus := by
  obtain ⟨n, hn⟩ := shardAmount_pow (cpus := cpus)
  rw [hn] at hc
  have hn64 : n ≤ 64 := (Nat.pow_le_pow_iff_right (by decide)).1 hc
  unfold new DB.idx ncb
  dsimp only
  rw [hn, ptrSizeBits, trailingZeros_pow 64 n hn64]
  exact determineShard_lt hn64

theorem sharded_replicate {idx : K → Nat} {n : Nat} (h : ∀ k, idx k < n) :
    Sharded idx (List.replicate n ([] : HMap K V)) := by
  refine ⟨by simpa using h, ?_, ?_⟩
  · intro s hs
    rw [List.eq_of_mem_replicate hs]; simp
  · intro i s hs k hk
    rw [List.getElem?_replicate] at hs
    split at hs
    · simp at hs; subst hs; exact absurd hk (by simp [HMap.keys])
    · exact absurd hs (by simp)

theorem inv_new {cpus : Nat} (hc : shardAmount cpus ≤ 2 ^ 64) (hash : K → Nat) :
    Inv (new cpus hash : DB K V) :=
  ⟨sharded_replicate (new_idx_lt hc hash), sharded_replicate (new_idx_lt hc hash), by simp [new]⟩

theorem abs_new {cpus : Nat} (hash : K → Nat) : abs (new cpus hash : DB K V) = Pair.empty := by
  unfold abs Pair.empty
  congr 1 <;>
  · funext k
    simp only [look, new, List.getElem?_replicate]
    split <;> simp

/-- The effect of replacing the shard of `k`. -/
theorem setShard {db : DB K V} (hi : Inv db) (k : K) {s s' : HMap K V} (hs : db.shards[db.idx k]? = some s)
    (hw : HMap.WF s') (hg : ∀ k', k' ≠ k → HMap.get s' k' = HMap.get s k') :
    Inv { db with shards := db.shards.set (db.idx k) s' } ∧
    abs { db with shards := db.shards.set (db.idx k) s' } =
      ⟨(abs db).read, set (abs db).write k (HMap.get s' k)⟩ := by
  have hkeys : ∀ k' ∈ s'.keys, db.idx k' = db.idx k := by
    intro k' hk'
    by_cases h : k' = k
    · rw [h]
    · rw [HMap.mem_keys_iff, hg k' h, ← HMap.mem_keys_iff] at hk'
      exact hi.w.home _ _ hs k' hk'
  have hset := hi.w.set hw hkeys
  refine ⟨⟨hset, hi.r, by simpa using hi.len⟩, ?_⟩
  unfold abs
  congr 1
  funext k'
  unfold DBDashMap.set
  show look db.idx (db.shards.set (db.idx k) s') k' = _
  rw [look_set hi.w]
  by_cases h : k' = k
  · simp [h]
  · rw [if_neg h]
    by_cases hx : db.idx k' = db.idx k
    · rw [if_pos hx, hg k' h]
      simp [look, hx, hs]
    · rw [if_neg hx]

theorem shard_exists {db : DB K V} (hi : Inv db) (k : K) :
    ∃ s, db.shards[db.idx k]? = some s ∧ HMap.WF s ∧ HMap.get s k = (abs db).write k := by
  have h := hi.w.inRange k
  refine ⟨_, List.getElem?_eq_getElem h, hi.w.wf _ (List.getElem_mem h), ?_⟩
  simp [abs, look, h]

theorem rshard_exists {db : DB K V} (hi : Inv db) (k : K) :
    ∃ s, db.rShards[db.idx k]? = some s ∧ HMap.WF s ∧ HMap.get s k = (abs db).read k := by
  have h := hi.r.inRange k
  refine ⟨_, List.getElem?_eq_getElem h, hi.r.wf _ (List.getElem_mem h), ?_⟩
  simp [abs, look, h]

theorem insert_sim {db : DB K V} (hi : Inv db) (k : K) (v : V) :
    ∃ db', insert db k v = some (db', none) ∧ Inv db' ∧ db'.rShards = db.rShards ∧
      abs db' = ⟨(abs db).read, set (abs db).write k (some v)⟩ := by
  obtain ⟨s, hs, hw, _⟩ := shard_exists hi k
  have hwr := HMap.WF_remove hw k
  have h := setShard hi k hs (HMap.WF_insert hwr k v) (by
    intro k' hk'
    simp [hk'])
  refine ⟨{ db with shards := db.shards.set (db.idx k) (HMap.insert (HMap.remove s k).1 k v).1 },
    ?_, h.1, rfl, ?_⟩
  · unfold insert
    rw [hs]
    simp
  · rw [h.2]; simp

theorem remove_sim {db : DB K V} (hi : Inv db) (k : K) :
    ∃ db', remove db k = some (db', ((abs db).write k).map (fun v => (k, v))) ∧ Inv db' ∧
      db'.rShards = db.rShards ∧ abs db' = ⟨(abs db).read, set (abs db).write k none⟩ := by
  obtain ⟨s, hs, hw, hg⟩ := shard_exists hi k
  have h := setShard hi k hs (HMap.WF_remove hw k) (by
    intro k' hk'
    simp [hk'])
  refine ⟨{ db with shards := db.shards.set (db.idx k) (HMap.remove s k).1 }, ?_, h.1, rfl, ?_⟩
  · unfold remove
    rw [hs]
    simp [HMap.remove_snd, hg]
  · rw [h.2]; simp

theorem updateShard_get (w : HMap K V) : ∀ (r : HMap K V), HMap.WF w → ∀ k,
    HMap.get (updateShard w r) k = (HMap.get w k).or (HMap.get r k) := by
  induction w with
  | nil => intro r _ k; simp [updateShard]
  | cons e w ih =>
    intro r hw k
    rw [HMap.WF_cons] at hw
    have : updateShard (e :: w) r = updateShard w (HMap.insert (HMap.remove r e.1).1 e.1 e.2).1 := rfl
    rw [this, ih _ hw.2, HMap.get_insert, HMap.get_remove, HMap.get_cons]
    by_cases h : e.1 = k
    · subst h
      simp [HMap.get_eq_none_iff.2 hw.1]
    · simp [h, Ne.symm h]

theorem updateShard_wf (w : HMap K V) : ∀ (r : HMap K V), HMap.WF r → HMap.WF (updateShard w r) := by
  induction w with
  | nil => intro r h; exact h
  | cons e w ih => intro r h; exact ih _ (HMap.WF_insert (HMap.WF_remove h _) _ _)

theorem updateShard_keys (w : HMap K V) : ∀ (r : HMap K V) (k : K), k ∈ (updateShard w r).keys →
    k ∈ w.keys ∨ k ∈ r.keys := by
  induction w with
  | nil => intro r k h; exact Or.inr h
  | cons e w ih =>
    intro r k h
    rcases ih _ k h with h | h
    · exact Or.inl (by simp [HMap.keys] at *; exact Or.inr h)
    · rw [HMap.mem_keys_iff, HMap.get_insert, HMap.get_remove] at h
      by_cases hk : k = e.1
      · exact Or.inl (by simp [HMap.keys, hk])
      · simp [hk] at h; exact Or.inr (HMap.mem_keys_iff.2 h)

theorem applyRW_step (f : V → V) (w : HMap K V) (e : K × V) (k : K) :
    HMap.get (match HMap.get w e.1 with
      | some _ => HMap.adjust w e.1 f
      | none => (HMap.insert w e.1 (f e.2)).1) k =
    if k = e.1 then some (f ((HMap.get w e.1).getD e.2)) else HMap.get w k := by
  cases h : HMap.get w e.1 with
  | none => simp
  | some v => simp [HMap.get_adjustBy, h]

theorem applyRWShard_get (f : V → V) (r : HMap K V) : ∀ (w : HMap K V), HMap.WF r → ∀ k,
    HMap.get (applyRWShard f w r) k = match HMap.get r k with
      | none => HMap.get w k
      | some v => some (f ((HMap.get w k).getD v)) := by
  induction r with
  | nil => intro w _ k; simp [applyRWShard]
  | cons e r ih =>
    intro w hr k
    rw [HMap.WF_cons] at hr
    have : applyRWShard f w (e :: r) = applyRWShard f (match HMap.get w e.1 with
      | some _ => HMap.adjust w e.1 f
      | none => (HMap.insert w e.1 (f e.2)).1) r := rfl
    rw [this, ih _ hr.2, applyRW_step, HMap.get_cons]
    by_cases h : e.1 = k
    · subst h
      simp [HMap.get_eq_none_iff.2 hr.1]
    · simp [h, Ne.symm h]

theorem applyRWShard_wf (f : V → V) (r : HMap K V) : ∀ (w : HMap K V), HMap.WF w →
    HMap.WF (applyRWShard f w r) := by
  induction r with
  | nil => intro w h; exact h
  | cons e r ih =>
    intro w h
    refine ih _ ?_
    dsimp only
    split
    · exact HMap.WF_adjust h _ _
    · exact HMap.WF_insert h _ _

theorem applyRWShard_keys (f : V → V) (r : HMap K V) : ∀ (w : HMap K V) (k : K),
    k ∈ (applyRWShard f w r).keys → k ∈ w.keys ∨ k ∈ r.keys := by
  induction r with
  | nil => intro w k h; exact Or.inl h
  | cons e r ih =>
    intro w k h
    rcases ih _ k h with h | h
    · have := applyRW_step f w e k
      rw [HMap.mem_keys_iff] at h
      erw [this] at h
      by_cases hk : k = e.1
      · exact Or.inr (by simp [HMap.keys, hk])
      · rw [if_neg hk] at h; exact Or.inl (HMap.mem_keys_iff.2 h)
    · exact Or.inr (by simp [HMap.keys] at *; exact Or.inr h)

theorem update_sim {db : DB K V} (hi : Inv db) :
    Inv (update db) ∧ abs (update db) =
      ⟨fun k => ((abs db).write k).or ((abs db).read k), (abs db).write⟩ := by
  refine ⟨⟨hi.w, ?_, by simp [update, hi.len]⟩, ?_⟩
  · exact hi.w.zip hi.r updateShard (fun s s' _ h => updateShard_wf s s' h) (fun s s' k h => updateShard_keys s s' k h)
  · unfold abs
    congr 1
    funext k
    obtain ⟨s, s', _, _, h1, h2, h3, _, h4⟩ := look_zip hi.w hi.r updateShard k
    show look db.idx (List.zipWith updateShard db.shards db.rShards) k = _
    rw [h4, updateShard_get _ _ h3, h1, h2]

theorem applyRW_sim {db : DB K V} (hi : Inv db) (f : V → V) :
    Inv (applyToAllValuesReadWrite db f) ∧ abs (applyToAllValuesReadWrite db f) =
      ⟨(abs db).read, fun k => match (abs db).read k with
        | none => (abs db).write k
        | some r => some (f (((abs db).write k).getD r))⟩ := by
  refine ⟨⟨?_, hi.r, by simp [applyToAllValuesReadWrite, hi.len]⟩, ?_⟩
  · exact hi.w.zip hi.r (applyRWShard f) (fun s s' h _ => applyRWShard_wf f s' s h)
      (fun s s' k h => applyRWShard_keys f s' s k h)
  · unfold abs
    congr 1
    funext k
    obtain ⟨s, s', _, _, h1, h2, _, h3, h4⟩ := look_zip hi.w hi.r (applyRWShard f) k
    show look db.idx (List.zipWith (applyRWShard f) db.shards db.rShards) k = _
    rw [h4, applyRWShard_get f _ _ h3, h1, h2]

theorem applyW_sim {db : DB K V} (hi : Inv db) (f : V → V) :
    Inv (applyToAllValuesWrite db f) ∧ abs (applyToAllValuesWrite db f) =
      ⟨(abs db).read, fun k => ((abs db).write k).map f⟩ := by
  refine ⟨⟨⟨?_, ?_, ?_⟩, hi.r, by simp [applyToAllValuesWrite, hi.len]⟩, ?_⟩
  · intro k
    have := hi.w.inRange k
    rw [applyToAllValuesWrite, List.length_map]
    exact this
  · intro s hs
    obtain ⟨s', hs', rfl⟩ := List.mem_map.1 hs
    exact HMap.WF_map (hi.w.wf _ hs') _ (fun _ => rfl)
  · intro i s hs k hk
    simp only [applyToAllValuesWrite, List.getElem?_map] at hs
    cases h' : db.shards[i]? with
    | none => rw [h'] at hs; exact absurd hs (by simp)
    | some x =>
      rw [h'] at hs
      simp only [Option.map_some, Option.some.injEq] at hs
      subst hs
      exact hi.w.home i x h' k (by simpa [HMap.keys] using hk)
  · unfold abs
    congr 1
    funext k
    show (((db.shards.map (fun s => s.map (fun e => (e.1, f e.2))))[db.idx k]?).bind (HMap.get · k)) =
      ((db.shards[db.idx k]?).bind (HMap.get · k)).map f
    rw [List.getElem?_map]
    cases db.shards[db.idx k]? with
    | none => rfl
    | some s => simp [HMap.get_mapVal]

theorem modifyWrite_sim {db : DB K V} (hi : Inv db) (k : K) (f : V → V) :
    ∃ db', modifyWrite db k f = some db' ∧ Inv db' ∧
      abs db' = ⟨(abs db).read, set (abs db).write k (((abs db).write k).map f)⟩ := by
  obtain ⟨s, hs, hw, hg⟩ := shard_exists hi k
  have h := setShard hi k hs (HMap.WF_adjust hw k f) (by
    intro k' hk'
    simp [HMap.get_adjustBy, hk'])
  refine ⟨{ db with shards := db.shards.set (db.idx k) (HMap.adjust s k f) }, ?_, h.1, ?_⟩
  · unfold modifyWrite
    rw [hs]
  · rw [h.2, HMap.get_adjustBy, hg]; simp

theorem applyAll_fold (f : V → V) (l : List (K × V)) : ∀ (db : DB K V), Inv db → HMap.WF l →
    ∃ db', l.foldlM (fun db e => (insert db e.1 (f e.2)).map Prod.fst) db = some db' ∧ Inv db' ∧
      abs db' = ⟨(abs db).read, fun k => ((HMap.get l k).map f).or ((abs db).write k)⟩ := by
  induction l with
  | nil => intro db hi _; exact ⟨db, rfl, hi, by simp⟩
  | cons e l ih =>
    intro db hi hw
    rw [HMap.WF_cons] at hw
    obtain ⟨db1, h1, hi1, _, ha1⟩ := insert_sim hi e.1 (f e.2)
    obtain ⟨db2, h2, hi2, ha2⟩ := ih db1 hi1 hw.2
    refine ⟨db2, ?_, hi2, ?_⟩
    · rw [List.foldlM_cons, h1]
      exact h2
    · rw [ha2, ha1]
      congr 1
      funext k
      rw [HMap.get_cons]
      unfold DBDashMap.set
      by_cases h : e.1 = k
      · subst h
        simp [HMap.get_eq_none_iff.2 hw.1]
      · simp [h, Ne.symm h]

theorem applyKeys_fold (f : V → K → Option K) (l : List (K × V)) : ∀ (db : DB K V), Inv db →
    ∃ db', l.foldlM (applyKey f) db = some db' ∧ Inv db' ∧
      abs db' = ⟨(abs db).read, l.foldl (moveKey f) (abs db).write⟩ := by
  induction l with
  | nil => intro db hi; exact ⟨db, rfl, hi, rfl⟩
  | cons e l ih =>
    intro db hi
    cases hf : f e.2 e.1 with
    | none =>
      obtain ⟨db', h1, h2, h3⟩ := ih db hi
      refine ⟨db', ?_, h2, ?_⟩
      · rw [List.foldlM_cons, applyKey, hf]; exact h1
      · rw [h3, List.foldl_cons, moveKey, hf]
    | some x =>
      obtain ⟨db1, h1, hi1, _, ha1⟩ := remove_sim hi e.1
      obtain ⟨db2, h2, hi2, _, ha2⟩ := insert_sim hi1 x e.2
      obtain ⟨db3, h3, hi3, ha3⟩ := ih db2 hi2
      refine ⟨db3, ?_, hi3, ?_⟩
      · rw [List.foldlM_cons, applyKey, hf]
        simp only [h1, Option.bind_some, h2, Option.map_some]
        exact h3
      · rw [ha3, ha2, ha1, List.foldl_cons, moveKey, hf]

theorem merge_list {l : HMap K V} (h : HMap.WF l) :
    HMap.WF (l.foldl (fun m e => (HMap.insert m e.1 e.2).1) []) ∧
    ∀ k v, (k, v) ∈ l.foldl (fun m e => (HMap.insert m e.1 e.2).1) [] ↔ HMap.get l k = some v := by
  have h1 : HMap.WF (l.foldl (fun m e => (HMap.insert m e.1 e.2).1) []) :=
    HMap.WF_foldl_insert l id [] HMap.WF_nil
  refine ⟨h1, ?_⟩
  intro k v
  rw [← HMap.get_eq_some_iff h1]
  have := HMap.get_foldl_insert l id [] h k
  simp only [id, HMap.get_nil, Option.or_none] at this
  rw [this]
  cases HMap.get l k <;> rfl

omit [DecidableEq K] in
theorem length_flatten_sum (l : List (HMap K V)) : (l.map List.length).sum = l.flatten.length := by
  rw [List.length_flatten]

theorem hasSize_flatten {idx : K → Nat} {l : List (HMap K V)} (h : Sharded idx l) :
    HasSize (look idx l) (l.map List.length).sum := by
  refine ⟨l.flatten.map Prod.fst, h.wf_flatten, ?_, by rw [length_flatten_sum, List.length_map]⟩
  intro k
  have := HMap.mem_keys_iff (m := l.flatten) (k := k)
  rw [HMap.keys, h.get_flatten] at this
  rw [this]
  cases look idx l k <;> simp

theorem empty_iff {idx : K → Nat} {l : List (HMap K V)} (h : Sharded idx l) :
    ((l.map List.length).sum == 0) = true ↔ ∀ k, look idx l k = none := by
  rw [length_flatten_sum, beq_iff_eq, List.length_eq_zero_iff]
  constructor
  · intro h' k
    rw [← h.get_flatten, h']; rfl
  · intro h'
    rw [List.eq_nil_iff_forall_not_mem]
    rintro ⟨k, v⟩ hm
    rw [h.mem_flatten, h' k] at hm
    exact absurd hm (by simp)

omit [DecidableEq K] in
theorem flatMap_keys (l : List (HMap K V)) : l.flatMap HMap.keys = l.flatten.map Prod.fst := by
  rw [List.flatMap, List.map_flatten]; rfl

theorem keys_ok {idx : K → Nat} {l : List (HMap K V)} (h : Sharded idx l) :
    (l.flatMap HMap.keys).Nodup ∧ ∀ k, k ∈ l.flatMap HMap.keys ↔ look idx l k ≠ none := by
  rw [flatMap_keys]
  refine ⟨h.wf_flatten, ?_⟩
  intro k
  have := HMap.mem_keys_iff (m := l.flatten) (k := k)
  rw [HMap.keys, h.get_flatten] at this
  rw [this]
  cases look idx l k <;> simp

theorem getKeyValue_eq (m : HMap K V) (k : K) :
    HMap.getKeyValue m k = (HMap.get m k).map (fun v => (k, v)) := by
  rw [← HMap.remove_snd]; rfl

/-- One call on the sharded map does what the pair of plain maps does. -/
theorem exec_sim {db : DB K V} (hi : Inv db) (c : Cmd K V) :
    ∃ db' o, exec db c = some (db', o) ∧ Inv db' ∧ Pair.Step (abs db) c (abs db') ∧ (abs db).Answers c o := by
  cases c with
  | insert k v =>
    obtain ⟨db', h1, h2, _, h3⟩ := insert_sim hi k v
    exact ⟨db', .value none, by simp [exec, h1], h2, by rw [h3]; exact .insert _ k v, rfl⟩
  | remove k =>
    obtain ⟨db', h1, h2, _, h3⟩ := remove_sim hi k
    exact ⟨db', _, by simp [exec, h1], h2, by rw [h3]; exact .remove _ k, rfl⟩
  | getRead k =>
    obtain ⟨s, hs, _, hg⟩ := rshard_exists hi k
    exact ⟨db, .value (HMap.get s k), by simp [exec, getRead, hs], hi, .getRead _ k, by rw [hg]; rfl⟩
  | getKeyValue k =>
    obtain ⟨s, hs, _, hg⟩ := rshard_exists hi k
    exact ⟨db, .entry (HMap.getKeyValue s k), by simp [exec, getKeyValue, hs], hi, .getKeyValue _ k,
      by rw [getKeyValue_eq, hg]; rfl⟩
  | getWrite k =>
    obtain ⟨s, hs, _, hg⟩ := shard_exists hi k
    exact ⟨db, .value (HMap.get s k), by simp [exec, getWrite, hs], hi, .getWrite _ k, by rw [hg]; rfl⟩
  | modifyWrite k f =>
    obtain ⟨db', h1, h2, h3⟩ := modifyWrite_sim hi k f
    exact ⟨db', .unit, by simp [exec, h1], h2, by rw [h3]; exact .modifyWrite _ k f, rfl⟩
  | lazyUpdate =>
    refine ⟨lazyUpdate db, .unit, rfl, ⟨hi.w.cleared hi.len.symm, hi.w, by simp [lazyUpdate, hi.len]⟩, ?_, rfl⟩
    have : abs (lazyUpdate db) = ⟨(abs db).write, fun _ => none⟩ := by
      unfold abs
      congr 1
      funext k
      exact look_cleared _ _ _
    rw [this]
    exact .lazyUpdate _
  | update =>
    exact ⟨_, .unit, rfl, (update_sim hi).1, by rw [(update_sim hi).2]; exact .update _, rfl⟩
  | clear =>
    refine ⟨clear db, .unit, rfl, ⟨hi.w.cleared rfl, hi.r, by simp [clear, hi.len]⟩, ?_, rfl⟩
    have : abs (clear db) = ⟨(abs db).read, fun _ => none⟩ := by
      unfold abs
      congr 1
      funext k
      exact look_cleared _ _ _
    rw [this]
    exact .clear _
  | mergeRShards =>
    refine ⟨_, _, rfl, ⟨hi.w.cleared rfl, hi.r, by simp [mergeRShards, hi.len]⟩, ?_, ?_⟩
    · have : abs (mergeRShards db).1 = ⟨(abs db).read, fun _ => none⟩ := by
        unfold abs
        congr 1
        funext k
        exact look_cleared _ _ _
      rw [this]
      exact .mergeRShards _
    · obtain ⟨h1, h2⟩ := merge_list hi.w.wf_flatten
      refine ⟨_, rfl, h1, ?_⟩
      intro k v
      rw [show (k, v) ∈ (mergeRShards db).2 ↔ _ from h2 k v, hi.w.get_flatten]
      rfl
  | len => exact ⟨_, _, rfl, hi, .len _, _, rfl, hasSize_flatten hi.w⟩
  | rLen => exact ⟨_, _, rfl, hi, .rLen _, _, rfl, hasSize_flatten hi.r⟩
  | isEmpty => exact ⟨_, _, rfl, hi, .isEmpty _, _, rfl, empty_iff hi.w⟩
  | isEmptyR => exact ⟨_, _, rfl, hi, .isEmptyR _, _, rfl, empty_iff hi.r⟩
  | keys => exact ⟨_, _, rfl, hi, .keys _, _, rfl, keys_ok hi.r⟩
  | wKeys => exact ⟨_, _, rfl, hi, .wKeys _, _, rfl, keys_ok hi.w⟩
  | values =>
    refine ⟨_, _, rfl, hi, .values _, db.rShards.flatten, ?_, hi.r.wf_flatten, hi.r.mem_flatten⟩
    rw [values, List.map_flatten]; rfl
  | applyToAllValues f =>
    obtain ⟨db', h1, h2, h3⟩ := applyAll_fold f _ db hi hi.r.wf_flatten
    refine ⟨db', .unit, by simp [exec, applyToAllValues, h1], h2, ?_, rfl⟩
    rw [h3]
    have : (fun k => ((HMap.get db.rShards.flatten k).map f).or ((abs db).write k)) =
        fun k => (((abs db).read k).map f).or ((abs db).write k) := by
      funext k
      rw [hi.r.get_flatten]; rfl
    rw [this]
    exact .applyToAllValues _ f
  | applyToAllValuesWrite f =>
    exact ⟨_, .unit, rfl, (applyW_sim hi f).1, by rw [(applyW_sim hi f).2]; exact .applyToAllValuesWrite _ f, rfl⟩
  | applyToAllValuesReadWrite f =>
    exact ⟨_, .unit, rfl, (applyRW_sim hi f).1,
      by rw [(applyRW_sim hi f).2]; exact .applyToAllValuesReadWrite _ f, rfl⟩
  | applyToAllKeys f =>
    obtain ⟨db', h1, h2, h3⟩ := applyKeys_fold f db.rShards.flatten db hi
    refine ⟨db', .unit, by simp [exec, applyToAllKeys, h1], h2, ?_, rfl⟩
    rw [h3]
    exact .applyToAllKeys _ f _ hi.r.wf_flatten hi.r.mem_flatten

theorem run_sim (cs : List (Cmd K V)) : ∀ {db : DB K V}, Inv db →
    ∃ db' os, run db cs = some (db', os) ∧ Inv db' ∧ Pair.Run (abs db) cs (abs db') os := by
  induction cs with
  | nil => intro db hi; exact ⟨db, [], rfl, hi, .nil _⟩
  | cons c cs ih =>
    intro db hi
    obtain ⟨db1, o, h1, hi1, hs, ha⟩ := exec_sim hi c
    obtain ⟨db2, os, h2, hi2, hr⟩ := ih hi1
    exact ⟨db2, o :: os, by simp [run, h1, h2], hi2, .cons hs ha hr⟩

end Verif.DBDashMap
