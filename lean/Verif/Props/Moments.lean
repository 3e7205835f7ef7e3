import Verif.Lemmas.Moments
import Verif.Props.DBDashMap

/-!
C239: calls of `DBDashMap` made while other threads write to the same map. Single-shard calls are single steps. `len`
and `is_empty` answer rightly for some moment of the call when the other threads only add (or change) entries, and also
when they only remove (or change) them; when they do both, `is_empty` may say `true` although the map was never empty.
`w_keys` is right about each key for some moment, but there need not be one moment for all keys, even when the others
only add. `clear` and `apply_to_all_values_write` take effect on each key at some moment, but not on all keys at one.
-/

namespace Verif.DBDashMap

variable {K V : Type} [DecidableEq K]

/-- All the changes made by the other threads from the beginning to the end of the call, in order. -/
def allChanges (others : Nat → List (Change K V)) (shards : Nat) : List (Change K V) :=
  (List.range (shards + 1)).flatMap others

omit [DecidableEq K] in
theorem allChanges_eq (others : Nat → List (Change K V)) (n : Nat) : allChanges others n = batch others 0 (n + 1) := by
  rw [allChanges, batch, List.range_eq_range']

omit [DecidableEq K] in
theorem allChanges_split (others : Nat → List (Change K V)) {n j : Nat} (h : j ≤ n) :
    allChanges others n = batch others 0 (j + 1) ++ batch others (j + 1) (n - j) := by
  rw [allChanges_eq, show n + 1 = (j + 1) + (n - j) by omega, batch_add, Nat.zero_add]

theorem acts_id {R : Type} (r : HMap K V → R) : Acts (fun s : HMap K V => (s, r s)) (fun _ o => o) :=
  ⟨fun _ h => h, fun _ _ => rfl, fun _ => rfl⟩

theorem acts_clear : Acts (fun _ : HMap K V => (([] : HMap K V), ())) (fun _ _ => none) :=
  ⟨fun _ _ => HMap.WF_nil, fun _ _ => rfl, fun _ => rfl⟩

theorem acts_map (f : V → V) :
    Acts (fun s : HMap K V => (s.map fun e => (e.1, f e.2), ())) (fun _ o => o.map f) :=
  ⟨fun _ h => HMap.WF_map h _ fun _ => rfl, fun s k => HMap.get_mapVal s f k, fun _ => rfl⟩

theorem getWrite_of_inv {db : DB K V} (hi : Inv db) (k : K) : getWrite db k = some ((abs db).write k) := by
  obtain ⟨s, hs, _, hg⟩ := shard_exists hi k
  rw [getWrite, hs, ← hg]

theorem write_eq {db : DB K V} (hi : Inv db) {w : K → Option V} (hw : ∀ k, getWrite db k = some (w k)) :
    (abs db).write = w := by
  funext k
  have := hw k
  rw [getWrite_of_inv hi] at this
  exact Option.some.inj this

/-- The contents after a visit that changes nothing. -/
theorem visit_id_write {R : Type} {r : HMap K V → R} {others : Nat → List (Change K V)} {db : DB K V} (hi : Inv db) :
    ∃ db' rs, visit (fun s => (s, r s)) others db.shards.length 0 db = some (db', rs) ∧ Inv db' ∧
      rs.length = db.shards.length ∧
      (abs db').write = after (abs db).write (allChanges others db.shards.length) ∧
      ∀ j x, rs[j]? = some x → ∃ s, x = r s ∧
        ShardOf db.idx (after (abs db).write (batch others 0 (j + 1))) j s := by
  obtain ⟨db', rs, h, hi', _, hl, hw, hs⟩ := visit_sim (acts_id r) others db.shards.length 0 hi (by omega)
  refine ⟨db', rs, h, hi', hl, ?_, ?_⟩
  · funext k
    have hk := hi.w.inRange k
    rw [hw, if_pos (Nat.zero_le _), after_one, Nat.sub_zero, Nat.zero_add, ← afterOne_append,
      ← allChanges_split others (by omega)]
  · intro j x hx
    obtain ⟨s, h1, h2⟩ := hs j x hx
    exact ⟨s, h1, by simpa using h2⟩

/-- The keys of shards taken at different moments. -/
theorem keys_of_shards {idx : K → Nat} {w : Nat → K → Option V} : ∀ {rs : List (List K)} (i : Nat),
    (∀ j x, rs[j]? = some x → ∃ s, x = HMap.keys s ∧ ShardOf idx (w (i + j)) (i + j) s) →
    rs.flatten.Nodup ∧ ∀ k, k ∈ rs.flatten ↔ i ≤ idx k ∧ idx k < i + rs.length ∧ w (idx k) k ≠ none
  | [], i, _ => ⟨by simp, fun k => by simp; omega⟩
  | x :: rs, i, h => by
    obtain ⟨s, hx, hwf, hg⟩ := h 0 x rfl
    have hmem : ∀ k, k ∈ x ↔ idx k = i ∧ w (idx k) k ≠ none := by
      intro k
      rw [hx, HMap.mem_keys_iff, hg k, Nat.add_zero]
      by_cases hk : idx k = i
      · rw [if_pos hk, hk]; cases w i k <;> simp
      · rw [if_neg hk]; simp [hk]
    obtain ⟨hn, hm⟩ := keys_of_shards (i + 1) (rs := rs) (w := w) (idx := idx) (fun j x hj => by
      have := h (j + 1) x hj
      rwa [show i + (j + 1) = i + 1 + j by omega] at this)
    refine ⟨?_, ?_⟩
    · rw [List.flatten_cons, List.nodup_append]
      refine ⟨by rw [hx]; exact hwf, hn, ?_⟩
      rintro a ha b hb rfl
      have h1 := ((hmem a).1 ha).1
      have h2 := ((hm a).1 hb).1
      omega
    · intro k
      rw [List.flatten_cons, List.mem_append, hmem, hm, List.length_cons]
      constructor
      · rintro (⟨h1, h2⟩ | ⟨h1, h2, h3⟩)
        · exact ⟨by omega, by omega, h2⟩
        · exact ⟨by omega, by omega, h3⟩
      · rintro ⟨h1, h2, h3⟩
        by_cases hk : idx k = i
        · exact .inl ⟨hk, h3⟩
        · exact .inr ⟨by omega, by omega, h3⟩

/-- What `w_keys` collects, key by key. -/
theorem wKeysDuring_spec {db : DB K V} (hi : Inv db) (others : Nat → List (Change K V)) :
    ∃ db' ks, wKeysDuring others db = some (db', ks) ∧ Inv db' ∧
      (abs db').write = after (abs db).write (allChanges others db.shards.length) ∧ ks.Nodup ∧
      ∀ k, k ∈ ks ↔ after (abs db).write (batch others 0 (db.idx k + 1)) k ≠ none := by
  obtain ⟨db', rs, h, hi', hl, hw, hs⟩ := visit_id_write (r := HMap.keys) (others := others) hi
  obtain ⟨hn, hm⟩ := keys_of_shards (idx := db.idx) (w := fun j => after (abs db).write (batch others 0 (j + 1)))
    (rs := rs) 0 (fun j x hj => by simpa using hs j x hj)
  refine ⟨db', rs.flatten, by simp [wKeysDuring, h], hi', hw, hn, fun k => ?_⟩
  rw [hm]
  have := hi.w.inRange k
  exact ⟨fun h => h.2.2, fun h => ⟨Nat.zero_le _, by omega, h⟩⟩

/-- `len` counts what `w_keys` would have collected. -/
theorem visit_len_keys (others : Nat → List (Change K V)) : ∀ (n i : Nat) (db : DB K V),
    (visit (fun s => (s, s.length)) others n i db).map (fun r => (r.1, r.2.sum)) =
    (visit (fun s => (s, HMap.keys s)) others n i db).map (fun r => (r.1, r.2.flatten.length))
  | 0, i, db => by
    simp only [visit]
    cases performAll db (others i) <;> rfl
  | n + 1, i, db => by
    simp only [visit]
    cases performAll db (others i) with
    | none => rfl
    | some d =>
      simp only [Option.bind_some]
      cases d.shards[i]? with
      | none => rfl
      | some s =>
        have ih := visit_len_keys others n (i + 1) { d with shards := d.shards.set i s }
        dsimp only
        cases h1 : visit (fun s : HMap K V => (s, s.length)) others n (i + 1)
            { d with shards := d.shards.set i s } with
        | none =>
          rw [h1] at ih
          cases h2 : visit (fun s : HMap K V => (s, HMap.keys s)) others n (i + 1)
              { d with shards := d.shards.set i s } with
          | none => rfl
          | some r' => rw [h2] at ih; simp at ih
        | some r =>
          rw [h1] at ih
          cases h2 : visit (fun s : HMap K V => (s, HMap.keys s)) others n (i + 1)
              { d with shards := d.shards.set i s } with
          | none => rw [h2] at ih; simp at ih
          | some r' =>
            rw [h2] at ih
            simp only [Option.map_some, Option.some.injEq, Prod.mk.injEq] at ih
            simp [ih.1, ih.2, HMap.keys]

theorem lenDuring_eq (others : Nat → List (Change K V)) (db : DB K V) :
    lenDuring others db = (wKeysDuring others db).map (fun r => (r.1, r.2.length)) := by
  rw [lenDuring, wKeysDuring, visit_len_keys, Option.map_map]; rfl

/-! ### The properties -/

/-- `insert`, `remove` and a change through `get_write` are single steps of the plain map, so any calls of these three
made by any number of threads act like the same calls made one after the other. -/
theorem C239_single_keys_partial (db : DB K V) (h : Reachable db) (w : K → Option V)
    (hw : ∀ k, getWrite db k = some (w k)) (cs : List (Change K V)) :
    ∃ db', performAll db cs = some db' ∧ (∀ k, getWrite db' k = some (after w cs k)) ∧
      (∀ k, getRead db' k = getRead db k) := by
  have hi := reachable_inv h
  obtain ⟨db', h1, hi', hf, ha⟩ := performAll_sim cs hi
  refine ⟨db', h1, fun k => ?_, fun k => ?_⟩
  · rw [getWrite_of_inv hi', ha, write_eq hi hw]
  · rw [getRead, getRead, hf.idx, hf.2.2.1]

/-- `len` while other threads only add or change entries: right at some moment of the call; nothing is lost. -/
theorem C239_len_growing_partial (db : DB K V) (h : Reachable db) (w : K → Option V)
    (hw : ∀ k, getWrite db k = some (w k)) (others : Nat → List (Change K V)) (hk : ∀ i, ∀ c ∈ others i, c.Keeps) :
    ∃ db' n, lenDuring others db = some (db', n) ∧
      AtSomeMoment w (allChanges others db.shards.length) (HasSize · n) ∧
      ∀ k, getWrite db' k = some (after w (allChanges others db.shards.length) k) := by
  have hi := reachable_inv h
  obtain ⟨db', ks, h1, hi', ha, hn, hm⟩ := wKeysDuring_spec hi others
  rw [write_eq hi hw] at ha hm
  refine ⟨db', ks.length, by rw [lenDuring_eq, h1]; rfl, ?_, fun k => by rw [getWrite_of_inv hi', ha]⟩
  have hks : HasSize (fun k => if k ∈ ks then some () else none) ks.length :=
    ⟨ks, hn, fun k => by by_cases hk : k ∈ ks <;> simp [hk], rfl⟩
  have hall : ∀ i n, ∀ c ∈ batch others i n, c.Keeps := by
    intro i n c hc
    obtain ⟨j, _, hj⟩ := List.mem_flatMap.1 hc
    exact hk j c hj
  have h0 := hasSize_flatten hi.w
  have hN := hasSize_flatten hi'.w
  change HasSize (abs db).write _ at h0
  change HasSize (abs db').write _ at hN
  rw [write_eq hi hw] at h0
  rw [ha] at hN
  apply hasSize_between _ h0 hN
  left
  obtain ⟨l0, hn0, hm0, hl0⟩ := h0
  obtain ⟨lN, hnN, hmN, hlN⟩ := hN
  constructor
  · rw [← hl0]
    refine (List.Nodup.subperm hn0 fun k hk0 => ?_).length_le
    rw [hm, after_one]
    exact keeps_one (hall _ _) k ((hm0 k).1 hk0)
  · rw [← hlN]
    refine (List.Nodup.subperm hn fun k hk0 => ?_).length_le
    have hlt := hi.w.inRange k
    rw [hmN, allChanges_split others (Nat.le_of_lt hlt), after_append, after_one]
    exact keeps_one (hall _ _) k ((hm k).1 hk0)

/-- `len` while other threads only remove or change entries: right at some moment of the call. -/
theorem C239_len_shrinking_partial (db : DB K V) (h : Reachable db) (w : K → Option V)
    (hw : ∀ k, getWrite db k = some (w k)) (others : Nat → List (Change K V))
    (hk : ∀ i, ∀ c ∈ others i, c.AddsNothing) :
    ∃ db' n, lenDuring others db = some (db', n) ∧
      AtSomeMoment w (allChanges others db.shards.length) (HasSize · n) ∧
      ∀ k, getWrite db' k = some (after w (allChanges others db.shards.length) k) := by
  have hi := reachable_inv h
  obtain ⟨db', ks, h1, hi', ha, hn, hm⟩ := wKeysDuring_spec hi others
  rw [write_eq hi hw] at ha hm
  refine ⟨db', ks.length, by rw [lenDuring_eq, h1]; rfl, ?_, fun k => by rw [getWrite_of_inv hi', ha]⟩
  have hall : ∀ i n, ∀ c ∈ batch others i n, c.AddsNothing := by
    intro i n c hc
    obtain ⟨j, _, hj⟩ := List.mem_flatMap.1 hc
    exact hk j c hj
  have h0 := hasSize_flatten hi.w
  have hN := hasSize_flatten hi'.w
  change HasSize (abs db).write _ at h0
  change HasSize (abs db').write _ at hN
  rw [write_eq hi hw] at h0
  rw [ha] at hN
  apply hasSize_between _ h0 hN
  right
  obtain ⟨l0, hn0, hm0, hl0⟩ := h0
  obtain ⟨lN, hnN, hmN, hlN⟩ := hN
  constructor
  · rw [← hlN]
    refine (List.Nodup.subperm hnN fun k hk0 => ?_).length_le
    have hlt := hi.w.inRange k
    have hne := (hmN k).1 hk0
    rw [allChanges_split others (Nat.le_of_lt hlt), after_append, after_one] at hne
    rw [hm]
    exact fun he => hne (addsNothing_one (hall _ _) k he)
  · rw [← hl0]
    refine (List.Nodup.subperm hn fun k hk0 => ?_).length_le
    have hne := (hm k).1 hk0
    rw [after_one] at hne
    rw [hm0]
    exact fun he => hne (addsNothing_one (hall _ _) k he)

omit [DecidableEq K] in
theorem hasSize_zero {w : K → Option V} : HasSize w 0 ↔ ∀ k, w k = none := by
  constructor
  · rintro ⟨l, _, hm, hl⟩ k
    rw [List.length_eq_zero_iff.1 hl] at hm
    by_contra hne
    exact absurd ((hm k).2 hne) (by simp)
  · exact fun h => ⟨[], by simp, fun k => by simp [h k], rfl⟩

/-- `is_empty` while other threads only add or change entries, or only remove or change them: right at some moment. -/
theorem C239_is_empty_one_way_partial (db : DB K V) (h : Reachable db) (w : K → Option V)
    (hw : ∀ k, getWrite db k = some (w k)) (others : Nat → List (Change K V))
    (hk : (∀ i, ∀ c ∈ others i, c.Keeps) ∨ (∀ i, ∀ c ∈ others i, c.AddsNothing)) :
    ∃ db' b, isEmptyDuring others db = some (db', b) ∧
      AtSomeMoment w (allChanges others db.shards.length) (fun m => b = true ↔ ∀ k, m k = none) := by
  have main : ∃ db' n, lenDuring others db = some (db', n) ∧
      AtSomeMoment w (allChanges others db.shards.length) (HasSize · n) := by
    rcases hk with hk | hk
    · obtain ⟨db', n, h1, h2, _⟩ := C239_len_growing_partial db h w hw others hk
      exact ⟨db', n, h1, h2⟩
    · obtain ⟨db', n, h1, h2, _⟩ := C239_len_shrinking_partial db h w hw others hk
      exact ⟨db', n, h1, h2⟩
  obtain ⟨db', n, h1, p, q, hpq, hs⟩ := main
  refine ⟨db', n == 0, by simp [isEmptyDuring, h1], p, q, hpq, ?_⟩
  show (n == 0) = true ↔ ∀ k, after w p k = none
  rw [beq_iff_eq, ← hasSize_zero]
  exact ⟨fun h => h ▸ hs, fun h => sizes_unique hs h⟩

/-- `w_keys` whatever other threads do: no key twice, and about each key the answer is right at some moment of the call.
In particular a key that is there all the time is in the answer and a key that never is there is not. -/
theorem C239_w_keys_each_partial (db : DB K V) (h : Reachable db) (w : K → Option V)
    (hw : ∀ k, getWrite db k = some (w k)) (others : Nat → List (Change K V)) :
    ∃ db' ks, wKeysDuring others db = some (db', ks) ∧ ks.Nodup ∧
      (∀ k, AtSomeMoment w (allChanges others db.shards.length) (fun m => k ∈ ks ↔ m k ≠ none)) ∧
      ∀ k, getWrite db' k = some (after w (allChanges others db.shards.length) k) := by
  have hi := reachable_inv h
  obtain ⟨db', ks, h1, hi', ha, hn, hm⟩ := wKeysDuring_spec hi others
  rw [write_eq hi hw] at ha hm
  refine ⟨db', ks, h1, hn, fun k => ?_, fun k => by rw [getWrite_of_inv hi', ha]⟩
  exact ⟨_, _, allChanges_split others (Nat.le_of_lt (hi.w.inRange k)), hm k⟩

/-- `clear` whatever other threads do: for each key it takes effect at one moment of the call (what was there
before, `w`, does not matter). -/
theorem C239_clear_each_partial (db : DB K V) (h : Reachable db) (w : K → Option V)
    (others : Nat → List (Change K V)) :
    ∃ db', clearDuring others db = some db' ∧
      ∀ k, ∃ w', EffectAtSomeMoment w (allChanges others db.shards.length) (fun _ _ => none) w' ∧
        getWrite db' k = some (w' k) := by
  have hi := reachable_inv h
  obtain ⟨db', rs, h1, hi', _, _, hv, _⟩ := visit_sim (acts_clear (K := K) (V := V)) others db.shards.length 0 hi (by omega)
  refine ⟨db', by simp [clearDuring, h1], fun k => ?_⟩
  refine ⟨_, ⟨_, _, allChanges_split others (Nat.le_of_lt (hi.w.inRange k)), rfl⟩, ?_⟩
  rw [getWrite_of_inv hi', hv, if_pos (Nat.zero_le _), after_one, Nat.zero_add]

/-- `apply_to_all_values_write` whatever other threads do: each entry is changed once, at one moment of the call. -/
theorem C239_apply_each_partial (f : V → V) (db : DB K V) (h : Reachable db) (w : K → Option V)
    (hw : ∀ k, getWrite db k = some (w k)) (others : Nat → List (Change K V)) :
    ∃ db', applyWriteDuring f others db = some db' ∧
      ∀ k, ∃ w', EffectAtSomeMoment w (allChanges others db.shards.length) (fun m k => (m k).map f) w' ∧
        getWrite db' k = some (w' k) := by
  have hi := reachable_inv h
  obtain ⟨db', rs, h1, hi', _, _, hv, _⟩ := visit_sim (acts_map (K := K) f) others db.shards.length 0 hi (by omega)
  refine ⟨db', by simp [applyWriteDuring, h1], fun k => ?_⟩
  refine ⟨_, ⟨_, _, allChanges_split others (Nat.le_of_lt (hi.w.inRange k)), rfl⟩, ?_⟩
  rw [getWrite_of_inv hi', hv, if_pos (Nat.zero_le _), after_one, write_eq hi hw, Nat.zero_add, Nat.sub_zero]
  dsimp only
  rw [after_one]

/-- While other threads only remove, `clear` leaves nothing: it takes effect as a whole at any moment. -/
theorem C239_clear_shrinking_partial (db : DB K V) (h : Reachable db) (others : Nat → List (Change K V))
    (hk : ∀ i, ∀ c ∈ others i, c.AddsNothing) :
    ∃ db', clearDuring others db = some db' ∧ ∀ k, getWrite db' k = some none := by
  obtain ⟨db', h1, h2⟩ := C239_clear_each_partial db h (fun _ => none) others
  refine ⟨db', h1, fun k => ?_⟩
  obtain ⟨w', ⟨p, q, hpq, rfl⟩, hg⟩ := h2 k
  rw [hg, after_one]
  congr 1
  apply addsNothing_one _ k rfl
  intro c hc
  have : c ∈ allChanges others db.shards.length := by rw [hpq]; exact List.mem_append_right _ hc
  obtain ⟨j, _, hj⟩ := List.mem_flatMap.1 this
  exact hk j c hj

/-! ### Witnesses: four shards, key `k` is in shard `k` modulo 4 -/

/-- A hash that puts key `k` into shard `k` modulo 4. -/
def spread (k : Nat) : Nat := k * 2 ^ 55

/-- A new map with four shards. -/
def nothing : DB Nat Nat := new 1 spread

/-- The same map after inserting key 1. -/
def onlyOne : DB Nat Nat := ((run nothing [.insert 1 10]).map Prod.fst).getD nothing

theorem nothing_reachable : Reachable nothing := ⟨1, spread, [], [], by decide +kernel, rfl⟩

theorem onlyOne_reachable : Reachable onlyOne := reachable_of_run (by decide +kernel) _ _

theorem nothing_write (k : Nat) : getWrite nothing k = some none := by
  have hi := reachable_inv nothing_reachable
  rw [getWrite_of_inv hi]
  show some ((abs (new 1 spread : DB Nat Nat)).write k) = _
  rw [abs_new]; rfl

theorem onlyOne_write (k : Nat) : getWrite onlyOne k = some (set (fun _ => none) 1 (some 10) k) := by
  obtain ⟨db', h, hi, _, ha⟩ := insert_sim (reachable_inv nothing_reachable) 1 10
  have he : onlyOne = db' := by
    simp only [onlyOne, run, exec, h, Option.map_some, Option.getD_some]
  rw [he, getWrite_of_inv hi, ha]
  have h0 := write_eq (w := fun _ => none) (reachable_inv nothing_reachable) nothing_write
  show some (set (abs nothing).write 1 (some 10) k) = _
  rw [h0]

theorem prefixes_two {α : Type} {a b : α} {p q : List α} (h : [a, b] = p ++ q) : p = [] ∨ p = [a] ∨ p = [a, b] := by
  match p, h with
  | [], _ => exact .inl rfl
  | [x], h => simp at h; exact .inr (.inl (by rw [h.1]))
  | [x, y], h => simp at h; exact .inr (.inr (by rw [h.1, h.2.1]))
  | x :: y :: z :: p, h => simp at h

/-- The other threads act between the first and the second shard. -/
def between (cs : List (Change Nat Nat)) (i : Nat) : List (Change Nat Nat) := if i = 1 then cs else []

theorem between_all (cs : List (Change Nat Nat)) : allChanges (between cs) 4 = cs := by
  simp [allChanges, between, List.range_succ]

/-- **C239 is false of `is_empty` and `len`** when other threads add and remove: the map holds key 1, another thread
inserts key 0 and then removes key 1, so the map is never empty, but `is_empty` answers `true`. -/
theorem C239_is_empty_negation_partial :
    ∃ (db : DB Nat Nat) (w : Nat → Option Nat) (others : Nat → List (Change Nat Nat)) (db' : DB Nat Nat), Reachable db ∧
      (∀ k, getWrite db k = some (w k)) ∧ isEmptyDuring others db = some (db', true) ∧
      lenDuring others db = some (db', 0) ∧
      ¬ AtSomeMoment w (allChanges others db.shards.length) (fun m => ∀ k, m k = none) ∧
      ¬ AtSomeMoment w (allChanges others db.shards.length) (HasSize · 0) := by
  have hl : onlyOne.shards.length = 4 := by decide +kernel
  have hlen : (lenDuring (between [.insert 0 5, .remove 1]) onlyOne).map Prod.snd = some 0 := by decide +kernel
  have hno : ¬ AtSomeMoment (set (fun _ => none) 1 (some 10)) (allChanges (between [.insert 0 5, .remove 1]) 4)
      (fun m => ∀ k, m k = none) := by
    rintro ⟨p, q, hpq, hP⟩
    rw [between_all] at hpq
    rcases prefixes_two hpq with rfl | rfl | rfl
    · exact absurd (hP 1) (by decide)
    · exact absurd (hP 1) (by decide)
    · exact absurd (hP 0) (by decide)
  obtain ⟨r, hr, hr0⟩ := Option.map_eq_some_iff.1 hlen
  have hr' : lenDuring (between [.insert 0 5, .remove 1]) onlyOne = some (r.1, 0) := by rw [hr, ← hr0]
  refine ⟨onlyOne, set (fun _ => none) 1 (some 10), between [.insert 0 5, .remove 1], r.1, onlyOne_reachable, onlyOne_write,
    by rw [isEmptyDuring, hr']; rfl, hr', ?_, ?_⟩
  · rw [hl]; exact hno
  · rw [hl]
    rintro ⟨p, q, hpq, hP⟩
    exact hno ⟨p, q, hpq, hasSize_zero.1 hP⟩

/-- **C239 is false of `w_keys`** even when other threads only add: keys 0 and 1 are inserted, in this order, and the
answer has key 1 but not key 0. -/
theorem C239_w_keys_negation_partial :
    ∃ (db : DB Nat Nat) (w : Nat → Option Nat) (others : Nat → List (Change Nat Nat)) (db' : DB Nat Nat) (ks : List Nat),
      Reachable db ∧ (∀ k, getWrite db k = some (w k)) ∧ (∀ i, ∀ c ∈ others i, c.Keeps) ∧
      wKeysDuring others db = some (db', ks) ∧
      ¬ AtSomeMoment w (allChanges others db.shards.length) (fun m => ∀ k, k ∈ ks ↔ m k ≠ none) := by
  have hl : nothing.shards.length = 4 := by decide +kernel
  have hk : (wKeysDuring (between [.insert 0 5, .insert 1 6]) nothing).map Prod.snd = some [1] := by decide +kernel
  obtain ⟨r, hr, hr0⟩ := Option.map_eq_some_iff.1 hk
  refine ⟨nothing, fun _ => none, between [.insert 0 5, .insert 1 6], r.1, [1], nothing_reachable, nothing_write, ?_,
    by rw [hr, ← hr0], ?_⟩
  · intro i c hc
    by_cases hi : i = 1
    · rw [between, if_pos hi] at hc
      rcases List.mem_cons.1 hc with rfl | hc
      · trivial
      · rw [List.mem_singleton.1 hc]; trivial
    · rw [between, if_neg hi] at hc; simp at hc
  · rw [hl]
    rintro ⟨p, q, hpq, hP⟩
    rw [between_all] at hpq
    rcases prefixes_two hpq with rfl | rfl | rfl
    · exact absurd (hP 1) (by decide)
    · exact absurd (hP 1) (by decide)
    · exact absurd (hP 0) (by decide)

/-- **C239 is false of `clear`** even when other threads only add: key 0 is inserted before key 1, and afterwards key 0 is
there and key 1 is not. -/
theorem C239_clear_negation_partial :
    ∃ (db : DB Nat Nat) (w w' : Nat → Option Nat) (others : Nat → List (Change Nat Nat)) (db' : DB Nat Nat),
      Reachable db ∧ (∀ k, getWrite db k = some (w k)) ∧ (∀ i, ∀ c ∈ others i, c.Keeps) ∧
      clearDuring others db = some db' ∧ (∀ k, getWrite db' k = some (w' k)) ∧
      ¬ EffectAtSomeMoment w (allChanges others db.shards.length) (fun _ _ => none) w' := by
  have hl : nothing.shards.length = 4 := by decide +kernel
  obtain ⟨db', h1, h2⟩ := C239_clear_each_partial nothing nothing_reachable (fun _ => none)
    (between [.insert 0 5, .insert 1 6])
  have hk0 : (clearDuring (between [.insert 0 5, .insert 1 6]) nothing).bind (getWrite · 0) = some (some 5) := by
    decide +kernel
  have hk1 : (clearDuring (between [.insert 0 5, .insert 1 6]) nothing).bind (getWrite · 1) = some none := by
    decide +kernel
  rw [h1, Option.bind_some] at hk0 hk1
  refine ⟨nothing, fun _ => none, fun k => (getWrite db' k).getD none, between [.insert 0 5, .insert 1 6], db',
    nothing_reachable, nothing_write, ?_, h1, ?_, ?_⟩
  · intro i c hc
    by_cases hi : i = 1
    · rw [between, if_pos hi] at hc
      rcases List.mem_cons.1 hc with rfl | hc
      · trivial
      · rw [List.mem_singleton.1 hc]; trivial
    · rw [between, if_neg hi] at hc; simp at hc
  · intro k
    obtain ⟨w', _, hg⟩ := h2 k
    show _ = some ((getWrite db' k).getD none)
    rw [hg, Option.getD_some]
  · rw [hl]
    rintro ⟨p, q, hpq, he⟩
    rw [between_all] at hpq
    have e0 := congrFun he 0
    have e1 := congrFun he 1
    rw [hk0] at e0
    rw [hk1] at e1
    rcases prefixes_two hpq with rfl | rfl | rfl
    · simp only [List.nil_append] at hpq; subst hpq
      exact absurd e1 (by decide)
    · simp only [List.singleton_append, List.cons.injEq, true_and] at hpq; subst hpq
      exact absurd e0 (by decide)
    · simp at hpq; subst hpq
      exact absurd e0 (by decide)

/-- The hypotheses are met by a map with an entry and by other threads that add entries in the middle of the call: `len`
answers 2, which is right after the first of the two insertions. -/
example : Reachable onlyOne ∧ (∀ k, getWrite onlyOne k = some (set (fun _ => none) 1 (some 10) k)) ∧
    (∀ i, ∀ c ∈ between [.insert 0 5, .insert 2 6] i, c.Keeps) ∧
    (lenDuring (between [.insert 0 5, .insert 2 6]) onlyOne).map Prod.snd = some 2 := by
  refine ⟨onlyOne_reachable, onlyOne_write, ?_, by decide +kernel⟩
  intro i c hc
  by_cases hi : i = 1
  · rw [between, if_pos hi] at hc
    rcases List.mem_cons.1 hc with rfl | hc
    · trivial
    · rw [List.mem_singleton.1 hc]; trivial
  · rw [between, if_neg hi] at hc; simp at hc

theorem visit_alone {R : Type} (act : HMap K V → HMap K V × R) : ∀ (n i : Nat) (db : DB K V), i + n = db.shards.length →
    visit act (fun _ => []) n i db =
      some ({ db with shards := db.shards.take i ++ (db.shards.drop i).map fun s => (act s).1 },
        (db.shards.drop i).map fun s => (act s).2)
  | 0, i, db, h => by
    have e : db.shards.drop i = [] := List.drop_eq_nil_of_le (by omega)
    have e' : db.shards.take i = db.shards := List.take_of_length_le (by omega)
    simp [visit, performAll, e, e']
  | n + 1, i, db, h => by
    have hlt : i < db.shards.length := by omega
    have ih := visit_alone act n (i + 1) { db with shards := db.shards.set i (act db.shards[i]).1 } (by simp; omega)
    simp only [visit, performAll, Option.bind_some, List.getElem?_eq_getElem hlt, ih, Option.map_some,
      Option.some.injEq, Prod.mk.injEq, DB.mk.injEq, true_and, and_true]
    rw [List.drop_eq_getElem_cons hlt]
    have hd : (db.shards.set i (act db.shards[i]).1).drop (i + 1) = db.shards.drop (i + 1) :=
      List.drop_set_of_lt (by omega)
    rw [hd]
    refine ⟨?_, by rw [List.map_cons]⟩
    have ht : (db.shards.set i (act db.shards[i]).1).take (i + 1) = db.shards.take i ++ [(act db.shards[i]).1] := by
      rw [List.take_add_one, List.take_set_of_le (Nat.le_refl i)]
      simp [hlt]
    rw [ht, List.map_cons, List.append_assoc]
    rfl

/-- Without other threads the calls are the ones of C15. -/
theorem C239_alone_partial (db : DB K V) :
    lenDuring (fun _ => []) db = some (db, len db) ∧ wKeysDuring (fun _ => []) db = some (db, wKeys db) ∧
    clearDuring (fun _ => []) db = some (clear db) ∧
    ∀ f, applyWriteDuring f (fun _ => []) db = some (applyToAllValuesWrite db f) := by
  refine ⟨?_, ?_, ?_, fun f => ?_⟩
  · simp [lenDuring, visit_alone, len]
  · simp [wKeysDuring, visit_alone, wKeys, List.flatMap]
  · simp [clearDuring, visit_alone, clear]
  · simp [applyWriteDuring, visit_alone, applyToAllValuesWrite]

end Verif.DBDashMap
