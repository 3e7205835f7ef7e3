import Verif.Lemmas.DBDashMap
import Verif.Model.DBDashThreads
import Mathlib.Data.List.Perm.Subperm

/-! Lemmas about calls of `DBDashMap` made while other threads write. -/

namespace Verif.DBDashMap

variable {K V : Type} [DecidableEq K]

/-- The effect of a change on the value of one key. -/
def Change.one (k : K) (o : Option V) : Change K V → Option V
  | .insert k' v => if k = k' then some v else o
  | .remove k' => if k = k' then none else o
  | .modify k' f => if k = k' then o.map f else o

/-- The value of one key after changes. -/
def afterOne (k : K) (o : Option V) (cs : List (Change K V)) : Option V := cs.foldl (Change.one k) o

theorem apply_one (w : K → Option V) (c : Change K V) (k : K) : c.apply w k = c.one k (w k) := by
  cases c with
  | insert k' v => rfl
  | remove k' => rfl
  | modify k' f =>
    simp only [Change.apply, Change.one, set]
    by_cases h : k = k'
    · rw [if_pos h, if_pos h, h]
    · rw [if_neg h, if_neg h]

theorem after_one (k : K) : ∀ (cs : List (Change K V)) (w : K → Option V), after w cs k = afterOne k (w k) cs
  | [], _ => rfl
  | c :: cs, w => by
    rw [show after w (c :: cs) = after (c.apply w) cs from rfl, after_one k cs, apply_one]; rfl

theorem after_append (w : K → Option V) (a b : List (Change K V)) : after w (a ++ b) = after (after w a) b :=
  List.foldl_append

theorem afterOne_append (k : K) (o : Option V) (a b : List (Change K V)) :
    afterOne k o (a ++ b) = afterOne k (afterOne k o a) b := List.foldl_append

/-- `db'` differs from `db` only in the contents of its write shards. -/
def SameFrame (db db' : DB K V) : Prop :=
  db'.shift = db.shift ∧ db'.hash = db.hash ∧ db'.rShards = db.rShards ∧ db'.shards.length = db.shards.length

omit [DecidableEq K] in
theorem SameFrame.idx {db db' : DB K V} (h : SameFrame db db') : db'.idx = db.idx := by
  funext k; unfold DB.idx; rw [h.1, h.2.1]

omit [DecidableEq K] in
theorem SameFrame.trans {a b c : DB K V} (h : SameFrame a b) (h' : SameFrame b c) : SameFrame a c :=
  ⟨h'.1.trans h.1, h'.2.1.trans h.2.1, h'.2.2.1.trans h.2.2.1, h'.2.2.2.trans h.2.2.2⟩

omit [DecidableEq K] in
theorem sameFrame_set (db : DB K V) (i : Nat) (s : HMap K V) :
    SameFrame db { db with shards := db.shards.set i s } :=
  ⟨rfl, rfl, rfl, by simp⟩

theorem perform_frame {db db' : DB K V} {c : Change K V} (h : perform db c = some db') : SameFrame db db' := by
  cases c with
  | insert k v =>
    simp only [perform, insert] at h
    cases hs : db.shards[db.idx k]? with
    | none => rw [hs] at h; simp at h
    | some s => rw [hs] at h; simp at h; subst h; exact sameFrame_set _ _ _
  | remove k =>
    simp only [perform, remove] at h
    cases hs : db.shards[db.idx k]? with
    | none => rw [hs] at h; simp at h
    | some s => rw [hs] at h; simp at h; subst h; exact sameFrame_set _ _ _
  | modify k f =>
    simp only [perform, modifyWrite] at h
    cases hs : db.shards[db.idx k]? with
    | none => rw [hs] at h; simp at h
    | some s => rw [hs] at h; simp at h; subst h; exact sameFrame_set _ _ _

theorem perform_sim {db : DB K V} (hi : Inv db) (c : Change K V) :
    ∃ db', perform db c = some db' ∧ Inv db' ∧ SameFrame db db' ∧ (abs db').write = c.apply (abs db).write := by
  cases c with
  | insert k v =>
    obtain ⟨db', h, hi', _, ha⟩ := insert_sim hi k v
    have hp : perform db (.insert k v) = some db' := by simp [perform, h]
    exact ⟨db', hp, hi', perform_frame hp, by rw [ha]; rfl⟩
  | remove k =>
    obtain ⟨db', h, hi', _, ha⟩ := remove_sim hi k
    have hp : perform db (.remove k : Change K V) = some db' := by simp [perform, h]
    exact ⟨db', hp, hi', perform_frame hp, by rw [ha]; rfl⟩
  | modify k f =>
    obtain ⟨db', h, hi', ha⟩ := modifyWrite_sim hi k f
    have hp : perform db (.modify k f) = some db' := by simp [perform, h]
    exact ⟨db', hp, hi', perform_frame hp, by rw [ha]; rfl⟩

theorem performAll_sim : ∀ (cs : List (Change K V)) {db : DB K V}, Inv db →
    ∃ db', performAll db cs = some db' ∧ Inv db' ∧ SameFrame db db' ∧ (abs db').write = after (abs db).write cs
  | [], db, hi => ⟨db, rfl, hi, ⟨rfl, rfl, rfl, rfl⟩, rfl⟩
  | c :: cs, db, hi => by
    obtain ⟨d1, h1, hi1, hf1, ha1⟩ := perform_sim hi c
    obtain ⟨d2, h2, hi2, hf2, ha2⟩ := performAll_sim cs hi1
    refine ⟨d2, ?_, hi2, hf1.trans hf2, ?_⟩
    · simp [performAll, h1, h2]
    · rw [ha2, ha1]; rfl

/-- The changes made before the shards `i`, …, `i + n - 1` are locked. -/
def batch (others : Nat → List (Change K V)) (i n : Nat) : List (Change K V) :=
  (List.range' i n).flatMap others

omit [DecidableEq K] in
theorem batch_succ (others : Nat → List (Change K V)) (i n : Nat) :
    batch others i (n + 1) = others i ++ batch others (i + 1) n := by
  simp [batch, List.range'_succ]

omit [DecidableEq K] in
theorem batch_add (others : Nat → List (Change K V)) (i m n : Nat) :
    batch others i (m + n) = batch others i m ++ batch others (i + m) n := by
  unfold batch
  rw [← List.flatMap_append]
  congr 1
  simp

/-- What is done to a shard under its lock: entries keep their keys, `g` says what happens to a value. -/
structure Acts {R : Type} (act : HMap K V → HMap K V × R) (g : K → Option V → Option V) : Prop where
  wf : ∀ s, HMap.WF s → HMap.WF (act s).1
  get : ∀ s k, HMap.get (act s).1 k = g k (HMap.get s k)
  none : ∀ k, g k none = none

/-- The entries of the shard `j` of a map with the values `w`. -/
def ShardOf (idx : K → Nat) (w : K → Option V) (j : Nat) (s : HMap K V) : Prop :=
  HMap.WF s ∧ ∀ k, HMap.get s k = if idx k = j then w k else none

theorem shardOf {db : DB K V} (hi : Inv db) {j : Nat} {s : HMap K V} (h : db.shards[j]? = some s) :
    ShardOf db.idx (abs db).write j s := by
  refine ⟨hi.w.wf s (List.mem_of_getElem? h), fun k => ?_⟩
  by_cases hk : db.idx k = j
  · rw [if_pos hk]; simp [abs, look, hk, h]
  · rw [if_neg hk, HMap.get_eq_none_iff]
    exact fun hm => hk (hi.w.home _ _ h k hm)

theorem set_shard_sim {db : DB K V} (hi : Inv db) {i : Nat} {s s' : HMap K V} (h : db.shards[i]? = some s)
    (hw : HMap.WF s') (g : K → Option V → Option V) (hn : ∀ k, g k none = none)
    (hg : ∀ k, HMap.get s' k = g k (HMap.get s k)) :
    Inv { db with shards := db.shards.set i s' } ∧
    ∀ k, (abs { db with shards := db.shards.set i s' }).write k =
      if db.idx k = i then g k ((abs db).write k) else (abs db).write k := by
  have hs := shardOf hi h
  have hkeys : ∀ k' ∈ s'.keys, db.idx k' = i := by
    intro k' hk'
    by_contra hne
    rw [HMap.mem_keys_iff, hg, hs.2, if_neg hne, hn] at hk'
    simp at hk'
  refine ⟨⟨hi.w.set hw hkeys, hi.r, by simpa using hi.len⟩, fun k => ?_⟩
  show look db.idx (db.shards.set i s') k = _
  rw [look_set hi.w]
  by_cases hk : db.idx k = i
  · rw [if_pos hk, if_pos hk, hg, hs.2, if_pos hk]
  · rw [if_neg hk, if_neg hk]; rfl

theorem visit_sim {R : Type} {act : HMap K V → HMap K V × R} {g : K → Option V → Option V} (ha : Acts act g)
    (others : Nat → List (Change K V)) : ∀ (n i : Nat) {db : DB K V}, Inv db → i + n = db.shards.length →
    ∃ db' rs, visit act others n i db = some (db', rs) ∧ Inv db' ∧ SameFrame db db' ∧ rs.length = n ∧
      (∀ k, (abs db').write k =
        if i ≤ db.idx k then
          afterOne k (g k (afterOne k ((abs db).write k) (batch others i (db.idx k - i + 1))))
            (batch others (db.idx k + 1) (i + n - db.idx k))
        else afterOne k ((abs db).write k) (batch others i (n + 1))) ∧
      ∀ j r, rs[j]? = some r → ∃ s, r = (act s).2 ∧
        ShardOf db.idx (after (abs db).write (batch others i (j + 1))) (i + j) s
  | 0, i, db, hi, hl => by
    obtain ⟨d1, h1, hi1, hf1, ha1⟩ := performAll_sim (others i) hi
    refine ⟨d1, [], by simp [visit, h1], hi1, hf1, rfl, ?_, by simp⟩
    intro k
    have hk := hi.w.inRange k
    rw [if_neg (by omega), ha1, after_one]
    simp [batch]
  | n + 1, i, db, hi, hl => by
    obtain ⟨d1, h1, hi1, hf1, ha1⟩ := performAll_sim (others i) hi
    have hlen : i < d1.shards.length := by rw [hf1.2.2.2]; omega
    have hs : d1.shards[i]? = some d1.shards[i] := List.getElem?_eq_getElem hlen
    have hso := shardOf hi1 hs
    obtain ⟨hi2, hw2⟩ := set_shard_sim hi1 hs (ha.wf _ hso.1) g ha.none (ha.get _)
    have hf2 := hf1.trans (sameFrame_set d1 i (act d1.shards[i]).1)
    generalize hd2 : ({ d1 with shards := d1.shards.set i (act d1.shards[i]).1 } : DB K V) = d2 at hi2 hw2 hf2
    obtain ⟨d3, rs, h3, hi3, hf3, hr3, hw3, hs3⟩ := visit_sim ha others n (i + 1) hi2
      (by rw [hf2.2.2.2]; omega)
    refine ⟨d3, (act d1.shards[i]).2 :: rs, ?_, hi3, hf2.trans hf3, by simp [hr3], ?_, ?_⟩
    · simp only [visit, h1, Option.bind_some, hs, hd2, h3, Option.map_some]
    · intro k
      have hb : ∀ m, batch others i (m + 1) = others i ++ batch others (i + 1) m := batch_succ others i
      have hb0 : batch others i 1 = others i := by simp [batch]
      rw [hw3, hw2, hf2.idx, hf1.idx, ha1, after_one]
      by_cases h : i ≤ db.idx k
      · rw [if_pos h]
        by_cases he : db.idx k = i
        · rw [if_neg (by omega), if_pos he, he, Nat.sub_self, hb0]
          congr 2; omega
        · rw [if_pos (by omega), if_neg he]
          have e1 : db.idx k - i + 1 = (db.idx k - (i + 1) + 1) + 1 := by omega
          have e2 : i + (n + 1) - db.idx k = i + 1 + n - db.idx k := by omega
          rw [e1, e2, hb, afterOne_append]
      · rw [if_neg h, if_neg (by omega), if_neg (by omega), hb, afterOne_append]
    · intro j r hj
      cases j with
      | zero =>
        simp only [List.getElem?_cons_zero, Option.some.injEq] at hj
        refine ⟨d1.shards[i], hj.symm, ?_⟩
        rw [hf1.idx, ha1] at hso
        simpa [batch] using hso
      | succ j =>
        rw [List.getElem?_cons_succ] at hj
        obtain ⟨s, hr, hs'⟩ := hs3 j r hj
        refine ⟨s, hr, hs'.1, fun k => ?_⟩
        rw [hs'.2, hf2.idx]
        have e : i + 1 + j = i + (j + 1) := by omega
        rw [e]
        by_cases hk : db.idx k = i + (j + 1)
        · rw [if_pos hk, if_pos hk, after_one, after_one, hw2, hf1.idx, if_neg (by omega), ha1, after_one,
            ← afterOne_append, ← batch_succ]
        · rw [if_neg hk, if_neg hk]

/-! ### Sizes -/

omit [DecidableEq K] in
theorem sizes_unique {w : K → Option V} {a b : Nat} (h : HasSize w a) (h' : HasSize w b) : a = b := by
  obtain ⟨l, hn, hm, rfl⟩ := h
  obtain ⟨l', hn', hm', rfl⟩ := h'
  exact ((List.perm_ext_iff_of_nodup hn hn').2 fun k => by rw [hm, hm']).length_eq

omit [DecidableEq K] in
theorem hasSize_le {w w' : K → Option V} {a b : Nat} (h : HasSize w a) (h' : HasSize w' b)
    (hs : ∀ k, w k ≠ none → w' k ≠ none) : a ≤ b := by
  obtain ⟨l, hn, hm, rfl⟩ := h
  obtain ⟨l', hn', hm', rfl⟩ := h'
  exact (List.Nodup.subperm hn fun k hk => (hm' k).2 (hs k ((hm k).1 hk))).length_le

theorem hasSize_set {w : K → Option V} {a : Nat} (h : HasSize w a) (k : K) (o : Option V) :
    ∃ b, HasSize (set w k o) b ∧ b ≤ a + 1 ∧ a ≤ b + 1 := by
  obtain ⟨l, hn, hm, rfl⟩ := h
  have hne : ∀ k', k' ∈ l.filter (· ≠ k) ↔ k' ≠ k ∧ w k' ≠ none := by
    intro k'
    rw [List.mem_filter, hm]
    simp [and_comm]
  have hl : l.length ≤ (l.filter (· ≠ k)).length + 1 := by
    have := (List.Nodup.subperm hn (l₂ := k :: l.filter (· ≠ k)) fun k' hk' => by
      by_cases h : k' = k
      · simp [h]
      · exact List.mem_cons_of_mem _ ((hne k').2 ⟨h, (hm k').1 hk'⟩)).length_le
    simpa using this
  have hl' : (l.filter (· ≠ k)).length ≤ l.length := List.length_filter_le _ _
  cases o with
  | none =>
    refine ⟨_, ⟨l.filter (· ≠ k), hn.filter _, fun k' => ?_, rfl⟩, by omega, hl⟩
    rw [hne]
    unfold set
    by_cases h : k' = k
    · simp [h]
    · simp [h]
  | some v =>
    refine ⟨_, ⟨k :: l.filter (· ≠ k), List.nodup_cons.2 ⟨fun hk => ((hne k).1 hk).1 rfl, hn.filter _⟩, fun k' => ?_, rfl⟩,
      by simp only [List.length_cons]; omega, by simp only [List.length_cons]; omega⟩
    rw [List.mem_cons, hne]
    unfold set
    by_cases h : k' = k
    · simp [h]
    · simp [h]

theorem hasSize_apply {w : K → Option V} {a : Nat} (h : HasSize w a) (c : Change K V) :
    ∃ b, HasSize (c.apply w) b ∧ b ≤ a + 1 ∧ a ≤ b + 1 := by
  cases c with
  | insert k v => exact hasSize_set h k _
  | remove k => exact hasSize_set h k _
  | modify k f => exact hasSize_set h k _

/-- Between two sizes every size in between is met. -/
theorem hasSize_between : ∀ (cs : List (Change K V)) {w : K → Option V} {a b m : Nat}, HasSize w a →
    HasSize (after w cs) b → (a ≤ m ∧ m ≤ b ∨ b ≤ m ∧ m ≤ a) → AtSomeMoment w cs (HasSize · m)
  | [], w, a, b, m, ha, hb, hm => by
    have : a = b := sizes_unique ha hb
    have : m = a := by omega
    exact ⟨[], [], rfl, this ▸ ha⟩
  | c :: cs, w, a, b, m, ha, hb, hm => by
    by_cases he : a = m
    · exact ⟨[], c :: cs, rfl, he ▸ ha⟩
    · obtain ⟨a', ha', h1, h2⟩ := hasSize_apply ha c
      obtain ⟨p, q, hpq, hP⟩ := hasSize_between cs (m := m) ha' hb (by omega)
      exact ⟨c :: p, q, by rw [hpq]; rfl, hP⟩

theorem keeps_one {cs : List (Change K V)} (h : ∀ c ∈ cs, c.Keeps) (k : K) : ∀ {o : Option V}, o ≠ none →
    afterOne k o cs ≠ none := by
  induction cs with
  | nil => exact fun ho => ho
  | cons c cs ih =>
    intro o ho
    show afterOne k (c.one k o) cs ≠ none
    apply ih (fun c hc => h c (List.mem_cons_of_mem _ hc))
    have hc := h c List.mem_cons_self
    cases c with
    | insert k' v =>
      simp only [Change.one]
      by_cases hk : k = k'
      · rw [if_pos hk]; simp
      · rw [if_neg hk]; exact ho
    | remove k' => exact hc.elim
    | modify k' f =>
      simp only [Change.one]
      by_cases hk : k = k'
      · rw [if_pos hk]; simpa using ho
      · rw [if_neg hk]; exact ho

theorem addsNothing_one {cs : List (Change K V)} (h : ∀ c ∈ cs, c.AddsNothing) (k : K) : ∀ {o : Option V}, o = none →
    afterOne k o cs = none := by
  induction cs with
  | nil => exact fun ho => ho
  | cons c cs ih =>
    intro o ho
    show afterOne k (c.one k o) cs = none
    apply ih (fun c hc => h c (List.mem_cons_of_mem _ hc))
    have hc := h c List.mem_cons_self
    cases c with
    | insert k' v => exact hc.elim
    | remove k' => simp only [Change.one, ho]; simp
    | modify k' f => simp only [Change.one, ho]; simp

end Verif.DBDashMap
