import Verif.Model.HashMap
import Mathlib.Data.List.Nodup
import Mathlib.Data.List.Perm.Basic

/-! Lemmas about the hash map model. -/

namespace Verif.HMap

variable {K V : Type} [DecidableEq K]

omit [DecidableEq K] in
@[simp] theorem WF_nil : WF ([] : HMap K V) := by simp [WF]

omit [DecidableEq K] in
theorem WF_cons {e : K × V} {m : HMap K V} : WF (e :: m) ↔ e.1 ∉ m.keys ∧ WF m := by
  simp only [WF, keys, List.map_cons, List.nodup_cons]

@[simp] theorem get_nil (k : K) : get ([] : HMap K V) k = none := rfl

theorem get_cons (e : K × V) (m : HMap K V) (k : K) :
    get (e :: m) k = if e.1 = k then some e.2 else get m k := by
  unfold get
  by_cases h : e.1 = k
  · simp [h]
  · simp [h]

theorem get_eq_none_iff {m : HMap K V} {k : K} : get m k = none ↔ k ∉ m.keys := by
  induction m with
  | nil => simp [keys]
  | cons e m ih =>
    rw [get_cons]
    by_cases h : e.1 = k
    · simp [h, keys]
    · simp only [h, if_false, ih, keys, List.map_cons, List.mem_cons, not_or]
      exact ⟨fun hh => ⟨fun hc => h hc.symm, hh⟩, fun hh => hh.2⟩

theorem mem_keys_iff {m : HMap K V} {k : K} : k ∈ m.keys ↔ (get m k).isSome = true := by
  have := get_eq_none_iff (m := m) (k := k)
  cases h : get m k with
  | none => simp [this.1 h]
  | some v =>
    simp only [Option.isSome_some, iff_true]
    by_contra hc
    rw [this.2 hc] at h
    exact absurd h (by simp)

theorem get_eq_some_iff {m : HMap K V} (hw : WF m) {k : K} {v : V} : get m k = some v ↔ (k, v) ∈ m := by
  induction m with
  | nil => simp
  | cons e m ih =>
    rw [get_cons]
    rw [WF_cons] at hw
    by_cases h : e.1 = k
    · subst h
      simp only [if_true, Option.some.injEq, List.mem_cons]
      constructor
      · rintro rfl; exact Or.inl rfl
      · rintro (h | h)
        · rw [← h]
        · exact absurd (List.mem_map.2 ⟨_, h, rfl⟩) hw.1
    · simp only [h, if_false, ih hw.2, List.mem_cons]
      constructor
      · exact Or.inr
      · rintro (h' | h')
        · exact absurd (by rw [← h']) h
        · exact h'

theorem get_of_mem {m : HMap K V} (hw : WF m) {k : K} {v : V} (h : (k, v) ∈ m) : get m k = some v :=
  (get_eq_some_iff hw).2 h

theorem get_append (m m' : HMap K V) (k : K) : get (m ++ m') k = (get m k).or (get m' k) := by
  induction m with
  | nil => simp
  | cons e m ih =>
    rw [List.cons_append, get_cons, get_cons, ih]
    split <;> simp

theorem find_none {m : HMap K V} {k : K} : m.find? (fun e => e.1 == k) = none ↔ get m k = none := by
  simp [get]

theorem insert_absent {m : HMap K V} {k : K} (h : get m k = none) (v : V) :
    insert m k v = (m ++ [(k, v)], none) := by
  unfold insert; rw [find_none.2 h]

theorem insert_present {m : HMap K V} {k : K} {o : V} (h : get m k = some o) (v : V) :
    insert m k v = (m.map (fun e => if e.1 == k then (e.1, v) else e), some o) := by
  unfold insert
  cases hf : m.find? (fun e => e.1 == k) with
  | none => rw [find_none.1 hf] at h; exact absurd h (by simp)
  | some e => simp [get, hf] at h; simp [h]

omit [DecidableEq K] in
theorem keys_map_snd (m : HMap K V) (f : K × V → K × V) (h : ∀ e, (f e).1 = e.1) :
    keys (m.map f) = keys m := by
  simp [keys, h]

theorem get_adjustBy (m : HMap K V) (k k' : K) (f : V → V) :
    get (adjust m k f) k' = if k' = k then (get m k).map f else get m k' := by
  unfold adjust
  induction m with
  | nil => simp
  | cons e m ih =>
    rw [List.map_cons, get_cons, get_cons, get_cons, ih]
    by_cases h1 : e.1 = k
    · subst h1
      by_cases h2 : k' = e.1
      · subst h2; simp
      · simp [h2, Ne.symm h2]
    · by_cases h2 : k' = k
      · subst h2; simp [h1]
      · simp [h1, h2]

theorem WF_adjust {m : HMap K V} (h : WF m) (k : K) (f : V → V) : WF (adjust m k f) := by
  have : (adjust m k f).map Prod.fst = m.map Prod.fst :=
    keys_map_snd m _ (by intro e; split <;> rfl)
  unfold WF at *; rw [this]; exact h

theorem insert_fst_present {m : HMap K V} {k : K} {o : V} (h : get m k = some o) (v : V) :
    (insert m k v).1 = adjust m k (fun _ => v) := by
  rw [insert_present h]; rfl

@[simp] theorem get_insert (m : HMap K V) (k k' : K) (v : V) :
    get (insert m k v).1 k' = if k' = k then some v else get m k' := by
  cases h : get m k with
  | none =>
    rw [insert_absent h, get_append, get_cons]
    by_cases hk : k' = k
    · subst hk; simp [h]
    · simp [hk, Ne.symm hk]
  | some o =>
    rw [insert_fst_present h, get_adjustBy, h]
    simp

@[simp] theorem insert_snd (m : HMap K V) (k : K) (v : V) : (insert m k v).2 = get m k := by
  cases h : get m k with
  | none => rw [insert_absent h]
  | some o => rw [insert_present h]

theorem WF_insert {m : HMap K V} (h : WF m) (k : K) (v : V) : WF (insert m k v).1 := by
  cases hg : get m k with
  | none =>
    rw [insert_absent hg]
    unfold WF at *
    rw [List.map_append, List.nodup_append]
    refine ⟨h, by simp, ?_⟩
    intro a ha b hb hab
    simp at hb
    subst hb hab
    exact get_eq_none_iff.1 hg ha
  | some o => rw [insert_fst_present hg]; exact WF_adjust h _ _

omit [DecidableEq K] in
theorem WF_filter {m : HMap K V} (h : WF m) (p : K × V → Bool) : WF (m.filter p) :=
  h.sublist (List.filter_sublist.map _)

theorem WF_remove {m : HMap K V} (h : WF m) (k : K) : WF (remove m k).1 := WF_filter h _

@[simp] theorem get_remove (m : HMap K V) (k k' : K) :
    get (remove m k).1 k' = if k' = k then none else get m k' := by
  unfold remove
  dsimp only
  induction m with
  | nil => simp
  | cons e m ih =>
    by_cases h : e.1 = k
    · rw [List.filter_cons_of_neg (by simp [h]), ih, get_cons]
      by_cases hk : k' = k
      · simp [hk]
      · simp [hk, h, Ne.symm hk]
    · rw [List.filter_cons_of_pos (by simp [h]), get_cons, get_cons, ih]
      by_cases hk : k' = k
      · subst hk; simp [h]
      · simp [hk]

theorem remove_snd (m : HMap K V) (k : K) : (remove m k).2 = (get m k).map (fun v => (k, v)) := by
  unfold remove get
  dsimp only
  cases h : m.find? (fun e => e.1 == k) with
  | none => rfl
  | some e =>
    have := List.find?_some h
    simp at this
    simp [← this]

omit [DecidableEq K] in
theorem WF_map {m : HMap K V} (h : WF m) (f : K × V → K × V) (hf : ∀ e, (f e).1 = e.1) : WF (m.map f) := by
  have : (m.map f).map Prod.fst = m.map Prod.fst := keys_map_snd m f hf
  unfold WF at *; rw [this]; exact h

theorem get_mapVal (m : HMap K V) (f : V → V) (k : K) :
    get (m.map (fun e => (e.1, f e.2))) k = (get m k).map f := by
  induction m with
  | nil => rfl
  | cons e m ih =>
    rw [List.map_cons, get_cons, get_cons, ih]
    split <;> simp

theorem get_ext_mem {m m' : HMap K V} (h : WF m) (h' : WF m') (hg : ∀ k, get m k = get m' k) (e : K × V) :
    e ∈ m ↔ e ∈ m' := by
  obtain ⟨k, v⟩ := e
  rw [← get_eq_some_iff h, ← get_eq_some_iff h', hg]

omit [DecidableEq K] in
theorem nodup_of_WF {m : HMap K V} (h : WF m) : m.Nodup := List.Nodup.of_map _ h

/-- Two well-formed maps with the same lookups are permutations of each other (they differ only in
iteration order). -/
theorem perm_of_get {m m' : HMap K V} (h : WF m) (h' : WF m') (hg : ∀ k, get m k = get m' k) : m.Perm m' :=
  (List.perm_ext_iff_of_nodup (nodup_of_WF h) (nodup_of_WF h')).2 (get_ext_mem h h' hg)

theorem get_perm {m m' : HMap K V} (h : WF m) (hp : m.Perm m') (k : K) : get m k = get m' k := by
  have h' : WF m' := by
    unfold WF at *; exact (hp.map _).nodup_iff.1 h
  cases hg : get m k with
  | some v => exact (get_of_mem h' (hp.mem_iff.1 ((get_eq_some_iff h).1 hg))).symm
  | none =>
    rw [get_eq_none_iff] at hg
    exact (get_eq_none_iff.2 (fun hc => hg ((hp.map _).mem_iff.2 hc))).symm

/-- Folding insertions of the entries of `src` (values through `f`) into `m`. -/
theorem get_foldl_insert {V' : Type} (src : HMap K V') (f : V' → V) : ∀ (m : HMap K V), WF src → ∀ k,
    get (src.foldl (fun m e => (insert m e.1 (f e.2)).1) m) k = ((get src k).map f).or (get m k) := by
  induction src with
  | nil => intro m _ k; simp [get]
  | cons e src ih =>
    intro m hw k
    rw [WF_cons] at hw
    rw [List.foldl_cons, ih _ hw.2, get_insert, get_cons]
    by_cases h : e.1 = k
    · subst h
      have : get src e.1 = none := get_eq_none_iff.2 hw.1
      simp [this]
    · simp [h, Ne.symm h]

theorem WF_foldl_insert {V' : Type} (src : HMap K V') (f : V' → V) : ∀ (m : HMap K V), WF m →
    WF (src.foldl (fun m e => (insert m e.1 (f e.2)).1) m) := by
  induction src with
  | nil => intro m h; exact h
  | cons e src ih => intro m h; exact ih _ (WF_insert h _ _)

end Verif.HMap
