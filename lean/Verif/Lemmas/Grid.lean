import Verif.Spec.Grid
import Mathlib.Data.List.Nodup

/-! Lemmas about locations, cells and flat vectors. -/

namespace Verif.Grid

theorem mem_cells {w h : Int} {l : Loc} : l ∈ cells w h ↔ InRange w h l := by
  unfold cells InRange
  rw [List.mem_flatMap]
  constructor
  · rintro ⟨i, hi, hl⟩
    obtain ⟨j, hj, rfl⟩ := List.mem_map.1 hl
    rw [List.mem_range] at hi hj
    dsimp only
    omega
  · rintro ⟨h1, h2, h3, h4⟩
    refine ⟨l.x.toNat, List.mem_range.2 (by omega), List.mem_map.2 ⟨l.y.toNat, List.mem_range.2 (by omega), ?_⟩⟩
    cases l
    simp at *
    omega

theorem nodup_cells (w h : Int) : (cells w h).Nodup := by
  unfold cells
  rw [List.nodup_flatMap]
  refine ⟨?_, ?_⟩
  · intro i _
    refine (List.nodup_range).map ?_
    intro a b hab
    simp at hab
    omega
  · refine List.Pairwise.imp_of_mem ?_ (List.nodup_range (n := w.toNat))
    intro a b _ _ hab l h1 h2
    obtain ⟨j, _, rfl⟩ := List.mem_map.1 h1
    obtain ⟨j', _, h'⟩ := List.mem_map.1 h2
    simp at h'
    exact hab (by omega)

/-- Cells are visited column by column. -/
theorem cells_sorted (w h : Int) :
    (cells w h).Pairwise (fun a b => a.x < b.x ∨ (a.x = b.x ∧ a.y < b.y)) := by
  unfold cells
  rw [List.pairwise_flatMap]
  refine ⟨?_, ?_⟩
  · intro i _
    rw [List.pairwise_map]
    refine List.Pairwise.imp ?_ (List.pairwise_lt_range (n := h.toNat))
    intro a b hab
    right
    exact ⟨rfl, by dsimp only; omega⟩
  · refine List.Pairwise.imp ?_ (List.pairwise_lt_range (n := w.toNat))
    intro a b hab l hl l' hl'
    obtain ⟨j, _, rfl⟩ := List.mem_map.1 hl
    obtain ⟨j', _, rfl⟩ := List.mem_map.1 hl'
    left
    dsimp only
    omega

theorem length_cells (w h : Int) : (cells w h).length = w.toNat * h.toNat := by
  unfold cells
  rw [List.length_flatMap]
  simp

/-- The position of an in-range cell in the flat vector. -/
theorem index_range {w h : Int} {l : Loc} (hl : InRange w h l) :
    0 ≤ l.x * h + l.y ∧ l.x * h + l.y < w * h := by
  obtain ⟨h1, h2, h3, h4⟩ := hl
  have hh : 0 ≤ h := by omega
  have a : 0 ≤ l.x * h := Int.mul_nonneg h1 hh
  have b : (l.x + 1) * h ≤ w * h := Int.mul_le_mul_of_nonneg_right (by omega) hh
  rw [Int.add_mul, Int.one_mul] at b
  omega

theorem index_inj {w h : Int} {l l' : Loc} (hl : InRange w h l) (hl' : InRange w h l')
    (he : l.x * h + l.y = l'.x * h + l'.y) : l = l' := by
  obtain ⟨h1, h2, h3, h4⟩ := hl
  obtain ⟨h1', h2', h3', h4'⟩ := hl'
  have hh : 0 < h := by omega
  have hx : l.x = l'.x := by
    have a : (l.x * h + l.y) / h = l.x := by
      rw [Int.add_comm, Int.add_mul_ediv_right _ _ (by omega), Int.ediv_eq_zero_of_lt h3 h4]; omega
    have b : (l'.x * h + l'.y) / h = l'.x := by
      rw [Int.add_comm, Int.add_mul_ediv_right _ _ (by omega), Int.ediv_eq_zero_of_lt h3' h4']; omega
    rw [← a, ← b, he]
  have hy : l.y = l'.y := by rw [hx] at he; omega
  cases l; cases l'; simp at *; exact ⟨hx, hy⟩

variable {α : Type}

/-- A vector of the right size. -/
def Sized (w h : Int) (v : List α) : Prop := v.length = (w * h).toNat

/-- A vector with at least one slot per cell. -/
def Big (w h : Int) (v : List α) : Prop := (w * h).toNat ≤ v.length

instance (w h : Int) (v : List α) : Decidable (Sized w h v) := by unfold Sized; infer_instance

instance (w h : Int) (v : List α) : Decidable (Big w h v) := by unfold Big; infer_instance

theorem Sized.big {w h : Int} {v : List α} (hv : Sized w h v) : Big w h v := Nat.le_of_eq hv.symm

/-- An in-range read does not panic. -/
theorem vecGet_some {w h : Int} {v : List α} (hv : Big w h v) {l : Loc} (hl : InRange w h l) :
    ∃ a, vecGet v h l = some a := by
  obtain ⟨h1, h2⟩ := index_range hl
  have : (l.x * h + l.y).toNat < v.length := by unfold Big at hv; omega
  exact ⟨v[(l.x * h + l.y).toNat], by simp [vecGet, h1, this]⟩

/-- An in-range write does not panic and changes this cell only. -/
theorem vecSet_some {w h : Int} {v : List α} (hv : Big w h v) {l : Loc} (hl : InRange w h l) (a : α) :
    ∃ v', vecSet v h l a = some v' ∧ v'.length = v.length ∧
      ∀ l', InRange w h l' → vecGet v' h l' = if l' = l then some a else vecGet v h l' := by
  obtain ⟨h1, h2⟩ := index_range hl
  have hlt : (l.x * h + l.y).toNat < v.length := by unfold Big at hv; omega
  refine ⟨v.set (l.x * h + l.y).toNat a, by simp [vecSet, h1, hlt], by simp, ?_⟩
  intro l' hl'
  obtain ⟨h1', h2'⟩ := index_range hl'
  unfold vecGet
  simp only [h1', if_true, List.getElem?_set]
  by_cases he : l' = l
  · subst he; simp [hlt]
  · rw [if_neg he, if_neg]
    intro hc
    exact he (index_inj hl' hl (by omega))

theorem findCell_spec {h : Int} {v : List α} {p : α → Bool} (cs : List Loc)
    (hc : ∀ c ∈ cs, (vecGet v h c).isSome = true) :
    ∃ r, findCell v h p cs = some r ∧
      (r = none ↔ ∀ c ∈ cs, ∀ a, vecGet v h c = some a → p a = false) ∧
      ∀ c, r = some c → ∃ pre post a, cs = pre ++ c :: post ∧ vecGet v h c = some a ∧ p a = true ∧
        ∀ c' ∈ pre, ∀ a, vecGet v h c' = some a → p a = false := by
  induction cs with
  | nil => exact ⟨none, rfl, by simp, by simp⟩
  | cons c cs ih =>
    obtain ⟨a, ha⟩ := Option.isSome_iff_exists.1 (hc c List.mem_cons_self)
    by_cases hp : p a = true
    · refine ⟨some c, by simp [findCell, ha, hp], ⟨by simp, ?_⟩, ?_⟩
      · intro hall
        have := hall c List.mem_cons_self a ha
        rw [hp] at this; exact absurd this (by simp)
      · intro c' hc'
        simp only [Option.some.injEq] at hc'
        subst hc'
        exact ⟨[], cs, a, rfl, ha, hp, by simp⟩
    · obtain ⟨r, h1, h2, h3⟩ := ih (fun c h => hc c (List.mem_cons_of_mem _ h))
      have hp' : p a = false := by simpa using hp
      refine ⟨r, by simp [findCell, ha, hp', h1], ?_, ?_⟩
      · rw [h2]
        constructor
        · intro hall c' hc' a' ha'
          rcases List.mem_cons.1 hc' with rfl | hc'
          · rw [ha] at ha'; simp at ha'; subst ha'; exact hp'
          · exact hall c' hc' a' ha'
        · intro hall c' hc'
          exact hall c' (List.mem_cons_of_mem _ hc')
      · intro c' hr
        obtain ⟨pre, post, a', he, hx, hy, hz⟩ := h3 c' hr
        refine ⟨c :: pre, post, a', by rw [he]; rfl, hx, hy, ?_⟩
        intro c'' hc'' a'' ha''
        rcases List.mem_cons.1 hc'' with rfl | hc''
        · rw [ha] at ha''; simp at ha''; subst ha''; exact hp'
        · exact hz c'' hc'' a'' ha''

theorem collect_spec {β : Type} {h : Int} {v : List α} {f : Loc → α → List β} (cs : List Loc)
    (hc : ∀ c ∈ cs, (vecGet v h c).isSome = true) :
    collect v h f cs = some (cs.flatMap (fun c => ((vecGet v h c).map (f c)).getD [])) := by
  induction cs with
  | nil => rfl
  | cons c cs ih =>
    obtain ⟨a, ha⟩ := Option.isSome_iff_exists.1 (hc c List.mem_cons_self)
    rw [collect, ha]
    simp [ih (fun c h => hc c (List.mem_cons_of_mem _ h)), ha]

theorem cells_isSome {w h : Int} {v : List α} (hv : Big w h v) :
    ∀ c ∈ cells w h, (vecGet v h c).isSome = true := by
  intro c hc
  obtain ⟨a, ha⟩ := vecGet_some hv (mem_cells.1 hc)
  rw [ha]; rfl

variable {β γ : Type}

theorem vecGet_map (f : α → β) (v : List α) (h : Int) (l : Loc) :
    vecGet (v.map f) h l = (vecGet v h l).map f := by
  unfold vecGet
  split
  · simp
  · rfl

theorem vecGet_zipWith (f : α → β → γ) (v : List α) (v' : List β) (h : Int) (l : Loc) {a : α} {b : β}
    (ha : vecGet v h l = some a) (hb : vecGet v' h l = some b) :
    vecGet (List.zipWith f v v') h l = some (f a b) := by
  unfold vecGet at *
  split at ha
  · rename_i hc
    rw [if_pos hc] at hb ⊢
    rw [List.getElem?_zipWith, ha, hb]
  · exact absurd ha (by simp)

theorem sized_map {w h : Int} {v : List α} (hv : Sized w h v) (f : α → β) : Sized w h (v.map f) := by
  unfold Sized at *; simpa using hv

theorem sized_zipWith {w h : Int} {v : List α} {v' : List β} (hv : Sized w h v) (hv' : Sized w h v')
    (f : α → β → γ) : Sized w h (List.zipWith f v v') := by
  unfold Sized at *; simp [hv, hv']

theorem sized_replicate {w h : Int} (hn : 0 ≤ w * h) (a : α) :
    Sized (w.natAbs : Int) (h.natAbs : Int) (List.replicate (w * h).toNat a) := by
  unfold Sized
  rw [List.length_replicate, ← Int.natCast_mul, ← Int.natAbs_mul]
  omega

theorem vecGet_replicate {w h : Int} {n : Nat} {a : α} (hs : Sized w h (List.replicate n a)) {l : Loc}
    (hl : InRange w h l) : vecGet (List.replicate n a) h l = some a := by
  obtain ⟨b, hb⟩ := vecGet_some hs.big hl
  rw [hb]
  unfold vecGet at hb
  split at hb
  · rw [List.getElem?_replicate] at hb
    split at hb
    · exact hb.symm
    · exact absurd hb (by simp)
  · exact absurd hb (by simp)

/-- What `get_location` returns, in terms of the cells. -/
theorem findCell_cells {w h : Int} {v : List α} (hv : Big w h v) (p : α → Bool) :
    ∃ r, findCell v h p (cells w h) = some r ∧
      (r = none ↔ ∀ l, InRange w h l → ∀ a, vecGet v h l = some a → p a = false) ∧
      ∀ c, r = some c → InRange w h c ∧ (∃ a, vecGet v h c = some a ∧ p a = true) ∧
        ∀ l, InRange w h l → (∃ a, vecGet v h l = some a ∧ p a = true) →
          l = c ∨ c.x < l.x ∨ (c.x = l.x ∧ c.y < l.y) := by
  obtain ⟨r, h1, h2, h3⟩ := findCell_spec (p := p) (cells w h) (cells_isSome hv)
  refine ⟨r, h1, ?_, ?_⟩
  · rw [h2]
    exact ⟨fun hh l hl => hh l (mem_cells.2 hl), fun hh l hl => hh l (mem_cells.1 hl)⟩
  · intro c hc
    obtain ⟨pre, post, a, he, ha, hp, hno⟩ := h3 c hc
    have hsort := cells_sorted w h
    rw [he, List.pairwise_append] at hsort
    refine ⟨mem_cells.1 (by rw [he]; simp), ⟨a, ha, hp⟩, ?_⟩
    rintro l hl ⟨a', ha', hp'⟩
    have hm := mem_cells.2 hl
    rw [he, List.mem_append] at hm
    rcases hm with hm | hm
    · have := hno l hm a' ha'
      rw [hp'] at this
      exact absurd this (by simp)
    · rcases List.mem_cons.1 hm with hm | hm
      · exact Or.inl hm
      · exact Or.inr ((List.pairwise_cons.1 hsort.2.1).1 l hm)

/-- What a loop that pushes at most one item per cell collects. -/
theorem collect_cells {w h : Int} {v : List α} (hv : Big w h v) (f : Loc → α → List β)
    (g : β → Loc) (hg : ∀ c a b, b ∈ f c a → g b = c) (hn : ∀ c a, (f c a).Nodup) :
    ∃ r, collect v h f (cells w h) = some r ∧ r.Nodup ∧
      ∀ b, b ∈ r ↔ InRange w h (g b) ∧ ∃ a, vecGet v h (g b) = some a ∧ b ∈ f (g b) a := by
  refine ⟨_, collect_spec _ (cells_isSome hv), ?_, ?_⟩
  · rw [List.nodup_flatMap]
    refine ⟨?_, ?_⟩
    · intro c _
      cases vecGet v h c with
      | none => simp
      | some a => simpa using hn c a
    · refine List.Pairwise.imp ?_ (nodup_cells w h)
      intro c c' hcc b hb hb'
      apply hcc
      have key : ∀ c, b ∈ ((vecGet v h c).map (f c)).getD [] → g b = c := by
        intro c hb
        cases hv : vecGet v h c with
        | none => rw [hv] at hb; exact absurd hb (by simp)
        | some a => rw [hv] at hb; exact hg c a b (by simpa using hb)
      rw [← key c hb, ← key c' hb']
  · intro b
    rw [List.mem_flatMap]
    constructor
    · rintro ⟨c, hc, hb⟩
      cases hv' : vecGet v h c with
      | none => rw [hv'] at hb; exact absurd hb (by simp)
      | some a =>
        rw [hv'] at hb
        have hb' : b ∈ f c a := by simpa using hb
        have := hg c a b hb'
        subst this
        exact ⟨mem_cells.1 hc, a, hv', hb'⟩
    · rintro ⟨hr, a, ha, hb⟩
      exact ⟨g b, mem_cells.2 hr, by rw [ha]; simpa using hb⟩

end Verif.Grid
