import Verif.Model.Schedule
import Mathlib.Data.List.Perm.Basic
import Mathlib.Data.List.Nodup

/-! Helper lemmas about the schedule model. -/

namespace Verif.Schedule

variable {T A S : Type}

/-- Ids of a queue. -/
def ids (q : Queue T A) : List Nat := q.map (fun e => e.1.id)

@[simp] theorem ids_nil : ids ([] : Queue T A) = [] := rfl
@[simp] theorem ids_cons (e : Entry T A) (q : Queue T A) : ids (e :: q) = e.1.id :: ids q := rfl
@[simp] theorem ids_append (q r : Queue T A) : ids (q ++ r) = ids q ++ ids r := by simp [ids]
theorem mem_ids {q : Queue T A} {i : Nat} : i ∈ ids q ↔ ∃ e ∈ q, e.1.id = i := by simp [ids]

theorem find_none_iff {q : Queue T A} {i : Nat} :
    q.find? (fun e => e.1.id == i) = none ↔ i ∉ ids q := by
  simp [mem_ids, List.find?_eq_none]

theorem push_fresh {q : Queue T A} {a : AgentImpl A} {p : Priority T} (h : a.id ∉ ids q) :
    q.push a p = (q ++ [(a, p)], none) := by
  unfold Queue.push
  rw [find_none_iff.2 h]

theorem push_present {q : Queue T A} {a : AgentImpl A} {p : Priority T} (h : a.id ∈ ids q) :
    ∃ old ∈ q, old.1.id = a.id ∧
    q.push a p = (q.map (fun e => if e.1.id == a.id then (e.1, p) else e), some old.2) := by
  unfold Queue.push
  cases hf : q.find? (fun e => e.1.id == a.id) with
  | none => exact absurd h (find_none_iff.1 hf)
  | some old =>
    refine ⟨old, List.mem_of_find?_eq_some hf, ?_, rfl⟩
    simpa using List.find?_some hf

theorem ids_map_prio (q : Queue T A) (i : Nat) (p : Priority T) :
    ids (q.map (fun e => if e.1.id == i then (e.1, p) else e)) = ids q := by
  induction q with
  | nil => rfl
  | cons e q ih => simp only [List.map_cons, ids_cons, ih]; split <;> rfl

theorem ids_push (q : Queue T A) (a : AgentImpl A) (p : Priority T) :
    ids (q.push a p).1 = if a.id ∈ ids q then ids q else ids q ++ [a.id] := by
  by_cases h : a.id ∈ ids q
  · obtain ⟨old, _, _, e⟩ := push_present (p := p) h
    rw [e]; simp only [ids_map_prio, h, if_true]
  · rw [push_fresh h]; simp [h]

theorem nodup_push {q : Queue T A} (h : (ids q).Nodup) (a : AgentImpl A) (p : Priority T) :
    (ids (q.push a p).1).Nodup := by
  rw [ids_push]; split
  · exact h
  · rename_i hn
    rw [List.nodup_append]
    refine ⟨h, by simp, ?_⟩
    intro x hx y hy; simp at hy; subst hy; rintro rfl; exact hn hx

theorem ids_filter_sublist (q : Queue T A) (f : Entry T A → Bool) :
    List.Sublist (ids (q.filter f)) (ids q) := by
  unfold ids; exact List.Sublist.map _ List.filter_sublist

theorem nodup_filter {q : Queue T A} (h : (ids q).Nodup) (f : Entry T A → Bool) :
    (ids (q.filter f)).Nodup := h.sublist (ids_filter_sublist q f)

theorem eq_of_id {q : Queue T A} (h : (ids q).Nodup) {e f : Entry T A} (he : e ∈ q) (hf : f ∈ q)
    (hid : e.1.id = f.1.id) : e = f := by
  induction q with
  | nil => simp at he
  | cons x q ih =>
    simp only [ids_cons, List.nodup_cons] at h
    rcases List.mem_cons.1 he with rfl | he' <;> rcases List.mem_cons.1 hf with rfl | hf'
    · rfl
    · exact absurd (mem_ids.2 ⟨f, hf', hid.symm⟩) h.1
    · exact absurd (mem_ids.2 ⟨e, he', hid⟩) h.1
    · exact ih h.2 he' hf'

theorem nodup_of_ids {q : Queue T A} (h : (ids q).Nodup) : q.Nodup := List.Nodup.of_map _ h

/-! ### The priority order -/

/-- `p` is not later than `q`. -/
def Priority.le [LinearOrder T] (p q : Priority T) : Prop :=
  p.time < q.time ∨ (p.time = q.time ∧ p.ordering ≤ q.ordering)

theorem cmp_ne_gt [LinearOrder T] (p q : Priority T) : p.cmp q ≠ .gt ↔ Priority.le q p := by
  unfold Priority.cmp Priority.le
  rcases lt_trichotomy p.time q.time with h | h | h
  · simp [h, not_lt_of_gt h, ne_of_gt h]
  · simp only [h, lt_irrefl, if_false]
    rcases Int.lt_trichotomy p.ordering q.ordering with h2 | h2 | h2
    · simp [h2]
    · simp [h2]
    · simp [h2, Int.le_of_lt h2, Int.not_lt.2 (Int.le_of_lt h2)]
  · simp [h, not_lt_of_gt h]

theorem Priority.le_refl [LinearOrder T] (p : Priority T) : Priority.le p p := Or.inr ⟨rfl, Int.le_refl _⟩

theorem Priority.le_trans [LinearOrder T] {p q r : Priority T} (h1 : p.le q) (h2 : q.le r) : p.le r := by
  rcases h1 with h1 | ⟨h1, h1'⟩ <;> rcases h2 with h2 | ⟨h2, h2'⟩
  · exact Or.inl (lt_trans h1 h2)
  · exact Or.inl (h2 ▸ h1)
  · exact Or.inl (h1 ▸ h2)
  · exact Or.inr ⟨h1.trans h2, Int.le_trans h1' h2'⟩

theorem Priority.le_total [LinearOrder T] (p q : Priority T) : p.le q ∨ q.le p := by
  unfold Priority.le
  rcases lt_trichotomy p.time q.time with h | h | h
  · exact Or.inl (Or.inl h)
  · rcases Int.le_total p.ordering q.ordering with h2 | h2
    · exact Or.inl (Or.inr ⟨h, h2⟩)
    · exact Or.inr (Or.inr ⟨h.symm, h2⟩)
  · exact Or.inr (Or.inl h)

theorem Priority.le_time [LinearOrder T] {p q : Priority T} (h : p.le q) : p.time ≤ q.time := by
  rcases h with h | h
  · exact le_of_lt h
  · exact le_of_eq h.1

theorem mem_tops [LinearOrder T] {q : Queue T A} {e : Entry T A} :
    e ∈ q.tops ↔ e ∈ q ∧ ∀ f ∈ q, e.2.le f.2 := by
  unfold Queue.tops
  rw [List.mem_filter, List.all_eq_true]
  constructor
  · rintro ⟨h1, h2⟩
    refine ⟨h1, fun f hf => (cmp_ne_gt _ _).1 ?_⟩
    simpa using h2 f hf
  · rintro ⟨h1, h2⟩
    refine ⟨h1, fun f hf => ?_⟩
    simpa using (cmp_ne_gt _ _).2 (h2 f hf)

theorem exists_min [LinearOrder T] (q : Queue T A) (h : q ≠ []) : ∃ e ∈ q, ∀ f ∈ q, e.2.le f.2 := by
  induction q with
  | nil => exact absurd rfl h
  | cons x q ih =>
    by_cases hq : q = []
    · subst hq
      exact ⟨x, by simp, by simp [Priority.le_refl]⟩
    · obtain ⟨e, he, hm⟩ := ih hq
      rcases Priority.le_total x.2 e.2 with hx | hx
      · refine ⟨x, by simp, ?_⟩
        intro f hf
        rcases List.mem_cons.1 hf with rfl | hf
        · exact Priority.le_refl _
        · exact Priority.le_trans hx (hm f hf)
      · refine ⟨e, by simp [he], ?_⟩
        intro f hf
        rcases List.mem_cons.1 hf with rfl | hf
        · exact hx
        · exact hm f hf

theorem peek_nil [LinearOrder T] (tb : TieBreak T A) (n : Nat) : Queue.peek tb n ([] : Queue T A) = none := rfl

theorem peek_some [LinearOrder T] (tb : TieBreak T A) (n : Nat) {q : Queue T A} (h : q ≠ []) :
    ∃ e, q.peek tb n = some e := by
  obtain ⟨e, he, hm⟩ := exists_min q h
  have : e ∈ q.tops := mem_tops.2 ⟨he, hm⟩
  have hl : 0 < q.tops.length := List.length_pos_of_mem this
  unfold Queue.peek
  exact ⟨_, List.getElem?_eq_getElem (Nat.mod_lt _ hl)⟩

theorem peek_mem [LinearOrder T] {tb : TieBreak T A} {n : Nat} {q : Queue T A} {e : Entry T A}
    (h : q.peek tb n = some e) : e ∈ q ∧ ∀ f ∈ q, e.2.le f.2 :=
  mem_tops.1 (List.mem_of_getElem? h)

theorem pop_of_peek [LinearOrder T] {tb : TieBreak T A} {n : Nat} {q : Queue T A} {e : Entry T A}
    (h : q.peek tb n = some e) : q.pop tb n = some (e, q.filter (fun f => f.1.id != e.1.id)) := by
  unfold Queue.pop; rw [h]; rfl

theorem length_filter_lt {q : Queue T A} {e : Entry T A} (h : e ∈ q) :
    (q.filter (fun f => f.1.id != e.1.id)).length < q.length := by
  have h1 : (q.filter (fun f => f.1.id != e.1.id)).length ≠ q.length := by
    intro heq
    have := List.filter_eq_self.1 (List.Sublist.eq_of_length List.filter_sublist heq) e h
    simp at this
  have := List.length_filter_le (fun f : Entry T A => f.1.id != e.1.id) q
  omega

/-- Everything the pop loop does. -/
theorem popDue_spec [LinearOrder T] (tb : TieBreak T A) : ∀ (fuel : Nat) (s : Sched T A),
    (ids s.events).Nodup → s.events.length ≤ fuel →
    let r := popDue tb fuel s
    r.1.Perm (s.events.filter (fun e => !decide (s.time < e.2.time))) ∧
    r.1.Pairwise (fun e f => e.2.le f.2) ∧
    r.2 = { s with events := s.events.filter (fun e => decide (s.time < e.2.time))
                   pops := s.pops + r.1.length } := by
  intro fuel
  induction fuel with
  | zero =>
    intro s _ hl
    have : s.events = [] := List.length_eq_zero_iff.1 (Nat.le_zero.1 hl)
    cases s
    simp at this
    subst this
    simp [popDue]
  | succ fuel ih =>
    intro s hn hl
    by_cases hq : s.events = []
    · cases s
      simp at hq
      subst hq
      simp [popDue, peek_nil]
    · obtain ⟨e, he⟩ := peek_some tb s.pops hq
      obtain ⟨hmem, hmin⟩ := peek_mem he
      have hmin' : ∀ f ∈ s.events, e.2.time ≤ f.2.time := fun f hf => Priority.le_time (hmin f hf)
      by_cases hlt : s.time < e.2.time
      · have hall : ∀ f ∈ s.events, s.time < f.2.time := fun f hf => lt_of_lt_of_le hlt (hmin' f hf)
        have h1 : s.events.filter (fun e => !decide (s.time < e.2.time)) = [] := by
          rw [List.filter_eq_nil_iff]; intro f hf; simp [hall f hf]
        have h2 : s.events.filter (fun e => decide (s.time < e.2.time)) = s.events := by
          rw [List.filter_eq_self]; intro f hf; simp [hall f hf]
        simp only [popDue, he, hlt, if_true, h1, h2]
        simp
      · have hp := pop_of_peek he
        simp only [popDue, he, hlt, if_false, hp]
        let s' : Sched T A :=
          { s with events := s.events.filter (fun f => f.1.id != e.1.id), pops := s.pops + 1 }
        have hl' : s'.events.length ≤ fuel := by
          have := length_filter_lt hmem
          show (s.events.filter (fun f => f.1.id != e.1.id)).length ≤ fuel
          omega
        obtain ⟨hperm, hpw, heq⟩ := ih s' (nodup_filter hn _) hl'
        have hlater : s'.events.filter (fun e => decide (s.time < e.2.time))
            = s.events.filter (fun e => decide (s.time < e.2.time)) := by
          show (s.events.filter _).filter _ = _
          rw [List.filter_filter]
          apply List.filter_congr
          intro f hf
          by_cases hid : f.1.id = e.1.id
          · have := eq_of_id hn hf hmem hid
            subst this; simp [hlt]
          · simp [hid]
        refine ⟨?_, ?_, ?_⟩
        · -- permutation
          have hstep : (s.events.filter (fun e => !decide (s.time < e.2.time))).Perm
              (e :: s'.events.filter (fun e => !decide (s.time < e.2.time))) := by
            rw [List.perm_ext_iff_of_nodup ((nodup_of_ids hn).filter _)]
            · intro f
              show _ ↔ f ∈ e :: (s.events.filter _).filter _
              simp only [List.mem_filter, List.mem_cons, bne_iff_ne, ne_eq, Bool.not_eq_true',
                decide_eq_false_iff_not]
              constructor
              · rintro ⟨h1, h2⟩
                by_cases hid : f.1.id = e.1.id
                · exact Or.inl (eq_of_id hn h1 hmem hid)
                · exact Or.inr ⟨⟨h1, hid⟩, h2⟩
              · rintro (rfl | ⟨⟨h1, _⟩, h2⟩)
                · exact ⟨hmem, hlt⟩
                · exact ⟨h1, h2⟩
            · rw [List.nodup_cons]
              refine ⟨?_, ((nodup_of_ids hn).filter _).filter _⟩
              show ¬ e ∈ (s.events.filter _).filter _
              simp [List.mem_filter]
          exact (List.Perm.cons e hperm).trans hstep.symm
        · rw [List.pairwise_cons]
          refine ⟨?_, hpw⟩
          intro f hf
          have := hperm.mem_iff.1 hf
          have : f ∈ s'.events := List.mem_of_mem_filter this
          exact hmin f (List.mem_of_mem_filter this)
        · rw [heq]
          have : s'.time = s.time := rfl
          rw [this, hlater]
          simp only [List.length_cons]
          have : s'.pops + (popDue tb fuel s').1.length = s.pops + ((popDue tb fuel s').1.length + 1) := by
            show s.pops + 1 + _ = _
            omega
          rw [this]

end Verif.Schedule
