import Verif.Model.Keys
import Verif.Model.Schedule
import Verif.Spec.Keys

/-!
Order, equality and hash of what the containers of the engine use as keys (C146).
-/

namespace Verif.Keys

theorem lt_iff {a b : Fl} : a.lt b = true ↔ before a b := by
  cases a <;> cases b <;> simp [Fl.lt, before]

theorem before_irrefl (a : Fl) : ¬ before a a := by cases a <;> simp [before]

theorem before_trans {a b c : Fl} (h1 : before a b) (h2 : before b c) : before a c := by
  cases a <;> cases b <;> cases c <;> simp_all [before]
  exact lt_trans h1 h2

theorem before_total {a b : Fl} (ha : a ≠ .nan) (hb : b ≠ .nan) : before a b ∨ a = b ∨ before b a := by
  cases a <;> cases b <;> simp_all [before]
  rename_i x y
  rcases lt_trichotomy x y with h | h | h
  · exact Or.inl h
  · exact Or.inr (Or.inl h)
  · exact Or.inr (Or.inr h)

theorem feq_iff {a b : Fl} (ha : a ≠ .nan) (hb : b ≠ .nan) : feq a b = true ↔ a = b := by
  cases a <;> cases b <;> simp_all [feq]

theorem cmp_cases {p q : Prio} (hp : p.time ≠ .nan) (hq : q.time ≠ .nan) :
    (p.cmp q = .gt ↔ before p.time q.time ∨ (p.time = q.time ∧ p.ordering < q.ordering)) ∧
    (p.cmp q = .lt ↔ before q.time p.time ∨ (p.time = q.time ∧ q.ordering < p.ordering)) ∧
    (p.cmp q = .eq ↔ p.time = q.time ∧ p.ordering = q.ordering) := by
  unfold Prio.cmp
  rcases before_total hp hq with h | h | h
  · have h2 : ¬ before q.time p.time := fun h' => before_irrefl _ (before_trans h h')
    have h3 : p.time ≠ q.time := fun he => before_irrefl q.time (by rw [he] at h; exact h)
    rw [if_pos (lt_iff.2 h)]
    simp [h, h2, h3]
  · have h1 : ¬ before p.time q.time := by rw [h]; exact before_irrefl _
    have h2 : ¬ before q.time p.time := by rw [h]; exact before_irrefl _
    rw [if_neg (fun hl => h1 (lt_iff.1 hl)), if_neg (fun hl => h2 (lt_iff.1 hl))]
    simp only [h, true_and, before_irrefl, false_or]
    rcases lt_trichotomy p.ordering q.ordering with ho | ho | ho
    · rw [if_pos ho]; simp only [true_iff, reduceCtorEq, false_iff]; omega
    · rw [if_neg (by omega), if_neg (by omega)]; simp only [true_iff, reduceCtorEq, false_iff]; omega
    · rw [if_neg (by omega), if_pos ho]; simp only [true_iff, reduceCtorEq, false_iff]; omega
  · have h2 : ¬ before p.time q.time := fun h' => before_irrefl _ (before_trans h h')
    have h3 : p.time ≠ q.time := fun he => before_irrefl q.time (by rw [he] at h; exact h)
    rw [if_neg (fun hl => h2 (lt_iff.1 hl)), if_pos (lt_iff.2 h)]
    simp [h, h2, h3]

/-- **C146, without NaN**: the order of priorities, with infinite times too, fulfils the contract of `Ord` and `Eq`: a priority queue
may rely on it. Full statement: every time; false, see below. -/
theorem C146_priority_partial : OrdLaws (fun p : Prio => p.time ≠ .nan) Prio.cmp Prio.eq where
  refl := fun a ha => (cmp_cases ha ha).2.2.2 ⟨rfl, rfl⟩
  swap := fun a b ha hb => by
    cases h : a.cmp b with
    | lt =>
      refine (cmp_cases hb ha).1.2 ?_
      rcases (cmp_cases ha hb).2.1.1 h with h | h
      · exact Or.inl h
      · exact Or.inr ⟨h.1.symm, h.2⟩
    | eq =>
      obtain ⟨h1, h2⟩ := (cmp_cases ha hb).2.2.1 h
      exact (cmp_cases hb ha).2.2.2 ⟨h1.symm, h2.symm⟩
    | gt =>
      refine (cmp_cases hb ha).2.1.2 ?_
      rcases (cmp_cases ha hb).1.1 h with h | h
      · exact Or.inl h
      · exact Or.inr ⟨h.1.symm, h.2⟩
  trans := fun a b c ha hb hc h1 h2 h3 => by
    rw [Ne, (cmp_cases ha hb).2.1] at h1
    rw [Ne, (cmp_cases hb hc).2.1] at h2
    rcases (cmp_cases ha hc).2.1.1 h3 with h | h
    · rcases before_total hb ha with hba | hba | hba
      · exact h1 (Or.inl hba)
      · exact h2 (Or.inl (by rw [hba]; exact h))
      · exact h2 (Or.inl (before_trans h hba))
    · obtain ⟨he, ho⟩ := h
      rcases before_total hb ha with hba | hba | hba
      · exact h1 (Or.inl hba)
      · by_cases hob : b.ordering < a.ordering
        · exact h1 (Or.inr ⟨hba.symm, hob⟩)
        · exact h2 (Or.inr ⟨hba.trans he, by omega⟩)
      · exact h2 (Or.inl (by rw [← he]; exact hba))
  eq_iff := fun a b ha hb => by
    rw [(cmp_cases ha hb).2.2]
    unfold Prio.eq
    rw [Bool.and_eq_true, feq_iff ha hb, decide_eq_true_eq]
    exact ⟨fun h => ⟨h.2, h.1⟩, fun h => ⟨h.2, h.1⟩⟩

/-- **C146, which agent is first**: the greater priority, popped first, is the one with the earlier time, or the same time and the
lower ordering. -/
theorem C146_first_partial (p q : Prio) (hp : p.time ≠ .nan) (hq : q.time ≠ .nan) :
    p.partialCmp q = some .gt ↔ before p.time q.time ∨ (p.time = q.time ∧ p.ordering < q.ordering) := by
  rw [← (cmp_cases hp hq).1]
  exact Option.some_inj

/-- **C146, the order of the schedule**: for finite times it is the comparison that the model of the schedule uses. -/
theorem C146_schedule_partial (s t : Rat) (i j : Int) :
    (Prio.new (.fin s) i).cmp (Prio.new (.fin t) j) = Verif.Schedule.Priority.cmp ⟨s, i⟩ ⟨t, j⟩ := by
  unfold Prio.cmp Schedule.Priority.cmp Prio.new
  simp only [Fl.lt, decide_eq_true_eq]

/-- **C146, false for NaN**: a priority with time NaN compares as equal to itself and to every other of its ordering, but is not `==`
to itself; and the order is not transitive: `a ≥ b`, `b ≥ c`, yet `a < c`. -/
theorem C146_nan_partial :
    (∀ (t : Fl) (o : Int), (Prio.new .nan o).cmp (Prio.new t o) = .eq ∧ (Prio.new .nan o).eq (Prio.new t o) = false) ∧
    (∃ a b c : Prio, a.cmp b ≠ .lt ∧ b.cmp c ≠ .lt ∧ a.cmp c = .lt) := by
  refine ⟨fun t o => ?_, ⟨⟨.fin 2, 0⟩, ⟨.nan, 0⟩, ⟨.fin 1, 0⟩, by decide +kernel, by decide +kernel, by decide +kernel⟩⟩
  constructor
  · unfold Prio.cmp Prio.new
    cases t <;> simp [Fl.lt]
  · unfold Prio.eq Prio.new
    cases t <;> simp [feq]

/-- **C146, agents**: agents are equal iff their ids are, equal agents have equal hashes, and different ids different ones. -/
theorem C146_agents_partial {A : Type} : EqLaws (fun _ : AgentImpl A => True) AgentImpl.eq ∧
    HashLaw (AgentImpl.eq (A := A)) AgentImpl.hash ∧
    (∀ a b : A, ∀ i j, (AgentImpl.new a i).eq (AgentImpl.new b j) = true ↔ i = j) ∧
    ∀ a b : AgentImpl A, a.hash = b.hash → a.eq b = true := by
  refine ⟨⟨?_, ?_, ?_⟩, ?_, ?_, ?_⟩
  · intro a _; simp [AgentImpl.eq]
  · intro a b _ _ h; simp_all [AgentImpl.eq]
  · intro a b c _ _ _ h1 h2; simp_all [AgentImpl.eq]
  · intro a b h; simp_all [AgentImpl.eq, AgentImpl.hash]
  · intro a b i j; exact decide_eq_true_iff
  · intro a b h; simpa [AgentImpl.eq, AgentImpl.hash] using h

/-- **C146, grid locations**: equal iff both coordinates are, and hashed accordingly. -/
theorem C146_int2d_partial : EqLaws (fun _ : Int2D => True) Int2D.eq ∧ HashLaw Int2D.eq Int2D.hash ∧
    (∀ a b : Int2D, a.eq b = true ↔ a = b) ∧ ∀ a b : Int2D, a.hash = b.hash → a = b := by
  refine ⟨⟨?_, ?_, ?_⟩, ?_, ?_, ?_⟩
  · intro a _; simp [Int2D.eq]
  · intro a b _ _ h; simp_all [Int2D.eq]
  · intro a b c _ _ _ h1 h2; simp_all [Int2D.eq]
  · intro a b h; simp_all [Int2D.eq, Int2D.hash]
  · intro a b; cases a; cases b; simp [Int2D.eq]
  · intro a b h; cases a; cases b; simpa [Int2D.hash] using h

/-- **C146, field locations**: equality is as it should be iff no coordinate is NaN. -/
theorem C146_real2d_partial : EqLaws (fun a : Real2D => a.x ≠ .nan ∧ a.y ≠ .nan) Real2D.eq ∧
    (∀ a b : Real2D, a.eq b = true → a = b) ∧
    ∀ a : Real2D, a.x = .nan ∨ a.y = .nan → a.eq a = false := by
  have key : ∀ a b : Real2D, a.eq b = true ↔ a = b ∧ a.x ≠ .nan ∧ a.y ≠ .nan := by
    rintro ⟨ax, ay⟩ ⟨bx, bY⟩
    cases ax <;> cases ay <;> cases bx <;> cases bY <;> simp [Real2D.eq, feq]
  refine ⟨⟨?_, ?_, ?_⟩, fun a b h => ((key a b).1 h).1, ?_⟩
  · intro a ha; exact (key a a).2 ⟨rfl, ha⟩
  · intro a b _ hb h; exact (key b a).2 ⟨((key a b).1 h).1.symm, hb⟩
  · intro a b c ha _ _ h1 h2; exact (key a c).2 ⟨((key a b).1 h1).1.trans ((key b c).1 h2).1, ha⟩
  · intro a h
    cases he : a.eq a with
    | false => rfl
    | true =>
      obtain ⟨_, h1, h2⟩ := (key a a).1 he
      rcases h with h | h
      · exact absurd h h1
      · exact absurd h h2

/-- Priorities that meet the hypotheses: at time 1 the lower ordering is first, and time 1 is before infinity. -/
example : (Prio.new (.fin 1) 3).partialCmp (Prio.new (.fin 1) 7) = some .gt ∧
    (Prio.new (.fin 1) 9).partialCmp (Prio.new .pinf 0) = some .gt ∧ (Fl.fin 1 ≠ .nan) := by decide +kernel

end Verif.Keys
