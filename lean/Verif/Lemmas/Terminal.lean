import Verif.Spec.Terminal

/-! Invariants of the two threads of `simulate!` with the terminal. -/

namespace Verif.Terminal

theorem shownTicks_append (a b : List Shown) : shownTicks (a ++ b) = shownTicks a ++ shownTicks b := by
  simp [shownTicks]

theorem shownReps_append (a b : List Shown) : shownReps (a ++ b) = shownReps a ++ shownReps b := by
  simp [shownReps]

/-- An invariant of both kinds of steps holds after every interleaving. -/
theorem run_inv {P : St → Prop} (hs : ∀ s, P s → P (simStep s)) (hu : ∀ s, P s → P (uiStep s)) (as : List Actor) :
    ∀ {s : St}, P s → P (run s as) := by
  induction as with
  | nil => intro s h; exact h
  | cons a as ih =>
    intro s h
    cases a with
    | sim => exact ih (hs s h)
    | ui => exact ih (hu s h)

theorem run_append (s : St) (as bs : List Actor) : run s (as ++ bs) = run (run s as) bs := List.foldl_append

/-! ### Messages -/

theorem sent_simStep {s : St} (h : s.sent = s.got + s.pending) : (simStep s).sent = (simStep s).got + (simStep s).pending := by
  unfold simStep
  split
  · exact h
  · exact h
  · exact h
  · split
    · exact h
    · dsimp only; omega

theorem sent_uiStep {s : St} (h : s.sent = s.got + s.pending) : (uiStep s).sent = (uiStep s).got + (uiStep s).pending := by
  unfold uiStep
  split <;> try exact h
  split
  · dsimp only; omega
  · split <;> exact h

/-! ### What was put in the slots -/

/-- The operations a script puts in the slot. -/
def opsOf (l : List Act) : List Op := l.filterMap (fun a => match a with | .setOp o => some o | _ => none)

/-- The repetitions a script puts in the slot. -/
def repsOf (l : List Act) : List Nat := l.filterMap (fun a => match a with | .setRep r => some r | _ => none)

/-- What has been put in the slots and what will be makes up the script, or its beginning. -/
def Scripted (full : List Act) (s : St) : Prop :=
  s.ops ++ opsOf s.script <+: opsOf full ∧ s.reps ++ repsOf s.script <+: repsOf full

theorem scripted_sim {full : List Act} {s : St} (h : Scripted full s) : Scripted full (simStep s) := by
  unfold simStep
  obtain ⟨h1, h2⟩ := h
  cases hs : s.script with
  | nil => exact ⟨h1, h2⟩
  | cons a rest =>
    rw [hs] at h1 h2
    cases a with
    | setOp o => exact ⟨by simpa [opsOf] using h1, by simpa [repsOf] using h2⟩
    | setRep r => exact ⟨by simpa [opsOf] using h1, by simpa [repsOf] using h2⟩
    | send =>
      dsimp only
      split
      · exact ⟨((List.prefix_append _ _).trans h1 : s.ops <+: _) |> (by simpa [opsOf] using ·),
          ((List.prefix_append _ _).trans h2 : s.reps <+: _) |> (by simpa [repsOf] using ·)⟩
      · exact ⟨by simpa [opsOf] using h1, by simpa [repsOf] using h2⟩

theorem uiStep_same (s : St) : (uiStep s).script = s.script ∧ (uiStep s).ops = s.ops ∧ (uiStep s).reps = s.reps := by
  unfold uiStep
  split <;> try exact ⟨rfl, rfl, rfl⟩
  split
  · exact ⟨rfl, rfl, rfl⟩
  · split <;> exact ⟨rfl, rfl, rfl⟩

theorem scripted_ui {full : List Act} {s : St} (h : Scripted full s) : Scripted full (uiStep s) := by
  obtain ⟨h1, h2, h3⟩ := uiStep_same s
  unfold Scripted
  rw [h1, h2, h3]
  exact h

theorem scripted_start (full : List Act) : Scripted full (start full) := ⟨List.prefix_rfl, List.prefix_rfl⟩

theorem opsOf_rep (r n : Nat) (e : Bool) :
    opsOf (repScript r n e) = .clear :: (List.range n).map .afterStep ++ (if e then [.quit] else []) := by
  have : ∀ l : List Nat, opsOf (l.flatMap (fun i => [.setOp (.afterStep i), .send])) = l.map .afterStep := by
    intro l
    induction l with
    | nil => rfl
    | cons a l ih => simpa [opsOf] using ih
  have h2 := this (List.range n)
  unfold opsOf at h2
  unfold repScript opsOf
  rw [List.filterMap_append, List.filterMap_append, List.filterMap_append, h2]
  cases e <;> simp

theorem repsOf_rep (r n : Nat) (e : Bool) : repsOf (repScript r n e) = [r] := by
  have : ∀ l : List Nat, repsOf (l.flatMap (fun i => [.setOp (.afterStep i), .send])) = [] := by
    intro l
    induction l with
    | nil => rfl
    | cons a l ih => simpa [repsOf] using ih
  have h2 := this (List.range n)
  unfold repsOf at h2
  unfold repScript repsOf
  rw [List.filterMap_append, List.filterMap_append, List.filterMap_append, h2]
  cases e <;> simp

theorem filterMap_tickOf (l : List Nat) : (l.map Op.afterStep).filterMap tickOf = l := by
  rw [List.filterMap_map]
  show l.filterMap (fun i => some i) = l
  exact List.filterMap_some

theorem ticks_script (runs : List (Nat × Bool)) : ∀ r, (opsOf (script r runs)).filterMap tickOf = stepsOf runs := by
  induction runs with
  | nil => intro r; rfl
  | cons x xs ih =>
    intro r
    have h1 := ih (r + 1)
    have h2 : opsOf (script r (x :: xs)) = opsOf (repScript r x.1 x.2) ++ opsOf (script (r + 1) xs) :=
      List.filterMap_append
    rw [h2, opsOf_rep, List.filterMap_append, h1, List.filterMap_append, List.filterMap_cons]
    have h3 : (if x.2 = true then [Op.quit] else []).filterMap tickOf = [] := by cases x.2 <;> rfl
    rw [h3]
    show (List.filterMap tickOf (List.map Op.afterStep (List.range x.1)) ++ []) ++ _ = _
    rw [filterMap_tickOf, List.append_nil]
    rfl

theorem reps_script (runs : List (Nat × Bool)) : ∀ r, repsOf (script r runs) = List.range' r runs.length := by
  induction runs with
  | nil => intro r; rfl
  | cons x xs ih =>
    intro r
    have h1 := ih (r + 1)
    have h2 : repsOf (script r (x :: xs)) = repsOf (repScript r x.1 x.2) ++ repsOf (script (r + 1) xs) :=
      List.filterMap_append
    rw [h2, repsOf_rep, h1]
    rfl

/-! ### In order, at most once -/

/-- Where the step that the terminal has read, or will read, is among those put in the slot. -/
structure Ticks (s : St) : Prop where
  all : (shownTicks s.shown).Sublist (s.ops.filterMap tickOf)
  slot : (∀ r, s.pc ≠ .ticked r) → (∀ i, s.pc ≠ .readOp (.afterStep i)) → (∀ i r, s.pc ≠ .both (.afterStep i) r) →
    ∀ i, s.op = .afterStep i → ∃ P, s.ops = P ++ [.afterStep i] ∧ (shownTicks s.shown).Sublist (P.filterMap tickOf)
  read : ∀ i, (s.pc = .readOp (.afterStep i) ∨ ∃ r, s.pc = .both (.afterStep i) r) →
    ∃ P Q, s.ops = P ++ .afterStep i :: Q ∧ (shownTicks s.shown).Sublist (P.filterMap tickOf)

theorem ticks_start (l : List Act) : Ticks (start l) := by
  refine ⟨List.Sublist.refl _, ?_, ?_⟩
  · intro _ _ _ i h; cases h
  · intro i h
    rcases h with h | ⟨r, h⟩ <;> cases h

theorem ticks_sim {s : St} (h : Ticks s) : Ticks (simStep s) := by
  unfold simStep
  split
  · exact h
  · rename_i o rest _
    refine ⟨?_, ?_, ?_⟩
    · rw [List.filterMap_append]
      exact h.all.trans (List.sublist_append_left _ _)
    · intro _ _ _ i hi
      dsimp only at hi ⊢
      rw [hi]
      exact ⟨s.ops, rfl, h.all⟩
    · intro i hi
      obtain ⟨P, Q, h1, h2⟩ := h.read i hi
      exact ⟨P, Q ++ [o], by dsimp only; rw [h1]; simp, h2⟩
  · exact ⟨h.all, h.slot, h.read⟩
  · split
    · exact ⟨h.all, h.slot, h.read⟩
    · exact ⟨h.all, h.slot, h.read⟩

theorem ticks_ui {s : St} (h : Ticks s) : Ticks (uiStep s) := by
  unfold uiStep
  split
  · exact h
  · rename_i hp
    have hslot := h.slot (by simp [hp]) (by simp [hp]) (by simp [hp])
    split
    · exact ⟨h.all, fun _ _ _ => hslot, by intro i hi; rcases hi with hi | ⟨r, hi⟩ <;> cases hi⟩
    · split
      · exact ⟨h.all, fun _ _ _ => hslot, by intro i hi; rcases hi with hi | ⟨r, hi⟩ <;> cases hi⟩
      · exact h
  · rename_i hp
    have hslot := h.slot (by simp [hp]) (by simp [hp]) (by simp [hp])
    refine ⟨h.all, fun _ _ _ => hslot, ?_⟩
    intro i hi
    dsimp only at hi
    rcases hi with hi | ⟨r, hi⟩
    · obtain ⟨P, h1, h2⟩ := hslot i (by simpa using hi)
      exact ⟨P, [], h1, h2⟩
    · cases hi
  · rename_i o hp
    refine ⟨h.all, ?_, ?_⟩
    · intro _ _ h3
      exact h.slot (by simp [hp]) (by intro i hi; rw [hp] at hi; injection hi with hi; exact h3 i _ (by rw [hi]))
        (by simp [hp])
    · intro i hi
      dsimp only at hi
      rcases hi with hi | ⟨r, hi⟩
      · cases hi
      · injection hi with hi _
        exact h.read i (Or.inl (by rw [hp, hi]))
  · rename_i i r hp
    obtain ⟨P, Q, h1, h2⟩ := h.read i (Or.inr ⟨r, hp⟩)
    refine ⟨?_, ?_, ?_⟩
    · dsimp only
      rw [shownTicks_append, h1, List.filterMap_append, List.filterMap_cons]
      refine List.Sublist.append h2 ?_
      show [i].Sublist (i :: _)
      exact List.Sublist.cons₂ _ (List.nil_sublist _)
    · intro h3; exact absurd rfl (h3 r)
    · intro j hj; rcases hj with hj | ⟨r', hj⟩ <;> cases hj
  · rename_i r hp
    have hslot := h.slot (by simp [hp]) (by simp [hp]) (by simp [hp])
    have e : shownTicks (s.shown ++ [.cleared]) = shownTicks s.shown := by rw [shownTicks_append]; simp [shownTicks]
    refine ⟨by dsimp only; rw [e]; exact h.all, fun _ _ _ => by dsimp only; rw [e]; exact hslot, ?_⟩
    intro j hj; rcases hj with hj | ⟨r', hj⟩ <;> cases hj
  · rename_i r hp
    have hslot := h.slot (by simp [hp]) (by simp [hp]) (by simp [hp])
    exact ⟨h.all, fun _ _ _ => hslot, by intro j hj; rcases hj with hj | ⟨r', hj⟩ <;> cases hj⟩
  · rename_i r hp
    have hslot := h.slot (by simp [hp]) (by simp [hp]) (by simp [hp])
    exact ⟨h.all, fun _ _ _ => hslot, by intro j hj; rcases hj with hj | ⟨r', hj⟩ <;> cases hj⟩
  · rename_i r hp
    exact ⟨h.all, (fun _ _ _ i hi => by cases hi), by intro j hj; rcases hj with hj | ⟨r', hj⟩ <;> cases hj⟩
  · rename_i r hp
    have hslot := h.slot (by simp [hp]) (by simp [hp]) (by simp [hp])
    have e : shownTicks (s.shown ++ [.rep r]) = shownTicks s.shown := by rw [shownTicks_append]; simp [shownTicks]
    refine ⟨by dsimp only; rw [e]; exact h.all, fun _ _ _ => by dsimp only; rw [e]; exact hslot, ?_⟩
    intro j hj; rcases hj with hj | ⟨r', hj⟩ <;> cases hj
  · rename_i hp
    have hslot := h.slot (by simp [hp]) (by simp [hp]) (by simp [hp])
    exact ⟨h.all, fun _ _ _ => hslot, by intro j hj; rcases hj with hj | ⟨r', hj⟩ <;> cases hj⟩
  · rename_i hp
    have hslot := h.slot (by simp [hp]) (by simp [hp]) (by simp [hp])
    exact ⟨h.all, fun _ _ _ => hslot, by intro j hj; rcases hj with hj | ⟨r', hj⟩ <;> cases hj⟩

/-- The repetition the terminal has read and not yet marked consumed. -/
def Pc.carried : Pc → Option Nat
  | .both _ r => r
  | .ticked r => r
  | .doRep r => r
  | _ => none

/-- The same for the repetitions. -/
structure Reps (s : St) : Prop where
  all : (shownReps s.shown).Sublist s.reps
  slot : s.pc ≠ .dead → s.pc ≠ .repShown → s.pc.carried = none → ∀ r, s.rep = some r →
    ∃ P, s.reps = P ++ [r] ∧ (shownReps s.shown).Sublist P
  read : ∀ r, s.pc.carried = some r → ∃ P Q, s.reps = P ++ r :: Q ∧ (shownReps s.shown).Sublist P

theorem reps_start (l : List Act) : Reps (start l) := by
  refine ⟨List.Sublist.refl _, ?_, ?_⟩
  · intro _ _ _ i h; cases h
  · intro i h; cases h

theorem reps_sim {s : St} (h : Reps s) : Reps (simStep s) := by
  unfold simStep
  split
  · exact h
  · exact ⟨h.all, h.slot, h.read⟩
  · rename_i o rest _
    refine ⟨h.all.trans (List.sublist_append_left _ _), ?_, ?_⟩
    · intro _ _ _ i hi
      dsimp only at hi ⊢
      rw [Option.some.inj hi]
      exact ⟨s.reps, rfl, h.all⟩
    · intro i hi
      obtain ⟨P, Q, h1, h2⟩ := h.read i hi
      exact ⟨P, Q ++ [o], by dsimp only; rw [h1]; simp, h2⟩
  · split
    · exact ⟨h.all, h.slot, h.read⟩
    · exact ⟨h.all, h.slot, h.read⟩

theorem reps_ui {s : St} (h : Reps s) : Reps (uiStep s) := by
  unfold uiStep
  split
  · exact h
  · rename_i hp
    have hslot := h.slot (by simp [hp]) (by simp [hp]) (by simp [hp, Pc.carried])
    split
    · exact ⟨h.all, fun _ _ _ => hslot, by intro i hi; cases hi⟩
    · split
      · exact ⟨h.all, fun _ _ _ => hslot, by intro i hi; cases hi⟩
      · exact h
  · rename_i hp
    have hslot := h.slot (by simp [hp]) (by simp [hp]) (by simp [hp, Pc.carried])
    exact ⟨h.all, fun _ _ _ => hslot, by intro i hi; cases hi⟩
  · rename_i o hp
    have hslot := h.slot (by simp [hp]) (by simp [hp]) (by simp [hp, Pc.carried])
    refine ⟨h.all, fun _ _ _ => hslot, ?_⟩
    intro r hr
    obtain ⟨P, h1, h2⟩ := hslot r hr
    exact ⟨P, [], h1, h2⟩
  · rename_i i r hp
    have e : shownReps (s.shown ++ [.tick i]) = shownReps s.shown := by rw [shownReps_append]; simp [shownReps]
    refine ⟨by dsimp only; rw [e]; exact h.all, ?_, ?_⟩
    · intro _ _ hc; dsimp only; rw [e]; exact h.slot (by simp [hp]) (by simp [hp]) (by rw [hp]; exact hc)
    · intro j hj; dsimp only; rw [e]; exact h.read j (by rw [hp]; exact hj)
  · rename_i r hp
    have e : shownReps (s.shown ++ [.cleared]) = shownReps s.shown := by rw [shownReps_append]; simp [shownReps]
    refine ⟨by dsimp only; rw [e]; exact h.all, ?_, ?_⟩
    · intro _ _ hc; dsimp only; rw [e]; exact h.slot (by simp [hp]) (by simp [hp]) (by rw [hp]; exact hc)
    · intro j hj; dsimp only; rw [e]; exact h.read j (by rw [hp]; exact hj)
  · rename_i r hp
    refine ⟨h.all, ?_, ?_⟩
    · intro h3; exact absurd rfl h3
    · intro j hj; cases hj
  · rename_i r hp
    refine ⟨h.all, ?_, ?_⟩
    · intro _ _ hc; exact h.slot (by simp [hp]) (by simp [hp]) (by rw [hp]; exact hc)
    · intro j hj; exact h.read j (by rw [hp]; exact hj)
  · rename_i r hp
    refine ⟨h.all, ?_, ?_⟩
    · intro _ _ hc; exact h.slot (by simp [hp]) (by simp [hp]) (by rw [hp]; exact hc)
    · intro j hj; exact h.read j (by rw [hp]; exact hj)
  · rename_i r hp
    obtain ⟨P, Q, h1, h2⟩ := h.read r (by rw [hp]; rfl)
    refine ⟨?_, ?_, ?_⟩
    · dsimp only
      rw [shownReps_append, h1]
      refine List.Sublist.append h2 ?_
      show [r].Sublist (r :: _)
      exact List.Sublist.cons₂ _ (List.nil_sublist _)
    · intro _ h3; exact absurd rfl h3
    · intro j hj; cases hj
  · rename_i hp
    refine ⟨h.all, ?_, ?_⟩
    · intro _ _ hc; exact h.slot (by simp [hp]) (by simp [hp]) (by rw [hp]; rfl)
    · intro j hj; cases hj
  · rename_i hp
    exact ⟨h.all, (fun _ _ _ i hi => by cases hi), by intro j hj; cases hj⟩

/-! ### Calm interleavings -/

theorem lastOf {α : Type} (l : List α) (a : α) : (l ++ [a]).getLast? = some a := by simp

/-- What the operation slot holds in a calm interleaving. -/
def OpOk (s : St) : Prop :=
  s.op = s.ops.getLastD .consumed ∨
    (s.op = .consumed ∧ ∃ i, s.ops.getLast? = some (.afterStep i) ∧ (shownTicks s.shown).getLast? = some i)

/-- What the terminal knows of the operation slot in a calm interleaving. -/
structure CalmOp (s : St) : Prop where
  ok : (∀ r, s.pc ≠ .ticked r) → OpOk s
  read : ∀ o, (s.pc = .readOp o ∨ ∃ r, s.pc = .both o r) → o = s.op
  tick : ∀ r, s.pc = .ticked r → ∃ i, s.ops.getLast? = some (.afterStep i) ∧ (shownTicks s.shown).getLast? = some i

/-- What the repetition slot holds in a calm interleaving. -/
def RepOk (s : St) : Prop :=
  s.rep = s.reps.getLast? ∨
    (s.rep = none ∧ ∃ r, s.reps.getLast? = some r ∧ (shownReps s.shown).getLast? = some r)

/-- What the terminal knows of the repetition slot in a calm interleaving. -/
structure CalmRep (s : St) : Prop where
  ok : s.pc ≠ .repShown → RepOk s
  read : ∀ r, ((∃ o, s.pc = .both o r) ∨ s.pc = .ticked r ∨ s.pc = .doRep r) → r = s.rep
  shown : s.pc = .repShown → ∃ r, s.reps.getLast? = some r ∧ (shownReps s.shown).getLast? = some r

theorem calmOp_start (l : List Act) : CalmOp (start l) :=
  ⟨fun _ => Or.inl rfl, by intro o h; rcases h with h | ⟨r, h⟩ <;> (cases h), by intro r h; cases h⟩

theorem calmRep_start (l : List Act) : CalmRep (start l) :=
  ⟨fun _ => Or.inl rfl, by intro o h; rcases h with ⟨r, h⟩ | h | h <;> (cases h), by intro h; cases h⟩

theorem calmOp_sim {s : St} (h : CalmOp s) (hc : CalmStep s .sim) : CalmOp (simStep s) := by
  unfold simStep
  unfold CalmStep at hc
  cases hs : s.script with
  | nil => exact h
  | cons a rest =>
    rw [hs] at hc
    cases a with
    | setOp o =>
      have hc : s.pc.holdsOp = false := hc
      refine ⟨fun _ => Or.inl (by simp), ?_, ?_⟩
      · intro o' ho
        dsimp only at ho
        rcases ho with ho | ⟨r, ho⟩ <;> rw [ho] at hc <;> cases hc
      · intro r hr
        dsimp only at hr
        rw [hr] at hc
        cases hc
    | setRep r => exact ⟨h.ok, h.read, h.tick⟩
    | send =>
      dsimp only
      split
      · exact ⟨h.ok, h.read, h.tick⟩
      · exact ⟨h.ok, h.read, h.tick⟩

theorem calmRep_sim {s : St} (h : CalmRep s) (hc : CalmStep s .sim) : CalmRep (simStep s) := by
  unfold simStep
  unfold CalmStep at hc
  cases hs : s.script with
  | nil => exact h
  | cons a rest =>
    rw [hs] at hc
    cases a with
    | setOp o => exact ⟨h.ok, h.read, h.shown⟩
    | setRep r =>
      have hc : s.pc.holdsRep = false := hc
      refine ⟨fun _ => Or.inl (by simp), ?_, ?_⟩
      · intro o' ho
        dsimp only at ho
        rcases ho with ⟨r, ho⟩ | ho | ho <;> rw [ho] at hc <;> cases hc
      · intro hr
        dsimp only at hr
        rw [hr] at hc
        cases hc
    | send =>
      dsimp only
      split
      · exact ⟨h.ok, h.read, h.shown⟩
      · exact ⟨h.ok, h.read, h.shown⟩

theorem calmOp_ui {s : St} (h : CalmOp s) : CalmOp (uiStep s) := by
  unfold uiStep
  cases hp : s.pc with
  | dead => exact h
  | idle =>
    have hok := h.ok (by simp [hp])
    dsimp only
    split
    · exact ⟨fun _ => hok, by intro o ho; rcases ho with ho | ⟨r, ho⟩ <;> (cases ho), by intro r hr; cases hr⟩
    · split
      · exact ⟨fun _ => hok, by intro o ho; rcases ho with ho | ⟨r, ho⟩ <;> (cases ho), by intro r hr; cases hr⟩
      · exact h
  | received =>
    have hok := h.ok (by simp [hp])
    refine ⟨fun _ => hok, ?_, by intro r hr; cases hr⟩
    intro o ho
    rcases ho with ho | ⟨r, ho⟩
    · cases ho; rfl
    · cases ho
  | readOp o =>
    have hok := h.ok (by simp [hp])
    have hr := h.read o (Or.inl hp)
    refine ⟨fun _ => hok, ?_, by intro r hr; cases hr⟩
    intro o' ho
    rcases ho with ho | ⟨r, ho⟩
    · cases ho
    · cases ho; exact hr
  | both o r =>
    have hok := h.ok (by simp [hp])
    have hr := h.read o (Or.inr ⟨r, hp⟩)
    cases o with
    | consumed =>
      exact ⟨fun _ => hok, by intro o ho; rcases ho with ho | ⟨r, ho⟩ <;> (cases ho), by intro r hr; cases hr⟩
    | clear =>
      have e : shownTicks (s.shown ++ [.cleared]) = shownTicks s.shown := by rw [shownTicks_append]; simp [shownTicks]
      refine ⟨fun _ => ?_, by intro o ho; rcases ho with ho | ⟨r, ho⟩ <;> (cases ho), by intro r hr; cases hr⟩
      show _ ∨ _
      dsimp only
      rw [e]
      exact hok
    | quit =>
      exact ⟨fun _ => hok, by intro o ho; rcases ho with ho | ⟨r, ho⟩ <;> (cases ho), by intro r hr; cases hr⟩
    | afterStep i =>
      refine ⟨fun h3 => absurd rfl (h3 r), by intro o ho; rcases ho with ho | ⟨r, ho⟩ <;> (cases ho), ?_⟩
      intro r' _
      refine ⟨i, ?_, ?_⟩
      · rcases hok with hok | ⟨hok, _⟩
        · rw [← hr, List.getLastD_eq_getLast?] at hok
          dsimp only
          cases hl : s.ops.getLast? with
          | none => rw [hl] at hok; cases hok
          | some x => rw [hl] at hok; exact congrArg some hok.symm
        · rw [hok] at hr; cases hr
      · dsimp only
        rw [shownTicks_append]
        exact lastOf _ _
  | ticked r =>
    obtain ⟨i, h1, h2⟩ := h.tick r hp
    exact ⟨fun _ => Or.inr ⟨rfl, i, h1, h2⟩, by intro o ho; rcases ho with ho | ⟨r, ho⟩ <;> (cases ho),
      by intro r hr; cases hr⟩
  | doRep r =>
    have hok := h.ok (by simp [hp])
    cases r with
    | none =>
      exact ⟨fun _ => hok, by intro o ho; rcases ho with ho | ⟨r, ho⟩ <;> (cases ho), by intro r hr; cases hr⟩
    | some r =>
      have e : shownTicks (s.shown ++ [.rep r]) = shownTicks s.shown := by rw [shownTicks_append]; simp [shownTicks]
      refine ⟨fun _ => ?_, by intro o ho; rcases ho with ho | ⟨r, ho⟩ <;> (cases ho), by intro r hr; cases hr⟩
      show _ ∨ _
      dsimp only
      rw [e]
      exact hok
  | repShown =>
    have hok := h.ok (by simp [hp])
    exact ⟨fun _ => hok, by intro o ho; rcases ho with ho | ⟨r, ho⟩ <;> (cases ho), by intro r hr; cases hr⟩

theorem calmRep_ui {s : St} (h : CalmRep s) : CalmRep (uiStep s) := by
  unfold uiStep
  cases hp : s.pc with
  | dead => exact h
  | idle =>
    have hok := h.ok (by simp [hp])
    dsimp only
    split
    · exact ⟨fun _ => hok, by intro o ho; rcases ho with ⟨r, ho⟩ | ho | ho <;> (cases ho), by intro hr; (cases hr)⟩
    · split
      · exact ⟨fun _ => hok, by intro o ho; rcases ho with ⟨r, ho⟩ | ho | ho <;> (cases ho), by intro hr; (cases hr)⟩
      · exact h
  | received =>
    have hok := h.ok (by simp [hp])
    exact ⟨fun _ => hok, by intro o ho; rcases ho with ⟨r, ho⟩ | ho | ho <;> (cases ho), by intro hr; (cases hr)⟩
  | readOp o =>
    have hok := h.ok (by simp [hp])
    refine ⟨fun _ => hok, ?_, by intro hr; (cases hr)⟩
    intro r hr
    rcases hr with ⟨o', hr⟩ | hr | hr
    · cases hr; rfl
    · cases hr
    · cases hr
  | both o r =>
    have hok := h.ok (by simp [hp])
    have hr := h.read r (Or.inl ⟨o, hp⟩)
    cases o with
    | consumed =>
      refine ⟨fun _ => hok, ?_, by intro hr; (cases hr)⟩
      intro r' h'
      rcases h' with ⟨o', h'⟩ | h' | h' <;> cases h'
      exact hr
    | clear =>
      have e : shownReps (s.shown ++ [.cleared]) = shownReps s.shown := by rw [shownReps_append]; simp [shownReps]
      refine ⟨fun _ => ?_, ?_, by intro hr; (cases hr)⟩
      · show _ ∨ _
        dsimp only
        rw [e]
        exact hok
      · intro r' h'
        rcases h' with ⟨o', h'⟩ | h' | h' <;> cases h'
        exact hr
    | quit =>
      exact ⟨fun _ => hok, by intro o ho; rcases ho with ⟨r, ho⟩ | ho | ho <;> (cases ho), by intro hr; (cases hr)⟩
    | afterStep i =>
      have e : shownReps (s.shown ++ [.tick i]) = shownReps s.shown := by rw [shownReps_append]; simp [shownReps]
      refine ⟨fun _ => ?_, ?_, by intro hr; (cases hr)⟩
      · show _ ∨ _
        dsimp only
        rw [e]
        exact hok
      · intro r' h'
        rcases h' with ⟨o', h'⟩ | h' | h' <;> cases h'
        exact hr
  | ticked r =>
    have hok := h.ok (by simp [hp])
    have hr := h.read r (Or.inr (Or.inl hp))
    refine ⟨fun _ => hok, ?_, by intro hr; (cases hr)⟩
    intro r' h'
    rcases h' with ⟨o', h'⟩ | h' | h' <;> cases h'
    exact hr
  | doRep r =>
    have hok := h.ok (by simp [hp])
    have hr := h.read r (Or.inr (Or.inr hp))
    cases r with
    | none =>
      exact ⟨fun _ => hok, by intro o ho; rcases ho with ⟨r, ho⟩ | ho | ho <;> (cases ho), by intro hr; (cases hr)⟩
    | some r =>
      refine ⟨fun h3 => absurd rfl h3, by intro o ho; rcases ho with ⟨r, ho⟩ | ho | ho <;> (cases ho), ?_⟩
      intro _
      refine ⟨r, ?_, ?_⟩
      · rcases hok with hok | ⟨hok, _⟩
        · exact hok.symm.trans hr.symm
        · rw [hok] at hr; cases hr
      · dsimp only
        rw [shownReps_append]
        exact lastOf _ _
  | repShown =>
    obtain ⟨r, h1, h2⟩ := h.shown hp
    exact ⟨fun _ => Or.inr ⟨rfl, r, h1, h2⟩, by intro o ho; rcases ho with ⟨r, ho⟩ | ho | ho <;> (cases ho),
      by intro hr; (cases hr)⟩

theorem calm_run (as : List Actor) : ∀ {s : St}, CalmOp s → CalmRep s → Calm s as →
    CalmOp (run s as) ∧ CalmRep (run s as) := by
  induction as with
  | nil => intro s h1 h2 _; exact ⟨h1, h2⟩
  | cons a as ih =>
    intro s h1 h2 h3
    obtain ⟨h4, h5⟩ := h3
    cases a with
    | sim => exact ih (calmOp_sim h1 h4) (calmRep_sim h2 h4) h5
    | ui => exact ih (calmOp_ui h1) (calmRep_ui h2) h5

/-! ### The simulation thread has ended -/

/-- The terminal alone, `n` steps. -/
def uis (n : Nat) : List Actor := List.replicate n .ui

theorem run_uis_succ (s : St) (n : Nat) : run s (uis (n + 1)) = run (uiStep s) (uis n) := rfl

/-- After the simulation thread has ended: what a calm interleaving has left. -/
structure Ended (ops : List Op) (reps : List Nat) (s : St) : Prop where
  op : CalmOp s
  rep : CalmRep s
  script : s.script = []
  ops_eq : s.ops = ops
  reps_eq : s.reps = reps

theorem ended_ui {ops : List Op} {reps : List Nat} {s : St} (h : Ended ops reps s) : Ended ops reps (uiStep s) := by
  obtain ⟨h1, h2, h3⟩ := uiStep_same s
  exact ⟨calmOp_ui h.op, calmRep_ui h.rep, h1.trans h.script, h2.trans h.ops_eq, h3.trans h.reps_eq⟩

theorem ended_uis {ops : List Op} {reps : List Nat} (n : Nat) : ∀ {s : St}, Ended ops reps s →
    Ended ops reps (run s (uis n)) := by
  induction n with
  | zero => intro s h; exact h
  | succ n ih => intro s h; exact ih (ended_ui h)

/-- The last step put in the slot has been shown last. -/
def TickDone (s : St) : Prop := ∀ i, s.ops.getLast? = some (.afterStep i) → (shownTicks s.shown).getLast? = some i

/-- The last repetition put in the slot has been shown last. -/
def RepDone (s : St) : Prop := ∀ r, s.reps.getLast? = some r → (shownReps s.shown).getLast? = some r

theorem tickDone_consumed {s : St} (h : OpOk s) (hc : ∀ i, s.op ≠ .afterStep i) : TickDone s := by
  intro i hi
  rcases h with h | ⟨_, j, h1, h2⟩
  · rw [List.getLastD_eq_getLast?, hi] at h
    exact absurd h (hc i)
  · rw [h1] at hi
    injection hi with hi
    injection hi with hi
    rw [← hi]; exact h2

theorem repDone_none {s : St} (h : RepOk s) (hc : s.rep = none) : RepDone s := by
  intro r hr
  rcases h with h | ⟨_, j, h1, h2⟩
  · rw [← h, hc] at hr; cases hr
  · rw [h1] at hr
    injection hr with hr
    rw [← hr]; exact h2

theorem tickDone_ui {s : St} (h : CalmOp s) (hd : TickDone s) : TickDone (uiStep s) := by
  intro i hi
  have hi' : s.ops.getLast? = some (.afterStep i) := by rw [← (uiStep_same s).2.1]; exact hi
  have h0 := hd i hi'
  unfold uiStep
  cases hp : s.pc with
  | dead => exact h0
  | idle =>
    dsimp only
    split
    · exact h0
    · split <;> exact h0
  | received => exact h0
  | readOp o => exact h0
  | both o r =>
    cases o with
    | consumed => exact h0
    | clear => dsimp only; rw [shownTicks_append]; simpa [shownTicks] using h0
    | quit => exact h0
    | afterStep j =>
      obtain ⟨k, h1, h2⟩ := (calmOp_ui h).tick r (by unfold uiStep; rw [hp])
      rw [hi] at h1
      injection h1 with h1
      injection h1 with h1
      rw [← h1] at h2
      unfold uiStep at h2
      rw [hp] at h2
      exact h2
  | ticked r => exact h0
  | doRep r =>
    cases r with
    | none => exact h0
    | some r => dsimp only; rw [shownTicks_append]; simpa [shownTicks] using h0
  | repShown => exact h0

theorem repDone_ui {s : St} (h : CalmRep s) (hd : RepDone s) : RepDone (uiStep s) := by
  intro i hi
  have hi' : s.reps.getLast? = some i := by rw [← (uiStep_same s).2.2]; exact hi
  have h0 := hd i hi'
  unfold uiStep
  cases hp : s.pc with
  | dead => exact h0
  | idle =>
    dsimp only
    split
    · exact h0
    · split <;> exact h0
  | received => exact h0
  | readOp o => exact h0
  | both o r =>
    cases o with
    | consumed => exact h0
    | clear => dsimp only; rw [shownReps_append]; simpa [shownReps] using h0
    | quit => exact h0
    | afterStep j => dsimp only; rw [shownReps_append]; simpa [shownReps] using h0
  | ticked r => exact h0
  | doRep r =>
    cases r with
    | none => exact h0
    | some r =>
      obtain ⟨k, h1, h2⟩ := (calmRep_ui h).shown (by unfold uiStep; rw [hp])
      rw [hi] at h1
      injection h1 with h1
      rw [← h1] at h2
      unfold uiStep at h2
      rw [hp] at h2
      exact h2
  | repShown => exact h0

theorem dead_ui {s : St} (h : s.pc = .dead) : (uiStep s).pc = .dead := by unfold uiStep; rw [h]; exact h

theorem dead_uis (n : Nat) : ∀ {s : St}, s.pc = .dead → (run s (uis n)).pc = .dead := by
  induction n with
  | zero => intro s h; exact h
  | succ n ih => intro s h; exact ih (dead_ui h)

/-- Everything shown, or the terminal closed. -/
def AllDone (s : St) : Prop := s.pc = .dead ∨ (TickDone s ∧ RepDone s)

theorem allDone_uis {ops : List Op} {reps : List Nat} (n : Nat) : ∀ {s : St}, Ended ops reps s → AllDone s →
    AllDone (run s (uis n)) := by
  induction n with
  | zero => intro s _ h; exact h
  | succ n ih =>
    intro s he h
    refine ih (ended_ui he) ?_
    rcases h with h | ⟨h1, h2⟩
    · exact Or.inl (dead_ui h)
    · exact Or.inr ⟨tickDone_ui he.op h1, repDone_ui he.rep h2⟩

/-- The terminal comes back to the top of its loop, or closes, in seven steps at most. -/
theorem to_idle (s : St) : ∃ k ≤ 7, (run s (uis k)).pc = .idle ∨ (run s (uis k)).pc = .dead := by
  have c0 : ∀ s : St, s.pc = .repShown → ∃ k ≤ 1, (run s (uis k)).pc = .idle ∨ (run s (uis k)).pc = .dead := by
    intro s h
    refine ⟨1, Nat.le_refl _, Or.inl ?_⟩
    show (uiStep s).pc = _
    unfold uiStep; rw [h]
  have up : ∀ (s : St) (n : Nat), (∃ k ≤ n, (run (uiStep s) (uis k)).pc = .idle ∨ (run (uiStep s) (uis k)).pc = .dead) →
      ∃ k ≤ n + 1, (run s (uis k)).pc = .idle ∨ (run s (uis k)).pc = .dead := by
    rintro s n ⟨k, hk, h⟩
    exact ⟨k + 1, by omega, h⟩
  have c1 : ∀ (s : St) r, s.pc = .doRep r → ∃ k ≤ 2, (run s (uis k)).pc = .idle ∨ (run s (uis k)).pc = .dead := by
    intro s r h
    cases r with
    | none => exact ⟨1, by omega, Or.inl (by show (uiStep s).pc = _; unfold uiStep; rw [h])⟩
    | some r => exact up s 1 (c0 _ (by unfold uiStep; rw [h]))
  have c2 : ∀ (s : St) r, s.pc = .ticked r → ∃ k ≤ 3, (run s (uis k)).pc = .idle ∨ (run s (uis k)).pc = .dead := by
    intro s r h
    exact up s 2 (c1 _ r (by unfold uiStep; rw [h]))
  have c3 : ∀ (s : St) o r, s.pc = .both o r → ∃ k ≤ 4, (run s (uis k)).pc = .idle ∨ (run s (uis k)).pc = .dead := by
    intro s o r h
    refine up s 3 ?_
    cases o with
    | consumed =>
      obtain ⟨k, hk, hh⟩ := c1 (uiStep s) r (by unfold uiStep; rw [h])
      exact ⟨k, by omega, hh⟩
    | clear =>
      obtain ⟨k, hk, hh⟩ := c1 (uiStep s) r (by unfold uiStep; rw [h])
      exact ⟨k, by omega, hh⟩
    | quit => exact ⟨0, by omega, Or.inr (by show (uiStep s).pc = _; unfold uiStep; rw [h])⟩
    | afterStep i => exact c2 (uiStep s) r (by unfold uiStep; rw [h])
  have c4 : ∀ (s : St) o, s.pc = .readOp o → ∃ k ≤ 5, (run s (uis k)).pc = .idle ∨ (run s (uis k)).pc = .dead := by
    intro s o h
    exact up s 4 (c3 _ o s.rep (by unfold uiStep; rw [h]))
  have c5 : ∀ s : St, s.pc = .received → ∃ k ≤ 6, (run s (uis k)).pc = .idle ∨ (run s (uis k)).pc = .dead := by
    intro s h
    exact up s 5 (c4 _ s.op (by unfold uiStep; rw [h]))
  have le : ∀ {s : St} {a b : Nat}, a ≤ b → (∃ k ≤ a, (run s (uis k)).pc = .idle ∨ (run s (uis k)).pc = .dead) →
      ∃ k ≤ b, (run s (uis k)).pc = .idle ∨ (run s (uis k)).pc = .dead := by
    rintro s a b hab ⟨k, hk, h⟩
    exact ⟨k, by omega, h⟩
  cases hp : s.pc with
  | dead => exact ⟨0, by omega, Or.inr hp⟩
  | idle => exact ⟨0, by omega, Or.inl hp⟩
  | received => exact le (by omega) (c5 s hp)
  | readOp o => exact le (by omega) (c4 s o hp)
  | both o r => exact le (by omega) (c3 s o r hp)
  | ticked r => exact le (by omega) (c2 s r hp)
  | doRep r => exact le (by omega) (c1 s r hp)
  | repShown => exact le (by omega) (c0 s hp)

/-- From the top of its loop, with the simulation thread ended, the terminal has read both slots after three steps. -/
theorem idle_three {s : St} (hs : s.script = []) (hp : s.pc = .idle) :
    (run s (uis 3)).pc = .both s.op s.rep ∧ (run s (uis 3)).shown = s.shown ∧ (run s (uis 3)).op = s.op ∧
      (run s (uis 3)).rep = s.rep := by
  show (uiStep (uiStep (uiStep s))).pc = _ ∧ (uiStep (uiStep (uiStep s))).shown = _ ∧
    (uiStep (uiStep (uiStep s))).op = _ ∧ (uiStep (uiStep (uiStep s))).rep = _
  have e : (uiStep s).pc = .received ∧ (uiStep s).shown = s.shown ∧ (uiStep s).op = s.op ∧ (uiStep s).rep = s.rep := by
    unfold uiStep
    rw [hp]
    dsimp only
    split
    · exact ⟨rfl, rfl, rfl, rfl⟩
    · exact ⟨rfl, rfl, rfl, rfl⟩
  obtain ⟨e1, e2, e3, e4⟩ := e
  generalize uiStep s = s1 at e1 e2 e3 e4
  have f : uiStep s1 = { s1 with pc := .readOp s1.op } := by unfold uiStep; rw [e1]
  rw [f]
  have g : uiStep { s1 with pc := .readOp s1.op } = { s1 with pc := .both s1.op s1.rep } := rfl
  rw [g]
  exact ⟨by dsimp only; rw [e3, e4], e2, e3, e4⟩

theorem run_uis_add (s : St) (a b : Nat) : run s (uis (a + b)) = run (run s (uis a)) (uis b) := by
  unfold uis
  rw [← List.replicate_append_replicate, run_append]

/-- From there, everything is shown in three more steps. -/
theorem both_done {ops : List Op} {reps : List Nat} {s : St} (h : Ended ops reps s) {o : Op} {r : Option Nat}
    (hp : s.pc = .both o r) : AllDone (run s (uis 3)) := by
  have hop := h.op.read o (Or.inr ⟨r, hp⟩)
  have hrep := h.rep.read r (Or.inl ⟨o, hp⟩)
  have hok := h.op.ok (by simp [hp])
  -- the repetition, from the place where it is looked at
  have rp : ∀ {s : St}, Ended ops reps s → ∀ r, s.pc = .doRep r → RepDone (uiStep s) := by
    intro s h r hp
    have hr := h.rep.read r (Or.inr (Or.inr hp))
    have hk := h.rep.ok (by simp [hp])
    cases r with
    | none => exact repDone_ui h.rep (repDone_none hk hr.symm)
    | some r =>
      obtain ⟨r', h1, h2⟩ := (calmRep_ui h.rep).shown (by unfold uiStep; rw [hp])
      intro q hq
      rw [h1] at hq
      injection hq with hq
      rw [← hq]; exact h2
  cases o with
  | quit =>
    have : (run s (uis 1)).pc = .dead := by show (uiStep s).pc = _; unfold uiStep; rw [hp]
    have h3 := dead_uis 2 this
    rw [← run_uis_add] at h3
    exact Or.inl h3
  | consumed =>
    have ht : TickDone s := tickDone_consumed hok (by rw [← hop]; intro i hi; cases hi)
    have e : (uiStep s).pc = .doRep r := by unfold uiStep; rw [hp]
    have h1 := ended_ui h
    have h2 := ended_ui h1
    have h3 : AllDone (uiStep (uiStep s)) := Or.inr ⟨tickDone_ui h1.op (tickDone_ui h.op ht), rp h1 r e⟩
    exact allDone_uis 1 h2 h3
  | clear =>
    have ht : TickDone s := tickDone_consumed hok (by rw [← hop]; intro i hi; cases hi)
    have e : (uiStep s).pc = .doRep r := by unfold uiStep; rw [hp]
    have h1 := ended_ui h
    have h2 := ended_ui h1
    have h3 : AllDone (uiStep (uiStep s)) := Or.inr ⟨tickDone_ui h1.op (tickDone_ui h.op ht), rp h1 r e⟩
    exact allDone_uis 1 h2 h3
  | afterStep i =>
    have e : (uiStep s).pc = .ticked r := by unfold uiStep; rw [hp]
    have h1 := ended_ui h
    have ht : TickDone (uiStep s) := by
      obtain ⟨j, h3, h4⟩ := h1.op.tick r e
      intro q hq
      rw [h3] at hq
      injection hq with hq
      injection hq with hq
      rw [← hq]; exact h4
    have h2 := ended_ui h1
    have e2 : (uiStep (uiStep s)).pc = .doRep r := by
      generalize uiStep s = s1 at e
      unfold uiStep; rw [e]
    exact Or.inr ⟨tickDone_ui h2.op (tickDone_ui h1.op ht), rp h2 r e2⟩

/-- When the simulation thread has ended after a calm interleaving, everything is shown within thirteen steps. -/
theorem ended_done {ops : List Op} {reps : List Nat} {s : St} (h : Ended ops reps s) {n : Nat} (hn : 13 ≤ n) :
    AllDone (run s (uis n)) := by
  obtain ⟨k, hk, hi⟩ := to_idle s
  have h1 := ended_uis k h
  rcases hi with hi | hi
  · obtain ⟨e1, _⟩ := idle_three h1.script hi
    have h2 := ended_uis 3 h1
    have h3 := both_done h2 e1
    have h4 := ended_uis 3 h2
    have h5 := allDone_uis (n - k - 6) h4 h3
    rw [← run_uis_add, ← run_uis_add, ← run_uis_add] at h5
    have e : k + (3 + (3 + (n - k - 6))) = n := by omega
    rw [e] at h5
    exact h5
  · have h2 := dead_uis (n - k) hi
    rw [← run_uis_add] at h2
    have e : k + (n - k) = n := by omega
    rw [e] at h2
    exact Or.inl h2

/-- If the last operation put in the slot is `Quit`, the terminal closes. -/
theorem ended_quit {ops : List Op} {reps : List Nat} {s : St} (h : Ended ops reps s) (hq : ops.getLast? = some .quit)
    {n : Nat} (hn : 13 ≤ n) : (run s (uis n)).pc = .dead := by
  obtain ⟨k, hk, hi⟩ := to_idle s
  have h1 := ended_uis k h
  rcases hi with hi | hi
  · obtain ⟨e1, _⟩ := idle_three h1.script hi
    have hok := h1.op.ok (by simp [hi])
    have hop : (run s (uis k)).op = .quit := by
      rcases hok with hok | ⟨_, i, hok, _⟩
      · rw [h1.ops_eq, List.getLastD_eq_getLast?, hq] at hok; exact hok
      · rw [h1.ops_eq, hq] at hok; cases hok
    rw [hop] at e1
    have h3 : (run (run (run s (uis k)) (uis 3)) (uis 1)).pc = .dead := by
      generalize run (run s (uis k)) (uis 3) = s1 at e1
      show (uiStep s1).pc = _
      unfold uiStep; rw [e1]
    have h5 := dead_uis (n - k - 4) h3
    rw [← run_uis_add, ← run_uis_add, ← run_uis_add] at h5
    have e : k + (3 + (1 + (n - k - 4))) = n := by omega
    rw [e] at h5
    exact h5
  · have h2 := dead_uis (n - k) hi
    rw [← run_uis_add] at h2
    have e : k + (n - k) = n := by omega
    rw [e] at h2
    exact h2

/-! ### The terminal closes only when told, and until then the whole script is carried out -/

/-- As long as the terminal runs, what was put in the slots and what will be is the whole script. -/
def Whole (full : List Act) (s : St) : Prop :=
  s.pc ≠ .dead → s.ops ++ opsOf s.script = opsOf full ∧ s.reps ++ repsOf s.script = repsOf full

theorem whole_sim {full : List Act} {s : St} (h : Whole full s) : Whole full (simStep s) := by
  unfold simStep
  cases hs : s.script with
  | nil => exact h
  | cons a rest =>
    cases a with
    | setOp o =>
      intro hp
      obtain ⟨h1, h2⟩ := h hp
      rw [hs] at h1 h2
      exact ⟨by simpa [opsOf] using h1, by simpa [repsOf] using h2⟩
    | setRep r =>
      intro hp
      obtain ⟨h1, h2⟩ := h hp
      rw [hs] at h1 h2
      exact ⟨by simpa [opsOf] using h1, by simpa [repsOf] using h2⟩
    | send =>
      dsimp only
      split
      · intro hp; exact absurd ‹_› hp
      · intro hp
        obtain ⟨h1, h2⟩ := h hp
        rw [hs] at h1 h2
        exact ⟨by simpa [opsOf] using h1, by simpa [repsOf] using h2⟩

theorem whole_ui {full : List Act} {s : St} (h : Whole full s) : Whole full (uiStep s) := by
  intro hp
  have : s.pc ≠ .dead := fun h => hp (dead_ui h)
  obtain ⟨h1, h2, h3⟩ := uiStep_same s
  rw [h1, h2, h3]
  exact h this

/-- The terminal closes only if `Quit` was put in the slot. -/
structure Told (s : St) : Prop where
  slot : s.op = .quit → .quit ∈ s.ops
  read : (s.pc = .readOp .quit ∨ ∃ r, s.pc = .both .quit r) → .quit ∈ s.ops
  dead : s.pc = .dead → .quit ∈ s.ops

theorem told_start (l : List Act) : Told (start l) :=
  ⟨fun h => by (cases h), by intro h; rcases h with h | ⟨r, h⟩ <;> (cases h), fun h => by (cases h)⟩

theorem told_sim {s : St} (h : Told s) : Told (simStep s) := by
  unfold simStep
  cases hs : s.script with
  | nil => exact h
  | cons a rest =>
    cases a with
    | setOp o =>
      exact ⟨fun e => by have e : o = .quit := e; rw [e]; simp, fun e => List.mem_append_left _ (h.read e),
        fun e => List.mem_append_left _ (h.dead e)⟩
    | setRep r => exact ⟨h.slot, h.read, h.dead⟩
    | send =>
      dsimp only
      split
      · exact ⟨h.slot, h.read, h.dead⟩
      · exact ⟨h.slot, h.read, h.dead⟩

theorem told_ui {s : St} (h : Told s) : Told (uiStep s) := by
  unfold uiStep
  cases hp : s.pc with
  | dead => exact h
  | idle =>
    dsimp only
    split
    · exact ⟨h.slot, by intro h; rcases h with h | ⟨r, h⟩ <;> (cases h), fun h => by (cases h)⟩
    · split
      · exact ⟨h.slot, by intro h; rcases h with h | ⟨r, h⟩ <;> (cases h), fun h => by (cases h)⟩
      · exact h
  | received =>
    refine ⟨h.slot, ?_, fun h => by (cases h)⟩
    intro e
    rcases e with e | ⟨r, e⟩
    · exact h.slot (by simpa using e)
    · cases e
  | readOp o =>
    refine ⟨h.slot, ?_, fun h => by (cases h)⟩
    intro e
    rcases e with e | ⟨r, e⟩
    · cases e
    · injection e with e _
      exact h.read (Or.inl (by rw [hp, e]))
  | both o r =>
    cases o with
    | consumed => exact ⟨h.slot, by intro h; rcases h with h | ⟨r, h⟩ <;> (cases h), fun h => by (cases h)⟩
    | clear => exact ⟨h.slot, by intro h; rcases h with h | ⟨r, h⟩ <;> (cases h), fun h => by (cases h)⟩
    | quit =>
      exact ⟨h.slot, by intro h; rcases h with h | ⟨r, h⟩ <;> (cases h), fun _ => h.read (Or.inr ⟨r, hp⟩)⟩
    | afterStep i => exact ⟨h.slot, by intro h; rcases h with h | ⟨r, h⟩ <;> (cases h), fun h => by (cases h)⟩
  | ticked r => exact ⟨fun h => by (cases h), by intro h; rcases h with h | ⟨r, h⟩ <;> (cases h), fun h => by (cases h)⟩
  | doRep r =>
    cases r with
    | none => exact ⟨h.slot, by intro h; rcases h with h | ⟨r, h⟩ <;> (cases h), fun h => by (cases h)⟩
    | some r => exact ⟨h.slot, by intro h; rcases h with h | ⟨r, h⟩ <;> (cases h), fun h => by (cases h)⟩
  | repShown => exact ⟨h.slot, by intro h; rcases h with h | ⟨r, h⟩ <;> (cases h), fun h => by (cases h)⟩

theorem opsOf_append (a b : List Act) : opsOf (a ++ b) = opsOf a ++ opsOf b := List.filterMap_append

theorem script_append (a b : List (Nat × Bool)) : ∀ r, script r (a ++ b) = script r a ++ script (r + a.length) b := by
  induction a with
  | nil => intro r; rfl
  | cons x a ih =>
    intro r
    show repScript r x.1 x.2 ++ script (r + 1) (a ++ b) = (repScript r x.1 x.2 ++ script (r + 1) a) ++ _
    rw [ih, List.append_assoc, List.length_cons]
    have : r + 1 + a.length = r + (a.length + 1) := by omega
    rw [this]

theorem quit_of_runs {runs : List (Nat × Bool)} (h : ∀ x ∈ runs, x.2 = false) : ∀ r, Op.quit ∉ opsOf (script r runs) := by
  induction runs with
  | nil => intro r h; cases h
  | cons x xs ih =>
    intro r hm
    have e : opsOf (script r (x :: xs)) = opsOf (repScript r x.1 x.2) ++ opsOf (script (r + 1) xs) :=
      opsOf_append _ _
    rw [e, List.mem_append] at hm
    rcases hm with hm | hm
    · rw [opsOf_rep, h x (by simp)] at hm
      simp at hm
    · exact ih (fun y hy => h y (by simp [hy])) _ hm

end Verif.Terminal
