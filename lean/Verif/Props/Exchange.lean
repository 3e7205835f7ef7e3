import Verif.Model.Exchange
import Verif.Props.KdTree
import Mathlib.Tactic.ByContra

/-!
C230: the exchange of lengths call by call, and what MPI asks of a send in ready mode: "A send that uses the ready communication
mode may be started only if the matching receive is already posted. Otherwise, the operation is erroneous and its outcome is
undefined" (MPI 4.0, section 3.4).
-/

namespace Verif.Exchange

open Verif.KdTree (Pending Meet Ready)

/-- The lists fit together: mutual, ascending, without the process itself. -/
structure Fit (lists : Nat → List Nat) : Prop where
  ready : Ready lists
  self : ∀ i, i ∉ lists i

/-! ### Turns -/

theorem set_same (s : Procs) (i : Nat) (p : Proc) : set s i p i = p := if_pos rfl
theorem set_other (s : Procs) {i k : Nat} (p : Proc) (h : k ≠ i) : set s i p k = s k := if_neg h

/-- The three kinds of turns. -/
theorem turn_cases {s s' : Procs} {i : Nat} (h : turn s i = some s') : ∃ j rest, (s i).todo = j :: rest ∧
    (((s i).stage = .start ∧ s' = set s i { s i with stage := .posted }) ∨
     ((s i).stage = .posted ∧ s' = set s i { s i with stage := .sent }) ∨
     ((s i).stage = .sent ∧ sent s j i = true ∧ posted s j i = true ∧ s' = set s i ⟨rest, j :: (s i).done, .start⟩)) := by
  unfold turn at h
  cases ht : (s i).todo with
  | nil => rw [ht] at h; cases h
  | cons j rest =>
    rw [ht] at h
    refine ⟨j, rest, rfl, ?_⟩
    cases hs : (s i).stage with
    | start => rw [hs] at h; exact Or.inl ⟨rfl, (Option.some.inj h).symm⟩
    | posted => rw [hs] at h; exact Or.inr (Or.inl ⟨rfl, (Option.some.inj h).symm⟩)
    | sent =>
      rw [hs] at h
      dsimp only at h
      by_cases hc : (sent s j i && posted s j i) = true
      · rw [if_pos hc] at h
        obtain ⟨h1, h2⟩ := Bool.and_eq_true_iff.1 hc
        exact Or.inr (Or.inr ⟨rfl, h1, h2, (Option.some.inj h).symm⟩)
      · rw [if_neg hc] at h; cases h

theorem sent_iff (s : Procs) (i j : Nat) :
    sent s i j = true ↔ j ∈ (s i).done ∨ ((s i).todo.head? = some j ∧ (s i).stage = .sent) := by
  unfold sent
  simp

theorem posted_iff (s : Procs) (i j : Nat) :
    posted s i j = true ↔ j ∈ (s i).done ∨ ((s i).todo.head? = some j ∧ (s i).stage ≠ .start) := by
  unfold posted
  simp

theorem posted_of_sent {s : Procs} {i j : Nat} (h : sent s i j = true) : posted s i j = true := by
  rw [sent_iff] at h
  rw [posted_iff]
  rcases h with h | ⟨h1, h2⟩
  · exact Or.inl h
  · exact Or.inr ⟨h1, by rw [h2]; decide⟩

/-- What has been sent stays sent. -/
theorem sent_mono {s s' : Procs} {k : Nat} (h : turn s k = some s') {i j : Nat} (hs : sent s i j = true) : sent s' i j = true := by
  obtain ⟨p, rest, ht, hc⟩ := turn_cases h
  by_cases hik : i = k
  · subst hik
    rw [sent_iff] at hs ⊢
    rcases hc with ⟨h1, rfl⟩ | ⟨h1, rfl⟩ | ⟨h1, h2, h3, rfl⟩
    · rw [set_same]
      rcases hs with hs | ⟨_, hs⟩
      · exact Or.inl hs
      · rw [h1] at hs; cases hs
    · rw [set_same]
      rcases hs with hs | ⟨_, hs⟩
      · exact Or.inl hs
      · rw [h1] at hs; cases hs
    · rw [set_same]
      rcases hs with hs | ⟨hs, _⟩
      · exact Or.inl (List.mem_cons_of_mem _ hs)
      · rw [ht] at hs
        obtain rfl := Option.some.inj hs
        exact Or.inl List.mem_cons_self
  · have he : s' i = s i := by
      rcases hc with ⟨_, rfl⟩ | ⟨_, rfl⟩ | ⟨_, _, _, rfl⟩ <;> exact set_other _ _ hik
    unfold sent at hs ⊢
    rw [he]; exact hs

/-- What every state keeps: the neighbours done and to do are the list, and a process that has finished with a partner has its
message. -/
structure Inv (lists : Nat → List Nat) (s : Procs) : Prop where
  split : ∀ i, (s i).done.reverse ++ (s i).todo = lists i
  got : ∀ i j, j ∈ (s i).done → sent s j i = true

theorem inv_start (lists : Nat → List Nat) : Inv lists (start lists) :=
  ⟨fun _ => rfl, fun _ _ h => absurd h (by simp [start])⟩

theorem inv_turn {lists : Nat → List Nat} {s s' : Procs} (hI : Inv lists s) {k : Nat} (h : turn s k = some s') : Inv lists s' := by
  obtain ⟨p, rest, ht, hc⟩ := turn_cases h
  have other : ∀ i, i ≠ k → s' i = s i := by
    intro i hik
    rcases hc with ⟨_, rfl⟩ | ⟨_, rfl⟩ | ⟨_, _, _, rfl⟩ <;> exact set_other _ _ hik
  constructor
  · intro i
    by_cases hik : i = k
    · subst hik
      have := hI.split i
      rcases hc with ⟨_, rfl⟩ | ⟨_, rfl⟩ | ⟨_, _, _, rfl⟩
      · rw [set_same]; exact this
      · rw [set_same]; exact this
      · rw [set_same]
        rw [ht] at this
        simpa using this
    · rw [other i hik]; exact hI.split i
  · intro i j hj
    by_cases hik : i = k
    · subst hik
      rcases hc with ⟨_, e⟩ | ⟨_, e⟩ | ⟨_, h2, _, e⟩
      · rw [e, set_same] at hj
        exact sent_mono h (hI.got i j hj)
      · rw [e, set_same] at hj
        exact sent_mono h (hI.got i j hj)
      · rw [e, set_same] at hj
        rcases List.mem_cons.1 hj with rfl | hj
        · exact sent_mono h h2
        · exact sent_mono h (hI.got i j hj)
    · rw [other i hik] at hj
      exact sent_mono h (hI.got i j hj)

theorem inv_run {lists : Nat → List Nat} : ∀ (is : List Nat) {s s' : Procs}, Inv lists s → run s is = some s' → Inv lists s' := by
  intro is
  induction is with
  | nil => intro s s' hI h; obtain rfl := Option.some.inj h; exact hI
  | cons i is ih =>
    intro s s' hI h
    rw [run] at h
    cases ht : turn s i with
    | none => rw [ht] at h; cases h
    | some s1 => rw [ht] at h; exact ih (inv_turn hI ht) h

/-! ### Progress -/

/-- As long as a process has a partner left, some process can take a turn. -/
theorem progress {lists : Nat → List Nat} (hF : Fit lists) {s : Procs} (hI : Inv lists s) {i : Nat} (hi : (s i).todo ≠ []) :
    ∃ k, turn s k ≠ none := by
  by_contra hno
  have hstuck : ∀ k, turn s k = none := fun k => by
    by_contra hk; exact hno ⟨k, hk⟩
  -- a process that is stuck waits for its partner
  have hwait : ∀ k j a, (s k).todo = j :: a → (s k).stage = .sent ∧ sent s j k = false := by
    intro k j a hk
    have h := hstuck k
    unfold turn at h
    rw [hk] at h
    cases hs : (s k).stage with
    | start => rw [hs] at h; cases h
    | posted => rw [hs] at h; cases h
    | sent =>
      refine ⟨rfl, ?_⟩
      rw [hs] at h
      dsimp only at h
      cases hsent : sent s j k with
      | false => rfl
      | true => rw [hsent, posted_of_sent hsent] at h; cases h
  have hmem : ∀ k j, j ∈ lists k → j ∈ (s k).done ∨ j ∈ (s k).todo := by
    intro k j hj
    rw [← hI.split k, List.mem_append, List.mem_reverse] at hj
    exact hj
  have hsub : ∀ k j, j ∈ (s k).todo → j ∈ lists k := by
    intro k j hj
    rw [← hI.split k]; exact List.mem_append_right _ hj
  have hsort : ∀ k, ((s k).todo).Pairwise (· < ·) := by
    intro k
    have := hF.ready.sorted k
    rw [← hI.split k] at this
    exact (List.pairwise_append.1 this).2.1
  -- the smallest next partner
  have hex : ∃ j, ∃ i a, (s i).todo = j :: a := by
    cases hs : (s i).todo with
    | nil => exact absurd hs hi
    | cons j a => exact ⟨j, i, a, hs⟩
  classical
  obtain ⟨i0, a0, h0⟩ := Nat.find_spec hex
  have hmin : ∀ j', (∃ i a, (s i).todo = j' :: a) → Nat.find hex ≤ j' := fun j' hj' => Nat.find_min' hex hj'
  generalize Nat.find hex = j at *
  have hw0 := hwait i0 j a0 h0
  have hj : i0 ∈ lists j := hF.ready.symm i0 j (hsub i0 j (by rw [h0]; exact List.mem_cons_self))
  rcases hmem j i0 hj with hd | htd
  · have : sent s j i0 = true := (sent_iff s j i0).2 (Or.inl hd)
    rw [hw0.2] at this; cases this
  · cases hsj : (s j).todo with
    | nil => rw [hsj] at htd; simp at htd
    | cons k b =>
      have hwj := hwait j k b hsj
      have hk : j ∈ lists k := hF.ready.symm j k (hsub j k (by rw [hsj]; exact List.mem_cons_self))
      rcases hmem k j hk with hd | htk
      · have : sent s k j = true := (sent_iff s k j).2 (Or.inl hd)
        rw [hwj.2] at this; cases this
      · cases hsk : (s k).todo with
        | nil => rw [hsk] at htk; simp at htk
        | cons l c =>
          have hwk := hwait k l c hsk
          have hlj : l = j := by
            have h1 := hmin l ⟨k, c, hsk⟩
            have h2 := hsort k
            rw [hsk] at htk h2
            rcases List.mem_cons.1 htk with e | htk
            · exact e.symm
            · have := (List.pairwise_cons.1 h2).1 j htk
              omega
          subst hlj
          have : sent s k l = true := (sent_iff s k l).2 (Or.inr ⟨by rw [hsk]; rfl, hwk.1⟩)
          rw [hwj.2] at this; cases this

/-! ### The number of turns -/

/-- The turns a process has left. -/
def left (p : Proc) : Nat :=
  3 * p.todo.length - (match p.stage with | .start => 0 | .posted => 1 | .sent => 2)

/-- The turns the first `n` processes have left. -/
def allLeft (s : Procs) : Nat → Nat
  | 0 => 0
  | n + 1 => left (s n) + allLeft s n

theorem left_turn {s s' : Procs} {k : Nat} (h : turn s k = some s') : left (s' k) + 1 = left (s k) ∧ ∀ i, i ≠ k → s' i = s i := by
  obtain ⟨p, rest, ht, hc⟩ := turn_cases h
  refine ⟨?_, ?_⟩
  · unfold left
    rcases hc with ⟨h1, rfl⟩ | ⟨h1, rfl⟩ | ⟨h1, _, _, rfl⟩ <;> rw [set_same, h1, ht] <;> dsimp only <;>
      rw [List.length_cons] <;> omega
  · intro i hik
    rcases hc with ⟨_, rfl⟩ | ⟨_, rfl⟩ | ⟨_, _, _, rfl⟩ <;> exact set_other _ _ hik

theorem allLeft_congr {s s' : Procs} : ∀ (n : Nat), (∀ i < n, s' i = s i) → allLeft s' n = allLeft s n
  | 0, _ => rfl
  | n + 1, h => by
    rw [allLeft, allLeft, h n (by omega), allLeft_congr n (fun i hi => h i (by omega))]

theorem allLeft_turn {s s' : Procs} {k : Nat} (h : turn s k = some s') : ∀ (n : Nat), k < n → allLeft s' n + 1 = allLeft s n
  | 0, hk => absurd hk (by omega)
  | n + 1, hk => by
    obtain ⟨h1, h2⟩ := left_turn h
    rw [allLeft, allLeft]
    by_cases e : k = n
    · subst e
      rw [allLeft_congr k (fun i hi => h2 i (by omega))]
      omega
    · rw [h2 n (fun e' => e e'.symm)]
      have := allLeft_turn h n (by omega)
      omega

/-- Only the first `n` processes have neighbours. -/
theorem turn_lt {lists : Nat → List Nat} {n : Nat} (hn : ∀ i, n ≤ i → lists i = []) {s s' : Procs} (hI : Inv lists s) {k : Nat}
    (h : turn s k = some s') : k < n := by
  obtain ⟨p, rest, ht, _⟩ := turn_cases h
  by_contra hk
  have := hI.split k
  rw [hn k (by omega), ht] at this
  simp at this

theorem allLeft_run {lists : Nat → List Nat} {n : Nat} (hn : ∀ i, n ≤ i → lists i = []) : ∀ (is : List Nat) {s s' : Procs},
    Inv lists s → run s is = some s' → allLeft s' n + is.length = allLeft s n := by
  intro is
  induction is with
  | nil => intro s s' _ h; obtain rfl := Option.some.inj h; rfl
  | cons i is ih =>
    intro s s' hI h
    rw [run] at h
    cases ht : turn s i with
    | none => rw [ht] at h; cases h
    | some s1 =>
      rw [ht] at h
      have h1 := ih (inv_turn hI ht) h
      have h2 := allLeft_turn ht n (turn_lt hn hI ht)
      rw [List.length_cons]; omega

theorem allLeft_start (lists : Nat → List Nat) : ∀ n, allLeft (start lists) n = 3 * ((List.range n).map (fun i => (lists i).length)).sum
  | 0 => rfl
  | n + 1 => by
    rw [allLeft, allLeft_start lists n, List.range_succ, List.map_append, List.sum_append]
    simp only [left, start, List.map_cons, List.map_nil, List.sum_cons, List.sum_nil]
    omega

/-- C230, what is meant: a send comes too early among these turns just if, after some of them, the next process has posted its own
receive and is about to send to a partner that has neither finished with it nor posted the receive from it. -/
theorem C230_meaning_partial (s : Procs) (is : List Nat) :
    anyEarly s is = true ↔ ∃ pre i post s' j, is = pre ++ i :: post ∧ run s pre = some s' ∧ (s' i).todo.head? = some j ∧
      (s' i).stage = .posted ∧ i ∉ (s' j).done ∧ ((s' j).todo.head? = some i → (s' j).stage = .start) := by
  have hp : ∀ (s : Procs) (i j : Nat), posted s j i = false ↔ i ∉ (s j).done ∧ ((s j).todo.head? = some i → (s j).stage = .start) := by
    intro s i j
    rw [← Bool.not_eq_true, posted_iff]
    constructor
    · intro h
      refine ⟨fun h1 => h (Or.inl h1), fun h1 => ?_⟩
      by_contra h2
      exact h (Or.inr ⟨h1, h2⟩)
    · rintro ⟨h1, h2⟩ (h | ⟨h3, h4⟩)
      · exact h1 h
      · exact h4 (h2 h3)
  have he : ∀ (s : Procs) (i : Nat), early s i = true ↔ ∃ j, (s i).todo.head? = some j ∧ (s i).stage = .posted ∧ posted s j i = false := by
    intro s i
    unfold early
    cases ht : (s i).todo with
    | nil => simp
    | cons j rest => simp
  induction is generalizing s with
  | nil =>
    constructor
    · intro h; cases h
    · rintro ⟨pre, i, post, s', j, h, _⟩
      cases pre <;> cases h
  | cons i is ih =>
    rw [anyEarly, Bool.or_eq_true, he]
    constructor
    · rintro (⟨j, h1, h2, h3⟩ | h)
      · exact ⟨[], i, is, s, j, rfl, rfl, h1, h2, (hp s i j).1 h3⟩
      · cases ht : turn s i with
        | none => rw [ht] at h; cases h
        | some s1 =>
          rw [ht] at h
          obtain ⟨pre, k, post, s', j, h1, h2, h3⟩ := (ih s1).1 h
          exact ⟨i :: pre, k, post, s', j, by rw [h1]; rfl, by rw [run, ht]; exact h2, h3⟩
    · rintro ⟨pre, k, post, s', j, h1, h2, h3, h4, h5⟩
      cases pre with
      | nil =>
        obtain ⟨rfl, rfl⟩ := List.cons.inj h1
        obtain rfl := Option.some.inj h2
        exact Or.inl ⟨j, h3, h4, (hp s i j).2 h5⟩
      | cons a pre =>
        obtain ⟨rfl, rfl⟩ := List.cons.inj h1
        rw [run] at h2
        cases ht : turn s i with
        | none => rw [ht] at h2; cases h2
        | some s1 =>
          rw [ht] at h2
          exact Or.inr ((ih s1).2 ⟨pre, k, post, s', j, rfl, h2, h3, h4, h5⟩)

/-- **C230, the exchange ends** (any lists that fit): whatever the order of the turns, there are never more than three for each
entry of a list; when no process can take a turn all have finished with all their neighbours, after exactly so many turns. -/
theorem ends {lists : Nat → List Nat} (hF : Fit lists) {n : Nat} (hn : ∀ i, n ≤ i → lists i = []) {is : List Nat} {s : Procs}
    (h : run (start lists) is = some s) :
    is.length ≤ 3 * ((List.range n).map (fun i => (lists i).length)).sum ∧
    ((∀ k, turn s k = none) → (∀ i, (s i).todo = [] ∧ (s i).done = (lists i).reverse) ∧
      is.length = 3 * ((List.range n).map (fun i => (lists i).length)).sum) := by
  have hI := inv_run is (inv_start lists) h
  have hw := allLeft_run hn is (inv_start lists) h
  rw [allLeft_start] at hw
  refine ⟨by omega, ?_⟩
  intro hstuck
  have hall : ∀ i, (s i).todo = [] := by
    intro i
    by_contra hi
    obtain ⟨k, hk⟩ := progress hF hI hi
    exact hk (hstuck k)
  refine ⟨?_, ?_⟩
  · intro i
    refine ⟨hall i, ?_⟩
    have := hI.split i
    rw [hall i, List.append_nil] at this
    rw [← this, List.reverse_reverse]
  · have hz : ∀ m, allLeft s m = 0 := by
      intro m
      induction m with
      | zero => rfl
      | succ m ih => rw [allLeft, ih]; unfold left; rw [hall m]; simp
    rw [hz n] at hw
    omega

/-! ### Sends that come too early -/

/-- A process that has a neighbour and takes its first two turns before the others begin sends without a receive. -/
theorem first_early {lists : Nat → List Nat} {i j : Nat} {a : List Nat} (hi : lists i = j :: a) (hne : j ≠ i) :
    anyEarly (start lists) [i, i] = true ∧ (run (start lists) [i, i]).isSome = true := by
  have s0 : start lists i = ⟨j :: a, [], .start⟩ := by unfold start; rw [hi]
  obtain ⟨s1, e1⟩ : ∃ s1, s1 = set (start lists) i ⟨j :: a, [], .posted⟩ := ⟨_, rfl⟩
  have t1 : turn (start lists) i = some s1 := by unfold turn; rw [s0]; dsimp only; rw [e1]
  have s1i : s1 i = ⟨j :: a, [], .posted⟩ := by rw [e1, set_same]
  have s1j : s1 j = ⟨lists j, [], .start⟩ := by rw [e1, set_other _ _ hne]; rfl
  have t2 : turn s1 i = some (set s1 i ⟨j :: a, [], .sent⟩) := by unfold turn; rw [s1i]
  have f1 : early s1 i = true := by
    unfold early posted; rw [s1i]; dsimp only; rw [s1j]; simp
  constructor
  · simp only [anyEarly, t1, f1, Bool.true_or, Bool.or_true]
  · simp only [run, t1, t2, Option.isSome_some]

theorem run_append : ∀ (is ks : List Nat) (s s' : Procs), run s is = some s' → run s (is ++ ks) = run s' ks := by
  intro is
  induction is with
  | nil => intro ks s s' h; obtain rfl := Option.some.inj h; rfl
  | cons i is ih =>
    intro ks s s' h
    rw [run] at h
    rw [List.cons_append, run]
    cases ht : turn s i with
    | none => rw [ht] at h; cases h
    | some s1 => rw [ht] at h; exact ih ks s1 s' h

theorem anyEarly_append : ∀ (is ks : List Nat) (s s' : Procs), run s is = some s' →
    anyEarly s (is ++ ks) = (anyEarly s is || anyEarly s' ks) := by
  intro is
  induction is with
  | nil => intro ks s s' h; obtain rfl := Option.some.inj h; rfl
  | cons i is ih =>
    intro ks s s' h
    rw [run] at h
    rw [List.cons_append, anyEarly, anyEarly]
    cases ht : turn s i with
    | none => rw [ht] at h; cases h
    | some s1 =>
      rw [ht] at h
      dsimp only at h ⊢
      rw [ih ks s1 s' h, Bool.or_assoc]

/-- Two processes that are next for each other and go hand in hand finish with each other, without an early send. -/
theorem pair_run {s : Procs} {i j : Nat} {a b : List Nat} (hij : i ≠ j) (hi : (s i).todo = j :: a) (hj : (s j).todo = i :: b)
    (hsi : (s i).stage = .start) (hsj : (s j).stage = .start) :
    ∃ s', run s [i, j, i, j, i, j] = some s' ∧ anyEarly s [i, j, i, j, i, j] = false ∧
      s' i = ⟨a, j :: (s i).done, .start⟩ ∧ s' j = ⟨b, i :: (s j).done, .start⟩ ∧ ∀ k, k ≠ i → k ≠ j → s' k = s k := by
  obtain ⟨s1, e1⟩ : ∃ s1, s1 = set s i { s i with stage := .posted } := ⟨_, rfl⟩
  have t1 : turn s i = some s1 := by unfold turn; rw [hi]; dsimp only; rw [hsi, e1]
  have s1i : s1 i = ⟨j :: a, (s i).done, .posted⟩ := by rw [e1, set_same]; dsimp only; rw [hi]
  have s1k : ∀ k, k ≠ i → s1 k = s k := fun k hk => by rw [e1, set_other _ _ hk]
  have s1j : s1 j = ⟨i :: b, (s j).done, .start⟩ := by rw [s1k j hij.symm, ← hj, ← hsj]
  obtain ⟨s2, e2⟩ : ∃ s2, s2 = set s1 j { s1 j with stage := .posted } := ⟨_, rfl⟩
  have t2 : turn s1 j = some s2 := by unfold turn; rw [s1j]; dsimp only; rw [e2, s1j]
  have s2j : s2 j = ⟨i :: b, (s j).done, .posted⟩ := by rw [e2, set_same, s1j]
  have s2i : s2 i = ⟨j :: a, (s i).done, .posted⟩ := by rw [e2, set_other _ _ hij, s1i]
  have s2k : ∀ k, k ≠ i → k ≠ j → s2 k = s k := fun k h1 h2 => by rw [e2, set_other _ _ h2, s1k k h1]
  obtain ⟨s3, e3⟩ : ∃ s3, s3 = set s2 i { s2 i with stage := .sent } := ⟨_, rfl⟩
  have t3 : turn s2 i = some s3 := by unfold turn; rw [s2i]; dsimp only; rw [e3, s2i]
  have s3i : s3 i = ⟨j :: a, (s i).done, .sent⟩ := by rw [e3, set_same, s2i]
  have s3j : s3 j = ⟨i :: b, (s j).done, .posted⟩ := by rw [e3, set_other _ _ hij.symm, s2j]
  have s3k : ∀ k, k ≠ i → k ≠ j → s3 k = s k := fun k h1 h2 => by rw [e3, set_other _ _ h1, s2k k h1 h2]
  obtain ⟨s4, e4⟩ : ∃ s4, s4 = set s3 j { s3 j with stage := .sent } := ⟨_, rfl⟩
  have t4 : turn s3 j = some s4 := by unfold turn; rw [s3j]; dsimp only; rw [e4, s3j]
  have s4j : s4 j = ⟨i :: b, (s j).done, .sent⟩ := by rw [e4, set_same, s3j]
  have s4i : s4 i = ⟨j :: a, (s i).done, .sent⟩ := by rw [e4, set_other _ _ hij, s3i]
  have s4k : ∀ k, k ≠ i → k ≠ j → s4 k = s k := fun k h1 h2 => by rw [e4, set_other _ _ h2, s3k k h1 h2]
  obtain ⟨s5, e5⟩ : ∃ s5, s5 = set s4 i ⟨a, j :: (s i).done, .start⟩ := ⟨_, rfl⟩
  have t5 : turn s4 i = some s5 := by
    have h1 : sent s4 j i = true := (sent_iff s4 j i).2 (Or.inr (by rw [s4j]; exact ⟨rfl, rfl⟩))
    have h2 := posted_of_sent h1
    unfold turn; rw [s4i]; dsimp only; rw [h1, h2, e5]; rfl
  have s5i : s5 i = ⟨a, j :: (s i).done, .start⟩ := by rw [e5, set_same]
  have s5j : s5 j = ⟨i :: b, (s j).done, .sent⟩ := by rw [e5, set_other _ _ hij.symm, s4j]
  have s5k : ∀ k, k ≠ i → k ≠ j → s5 k = s k := fun k h1 h2 => by rw [e5, set_other _ _ h1, s4k k h1 h2]
  obtain ⟨s6, e6⟩ : ∃ s6, s6 = set s5 j ⟨b, i :: (s j).done, .start⟩ := ⟨_, rfl⟩
  have t6 : turn s5 j = some s6 := by
    have h1 : sent s5 i j = true := (sent_iff s5 i j).2 (Or.inl (by rw [s5i]; exact List.mem_cons_self))
    have h2 := posted_of_sent h1
    unfold turn; rw [s5j]; dsimp only; rw [h1, h2, e6]; rfl
  refine ⟨s6, ?_, ?_, ?_, ?_, ?_⟩
  · simp only [run, t1, t2, t3, t4, t5, t6]
  · have f1 : early s i = false := by unfold early; rw [hi]; dsimp only; rw [hsi]; rfl
    have f2 : early s1 j = false := by unfold early; rw [s1j]; rfl
    have f3 : early s2 i = false := by
      unfold early; rw [s2i]; dsimp only
      have : posted s2 j i = true := (posted_iff s2 j i).2 (Or.inr (by rw [s2j]; exact ⟨rfl, by simp⟩))
      rw [this]; rfl
    have f4 : early s3 j = false := by
      unfold early; rw [s3j]; dsimp only
      have : posted s3 i j = true := (posted_iff s3 i j).2 (Or.inr (by rw [s3i]; exact ⟨rfl, by simp⟩))
      rw [this]; rfl
    have f5 : early s4 i = false := by unfold early; rw [s4i]; rfl
    have f6 : early s5 j = false := by unfold early; rw [s5j]; rfl
    simp only [anyEarly, t1, t2, t3, t4, t5, t6, f1, f2, f3, f4, f5, f6, Bool.or_false]
  · rw [e6, set_other _ _ hij, s5i]
  · rw [e6, set_same]
  · intro k h1 h2
    rw [e6, set_other _ _ h2, s5k k h1 h2]

/-- The entries of the lists of the first `n` processes. -/
def entries (p : Pending) (n : Nat) : Nat := ((List.range n).map (fun i => (p i).length)).sum

theorem entries_le {p p' : Pending} (h : ∀ i, (p' i).length ≤ (p i).length) : ∀ n, entries p' n ≤ entries p n := by
  intro n
  induction n with
  | zero => exact Nat.le_refl _
  | succ n ih =>
    unfold entries at ih ⊢
    rw [List.range_succ, List.map_append, List.map_append, List.sum_append, List.sum_append]
    have := h n
    simp only [List.map_cons, List.map_nil, List.sum_cons, List.sum_nil]
    omega

theorem entries_lt {p p' : Pending} (h : ∀ i, (p' i).length ≤ (p i).length) {k : Nat} (hk : (p' k).length < (p k).length) :
    ∀ n, k < n → entries p' n < entries p n := by
  intro n
  induction n with
  | zero => intro h; omega
  | succ n ih =>
    intro hkn
    have h1 := entries_le h n
    have h2 := h n
    by_cases e : k = n
    · subst e
      unfold entries at *
      rw [List.range_succ, List.map_append, List.map_append, List.sum_append, List.sum_append]
      simp only [List.map_cons, List.map_nil, List.sum_cons, List.sum_nil]
      omega
    · have := ih (by omega)
      unfold entries at *
      rw [List.range_succ, List.map_append, List.map_append, List.sum_append, List.sum_append]
      simp only [List.map_cons, List.map_nil, List.sum_cons, List.sum_nil]
      omega

/-- There is an order of the turns without an early send. -/
theorem lucky (n : Nat) : ∀ (m : Nat) (p : Pending) (s : Procs), entries p n ≤ m → Fit p → (∀ i, n ≤ i → p i = []) →
    (∀ i, (s i).todo = p i ∧ (s i).stage = .start) →
    ∃ is s', run s is = some s' ∧ anyEarly s is = false ∧ ∀ i, (s' i).todo = [] := by
  intro m
  induction m with
  | zero =>
    intro p s hm hF hn hs
    refine ⟨[], s, rfl, rfl, fun i => ?_⟩
    rw [(hs i).1]
    by_cases hi : i < n
    · by_contra hne
      have hpos : 0 < (p i).length := List.length_pos_iff.2 hne
      have := entries_lt (p := p) (p' := fun _ => []) (fun _ => by simp) (k := i) (by simpa using hpos) n hi
      omega
    · exact hn i (by omega)
  | succ m ih =>
    intro p s hm hF hn hs
    by_cases hall : ∀ i, p i = []
    · exact ⟨[], s, rfl, rfl, fun i => by rw [(hs i).1, hall i]⟩
    · obtain ⟨i0, hi0⟩ := Classical.not_forall.1 hall
      obtain ⟨p', hmeet⟩ := KdTree.ready_progress hF.ready hF.self hi0
      have hr' := KdTree.ready_meet hF.ready hmeet
      obtain ⟨i, j, a, b, hij, hi, hj, rfl⟩ := hmeet
      obtain ⟨s1, r1, n1, si, sj, sk⟩ := pair_run hij ((hs i).1.trans hi) ((hs j).1.trans hj) (hs i).2 (hs j).2
      have hval : ∀ k, (if k = i then a else if k = j then b else p k) ⊆ p k ∧
          (if k = i then a else if k = j then b else p k).length ≤ (p k).length := by
        intro k
        by_cases h1 : k = i
        · subst h1; rw [if_pos rfl, hi]; exact ⟨List.subset_cons_self _ _, by simp⟩
        · rw [if_neg h1]
          by_cases h2 : k = j
          · subst h2; rw [if_pos rfl, hj]; exact ⟨List.subset_cons_self _ _, by simp⟩
          · rw [if_neg h2]; exact ⟨List.Subset.refl _, Nat.le_refl _⟩
      have hin : i < n := by
        by_contra hc
        rw [hn i (by omega)] at hi; cases hi
      have hlt := entries_lt (p := p) (p' := fun k => if k = i then a else if k = j then b else p k) (fun k => (hval k).2) (k := i)
        (by rw [if_pos rfl, hi]; simp) n hin
      obtain ⟨is, s', r2, n2, h2⟩ := ih (fun k => if k = i then a else if k = j then b else p k) s1 (by omega)
        ⟨hr', fun k hk => hF.self k ((hval k).1 hk)⟩
        (fun k hk => by
          have h3 : (p k).length = 0 := by rw [hn k hk]; rfl
          have h4 := (hval k).2
          exact List.length_eq_zero_iff.1 (by omega))
        (fun k => by
          by_cases e1 : k = i
          · subst e1; rw [si, if_pos rfl]; exact ⟨rfl, rfl⟩
          · rw [if_neg e1]
            by_cases e2 : k = j
            · subst e2; rw [sj, if_pos rfl]; exact ⟨rfl, rfl⟩
            · rw [if_neg e2, sk k e1 e2]; exact hs k)
      refine ⟨[i, j, i, j, i, j] ++ is, s', ?_, ?_, h2⟩
      · rw [run_append _ _ _ _ r1]; exact r2
      · rw [anyEarly_append _ _ _ _ r1, n1, n2]; rfl

/-! ### The distributed field -/

theorem fit_field (size : Nat) (root : KdTree.Tile) (d : Rat) (h : 0 < root.w ∧ 0 < root.h) (h0 : 0 ≤ root.x ∧ 0 ≤ root.y)
    (hs : 2 ≤ size) : Fit (KdTree.allNeighbors size root d) := by
  refine ⟨KdTree.ready_start size root d h h0 hs, ?_⟩
  intro i hi
  obtain ⟨ts, hts, _⟩ := KdTree.subtrees_spec h hs
  rw [KdTree.mem_allNeighbors d h h0 hs hts] at hi
  exact hi.2.1 rfl

/-- **C230, the exchange ends**: whatever the order in which the processes take their turns, the exchange of lengths of the
distributed field has at most three turns for each neighbour of each process; when no process can take a turn, every process has
finished with all its neighbours. -/
theorem C230_ends_partial (size : Nat) (root : KdTree.Tile) (d : Rat) (h : 0 < root.w ∧ 0 < root.h)
    (h0 : 0 ≤ root.x ∧ 0 ≤ root.y) (hs : 2 ≤ size) {is : List Nat} {s : Procs}
    (hr : run (start (KdTree.allNeighbors size root d)) is = some s) :
    is.length ≤ 3 * ((List.range size).map (fun i => (KdTree.allNeighbors size root d i).length)).sum ∧
    ((∀ k, turn s k = none) → (∀ i, (s i).todo = [] ∧ (s i).done = (KdTree.allNeighbors size root d i).reverse) ∧
      is.length = 3 * ((List.range size).map (fun i => (KdTree.allNeighbors size root d i).length)).sum) :=
  ends (fit_field size root d h h0 hs) (fun i hi => by unfold KdTree.allNeighbors; rw [if_neg (by omega)]) hr

/-- **C230 is false**: a process that has a neighbour and comes to the exchange first starts a send in ready mode without a receive,
which MPI forbids; what follows is undefined. -/
theorem C230_early_negation_partial (size : Nat) (root : KdTree.Tile) (d : Rat) (h : 0 < root.w ∧ 0 < root.h)
    (h0 : 0 ≤ root.x ∧ 0 ≤ root.y) (hs : 2 ≤ size) {i : Nat} (hi : KdTree.allNeighbors size root d i ≠ []) :
    anyEarly (start (KdTree.allNeighbors size root d)) [i, i] = true ∧
    (run (start (KdTree.allNeighbors size root d)) [i, i]).isSome = true := by
  cases hl : KdTree.allNeighbors size root d i with
  | nil => exact absurd hl hi
  | cons j a =>
    refine first_early hl ?_
    rintro rfl
    exact (fit_field size root d h h0 hs).self j (by rw [hl]; exact List.mem_cons_self)

/-- **C230, it can go well**: there is an order of the turns in which every send finds its receive, until all have finished. So it is
a matter of timing alone. -/
theorem C230_lucky_partial (size : Nat) (root : KdTree.Tile) (d : Rat) (h : 0 < root.w ∧ 0 < root.h)
    (h0 : 0 ≤ root.x ∧ 0 ≤ root.y) (hs : 2 ≤ size) :
    ∃ is s, run (start (KdTree.allNeighbors size root d)) is = some s ∧
      anyEarly (start (KdTree.allNeighbors size root d)) is = false ∧ ∀ i, (s i).todo = [] :=
  lucky size _ _ _ (Nat.le_refl _) (fit_field size root d h h0 hs)
    (fun i hi => by unfold KdTree.allNeighbors; rw [if_neg (by omega)]) (fun _ => ⟨rfl, rfl⟩)

/-- Three processes on a square field are all neighbours of each other; process 2 waits for process 0 while that one deals with
process 1. -/
example : (List.range 3).map (KdTree.allNeighbors 3 ⟨0, 0, 8, 8⟩ 1) = [[1, 2], [0, 2], [0, 1]] ∧
    ((run (start (KdTree.allNeighbors 3 ⟨0, 0, 8, 8⟩ 1)) [2, 2, 0, 0]).map (fun s => (turn s 2).isSome)) = some false ∧
    ((run (start (KdTree.allNeighbors 3 ⟨0, 0, 8, 8⟩ 1)) [2, 2, 0, 0, 1, 1, 0, 1, 0, 0, 2]).map (fun s => ((s 2).todo, (s 0).todo))) =
      some ([1], [2]) := by
  refine ⟨?_, ?_, ?_⟩ <;> decide +kernel

end Verif.Exchange
