import Verif.Spec.Locks
import Mathlib.Tactic.ByContra

/-!
A sufficient condition against hanging: every program takes its mutexes and waits for its events in increasing rank,
and releases what it takes. `Ok` is the condition, `ok_never_stuck` says that it is enough.
-/

namespace Verif.Locks

variable {L E : Type} [DecidableEq L]

/-- The rest of a program that holds `held` respects the ranks `rl` of the mutexes and `re` of the events: what it
blocks on ranks above what it holds and above what it still has to signal, and it gives back everything. -/
def Ok (rl : L → Nat) (re : E → Nat) : List L → List (Act L E) → Prop
  | held, [] => held = []
  | held, .take l :: p =>
    (∀ h ∈ held, rl h < rl l) ∧ (∀ e, Act.signal e ∈ p → re e < rl l) ∧ Ok rl re (l :: held) p
  | held, .drop l :: p => l ∈ held ∧ Ok rl re (held.erase l) p
  | held, .signal _ :: p => Ok rl re held p
  | held, .await e :: p =>
    (∀ h ∈ held, rl h < re e) ∧ (∀ e', Act.signal e' ∈ p → re e' < re e) ∧ Ok rl re held p

/-- Every awaited event has happened or will be signalled by somebody. -/
def Promised (w : World L E) : Prop :=
  ∀ t ∈ w.threads, ∀ e, Act.await e ∈ t.todo → e ∈ w.past ∨ ∃ t' ∈ w.threads, Act.signal e ∈ t'.todo

/-- The invariant. -/
def Inv (rl : L → Nat) (re : E → Nat) (w : World L E) : Prop :=
  (∀ t ∈ w.threads, Ok rl re t.held t.todo) ∧ Promised w

omit [DecidableEq L] in
theorem promised_shrink {pre post : List (Thread L E)} {past past' : List E} {held held' : List L}
    {a : Act L E} {p : List (Act L E)} (hp : Promised ⟨pre ++ ⟨held, a :: p⟩ :: post, past⟩)
    (hpast : ∀ e ∈ past, e ∈ past') (ha : ∀ e, a = .signal e → e ∈ past') :
    Promised ⟨pre ++ ⟨held', p⟩ :: post, past'⟩ := by
  intro t ht e he
  have key : e ∈ past ∨ ∃ t' ∈ pre ++ ⟨held, a :: p⟩ :: post, Act.signal e ∈ t'.todo := by
    rcases List.mem_append.mp ht with h | h
    · exact hp t (List.mem_append.mpr (Or.inl h)) e he
    · rcases List.mem_cons.mp h with rfl | h
      · exact hp ⟨held, a :: p⟩ (by simp) e (List.mem_cons_of_mem _ he)
      · exact hp t (List.mem_append.mpr (Or.inr (List.mem_cons_of_mem _ h))) e he
  rcases key with h | ⟨t', ht', hs⟩
  · exact Or.inl (hpast e h)
  · rcases List.mem_append.mp ht' with h | h
    · exact Or.inr ⟨t', List.mem_append.mpr (Or.inl h), hs⟩
    · rcases List.mem_cons.mp h with rfl | h
      · rcases List.mem_cons.mp hs with hs | hs
        · exact Or.inl (ha e hs.symm)
        · exact Or.inr ⟨⟨held', p⟩, by simp, hs⟩
      · exact Or.inr ⟨t', List.mem_append.mpr (Or.inr (List.mem_cons_of_mem _ h)), hs⟩

theorem oks_replace {rl : L → Nat} {re : E → Nat} {pre post : List (Thread L E)} {t t' : Thread L E}
    (h : ∀ x ∈ pre ++ t :: post, Ok rl re x.held x.todo) (ht' : Ok rl re t'.held t'.todo) :
    ∀ x ∈ pre ++ t' :: post, Ok rl re x.held x.todo := by
  intro x hx
  rcases List.mem_append.mp hx with h1 | h1
  · exact h x (List.mem_append.mpr (Or.inl h1))
  · rcases List.mem_cons.mp h1 with rfl | h1
    · exact ht'
    · exact h x (List.mem_append.mpr (Or.inr (List.mem_cons_of_mem _ h1)))

theorem inv_step {rl : L → Nat} {re : E → Nat} {w w' : World L E} (hi : Inv rl re w) (hs : Step w w') :
    Inv rl re w' := by
  obtain ⟨hok, hpr⟩ := hi
  cases hs with
  | take pre post past held l p hfree =>
    have h := hok ⟨held, .take l :: p⟩ (by simp)
    exact ⟨oks_replace hok h.2.2, promised_shrink hpr (fun e h => h) (fun e h => (nomatch h))⟩
  | drop pre post past held l p =>
    have h := hok ⟨held, .drop l :: p⟩ (by simp)
    exact ⟨oks_replace hok h.2, promised_shrink hpr (fun e h => h) (fun e h => (nomatch h))⟩
  | signal pre post past held e p =>
    have h := hok ⟨held, .signal e :: p⟩ (by simp)
    exact ⟨oks_replace hok h, promised_shrink hpr (fun e h => List.mem_cons_of_mem _ h)
      (fun e' h => by cases h; exact List.mem_cons_self)⟩
  | await pre post past held e p hpast =>
    have h := hok ⟨held, .await e :: p⟩ (by simp)
    exact ⟨oks_replace hok h.2.2, promised_shrink hpr (fun e h => h) (fun e h => (nomatch h))⟩

theorem inv_reach {rl : L → Nat} {re : E → Nat} {w w' : World L E} (hi : Inv rl re w) (hr : Reach w w') :
    Inv rl re w' := by
  induction hr with
  | refl => exact hi
  | tail _ hs ih => exact inv_step ih hs

/-- The rank of what the thread would block on next. -/
def nextRank (rl : L → Nat) (re : E → Nat) : List (Act L E) → Nat
  | .take l :: _ => rl l
  | .await e :: _ => re e
  | _ => 0

theorem exists_max {α : Type} (f : α → Nat) (P : α → Prop) : ∀ (l : List α), (∃ x ∈ l, P x) →
    ∃ x ∈ l, P x ∧ ∀ y ∈ l, P y → f y ≤ f x
  | [], h => by obtain ⟨x, hx, _⟩ := h; exact absurd hx (List.not_mem_nil)
  | a :: l, h => by
    by_cases hl : ∃ x ∈ l, P x
    · obtain ⟨x, hx, hP, hmax⟩ := exists_max f P l hl
      by_cases ha : P a ∧ f x ≤ f a
      · refine ⟨a, List.mem_cons_self, ha.1, ?_⟩
        intro y hy hPy
        rcases List.mem_cons.mp hy with rfl | hy
        · exact Nat.le_refl _
        · exact Nat.le_trans (hmax y hy hPy) ha.2
      · refine ⟨x, List.mem_cons_of_mem _ hx, hP, ?_⟩
        intro y hy hPy
        rcases List.mem_cons.mp hy with rfl | hy
        · by_contra hlt
          exact ha ⟨hPy, by omega⟩
        · exact hmax y hy hPy
    · obtain ⟨x, hx, hP⟩ := h
      rcases List.mem_cons.mp hx with rfl | hx
      · refine ⟨x, List.mem_cons_self, hP, ?_⟩
        intro y hy hPy
        rcases List.mem_cons.mp hy with rfl | hy
        · exact Nat.le_refl _
        · exact absurd ⟨y, hy, hPy⟩ hl
      · exact absurd ⟨x, hx, hP⟩ hl

omit [DecidableEq L] in
theorem split_thread {w : World L E} {t : Thread L E} (ht : t ∈ w.threads) :
    ∃ pre post, w = ⟨pre ++ t :: post, w.past⟩ := by
  obtain ⟨pre, post, h⟩ := List.append_of_mem ht
  exact ⟨pre, post, by cases w; simp_all⟩

/-- A thread with something to do either can do it, or blocks on a mutex somebody holds, or on a future event. -/
theorem blocked {w : World L E} (hno : ∀ w', ¬ Step w w') {t : Thread L E} (ht : t ∈ w.threads)
    (hne : t.todo ≠ []) :
    (∃ l p, t.todo = .take l :: p ∧ ∃ t' ∈ w.threads, l ∈ t'.held) ∨
    (∃ e p, t.todo = .await e :: p ∧ e ∉ w.past) := by
  obtain ⟨pre, post, hw⟩ := split_thread ht
  obtain ⟨held, todo⟩ := t
  rw [hw] at hno ⊢
  match todo, hne with
  | .take l :: p, _ =>
    left
    refine ⟨l, p, rfl, ?_⟩
    by_contra hfree
    refine hno _ (Step.take pre post w.past held l p ?_)
    intro t' ht' hl
    exact hfree ⟨t', ht', hl⟩
  | .drop l :: p, _ => exact absurd (Step.drop pre post w.past held l p) (hno _)
  | .signal e :: p, _ => exact absurd (Step.signal pre post w.past held e p) (hno _)
  | .await e :: p, _ =>
    right
    refine ⟨e, p, rfl, ?_⟩
    intro hpast
    exact hno _ (Step.await pre post w.past held e p hpast)

/-- What a thread that still holds or signals something blocks on ranks above that. -/
theorem next_above {rl : L → Nat} {re : E → Nat} {held : List L} {todo : List (Act L E)}
    (hok : Ok rl re held todo) (hblock : (∃ l p, todo = .take l :: p) ∨ (∃ e p, todo = .await e :: p)) :
    (∀ h ∈ held, rl h < nextRank rl re todo) ∧ (∀ e, Act.signal e ∈ todo → re e < nextRank rl re todo) := by
  rcases hblock with ⟨l, p, rfl⟩ | ⟨e, p, rfl⟩
  · refine ⟨hok.1, ?_⟩
    intro e he
    rcases List.mem_cons.mp he with h | h
    · exact (nomatch h)
    · exact hok.2.1 e h
  · refine ⟨hok.1, ?_⟩
    intro e' he
    rcases List.mem_cons.mp he with h | h
    · exact (nomatch h)
    · exact hok.2.1 e' h

theorem inv_not_stuck {rl : L → Nat} {re : E → Nat} {w : World L E} (hi : Inv rl re w) : ¬ Stuck w := by
  rintro ⟨hnf, hno⟩
  obtain ⟨hok, hpr⟩ := hi
  have hex : ∃ t ∈ w.threads, t.todo ≠ [] := by
    by_contra hall
    apply hnf
    intro t ht
    have h0 : t.todo = [] := by
      by_contra hne
      exact hall ⟨t, ht, hne⟩
    have h1 := hok t ht
    rw [h0] at h1
    exact ⟨h0, h1⟩
  obtain ⟨t, ht, hne, hmax⟩ := exists_max (fun t : Thread L E => nextRank rl re t.todo) (fun t => t.todo ≠ []) w.threads hex
  have up : ∀ t' ∈ w.threads, t'.todo ≠ [] →
      (∀ h ∈ t'.held, rl h < nextRank rl re t'.todo) ∧
      (∀ e, Act.signal e ∈ t'.todo → re e < nextRank rl re t'.todo) := by
    intro t' ht' hne'
    apply next_above (hok t' ht')
    rcases blocked hno ht' hne' with ⟨l, p, h, _⟩ | ⟨e, p, h, _⟩
    · exact Or.inl ⟨l, p, h⟩
    · exact Or.inr ⟨e, p, h⟩
  rcases blocked hno ht hne with ⟨l, p, htodo, t', ht', hl⟩ | ⟨e, p, htodo, hpast⟩
  · have hne' : t'.todo ≠ [] := by
      intro h0
      have h1 := hok t' ht'
      rw [h0] at h1
      rw [show t'.held = [] from h1] at hl
      exact absurd hl List.not_mem_nil
    have h1 := (up t' ht' hne').1 l hl
    have h2 := hmax t' ht' hne'
    rw [htodo] at h2
    simp only [nextRank] at h2
    exact absurd h1 (Nat.not_lt.mpr h2)
  · rcases hpr t ht e (by rw [htodo]; exact List.mem_cons_self) with h | ⟨t', ht', hs⟩
    · exact hpast h
    · have hne' : t'.todo ≠ [] := by
        intro h0
        rw [h0] at hs
        exact absurd hs List.not_mem_nil
      have h1 := (up t' ht' hne').2 e hs
      have h2 := hmax t' ht' hne'
      rw [htodo] at h2
      simp only [nextRank] at h2
      exact absurd h1 (Nat.not_lt.mpr h2)

/-- Programs that respect some ranks, and whose awaited events are all signalled by somebody, never hang. -/
theorem ok_never_hangs (rl : L → Nat) (re : E → Nat) (ps : List (List (Act L E)))
    (hok : ∀ p ∈ ps, Ok rl re [] p)
    (hpr : ∀ p ∈ ps, ∀ e, Act.await e ∈ p → ∃ p' ∈ ps, Act.signal e ∈ p') : ¬ CanHang ps := by
  rintro ⟨w, hr, hs⟩
  refine inv_not_stuck (inv_reach (rl := rl) (re := re) ?_ hr) hs
  constructor
  · intro t ht
    obtain ⟨p, hp, rfl⟩ := List.mem_map.mp ht
    exact hok p hp
  · intro t ht e he
    obtain ⟨p, hp, rfl⟩ := List.mem_map.mp ht
    obtain ⟨p', hp', hs'⟩ := hpr p hp e he
    exact Or.inr ⟨⟨[], p'⟩, List.mem_map.mpr ⟨p', hp', rfl⟩, hs'⟩

/-! Composition of programs whose events all rank below the mutexes. -/

/-- A piece of program that can be run while `held` is held, whatever comes after. -/
def Piece (rl : L → Nat) (re : E → Nat) (held : List L) (p : List (Act L E)) : Prop :=
  ∀ q, Ok rl re held q → Ok rl re held (p ++ q)

variable {rl : L → Nat} {re : E → Nat} {held : List L}

theorem piece_nil : Piece rl re held ([] : List (Act L E)) := fun _ hq => hq

theorem piece_append {p p' : List (Act L E)} (h : Piece rl re held p) (h' : Piece rl re held p') :
    Piece rl re held (p ++ p') := by
  intro q hq
  rw [List.append_assoc]
  exact h _ (h' _ hq)

theorem piece_flatten {ps : List (List (Act L E))} (h : ∀ p ∈ ps, Piece rl re held p) :
    Piece rl re held ps.flatten := by
  induction ps with
  | nil => exact piece_nil
  | cons p ps ih =>
    rw [List.flatten_cons]
    exact piece_append (h p List.mem_cons_self) (ih fun x hx => h x (List.mem_cons_of_mem _ hx))

theorem piece_flatMap {α : Type} {f : α → List (Act L E)} {l : List α} (h : ∀ a ∈ l, Piece rl re held (f a)) :
    Piece rl re held (l.flatMap f) := by
  induction l with
  | nil => exact piece_nil
  | cons a l ih =>
    rw [List.flatMap_cons]
    exact piece_append (h a List.mem_cons_self) (ih fun x hx => h x (List.mem_cons_of_mem _ hx))

theorem piece_if {c : Prop} [Decidable c] {p q : List (Act L E)} (hp : Piece rl re held p) (hq : Piece rl re held q) :
    Piece rl re held (if c then p else q) := by
  split
  · exact hp
  · exact hq

theorem piece_signal (e : E) : Piece rl re held [Act.signal e] := fun _ hq => hq

/-- A guard around a piece. -/
theorem piece_guard (hlow : ∀ e l, re e < rl l) {l : L} {p : List (Act L E)} (hl : ∀ h ∈ held, rl h < rl l)
    (hp : Piece rl re (l :: held) p) : Piece rl re held (.take l :: (p ++ [.drop l])) := by
  intro q hq
  refine ⟨hl, fun e _ => hlow e l, ?_⟩
  show Ok rl re (l :: held) (p ++ [Act.drop l] ++ q)
  rw [List.append_assoc]
  refine hp _ ⟨List.mem_cons_self, ?_⟩
  rw [List.erase_cons_head]
  exact hq

theorem piece_ok {p : List (Act L E)} (h : Piece rl re [] p) : Ok rl re [] p := by
  have h1 := h [] rfl
  rwa [List.append_nil] at h1

end Verif.Locks
