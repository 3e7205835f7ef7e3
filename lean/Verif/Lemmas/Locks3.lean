import Verif.Spec.LockRules
import Verif.Lemmas.Locks2

/-!
The code of a user and the parallel schedule respect the ranks.
-/

namespace Verif.Locks

variable {E : Type}

section
variable {b : Bool} {base : Nat} {re : E → Nat} (hlow : ∀ e, re e < base)
include hlow

theorem piece_use {held : List Lock} (hh : Below b 8 held) (u : Use) (hu : Gentle u) :
    Piece (rank b base) re held u.trace := by
  have lock : ∀ (f : Nat) (m : MapName) (i : Nat), Piece (rank b base) re held (guarded (.shard f m i) []) :=
    fun f m i => (piece_call_at hlow (below_mono hh (Nat.le_add_right 8 (3 * f)))).1 m i
  have under : ∀ (f i : Nat) (cs : List (List Call)), OnlyAfter f cs → ∀ c ∈ cs,
      Piece (rank b base) re (.shard f .bag i :: held) (closureTrace c) := by
    intro f i cs hcs c hc
    refine piece_closure hlow c ?_
    intro x hx g hg
    have := hcs c hc x hx g hg
    refine below_cons ?_ (below_mono hh (Nat.le_add_right _ _))
    simp only [lockOrder]
    omega
  cases u with
  | call c => exact piece_call hlow c fun f _ => below_mono hh (Nat.le_add_right _ _)
  | iter cs => exact piece_flatMap fun c _ => piece_closure_low hlow hh c
  | applyObjects f cs =>
    refine piece_flatMap ?_
    intro x hx
    obtain ⟨⟨i, c, j⟩, _, rfl⟩ := List.mem_map.mp hx
    refine piece_append (piece_closure_low hlow hh c) ?_
    cases j with
    | none => exact piece_nil
    | some j => exact piece_append (lock f .loc i) (lock f .loc j)
  | applyRead f cs =>
    refine piece_flatMap ?_
    intro x hx
    obtain ⟨⟨i, c⟩, _, rfl⟩ := List.mem_map.mp hx
    exact piece_append (piece_closure_low hlow hh c) (lock f .bag i)
  | applyWrite f n cs =>
    refine piece_flatMap fun i _ => piece_guarded hlow ?_ (piece_flatten ?_)
    · exact below_mono hh (by simp only [lockOrder]; omega)
    · intro p hp
      obtain ⟨c, hc, rfl⟩ := List.mem_map.mp hp
      exact under f i (cs i) (hu i) c hc
  | applyReadWrite f n cs =>
    refine piece_flatMap fun i _ => piece_flatMap ?_
    intro p hp
    obtain ⟨c, hc, rfl⟩ := List.mem_map.mp hp
    refine piece_guarded hlow ?_ (under f i (cs i) (hu i) c hc)
    exact below_mono hh (by simp only [lockOrder]; omega)

/-- The code of a user can run while only mutexes below `ids` are held. -/
theorem piece_user {held : List Lock} (hh : Below b 3 held) (mk : Nat → E) (u : User) (hu : GentleUser u) :
    Piece (rank b base) re held (u.trace mk) := by
  have up : ∀ n, 3 ≤ n → Below b n held := fun n hn => below_mono hh hn
  cases u with
  | use u => exact piece_use hlow (up 8 (by omega)) u hu
  | scheduleOnce => exact piece_lock hlow (up _ (by simp [lockOrder]))
  | scheduleRepeating =>
    refine piece_guarded hlow (up _ (by simp [lockOrder])) (piece_lock hlow (below_cons ?_ (up _ ?_)))
    · simp [lockOrder]
    · simp [lockOrder]
  | getAllEvents => exact piece_lock hlow (up _ (by simp [lockOrder]))
  | log args =>
    refine piece_guarded hlow (up _ (by simp [lockOrder])) (piece_closure_low hlow (below_cons ?_ (up _ ?_)) args)
    · simp [lockOrder]
    · simp
  | plot args msg =>
    refine piece_guarded hlow (up _ (by simp [lockOrder])) (piece_append (piece_closure_low hlow (below_cons ?_ (up _ ?_)) args) ?_)
    · simp [lockOrder]
    · simp
    · cases msg with
      | none => exact piece_nil
      | some k =>
        refine piece_guarded hlow (below_cons ?_ (up _ ?_)) (piece_append
          (piece_closure_low hlow (below_cons ?_ (below_cons ?_ (up _ ?_))) args) (piece_signal (mk k)))
        all_goals simp [lockOrder]
  | addplot args csv =>
    refine piece_guarded hlow (up _ (by simp [lockOrder])) (piece_append (piece_closure_low hlow (below_cons ?_ (up _ ?_)) args) ?_)
    · simp [lockOrder]
    · simp
    · cases csv with
      | false => exact piece_nil
      | true =>
        refine piece_guarded hlow (below_cons ?_ (up _ ?_))
          (piece_closure_low hlow (below_cons ?_ (below_cons ?_ (up _ ?_))) args)
        all_goals simp [lockOrder]
  | description args =>
    exact piece_append (piece_closure_low hlow (up _ (by omega)) args) (piece_lock hlow (up _ (by simp [lockOrder])))

theorem piece_users {held : List Lock} (hh : Below b 3 held) (mk : Nat → E) (us : List User)
    (hu : ∀ u ∈ us, GentleUser u) : Piece (rank b base) re held (userTrace mk us) :=
  piece_flatMap fun u h => piece_user hlow hh mk u (hu u h)

end

/-! Which events pieces signal and wait for. -/

/-- The signals of a program. -/
def signals (p : Trace E) : List E := p.filterMap fun
  | .signal e => some e
  | _ => none

/-- The events a program waits for. -/
def awaits (p : Trace E) : List E := p.filterMap fun
  | .await e => some e
  | _ => none

theorem mem_signals {p : Trace E} {e : E} : e ∈ signals p ↔ Act.signal e ∈ p := by
  simp only [signals, List.mem_filterMap]
  constructor
  · rintro ⟨a, ha, h⟩
    cases a <;> simp_all
  · intro h
    exact ⟨_, h, rfl⟩

theorem mem_awaits {p : Trace E} {e : E} : e ∈ awaits p ↔ Act.await e ∈ p := by
  simp only [awaits, List.mem_filterMap]
  constructor
  · rintro ⟨a, ha, h⟩
    cases a <;> simp_all
  · intro h
    exact ⟨_, h, rfl⟩

@[simp] theorem signals_append (p q : Trace E) : signals (p ++ q) = signals p ++ signals q :=
  List.filterMap_append

@[simp] theorem awaits_append (p q : Trace E) : awaits (p ++ q) = awaits p ++ awaits q :=
  List.filterMap_append

@[simp] theorem signals_nil : signals ([] : Trace E) = [] := rfl
@[simp] theorem awaits_nil : awaits ([] : Trace E) = [] := rfl

@[simp] theorem signals_guarded (l : Lock) (p : Trace E) : signals (guarded l p) = signals p := by
  simp [signals, guarded]

@[simp] theorem awaits_guarded (l : Lock) (p : Trace E) : awaits (guarded l p) = awaits p := by
  simp [awaits, guarded]

/-- Nothing is signalled or waited for. -/
def Silent (p : Trace E) : Prop := signals p = [] ∧ awaits p = []

theorem silent_nil : Silent ([] : Trace E) := ⟨rfl, rfl⟩

theorem silent_append {p q : Trace E} (hp : Silent p) (hq : Silent q) : Silent (p ++ q) := by
  simp [Silent, hp.1, hp.2, hq.1, hq.2]

theorem silent_guarded {l : Lock} {p : Trace E} (hp : Silent p) : Silent (guarded l p) := by
  simp [Silent, hp.1, hp.2]

theorem silent_flatMap {α : Type} {f : α → Trace E} {l : List α} (h : ∀ a ∈ l, Silent (f a)) :
    Silent (l.flatMap f) := by
  induction l with
  | nil => exact silent_nil
  | cons a l ih =>
    rw [List.flatMap_cons]
    exact silent_append (h a List.mem_cons_self) (ih fun x hx => h x (List.mem_cons_of_mem _ hx))

theorem silent_flatten {ps : List (Trace E)} (h : ∀ p ∈ ps, Silent p) : Silent ps.flatten := by
  induction ps with
  | nil => exact silent_nil
  | cons p ps ih =>
    rw [List.flatten_cons]
    exact silent_append (h p List.mem_cons_self) (ih fun x hx => h x (List.mem_cons_of_mem _ hx))

theorem silent_if {c : Prop} [Decidable c] {p q : Trace E} (hp : Silent p) (hq : Silent q) :
    Silent (if c then p else q) := by
  split
  · exact hp
  · exact hq

theorem silent_call (c : Call) : Silent (c.trace : Trace E) := by
  have lock : ∀ (f : Nat) (m : MapName) (i : Nat), Silent (guarded (.shard f m i) [] : Trace E) :=
    fun f m i => silent_guarded silent_nil
  have each : ∀ (f : Nat) (m : MapName) (n : Nat), Silent (eachShardL f m n : Trace E) :=
    fun f m n => silent_flatMap fun i _ => lock f m i
  have get : ∀ (f : Nat) (m : MapName) (i : Nat) (found : Bool) (body other : Trace E),
      Silent body → Silent other → Silent (getWriteL f m i found body other) := by
    intro f m i found body other hb ho
    cases found
    · exact silent_append (lock f m i) ho
    · exact silent_guarded hb
  cases c with
  | published => exact silent_nil
  | fieldLocationUnbuffered f i => exact get _ _ _ _ _ _ silent_nil silent_nil
  | fieldGetUnbuffered f i j found =>
    exact get _ _ _ _ _ _ (get _ _ _ _ _ _ silent_nil silent_nil) silent_nil
  | fieldSet f i j k found =>
    exact silent_append (silent_append (lock _ _ _) (lock _ _ _)) (get _ _ _ _ _ _ silent_nil (lock _ _ _))
  | fieldUpdate f n => exact silent_append (silent_append (each _ _ _) (each _ _ _)) (each _ _ _)
  | objectsUnbuffered f j found => exact get _ _ _ _ _ _ silent_nil silent_nil
  | locationUnbuffered f i found => exact get _ _ _ _ _ _ silent_nil silent_nil
  | sparseGetUnbuffered f i j found =>
    exact get _ _ _ _ _ _ (get _ _ _ _ _ _ silent_nil silent_nil) silent_nil
  | removeObject f i j found =>
    refine silent_append ?_ (lock _ _ _)
    cases found
    · exact silent_nil
    · exact lock f .bag j
  | removeObjectLocation f j found => exact get _ _ _ _ _ _ silent_nil silent_nil
  | setObject f i j found => exact silent_append (get _ _ _ _ _ _ silent_nil (lock _ _ _)) (lock _ _ _)
  | gridUpdate f n => exact silent_append (each _ _ _) (each _ _ _)
  | valueUnbuffered f j found => exact get _ _ _ _ _ _ silent_nil silent_nil
  | setValue f j => exact lock _ _ _
  | numberUpdate f n => exact each _ _ _
  | netAddEdge f i j present undirected present' =>
    exact silent_append (get f .edges _ _ _ _ silent_nil (lock f .edges _)) (silent_if (get f .edges _ _ _ _ silent_nil (lock f .edges _)) silent_nil)
  | netAddNode f i j known =>
    exact silent_append (lock f .nodes _) (silent_if silent_nil (lock f .edges _))
  | netAddProbEdge f n fewer adds =>
    exact silent_append (silent_append (each f .edges _) (silent_if (each f .edges _) silent_nil)) (silent_flatMap fun _ _ => silent_append (get f .edges _ _ _ _ silent_nil (lock f .edges _)) (silent_if (get f .edges _ _ _ _ silent_nil (lock f .edges _)) silent_nil))
  | netAttach f n adds =>
    exact silent_append (silent_append (silent_append (silent_append (each f .nodes _) (each f .edges _)) (silent_flatMap fun _ _ => silent_append (get f .edges _ _ _ _ silent_nil (lock f .edges _)) (silent_if (get f .edges _ _ _ _ silent_nil (lock f .edges _)) silent_nil))) (each f .edges _)) (each f .nodes _)
  | netRemoveAll f n =>
    exact each f .edges _
  | netRemoveEdge f i j found undirected =>
    exact silent_append (lock f .edges _) (silent_if (lock f .edges _) silent_nil)
  | netRemoveAround f removes =>
    exact silent_flatMap fun _ _ => silent_append (lock f .edges _) (silent_if (lock f .edges _) silent_nil)
  | netRemoveNode f i j removes removes' =>
    exact silent_append (silent_append (silent_append (silent_append (silent_flatMap fun _ _ => silent_append (lock f .edges _) (silent_if (lock f .edges _) silent_nil)) (lock f .edges _)) (silent_flatMap fun _ _ => silent_append (lock f .edges _) (silent_if (lock f .edges _) silent_nil))) (lock f .edges _)) (lock f .nodes _)
  | netUpdateNode f i present =>
    exact get f .nodes _ _ _ _ silent_nil (silent_nil)
  | netUpdate f n =>
    exact silent_append (each f .edges _) (each f .nodes _)

theorem silent_closure (c : List Call) : Silent (closureTrace c : Trace E) :=
  silent_flatMap fun x _ => silent_call x

theorem silent_use (u : Use) : Silent (u.trace : Trace E) := by
  have lock : ∀ (f : Nat) (m : MapName) (i : Nat), Silent (guarded (.shard f m i) [] : Trace E) :=
    fun f m i => silent_guarded silent_nil
  cases u with
  | call c => exact silent_call c
  | iter cs => exact silent_flatMap fun c _ => silent_closure c
  | applyObjects f cs =>
    refine silent_flatMap ?_
    intro x hx
    obtain ⟨⟨i, c, j⟩, _, rfl⟩ := List.mem_map.mp hx
    refine silent_append (silent_closure c) ?_
    cases j with
    | none => exact silent_nil
    | some j => exact silent_append (lock _ _ _) (lock _ _ _)
  | applyRead f cs =>
    refine silent_flatMap ?_
    intro x hx
    obtain ⟨⟨i, c⟩, _, rfl⟩ := List.mem_map.mp hx
    exact silent_append (silent_closure c) (lock _ _ _)
  | applyWrite f n cs =>
    refine silent_flatMap fun i _ => silent_guarded (silent_flatten ?_)
    intro p hp
    obtain ⟨c, hc, rfl⟩ := List.mem_map.mp hp
    exact silent_closure c
  | applyReadWrite f n cs =>
    refine silent_flatMap fun i _ => silent_flatMap ?_
    intro p hp
    obtain ⟨c, hc, rfl⟩ := List.mem_map.mp hp
    exact silent_guarded (silent_closure c)

/-- Nothing is waited for, and only messages are signalled. -/
def Talks (mk : Nat → E) (p : Trace E) : Prop := (∀ e ∈ signals p, ∃ k, e = mk k) ∧ awaits p = []

theorem talks_of_silent {mk : Nat → E} {p : Trace E} (h : Silent p) : Talks mk p := by
  refine ⟨?_, h.2⟩
  intro e he
  rw [h.1] at he
  exact absurd he List.not_mem_nil

theorem talks_append {mk : Nat → E} {p q : Trace E} (hp : Talks mk p) (hq : Talks mk q) : Talks mk (p ++ q) := by
  refine ⟨?_, by simp [hp.2, hq.2]⟩
  intro e he
  rw [signals_append] at he
  rcases List.mem_append.mp he with h | h
  · exact hp.1 e h
  · exact hq.1 e h

theorem talks_guarded {mk : Nat → E} {l : Lock} {p : Trace E} (hp : Talks mk p) : Talks mk (guarded l p) := by
  refine ⟨?_, by simp [hp.2]⟩
  rw [signals_guarded]
  exact hp.1

theorem talks_flatMap {mk : Nat → E} {α : Type} {f : α → Trace E} {l : List α} (h : ∀ a ∈ l, Talks mk (f a)) :
    Talks mk (l.flatMap f) := by
  induction l with
  | nil => exact talks_of_silent silent_nil
  | cons a l ih =>
    rw [List.flatMap_cons]
    exact talks_append (h a List.mem_cons_self) (ih fun x hx => h x (List.mem_cons_of_mem _ hx))

theorem talks_user (mk : Nat → E) (u : User) : Talks mk (u.trace mk) := by
  cases u with
  | use u => exact talks_of_silent (silent_use u)
  | scheduleOnce => exact talks_of_silent (silent_guarded silent_nil)
  | scheduleRepeating => exact talks_of_silent (silent_guarded (silent_guarded silent_nil))
  | getAllEvents => exact talks_of_silent (silent_guarded silent_nil)
  | log args => exact talks_of_silent (silent_guarded (silent_closure args))
  | plot args msg =>
    refine talks_guarded (talks_append (talks_of_silent (silent_closure args)) ?_)
    cases msg with
    | none => exact talks_of_silent silent_nil
    | some k =>
      refine talks_guarded (talks_append (talks_of_silent (silent_closure args)) ⟨?_, rfl⟩)
      intro e he
      simp [signals] at he
      exact ⟨k, he⟩
  | addplot args csv =>
    refine talks_of_silent (silent_guarded (silent_append (silent_closure args) ?_))
    cases csv
    · exact silent_nil
    · exact silent_guarded (silent_closure args)
  | description args => exact talks_of_silent (silent_append (silent_closure args) (silent_guarded silent_nil))

theorem talks_users (mk : Nat → E) (us : List User) : Talks mk (userTrace mk us) :=
  talks_flatMap fun u _ => talks_user mk u

end Verif.Locks
