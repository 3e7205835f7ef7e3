import Verif.Model.Locks
import Verif.Lemmas.Locks

/-!
The lock traces of the model respect ranks.
-/

namespace Verif.Locks

variable {E : Type}

/-- The order in which the code takes mutexes. The two mutexes of the visualization are taken in both orders: `b` tells
which of them comes first. -/
def lockOrder (b : Bool) : Lock → Nat
  | .visSchedule => if b then 1 else 0
  | .visState => if b then 0 else 1
  | .state => 2
  | .ids => 3
  | .events => 4
  | .data => 5
  | .csvSender => 6
  | .plotNames => 6
  | .logs => 7
  | .descr => 7
  | .monitor => 7
  | .tuiOperation => 7
  | .tuiReps => 7
  | .shard f .loc _ => 8 + 3 * f
  | .shard f .index _ => 9 + 3 * f
  | .shard f .bag _ => 10 + 3 * f
  | .shard f .edges _ => 8 + 3 * f
  | .shard f .nodes _ => 8 + 3 * f

/-- The ranks: the mutexes above `base`. -/
def rank (b : Bool) (base : Nat) (l : Lock) : Nat := base + lockOrder b l

/-- Everything held ranks below `n`. -/
def Below (b : Bool) (n : Nat) (held : List Lock) : Prop := ∀ h ∈ held, lockOrder b h < n

theorem below_nil (b : Bool) (n : Nat) : Below b n [] := fun _ h => absurd h List.not_mem_nil

theorem below_cons {b : Bool} {n : Nat} {l : Lock} {held : List Lock} (hl : lockOrder b l < n) (h : Below b n held) :
    Below b n (l :: held) := by
  intro x hx
  rcases List.mem_cons.mp hx with rfl | hx
  · exact hl
  · exact h x hx

theorem below_mono {b : Bool} {n m : Nat} {held : List Lock} (h : Below b n held) (hnm : n ≤ m) : Below b m held :=
  fun x hx => Nat.lt_of_lt_of_le (h x hx) hnm

section
variable {b : Bool} {base : Nat} {re : E → Nat} (hlow : ∀ e, re e < base)
include hlow

theorem piece_guarded {held : List Lock} {l : Lock} {p : Trace E} (hl : Below b (lockOrder b l) held)
    (hp : Piece (rank b base) re (l :: held) p) : Piece (rank b base) re held (guarded l p) := by
  refine piece_guard (fun e l => Nat.lt_of_lt_of_le (hlow e) (Nat.le_add_right _ _)) ?_ hp
  intro h hh
  exact Nat.add_lt_add_left (hl h hh) base

theorem piece_lock {held : List Lock} {l : Lock} (hl : Below b (lockOrder b l) held) :
    Piece (rank b base) re held (guarded l []) := piece_guarded hlow hl piece_nil

theorem piece_call_at {held : List Lock} {f : Nat} (hh : Below b (8 + 3 * f) held) :
    (∀ m i, Piece (rank b base) re held (guarded (.shard f m i) [])) ∧
    (∀ m n, Piece (rank b base) re held (eachShardL f m n)) ∧
    (∀ i j, Piece (rank b base) re held (guarded (.shard f .loc i) (guarded (.shard f .bag j) []))) ∧
    (∀ m i found other, Piece (rank b base) re held other →
      Piece (rank b base) re held (getWriteL f m i found [] other)) := by
  have lock : ∀ (m : MapName) (i : Nat), Piece (rank b base) re held (guarded (.shard f m i) []) := by
    intro m i
    refine piece_lock hlow (below_mono hh ?_)
    cases m <;> simp only [lockOrder] <;> omega
  refine ⟨lock, fun m n => piece_flatMap fun i _ => lock m i, ?_, ?_⟩
  · intro i j
    refine piece_guarded hlow hh (piece_lock hlow (below_cons ?_ (below_mono hh ?_)))
    · simp only [lockOrder]; omega
    · simp only [lockOrder]; omega
  · intro m i found other ho
    cases found
    · exact piece_append (lock m i) ho
    · exact lock m i

/-- A call on a field can be made while only mutexes below those of the field are held. -/
theorem piece_call {held : List Lock} (c : Call) (hc : ∀ f, c.field = some f → Below b (8 + 3 * f) held) :
    Piece (rank b base) re held c.trace := by
  cases c with
  | published => exact piece_nil
  | fieldLocationUnbuffered f i =>
    obtain ⟨lock, each, two, get⟩ := piece_call_at hlow (hc f rfl)
    exact get .loc i true [] piece_nil
  | fieldGetUnbuffered f i j found =>
    obtain ⟨lock, each, two, get⟩ := piece_call_at hlow (hc f rfl)
    cases found
    · exact piece_append (lock .loc i) piece_nil
    · exact two i j
  | fieldSet f i j k found =>
    obtain ⟨lock, each, two, get⟩ := piece_call_at hlow (hc f rfl)
    exact piece_append (piece_append (lock .loc i) (lock .index j)) (get .bag k found _ (lock .bag k))
  | fieldUpdate f n =>
    obtain ⟨lock, each, two, get⟩ := piece_call_at hlow (hc f rfl)
    exact piece_append (piece_append (each .loc n) (each .bag n)) (each .index n)
  | objectsUnbuffered f j found =>
    obtain ⟨lock, each, two, get⟩ := piece_call_at hlow (hc f rfl)
    exact get .bag j found [] piece_nil
  | locationUnbuffered f i found =>
    obtain ⟨lock, each, two, get⟩ := piece_call_at hlow (hc f rfl)
    exact get .loc i found [] piece_nil
  | sparseGetUnbuffered f i j found =>
    obtain ⟨lock, each, two, get⟩ := piece_call_at hlow (hc f rfl)
    cases found
    · exact piece_append (lock .loc i) piece_nil
    · exact two i j
  | removeObject f i j found =>
    obtain ⟨lock, each, two, get⟩ := piece_call_at hlow (hc f rfl)
    refine piece_append ?_ (lock .loc i)
    cases found
    · exact piece_nil
    · exact lock .bag j
  | removeObjectLocation f j found =>
    obtain ⟨lock, each, two, get⟩ := piece_call_at hlow (hc f rfl)
    exact get .bag j found [] piece_nil
  | setObject f i j found =>
    obtain ⟨lock, each, two, get⟩ := piece_call_at hlow (hc f rfl)
    exact piece_append (get .bag j found _ (lock .bag j)) (lock .loc i)
  | gridUpdate f n =>
    obtain ⟨lock, each, two, get⟩ := piece_call_at hlow (hc f rfl)
    exact piece_append (each .loc n) (each .bag n)
  | valueUnbuffered f j found =>
    obtain ⟨lock, each, two, get⟩ := piece_call_at hlow (hc f rfl)
    exact get .bag j found [] piece_nil
  | setValue f j =>
    obtain ⟨lock, each, two, get⟩ := piece_call_at hlow (hc f rfl)
    exact lock .bag j
  | numberUpdate f n =>
    obtain ⟨lock, each, two, get⟩ := piece_call_at hlow (hc f rfl)
    exact each .bag n
  | netAddEdge f i j present undirected present' =>
    obtain ⟨lock, each, two, get⟩ := piece_call_at hlow (hc f rfl)
    exact piece_append (get .edges _ _ _ (lock .edges _)) (piece_if (get .edges _ _ _ (lock .edges _)) piece_nil)
  | netAddNode f i j known =>
    obtain ⟨lock, each, two, get⟩ := piece_call_at hlow (hc f rfl)
    exact piece_append (lock .nodes _) (piece_if piece_nil (lock .edges _))
  | netAddProbEdge f n fewer adds =>
    obtain ⟨lock, each, two, get⟩ := piece_call_at hlow (hc f rfl)
    exact piece_append (piece_append (each .edges _) (piece_if (each .edges _) piece_nil)) (piece_flatMap fun _ _ => piece_append (get .edges _ _ _ (lock .edges _)) (piece_if (get .edges _ _ _ (lock .edges _)) piece_nil))
  | netAttach f n adds =>
    obtain ⟨lock, each, two, get⟩ := piece_call_at hlow (hc f rfl)
    exact piece_append (piece_append (piece_append (piece_append (each .nodes _) (each .edges _)) (piece_flatMap fun _ _ => piece_append (get .edges _ _ _ (lock .edges _)) (piece_if (get .edges _ _ _ (lock .edges _)) piece_nil))) (each .edges _)) (each .nodes _)
  | netRemoveAll f n =>
    obtain ⟨lock, each, two, get⟩ := piece_call_at hlow (hc f rfl)
    exact each .edges _
  | netRemoveEdge f i j found undirected =>
    obtain ⟨lock, each, two, get⟩ := piece_call_at hlow (hc f rfl)
    exact piece_append (lock .edges _) (piece_if (lock .edges _) piece_nil)
  | netRemoveAround f removes =>
    obtain ⟨lock, each, two, get⟩ := piece_call_at hlow (hc f rfl)
    exact piece_flatMap fun _ _ => piece_append (lock .edges _) (piece_if (lock .edges _) piece_nil)
  | netRemoveNode f i j removes removes' =>
    obtain ⟨lock, each, two, get⟩ := piece_call_at hlow (hc f rfl)
    exact piece_append (piece_append (piece_append (piece_append (piece_flatMap fun _ _ => piece_append (lock .edges _) (piece_if (lock .edges _) piece_nil)) (lock .edges _)) (piece_flatMap fun _ _ => piece_append (lock .edges _) (piece_if (lock .edges _) piece_nil))) (lock .edges _)) (lock .nodes _)
  | netUpdateNode f i present =>
    obtain ⟨lock, each, two, get⟩ := piece_call_at hlow (hc f rfl)
    exact get .nodes _ _ _ (piece_nil)
  | netUpdate f n =>
    obtain ⟨lock, each, two, get⟩ := piece_call_at hlow (hc f rfl)
    exact piece_append (each .edges _) (each .nodes _)

theorem piece_closure {held : List Lock} (c : List Call)
    (hc : ∀ x ∈ c, ∀ f, x.field = some f → Below b (8 + 3 * f) held) :
    Piece (rank b base) re held (closureTrace c) := piece_flatMap fun x hx => piece_call hlow x (hc x hx)

theorem piece_closure_low {held : List Lock} (hh : Below b 8 held) (c : List Call) :
    Piece (rank b base) re held (closureTrace c) :=
  piece_closure hlow c fun _ _ _ _ => below_mono hh (Nat.le_add_right _ _)

end

end Verif.Locks
