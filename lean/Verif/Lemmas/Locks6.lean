import Verif.Lemmas.Locks5

/-!
Programs that never hang always finish; programs that run alone; programs that block themselves.
-/

namespace Verif.Locks

variable {L E : Type} [DecidableEq L]

/-! ### Finishing -/

/-- How much is left to do. -/
def left (w : World L E) : Nat := (w.threads.map fun t => t.todo.length).sum

theorem left_step {w w' : World L E} (h : Step w w') : left w = left w' + 1 := by
  cases h <;> simp [left] <;> omega

theorem reach_finish {ps : List (List (Act L E))} (h : ¬ CanHang ps) : ∀ (n : Nat) (w : World L E), left w = n →
    Reach (start ps) w → ∃ w', Reach w w' ∧ Finished w'
  | n, w, hn, hr => by
    by_cases hs : ∃ w', Step w w'
    · obtain ⟨w', hs⟩ := hs
      have hl := left_step hs
      match n with
      | 0 => omega
      | n + 1 =>
        obtain ⟨w'', hr', hf⟩ := reach_finish h n w' (by omega) (hr.tail hs)
        exact ⟨w'', Relation.ReflTransGen.head hs hr', hf⟩
    · refine ⟨w, Relation.ReflTransGen.refl, ?_⟩
      by_contra hf
      exact h ⟨w, hr, hf, fun w' hs' => hs ⟨w', hs'⟩⟩

theorem run_length : ∀ (run : List (World L E)) (w : World L E), run.IsChain Step → run.head? = some w →
    run.length ≤ left w + 1
  | [], _, _, h => (nomatch h)
  | [a], w, _, _ => by simp
  | a :: b :: run, w, hc, hh => by
    have : a = w := by simpa using hh
    subst this
    rw [List.isChain_cons_cons] at hc
    have h1 := left_step hc.1
    have h2 := run_length (b :: run) b hc.2 rfl
    simp only [List.length_cons] at h2 ⊢
    omega

theorem finishes {ps : List (List (Act L E))} (h : ¬ CanHang ps) : AlwaysFinishes ps := by
  refine ⟨?_, fun w hr => reach_finish h _ w rfl hr, ?_⟩
  · intro w hr hno
    by_contra hf
    exact h ⟨w, hr, hf, hno⟩
  · intro run hc hh
    have h1 := run_length run (start ps) hc hh
    have h2 : left (start ps) = (ps.map List.length).sum := by
      simp [left, start, List.map_map, Function.comp_def]
    rw [h2] at h1
    exact h1

/-! ### Programs that run alone -/

/-- A program that waits for nobody, takes no mutex twice and gives back everything. -/
def Fine : List L → List (Act L E) → Prop
  | held, [] => held = []
  | held, .take l :: p => l ∉ held ∧ Fine (l :: held) p
  | held, .drop l :: p => l ∈ held ∧ Fine (held.erase l) p
  | held, .signal _ :: p => Fine held p
  | _, .await _ :: _ => False

theorem fine_of_ok {rl : L → Nat} {re : E → Nat} : ∀ {held : List L} {p : List (Act L E)}, Ok rl re held p →
    (∀ e, Act.await e ∉ p) → Fine held p
  | _, [], h, _ => h
  | _, .take l :: _, h, ha =>
    ⟨fun hl => Nat.lt_irrefl _ (h.1 l hl), fine_of_ok h.2.2 fun e he => ha e (List.mem_cons_of_mem _ he)⟩
  | _, .drop _ :: _, h, ha => ⟨h.1, fine_of_ok h.2 fun e he => ha e (List.mem_cons_of_mem _ he)⟩
  | held, .signal e' :: p, h, ha => by
    have h' : Ok rl re held p := h
    exact fine_of_ok (p := p) h' fun e he => ha e (List.mem_cons_of_mem _ he)
  | _, .await e :: _, _, ha => ha e List.mem_cons_self

theorem fine_append : ∀ {held : List L} {p q : List (Act L E)}, Fine held p → Fine [] q → Fine held (p ++ q)
  | held, [], q, hp, hq => by
    have : held = [] := hp
    subst this
    exact hq
  | _, .take _ :: _, _, hp, hq => ⟨hp.1, fine_append hp.2 hq⟩
  | _, .drop _ :: _, _, hp, hq => ⟨hp.1, fine_append hp.2 hq⟩
  | held, .signal e :: p, q, hp, hq => show Fine held (p ++ q) from fine_append (show Fine held p from hp) hq
  | _, .await _ :: _, _, hp, _ => (hp : False).elim

/-- A thread that is done. -/
def Idle (t : Thread L E) : Prop := t.held = [] ∧ t.todo = []

/-- At most one thread is not done. -/
def Solo (w : World L E) : Prop :=
  w.threads.Pairwise (fun t t' => Idle t ∨ Idle t') ∧ ∀ t ∈ w.threads, Fine t.held t.todo

omit [DecidableEq L] in
theorem solo_others {pre post : List (Thread L E)} {t : Thread L E}
    (h : (pre ++ t :: post).Pairwise (fun t t' => Idle t ∨ Idle t')) (ht : ¬ Idle t) :
    (∀ x ∈ pre, Idle x) ∧ ∀ x ∈ post, Idle x := by
  rw [List.pairwise_append, List.pairwise_cons] at h
  constructor
  · intro x hx
    exact (h.2.2 x hx t List.mem_cons_self).resolve_right ht
  · intro x hx
    exact (h.2.1.1 x hx).resolve_left ht

theorem solo_replace {pre post : List (Thread L E)} {past past' : List E} {t t' : Thread L E}
    (h : Solo (⟨pre ++ t :: post, past⟩ : World L E)) (ht : ¬ Idle t) (hf : Fine t'.held t'.todo) :
    Solo (⟨pre ++ t' :: post, past'⟩ : World L E) := by
  obtain ⟨hp, hfine⟩ := h
  have ho := solo_others hp ht
  dsimp only at hp hfine
  rw [List.pairwise_append, List.pairwise_cons] at hp
  constructor
  · show (pre ++ t' :: post).Pairwise _
    rw [List.pairwise_append, List.pairwise_cons]
    exact ⟨hp.1, ⟨fun x hx => Or.inr (ho.2 x hx), hp.2.1.2⟩, fun x hx _ _ => Or.inl (ho.1 x hx)⟩
  · intro x hx
    rcases List.mem_append.mp hx with h1 | h1
    · exact hfine x (List.mem_append.mpr (Or.inl h1))
    · rcases List.mem_cons.mp h1 with rfl | h1
      · exact hf
      · exact hfine x (List.mem_append.mpr (Or.inr (List.mem_cons_of_mem _ h1)))

theorem solo_step {w w' : World L E} (h : Solo w) (hs : Step w w') : Solo w' := by
  cases hs with
  | take pre post past held l p hfree =>
    have hf := h.2 ⟨held, .take l :: p⟩ (by simp)
    exact solo_replace h (fun hi => (nomatch hi.2)) hf.2
  | drop pre post past held l p =>
    have hf := h.2 ⟨held, .drop l :: p⟩ (by simp)
    exact solo_replace h (fun hi => (nomatch hi.2)) hf.2
  | signal pre post past held e p =>
    have hf := h.2 ⟨held, .signal e :: p⟩ (by simp)
    exact solo_replace h (fun hi => (nomatch hi.2)) hf
  | await pre post past held e p hpast =>
    have hf := h.2 ⟨held, .await e :: p⟩ (by simp)
    exact (hf : False).elim

theorem solo_reach {w w' : World L E} (h : Solo w) (hr : Reach w w') : Solo w' := by
  induction hr with
  | refl => exact h
  | tail _ hs ih => exact solo_step ih hs

theorem solo_not_stuck {w : World L E} (h : Solo w) : ¬ Stuck w := by
  rintro ⟨hnf, hno⟩
  apply hnf
  intro t ht
  by_cases hne : t.todo = []
  · have hf := h.2 t ht
    rw [hne] at hf
    exact ⟨hne, hf⟩
  · exfalso
    have hf := h.2 t ht
    rcases blocked hno ht hne with ⟨l, p, htodo, t', ht', hl⟩ | ⟨e, p, htodo, _⟩
    · rw [htodo] at hf
      obtain ⟨pre, post, hw⟩ := split_thread ht
      rw [hw] at h ht'
      have ho := solo_others h.1 (fun hi => hne hi.2)
      rcases List.mem_append.mp ht' with h1 | h1
      · rw [(ho.1 t' h1).1] at hl
        exact absurd hl List.not_mem_nil
      · rcases List.mem_cons.mp h1 with rfl | h1
        · exact hf.1 hl
        · rw [(ho.2 t' h1).1] at hl
          exact absurd hl List.not_mem_nil
    · rw [htodo] at hf
      exact hf

theorem solo_never_hangs {ps : List (List (Act L E))} (hp : ps.Pairwise fun p q => p = [] ∨ q = [])
    (hf : ∀ p ∈ ps, Fine [] p) : ¬ CanHang ps := by
  rintro ⟨w, hr, hs⟩
  refine solo_not_stuck (solo_reach ⟨?_, ?_⟩ hr) hs
  · show (ps.map fun p => (⟨[], p⟩ : Thread L E)).Pairwise _
    rw [List.pairwise_map]
    exact hp.imp fun h => h.imp (fun h => ⟨rfl, h⟩) (fun h => ⟨rfl, h⟩)
  · intro t ht
    obtain ⟨p, hp, rfl⟩ := List.mem_map.mp ht
    exact hf p hp

/-! ### Programs that block themselves -/

/-- What a thread that held `held` holds after `p`. -/
def heldAfter : List L → List (Act L E) → List L
  | held, [] => held
  | held, .take l :: p => heldAfter (l :: held) p
  | held, .drop l :: p => heldAfter (held.erase l) p
  | held, .signal _ :: p => heldAfter held p
  | held, .await _ :: p => heldAfter held p

theorem heldAfter_append (held : List L) (p q : List (Act L E)) :
    heldAfter held (p ++ q) = heldAfter (heldAfter held p) q := by
  induction p generalizing held with
  | nil => rfl
  | cons a p ih => cases a <;> simp [heldAfter, ih]

/-- Some thread is on its way to take a mutex it will then hold already. -/
def Doomed (l : L) (w : World L E) : Prop :=
  ∃ t ∈ w.threads, ∃ p q, t.todo = p ++ Act.take l :: q ∧ l ∈ heldAfter t.held p

theorem doomed_step {l : L} {w w' : World L E} (h : Doomed l w) (hs : Step w w') : Doomed l w' := by
  obtain ⟨t, ht, p, q, htodo, hl⟩ := h
  have key : ∀ (pre post : List (Thread L E)) (past past' : List E) (t0 t1 : Thread L E),
      t ∈ pre ++ t0 :: post → (t = t0 → ∃ p q, t1.todo = p ++ Act.take l :: q ∧ l ∈ heldAfter t1.held p) →
      Doomed l (⟨pre ++ t1 :: post, past'⟩ : World L E) := by
    intro pre post past past' t0 t1 hmem h1
    rcases List.mem_append.mp hmem with h | h
    · exact ⟨t, List.mem_append.mpr (Or.inl h), p, q, htodo, hl⟩
    · rcases List.mem_cons.mp h with h | h
      · exact ⟨t1, by simp, h1 h⟩
      · exact ⟨t, List.mem_append.mpr (Or.inr (List.mem_cons_of_mem _ h)), p, q, htodo, hl⟩
  cases hs with
  | take pre post past held l' p' hfree =>
    refine key pre post past past _ _ ht ?_
    rintro rfl
    match p, htodo, hl with
    | [], htodo, hl =>
      cases htodo
      exact absurd hl (hfree ⟨held, .take l :: q⟩ (by simp))
    | _ :: p, htodo, hl =>
      cases htodo
      exact ⟨p, q, rfl, hl⟩
  | drop pre post past held l' p' =>
    refine key pre post past past _ _ ht ?_
    rintro rfl
    match p, htodo, hl with
    | [], htodo, hl => cases htodo
    | _ :: p, htodo, hl =>
      cases htodo
      exact ⟨p, q, rfl, hl⟩
  | signal pre post past held e p' =>
    refine key pre post past (e :: past) _ _ ht ?_
    rintro rfl
    match p, htodo, hl with
    | [], htodo, hl => cases htodo
    | _ :: p, htodo, hl =>
      cases htodo
      exact ⟨p, q, rfl, hl⟩
  | await pre post past held e p' hpast =>
    refine key pre post past past _ _ ht ?_
    rintro rfl
    match p, htodo, hl with
    | [], htodo, hl => cases htodo
    | _ :: p, htodo, hl =>
      cases htodo
      exact ⟨p, q, rfl, hl⟩

/-- A program that takes a mutex it holds never ends, whatever the other threads do. -/
theorem doomed_hangs {ps : List (List (Act L E))} {l : L} {p q : List (Act L E)} (h : p ++ Act.take l :: q ∈ ps)
    (hl : l ∈ heldAfter [] p) : AlwaysHangs ps := by
  intro w hr
  have hd : Doomed l w := by
    induction hr with
    | refl => exact ⟨⟨[], p ++ Act.take l :: q⟩, List.mem_map.mpr ⟨_, h, rfl⟩, p, q, rfl, hl⟩
    | tail _ hs ih => exact doomed_step ih hs
  obtain ⟨t, ht, p, q, htodo, _⟩ := hd
  intro hf
  have h1 := (hf t ht).1
  rw [htodo] at h1
  simp at h1

/-- A piece after which the thread holds what it held before. -/
def Balanced (p : List (Act L E)) : Prop := ∀ held, heldAfter held p = held

theorem balanced_nil : Balanced ([] : List (Act L E)) := fun _ => rfl

theorem balanced_append {p q : List (Act L E)} (hp : Balanced p) (hq : Balanced q) : Balanced (p ++ q) := by
  intro held
  rw [heldAfter_append, hp, hq]

theorem balanced_flatMap {α : Type} {f : α → List (Act L E)} {l : List α} (h : ∀ a ∈ l, Balanced (f a)) :
    Balanced (l.flatMap f) := by
  induction l with
  | nil => exact balanced_nil
  | cons a l ih =>
    rw [List.flatMap_cons]
    exact balanced_append (h a List.mem_cons_self) (ih fun x hx => h x (List.mem_cons_of_mem _ hx))

theorem balanced_guarded {l : Lock} {p : Trace E} (hp : Balanced p) : Balanced (guarded l p) := by
  intro held
  simp only [guarded, heldAfter]
  rw [heldAfter_append, hp]
  simp [heldAfter]

theorem balanced_if {c : Prop} [Decidable c] {p q : Trace E} (hp : Balanced p) (hq : Balanced q) :
    Balanced (if c then p else q) := by
  split
  · exact hp
  · exact hq

theorem balanced_call (c : Call) : Balanced (c.trace : Trace E) := by
  have lock : ∀ (f : Nat) (m : MapName) (i : Nat), Balanced (guarded (.shard f m i) [] : Trace E) :=
    fun f m i => balanced_guarded balanced_nil
  have each : ∀ (f : Nat) (m : MapName) (n : Nat), Balanced (eachShardL f m n : Trace E) :=
    fun f m n => balanced_flatMap fun i _ => lock f m i
  have get : ∀ (f : Nat) (m : MapName) (i : Nat) (found : Bool) (body other : Trace E),
      Balanced body → Balanced other → Balanced (getWriteL f m i found body other) := by
    intro f m i found body other hb ho
    cases found
    · exact balanced_append (lock f m i) ho
    · exact balanced_guarded hb
  have nil : Balanced ([] : Trace E) := balanced_nil
  cases c with
  | published => exact nil
  | fieldLocationUnbuffered f i => exact get _ _ _ _ _ _ nil nil
  | fieldGetUnbuffered f i j found => exact get _ _ _ _ _ _ (get _ _ _ _ _ _ nil nil) nil
  | fieldSet f i j k found =>
    exact balanced_append (balanced_append (lock _ _ _) (lock _ _ _)) (get _ _ _ _ _ _ nil (lock _ _ _))
  | fieldUpdate f n => exact balanced_append (balanced_append (each _ _ _) (each _ _ _)) (each _ _ _)
  | objectsUnbuffered f j found => exact get _ _ _ _ _ _ nil nil
  | locationUnbuffered f i found => exact get _ _ _ _ _ _ nil nil
  | sparseGetUnbuffered f i j found => exact get _ _ _ _ _ _ (get _ _ _ _ _ _ nil nil) nil
  | removeObject f i j found =>
    refine balanced_append ?_ (lock _ _ _)
    cases found
    · exact nil
    · exact lock f .bag j
  | removeObjectLocation f j found => exact get _ _ _ _ _ _ nil nil
  | setObject f i j found => exact balanced_append (get _ _ _ _ _ _ nil (lock _ _ _)) (lock _ _ _)
  | gridUpdate f n => exact balanced_append (each _ _ _) (each _ _ _)
  | valueUnbuffered f j found => exact get _ _ _ _ _ _ nil nil
  | setValue f j => exact lock _ _ _
  | numberUpdate f n => exact each _ _ _
  | netAddEdge f i j present undirected present' =>
    exact balanced_append (get f .edges _ _ _ _ balanced_nil (lock f .edges _)) (balanced_if (get f .edges _ _ _ _ balanced_nil (lock f .edges _)) balanced_nil)
  | netAddNode f i j known =>
    exact balanced_append (lock f .nodes _) (balanced_if balanced_nil (lock f .edges _))
  | netAddProbEdge f n fewer adds =>
    exact balanced_append (balanced_append (each f .edges _) (balanced_if (each f .edges _) balanced_nil)) (balanced_flatMap fun _ _ => balanced_append (get f .edges _ _ _ _ balanced_nil (lock f .edges _)) (balanced_if (get f .edges _ _ _ _ balanced_nil (lock f .edges _)) balanced_nil))
  | netAttach f n adds =>
    exact balanced_append (balanced_append (balanced_append (balanced_append (each f .nodes _) (each f .edges _)) (balanced_flatMap fun _ _ => balanced_append (get f .edges _ _ _ _ balanced_nil (lock f .edges _)) (balanced_if (get f .edges _ _ _ _ balanced_nil (lock f .edges _)) balanced_nil))) (each f .edges _)) (each f .nodes _)
  | netRemoveAll f n =>
    exact each f .edges _
  | netRemoveEdge f i j found undirected =>
    exact balanced_append (lock f .edges _) (balanced_if (lock f .edges _) balanced_nil)
  | netRemoveAround f removes =>
    exact balanced_flatMap fun _ _ => balanced_append (lock f .edges _) (balanced_if (lock f .edges _) balanced_nil)
  | netRemoveNode f i j removes removes' =>
    exact balanced_append (balanced_append (balanced_append (balanced_append (balanced_flatMap fun _ _ => balanced_append (lock f .edges _) (balanced_if (lock f .edges _) balanced_nil)) (lock f .edges _)) (balanced_flatMap fun _ _ => balanced_append (lock f .edges _) (balanced_if (lock f .edges _) balanced_nil))) (lock f .edges _)) (lock f .nodes _)
  | netUpdateNode f i present =>
    exact get f .nodes _ _ _ _ balanced_nil (balanced_nil)
  | netUpdate f n =>
    exact balanced_append (each f .edges _) (each f .nodes _)

end Verif.Locks
