import Verif.Model.Borrows

namespace Verif.Borrows

/-- The piece runs with `out` borrowed and leaves it as it was. -/
def Clean (out : List (Cell × Bool)) (p : Trace) : Prop := run out p = some out

theorem run_append (out : List (Cell × Bool)) (p q : Trace) :
    run out (p ++ q) = (run out p).bind fun o => run o q := by
  induction p generalizing out with
  | nil => rfl
  | cons a p ih =>
    cases a <;> simp only [List.cons_append, run]
    · split
      · rfl
      · exact ih _
    · split
      · rfl
      · exact ih _
    · exact ih _

variable {out : List (Cell × Bool)}

theorem clean_nil : Clean out [] := rfl

theorem clean_append {p q : Trace} (hp : Clean out p) (hq : Clean out q) : Clean out (p ++ q) := by
  unfold Clean at *
  rw [run_append, hp]
  exact hq

theorem clean_flatMap {α : Type} {g : α → Trace} {l : List α} (h : ∀ a ∈ l, Clean out (g a)) :
    Clean out (l.flatMap g) := by
  induction l with
  | nil => exact clean_nil
  | cons a l ih =>
    rw [List.flatMap_cons]
    exact clean_append (h a List.mem_cons_self) (ih fun x hx => h x (List.mem_cons_of_mem _ hx))

theorem clean_times {n : Nat} {p : Trace} (h : Clean out p) : Clean out (times n p) := by
  induction n with
  | zero => exact clean_nil
  | succ n ih =>
    show Clean out (p ++ times n p)
    exact clean_append h ih

theorem clean_shared {f : Nat} {c : Part} {p : Trace} (h : (⟨f, c⟩, true) ∉ out)
    (hp : Clean ((⟨f, c⟩, false) :: out) p) : Clean out (shared f c p) := by
  unfold Clean at *
  rw [shared, run, if_neg h, run_append, hp]
  simp [run]

theorem clean_excl {f : Nat} {c : Part} {p : Trace} (h : ∀ b, (⟨f, c⟩, b) ∉ out)
    (hp : Clean ((⟨f, c⟩, true) :: out) p) : Clean out (excl f c p) := by
  unfold Clean at *
  have h' : ¬ ((⟨f, c⟩, true) ∈ out ∨ (⟨f, c⟩, false) ∈ out) := by
    rintro (h1 | h1)
    · exact h true h1
    · exact h false h1
  rw [excl, run, if_neg h', run_append, hp]
  simp [run]

theorem clean_if {c : Prop} [Decidable c] {p q : Trace} (hp : Clean out p) (hq : Clean out q) :
    Clean out (if c then p else q) := by
  split
  · exact hp
  · exact hq

/-- Nothing of field `f` is borrowed. -/
def Unused (f : Nat) (out : List (Cell × Bool)) : Prop := ∀ c b, (⟨f, c⟩, b) ∉ out

theorem clean_grid {f : Nat} (h : Unused f out) (c : GridCall) : Clean out (c.trace f) := by
  unfold Unused at h
  cases c with
  | get n => exact clean_times (clean_shared (by simp [h]) clean_nil)
  | relaxed n => exact clean_times (clean_excl (by simp [h]) clean_nil)
  | getUnbuffered => exact clean_shared (by simp [h]) clean_nil
  | set => exact clean_excl (by simp [h]) clean_nil
  | fieldSet counting => exact clean_excl (by simp [h]) (clean_if (clean_excl (by simp [h]) clean_nil) clean_nil)
  | fieldRemove occupied counting =>
    exact clean_excl (by simp [h]) (clean_if (clean_if (clean_excl (by simp [h]) clean_nil) clean_nil) clean_nil)

theorem clean_update {f : Nat} (h : Unused f out) (c : GridUpdate) : Clean out (c.trace f) := by
  unfold Unused at h
  cases c with
  | sparseLazy => exact clean_excl (by simp [h]) clean_nil
  | sparse =>
    exact clean_excl (by simp [h]) (clean_append (clean_shared (by simp [h]) clean_nil)
      (clean_excl (by simp [h]) clean_nil))
  | denseLazy => exact clean_excl (by simp [h]) clean_nil
  | denseNumbers => exact clean_excl (by simp [h]) (clean_excl (by simp [h]) clean_nil)
  | denseObjects n => exact clean_times (clean_excl (by simp [h]) (clean_excl (by simp [h]) clean_nil))
  | fieldFirst => exact clean_excl (by simp [h]) clean_nil
  | fieldLater => exact clean_excl (by simp [h]) clean_nil
  | treeInsert counting => exact clean_excl (by simp [h]) (clean_if (clean_excl (by simp [h]) clean_nil) clean_nil)
  | treeInsertRead counting => exact clean_excl (by simp [h]) (clean_if (clean_excl (by simp [h]) clean_nil) clean_nil)

theorem clean_nUpdate {f : Nat} (h : Unused f out) : Clean out (nUpdateB f) := by
  unfold Unused at h
  exact clean_excl (by simp [h]) (clean_excl (by simp [h]) (clean_excl (by simp [h]) (clean_excl (by simp [h])
    (clean_excl (by simp [h]) (clean_excl (by simp [h]) clean_nil)))))

theorem clean_nRemoveAround {f : Nat} (h : Unused f out) (found : Bool) (edges : List Bool) :
    Clean out (nRemoveAroundB f found edges) := by
  unfold Unused at h
  refine clean_shared (by simp [h]) (clean_shared (by simp [h]) (clean_if (clean_flatMap fun e _ => ?_) clean_nil))
  exact clean_shared (by simp [h]) (clean_if (clean_excl (by simp [h]) clean_nil) clean_nil)

theorem clean_hGetEdges {f : Nat} (h : Unused f out) (found : Bool) : Clean out (hGetEdgesB f found) := by
  unfold Unused at h
  exact clean_shared (by simp [h]) (clean_if (clean_shared (by simp [h]) clean_nil) clean_nil)

theorem clean_pRemoveAround {f : Nat} (h : Unused f out) (n : Nat) : Clean out (pRemoveAroundB f n) := by
  unfold Unused at h
  exact clean_shared (by simp [h]) (clean_times (clean_shared (by simp [h]) clean_nil))

theorem clean_net {f : Nat} (h : Unused f out) (c : NetCall) : Clean out (c.trace f) := by
  have h0 := h
  unfold Unused at h
  have ex : ∀ c, Clean out (excl f c []) := fun c => clean_excl (by simp [h]) clean_nil
  have sh : ∀ c, Clean out (shared f c []) := fun c => clean_shared (by simp [h]) clean_nil
  cases c with
  | nAddEdge found => exact clean_excl (by simp [h]) (clean_if (clean_excl (by simp [h]) clean_nil) clean_nil)
  | nAddNode => exact clean_excl (by simp [h]) (clean_excl (by simp [h]) (clean_excl (by simp [h]) clean_nil))
  | nGetEdge found =>
    exact clean_shared (by simp [h]) (clean_shared (by simp [h])
      (clean_if (clean_shared (by simp [h]) clean_nil) clean_nil))
  | nGetEdges found => exact clean_shared (by simp [h]) (clean_if (clean_shared (by simp [h]) clean_nil) clean_nil)
  | nGetObject => exact sh _
  | nGetId => exact sh _
  | nAttach edges =>
    refine clean_append (clean_excl (by simp [h]) (clean_append (clean_excl (by simp [h]) clean_nil)
      (clean_flatMap fun e _ => ?_))) (clean_nUpdate h0)
    exact clean_excl (by simp [h]) (clean_if (clean_excl (by simp [h]) clean_nil) clean_nil)
  | nRemoveAll => exact ex _
  | nRemoveEdge found => exact clean_shared (by simp [h]) (clean_if (clean_excl (by simp [h]) clean_nil) clean_nil)
  | nRemoveAround found edges => exact clean_nRemoveAround h0 found edges
  | nRemoveNode found published edges edges' =>
    exact clean_append (ex _) (clean_if (clean_append (clean_nRemoveAround h0 _ _) (clean_if
      (clean_append (clean_append (clean_append (ex _) (clean_nRemoveAround h0 _ _)) (ex _))
        (clean_excl (by simp [h]) (clean_excl (by simp [h]) clean_nil))) clean_nil)) clean_nil)
  | nUpdateNode => exact clean_excl (by simp [h]) (clean_excl (by simp [h]) clean_nil)
  | nUpdate => exact clean_nUpdate h0
  | nDisplay pairs =>
    refine clean_shared (by simp [h]) (clean_flatMap fun e _ => ?_)
    exact clean_shared (by simp [h]) (clean_shared (by simp [h])
      (clean_if (clean_shared (by simp [h]) clean_nil) clean_nil))
  | hAddEdge found => exact clean_excl (by simp [h]) (clean_if (clean_excl (by simp [h]) clean_nil) clean_nil)
  | hAddNode => exact clean_excl (by simp [h]) (clean_excl (by simp [h]) (clean_excl (by simp [h]) clean_nil))
  | hGetEdge found => exact clean_hGetEdges h0 found
  | hGetEdges found => exact clean_hGetEdges h0 found
  | hGetObject => exact ex _
  | hGetId => exact sh _
  | hRemoveAll => exact ex _
  | hRemoveEdge found => exact clean_shared (by simp [h]) (clean_if (clean_excl (by simp [h]) clean_nil) clean_nil)
  | hRemoveObject found published edges =>
    exact clean_append (ex _) (clean_if (clean_append (clean_append (clean_hGetEdges h0 true)
      (clean_if (clean_times (ex _)) clean_nil)) (clean_excl (by simp [h]) (clean_excl (by simp [h]) clean_nil)))
      clean_nil)
  | hUpdateNode => exact clean_excl (by simp [h]) (clean_excl (by simp [h]) clean_nil)
  | hUpdate =>
    exact clean_shared (by simp [h]) (clean_excl (by simp [h]) (clean_shared (by simp [h])
      (clean_excl (by simp [h]) clean_nil)))
  | hLazyUpdate =>
    exact clean_shared (by simp [h]) (clean_excl (by simp [h]) (clean_excl (by simp [h])
      (clean_excl (by simp [h]) clean_nil)))
  | pAddEdge => exact ex _
  | pAddNode => exact ex _
  | pGet => exact sh _
  | pAddProbEdge keys choices => exact clean_append (clean_times (sh _)) (clean_times (ex _))
  | pAttach edges => exact clean_times (ex _)
  | pRemoveEdge => exact sh _
  | pRemoveAround edges => exact clean_pRemoveAround h0 edges
  | pRemoveNode found edges edges' =>
    exact clean_append (ex _) (clean_if (clean_append (clean_append (clean_pRemoveAround h0 _)
      (clean_pRemoveAround h0 _)) (ex _)) clean_nil)
  | pUpdateNode found => exact clean_append (sh _) (clean_if (ex _) clean_nil)

/-- What is borrowed while the closure runs belongs to the field. -/
theorem clean_over {f : Nat} (h : Unused f out) (o : Over) {body : Trace}
    (hb : ∀ out', (∀ g, g ≠ f → Unused g out → Unused g out') → Clean out' body) : Clean out (o.trace f body) := by
  have one : ∀ c b, Clean ((⟨f, c⟩, b) :: out) body := by
    intro c b
    refine hb _ fun g hg hu c' b' => ?_
    simp [hg, hu c' b']
  have two : ∀ c b c' b', Clean ((⟨f, c⟩, b) :: (⟨f, c'⟩, b') :: out) body := by
    intro c b c' b'
    refine hb _ fun g hg hu c' b' => ?_
    simp [hg, hu c' b']
  have zero : Clean out body := hb _ fun g _ hu => hu
  unfold Unused at h
  cases o with
  | iterSparse u => exact clean_shared (by simp [h]) (one _ _)
  | iterDenseObjects u => exact clean_shared (by simp [h]) (one _ _)
  | iterField u => exact clean_shared (by simp [h]) (one _ _)
  | iterDenseValues u => exact clean_append (clean_shared (by simp [h]) clean_nil) zero
  | apply g o =>
    cases o with
    | read => exact clean_excl (by simp [h]) (one _ _)
    | write =>
      cases g with
      | denseNumber => exact clean_excl (by simp [h]) (clean_shared (by simp [h]) (two _ _ _ _))
      | denseObject => exact clean_excl (by simp [h]) (clean_shared (by simp [h]) (two _ _ _ _))
      | sparseNumber => exact clean_excl (by simp [h]) (one _ _)
      | sparseObject => exact clean_excl (by simp [h]) (one _ _)
    | readWrite =>
      cases g with
      | denseNumber => exact clean_excl (by simp [h]) (clean_excl (by simp [h]) (two _ _ _ _))
      | denseObject => exact clean_excl (by simp [h]) (clean_shared (by simp [h]) (two _ _ _ _))
      | sparseNumber => exact clean_shared (by simp [h]) (clean_excl (by simp [h]) (two _ _ _ _))
      | sparseObject => exact clean_shared (by simp [h]) (clean_excl (by simp [h]) (two _ _ _ _))

theorem clean_prog : ∀ (p : Prog) (out : List (Cell × Bool)), p.Apart → (∀ f ∈ p.uses, Unused f out) →
    Clean out p.trace
  | .done, _, _, _ => rfl
  | .grid f c rest, out, ha, hu =>
    clean_append (clean_grid (hu f List.mem_cons_self) c)
      (clean_prog rest out ha fun g hg => hu g (List.mem_cons_of_mem _ hg))
  | .update f c rest, out, ha, hu =>
    clean_append (clean_update (hu f List.mem_cons_self) c)
      (clean_prog rest out ha fun g hg => hu g (List.mem_cons_of_mem _ hg))
  | .net f c rest, out, ha, hu =>
    clean_append (clean_net (hu f List.mem_cons_self) c)
      (clean_prog rest out ha fun g hg => hu g (List.mem_cons_of_mem _ hg))
  | .within f o body rest, out, ha, hu => by
    refine clean_append (clean_over (hu f List.mem_cons_self) o ?_)
      (clean_prog rest out ha.2.2 fun g hg => hu g (List.mem_cons_of_mem _ (List.mem_append_right _ hg)))
    intro out' h'
    refine clean_prog body out' ha.2.1 fun g hg => ?_
    refine h' g ?_ (hu g (List.mem_cons_of_mem _ (List.mem_append_left _ hg)))
    rintro rfl
    exact ha.1 hg

end Verif.Borrows
