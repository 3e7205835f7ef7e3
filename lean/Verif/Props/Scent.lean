import Verif.Spec.Scent
import Verif.Props.NumberGrid
import Verif.Lemmas.ParGrid
import Mathlib.Data.List.Forall2

/-!
Trails on number grids evaporate (C219); when the order of the deposits does not matter (C220).
-/

namespace Verif.Scent

open Grid

variable {T : Type}

theorem latest_cons (d : List (T × Loc)) (ds : List (List (T × Loc))) (l : Loc) :
    latest (d :: ds) l = match deposit d l with
      | some v => some (0, v)
      | none => (latest ds l).map (fun p => (p.1 + 1, p.2)) := rfl

/-- One more step of the trail. -/
theorem scent_cons (f : T → T) (d : List (T × Loc)) (ds : List (List (T × Loc))) (l : Loc) :
    scent f (d :: ds) l = ((deposit d l).or (scent f ds l)).map f := by
  unfold scent
  rw [latest_cons]
  cases deposit d l with
  | some v => rfl
  | none =>
    cases latest ds l with
    | none => rfl
    | some p =>
      show some (f^[p.1 + 1 + 1] p.2) = some (f (f^[p.1 + 1] p.2))
      rw [Function.iterate_succ_apply']

theorem lateScent_isSome (f : T → T) (ds : List (List (T × Loc))) (l : Loc) : (lateScent f ds l).isSome = (latest ds l).isSome := by
  unfold lateScent
  rw [Option.isSome_map]

theorem lateScent_cons (f : T → T) (d : List (T × Loc)) (ds : List (List (T × Loc))) (l : Loc) :
    lateScent f (d :: ds) l = match lateScent f ds l with
      | none => deposit d l
      | some v => some (f ((deposit d l).getD v)) := by
  have h := lateScent_isSome f ds l
  cases hl : latest ds l with
  | none =>
    have h1 : lateScent f ds l = none := by
      unfold lateScent
      rw [hl]
      rfl
    rw [h1]
    unfold lateScent
    rw [latest_cons]
    cases hd : deposit d l with
    | some v => simp [hl]
    | none => simp [hl]
  | some p =>
    obtain ⟨v, hv⟩ : ∃ v, lateScent f ds l = some v := by
      rw [hl] at h
      exact Option.isSome_iff_exists.1 h
    rw [hv]
    unfold lateScent at hv ⊢
    rw [latest_cons]
    cases hd : deposit d l with
    | some u => simp [hl]
    | none =>
      rw [hl] at hv ⊢
      simp only [Option.map_some, Option.some.injEq] at hv
      simp only [Option.map_some, Option.getD_none, List.drop_succ_cons]
      rw [← hv]
      split
      · rw [Function.iterate_succ_apply']
      · rw [Function.iterate_succ_apply']

theorem deposit_cons (p : T × Loc) (d : List (T × Loc)) (l : Loc) :
    deposit (p :: d) l = if l = p.2 then some p.1 else deposit d l := by
  unfold deposit
  rw [List.find?_cons]
  by_cases h : p.2 = l
  · simp [h]
  · simp [h, Ne.symm h]

/-! ### The grids -/

theorem dense_deposits {w h : Int} {g0 g : DenseNumber.DGrid T} {pub : Loc → Option T} (before : List (NumOp T))
    (hb : DenseNumber.run g0 before = some g) (hs : DenseNumber.Shows g w h pub (fun _ => none)) (d : List (T × Loc))
    (hd : ∀ p ∈ d, InRange w h p.2) :
    ∃ g', DenseNumber.run g0 (d.map (fun p => .set p.1 p.2) ++ before) = some g' ∧ DenseNumber.Shows g' w h pub (deposit d) := by
  induction d with
  | nil => exact ⟨g, hb, hs⟩
  | cons p d ih =>
    obtain ⟨g1, h1, h2⟩ := ih (fun q hq => hd q (List.mem_cons_of_mem _ hq))
    obtain ⟨g2, h3, h4⟩ := DenseNumber.shows_write h2 p.2 (hd p List.mem_cons_self) (some p.1)
    refine ⟨g2, ?_, ?_⟩
    · rw [List.map_cons, List.cons_append, DenseNumber.run, h1]
      exact h3
    · have : upd (deposit d) p.2 (some p.1) = deposit (p :: d) := by
        funext l
        rw [deposit_cons]
        rfl
      rwa [this] at h4

/-- **C219**, for the dense grid without the feature `parallel`: after any number of steps with any deposits inside, published either
way, every cell shows the latest deposit, evaporated once in every step since, that of the deposit included; cells without deposit are
empty. No call panics. -/
theorem C219_dense_trail_partial (width height : Int) (g0 : DenseNumber.DGrid T) (hnew : DenseNumber.new width height = some g0)
    (fast : Bool) (f : T → T) (ds : List (List (T × Loc))) (hin : ∀ d ∈ ds, ∀ p ∈ d, InRange width.natAbs height.natAbs p.2) :
    ∃ g, DenseNumber.run g0 (trail fast f ds) = some g ∧
      ∀ l, InRange width.natAbs height.natAbs l →
        DenseNumber.getValue g l = some (scent f ds l) ∧ DenseNumber.getValueUnbuffered g l = some none := by
  suffices h : ∃ g, DenseNumber.run g0 (trail fast f ds) = some g ∧
      DenseNumber.Shows g width.natAbs height.natAbs (scent f ds) (fun _ => none) by
    obtain ⟨g, h1, h2⟩ := h
    exact ⟨g, h1, fun l hl => ⟨h2.read l hl, h2.write l hl⟩⟩
  induction ds with
  | nil => exact ⟨g0, rfl, DenseNumber.shows_new hnew⟩
  | cons d ds ih =>
    obtain ⟨g, h1, h2⟩ := ih (fun x hx => hin x (List.mem_cons_of_mem _ hx))
    obtain ⟨g1, h3, h4⟩ := dense_deposits _ h1 h2 d (hin d List.mem_cons_self)
    have h5 := DenseNumber.shows_apply h4 f .READWRITE
    have h6 : (fun l => DenseNumber.applyRW f (deposit d l) (scent f ds l)) = scent f (d :: ds) := by
      funext l
      rw [scent_cons]
      unfold DenseNumber.applyRW
      cases deposit d l with
      | some v => rfl
      | none => cases scent f ds l <;> rfl
    dsimp only at h5
    rw [h6] at h5
    cases fast with
    | true =>
      refine ⟨_, ?_, DenseNumber.shows_lazy h5⟩
      rw [trail, DenseNumber.run, DenseNumber.run, h3]
      rfl
    | false =>
      refine ⟨_, ?_, DenseNumber.shows_update h5⟩
      rw [trail, DenseNumber.run, DenseNumber.run, h3]
      rfl

/-- **C219**, for the sparse grid without the feature `parallel`: a number deposited in an empty cell does not evaporate in the step
of its deposit; all else is as on the dense grid. -/
theorem C219_sparse_trail_partial (width height : Int) (fast : Bool) (f : T → T) (ds : List (List (T × Loc))) (l : Loc) :
    SparseNumber.getValue (SparseNumber.run (SparseNumber.new width height) (trail fast f ds)) l = lateScent f ds l := by
  suffices h : SparseNumber.WF (SparseNumber.run (SparseNumber.new width height) (trail fast f ds)) ∧
      (SparseNumber.getValue (SparseNumber.run (SparseNumber.new width height) (trail fast f ds)) = lateScent f ds) ∧
      (SparseNumber.getValueUnbuffered (SparseNumber.run (SparseNumber.new width height) (trail fast f ds)) = fun _ => none) by
    rw [h.2.1]
  induction ds with
  | nil => exact ⟨SparseNumber.wf_new _ _, rfl, rfl⟩
  | cons d ds ih =>
    obtain ⟨i1, i2, i3⟩ := ih
    have hd : ∀ d : List (T × Loc),
        SparseNumber.WF (SparseNumber.run (SparseNumber.new width height) (d.map (fun p => .set p.1 p.2) ++ trail fast f ds)) ∧
        SparseNumber.getValue (SparseNumber.run (SparseNumber.new width height) (d.map (fun p => .set p.1 p.2) ++ trail fast f ds)) =
          lateScent f ds ∧
        SparseNumber.getValueUnbuffered (SparseNumber.run (SparseNumber.new width height)
          (d.map (fun p => .set p.1 p.2) ++ trail fast f ds)) = deposit d := by
      intro d
      induction d with
      | nil => exact ⟨i1, i2, i3⟩
      | cons p d ihd =>
        obtain ⟨j1, j2, j3⟩ := ihd
        refine ⟨SparseNumber.wf_exec j1 (.set p.1 p.2), j2, ?_⟩
        funext l
        rw [deposit_cons, ← j3]
        exact HMap.get_insert ..
    obtain ⟨j1, j2, j3⟩ := hd d
    have k1 := SparseNumber.wf_exec j1 (.apply f .READWRITE)
    have k3 : SparseNumber.getValueUnbuffered (SparseNumber.exec (SparseNumber.run (SparseNumber.new width height)
        (d.map (fun p => .set p.1 p.2) ++ trail fast f ds)) (.apply f .READWRITE)) = lateScent f (d :: ds) := by
      funext l
      rw [lateScent_cons, ← j2, ← j3]
      exact SparseNumber.foldRW_get f _ _ j1.r l
    cases fast with
    | true => exact ⟨SparseNumber.wf_exec k1 .lazyUpdate, k3, rfl⟩
    | false =>
      refine ⟨SparseNumber.wf_exec k1 .update, ?_, rfl⟩
      funext l
      rw [← k3]
      exact SparseNumber.getValue_update k1 l

/-- **C219**, for both grids with the feature `parallel`: as on the sparse grid without it, whatever the number of shards and the hash
function, published either way. -/
theorem C219_parallel_trail_partial {cpus : Nat} (hc : DBDashMap.shardAmount cpus ≤ 2 ^ 64) (hash : Loc → Nat) (width height : Int)
    {g0 : ParGrid.NGrid T} (hg : g0 = .newDense cpus hash width height ∨ g0 = .newSparse cpus hash width height) (fast : Bool)
    (f : T → T) (ds : List (List (T × Loc))) :
    ∃ g, ParGrid.NGrid.run g0 (parTrail fast f ds) = some g ∧ ∀ l, g.getValue l = some (lateScent f ds l) := by
  have h0 : ParGrid.NShows g0 (fun _ => none) (fun _ => none) := by
    rcases hg with rfl | rfl
    · exact (ParGrid.nshows_new hc hash width height).1
    · exact (ParGrid.nshows_new hc hash width height).2
  suffices h : ∃ g wr, ParGrid.NGrid.run g0 (parTrail fast f ds) = some g ∧ ParGrid.NShows g (lateScent f ds) wr ∧
      ∀ l, wr l = none ∨ wr l = lateScent f ds l by
    obtain ⟨g, wr, h1, h2, _⟩ := h
    refine ⟨g, h1, fun l => ?_⟩
    unfold ParGrid.NGrid.getValue
    rw [ParGrid.getRead_abs h2.inv, h2.read]
  induction ds with
  | nil => exact ⟨g0, _, rfl, h0, fun _ => .inl rfl⟩
  | cons d ds ih =>
    obtain ⟨g, wr, h1, h2, h3⟩ := ih
    have hd : ∀ d : List (T × Loc), ∃ g', ParGrid.NGrid.run g0 (d.map (fun p => .set p.1 p.2) ++ parTrail fast f ds) = some g' ∧
        ParGrid.NShows g' (lateScent f ds) (fun l => (deposit d l).or (wr l)) := by
      intro d
      induction d with
      | nil => exact ⟨g, h1, h2⟩
      | cons p d ihd =>
        obtain ⟨g1, k1, k2⟩ := ihd
        obtain ⟨g2, k3, _, _, k4⟩ := ParGrid.nshows_exec k2 (.set p.1 p.2)
        refine ⟨g2, ?_, ?_⟩
        · rw [List.map_cons, List.cons_append, ParGrid.NGrid.run, k1]
          exact k3
        · have : (fun l' => if l' = p.2 then some p.1 else (deposit d l').or (wr l')) = fun l => (deposit (p :: d) l).or (wr l) := by
            funext l
            rw [deposit_cons]
            split <;> rfl
          dsimp only at k4
          rwa [this] at k4
    obtain ⟨g1, k1, k2⟩ := hd d
    obtain ⟨g2, k3, _, _, k4⟩ := ParGrid.nshows_exec k2 (.apply f .READWRITE)
    dsimp only at k4
    have hw : (fun l => match lateScent f ds l with
        | none => (deposit d l).or (wr l)
        | some v => some (f (((deposit d l).or (wr l)).getD v))) = lateScent f (d :: ds) := by
      funext l
      rw [lateScent_cons]
      cases hl : lateScent f ds l with
      | none =>
        have : wr l = none := by
          rcases h3 l with h | h
          · exact h
          · rw [h, hl]
        rw [this]
        simp
      | some v =>
        cases deposit d l with
        | some u => rfl
        | none =>
          rcases h3 l with h | h
          · rw [h]; rfl
          · rw [h, hl]; rfl
    replace k4 : ParGrid.NShows g2 (lateScent f ds) (lateScent f (d :: ds)) := ⟨k4.inv, k4.read, k4.write.trans hw⟩
    have hrun : ParGrid.NGrid.run g0 (.apply f .READWRITE :: (d.map (fun p => .set p.1 p.2) ++ parTrail fast f ds)) = some g2 := by
      rw [ParGrid.NGrid.run, k1]
      exact k3
    cases fast with
    | true =>
      obtain ⟨g3, m1, _, _, m2⟩ := ParGrid.nshows_exec k4 .lazyUpdate
      refine ⟨g3, _, ?_, m2, fun _ => .inl rfl⟩
      rw [parTrail, ParGrid.NGrid.run]
      simp only [if_true]
      rw [hrun]
      exact m1
    | false =>
      obtain ⟨g3, m1, _, _, m2⟩ := ParGrid.nshows_exec k4 .update
      have hu : (fun l => (lateScent f (d :: ds) l).or (lateScent f ds l)) = lateScent f (d :: ds) := by
        funext l
        rw [lateScent_cons]
        cases lateScent f ds l with
        | none => simp
        | some v => rfl
      dsimp only at m2
      rw [hu] at m2
      refine ⟨g3, _, ?_, m2, fun _ => .inr rfl⟩
      rw [parTrail, ParGrid.NGrid.run]
      simp only [Bool.false_eq_true, if_false]
      rw [hrun]
      exact m1

/-- **C219**, the two trails are the same where the latest deposit was not the first: the grids differ only in cells with one deposit. -/
theorem C219_later_deposits_partial (f : T → T) (ds : List (List (T × Loc))) (l : Loc) (k : Nat) (v : T) (hl : latest ds l = some (k, v)) :
    scent f ds l = some (f^[k + 1] v) ∧
    lateScent f ds l = some (if (latest (ds.drop (k + 1)) l).isSome then f^[k + 1] v else f^[k] v) := by
  unfold scent lateScent
  rw [hl]
  refine ⟨rfl, ?_⟩
  simp only [Option.map_some]
  split <;> rfl

/-- Two deposits in two cells, the second one in the later of two steps. -/
def demo : List (List (Nat × Loc)) := [[(80, ⟨1, 0⟩)], [(60, ⟨0, 0⟩), (50, ⟨0, 0⟩)]]

/-- **C219** is false of the sparse grid and of the parallel grids: numbers that halve in every step. -/
theorem C219_first_deposit_partial :
    ((DenseNumber.new 2 1).bind (fun g => DenseNumber.run g (trail true (· / 2) demo))).map
      (fun g => [⟨0, 0⟩, ⟨1, 0⟩].map (DenseNumber.getValue g)) = some [some (some 15), some (some 40)] ∧
    [⟨0, 0⟩, ⟨1, 0⟩].map (SparseNumber.getValue (SparseNumber.run (SparseNumber.new 2 1) (trail true (· / 2) demo))) =
      [some 30, some 80] ∧
    (ParGrid.NGrid.run (.newDense 1 (fun _ => 0) 2 1) (parTrail true (· / 2) demo)).map
      (fun g => [⟨0, 0⟩, ⟨1, 0⟩].map g.getValue) = some [some (some 30), some (some 80)] := by
  decide +kernel

example : scent (· / 2) demo ⟨0, 0⟩ = some 15 ∧ lateScent (· / 2) demo ⟨0, 0⟩ = some 30 ∧
    scent (· / 2) ([(8, ⟨0, 0⟩)] :: demo) ⟨0, 0⟩ = some 4 ∧ lateScent (· / 2) ([(8, ⟨0, 0⟩)] :: demo) ⟨0, 0⟩ = some 4 ∧
    latest demo ⟨0, 0⟩ = some (1, 60) ∧ (∀ d ∈ demo, ∀ p ∈ d, InRange (2 : Int).natAbs (1 : Int).natAbs p.2) := by
  refine ⟨by decide +kernel, by decide +kernel, by decide +kernel, by decide +kernel, by decide +kernel, ?_⟩
  decide +kernel

/-! ### C220 -/

theorem deposit_some {d : List (T × Loc)} {l : Loc} {v : T} (h : deposit d l = some v) : (v, l) ∈ d := by
  unfold deposit at h
  obtain ⟨p, hp, rfl⟩ := Option.map_eq_some_iff.1 h
  have h1 := List.find?_some hp
  rw [decide_eq_true_iff] at h1
  rw [← h1]
  exact List.mem_of_find?_eq_some hp

theorem deposit_none {d : List (T × Loc)} {l : Loc} (h : deposit d l = none) : ∀ p ∈ d, p.2 ≠ l := by
  unfold deposit at h
  rw [Option.map_eq_none_iff, List.find?_eq_none] at h
  intro p hp
  simpa using h p hp

theorem deposit_perm {d d' : List (T × Loc)} (hp : d.Perm d') (h : ∀ p ∈ d, ∀ q ∈ d, p.2 = q.2 → p.1 = q.1) :
    deposit d = deposit d' := by
  funext l
  cases h1 : deposit d l with
  | none =>
    cases h2 : deposit d' l with
    | none => rfl
    | some v => exact absurd rfl (deposit_none h1 _ (hp.mem_iff.2 (deposit_some h2)))
  | some v =>
    cases h2 : deposit d' l with
    | none => exact absurd rfl (deposit_none h2 _ (hp.mem_iff.1 (deposit_some h1)))
    | some u => exact congrArg some (h _ (deposit_some h1) _ (hp.mem_iff.2 (deposit_some h2)) rfl)

/-- **C220**, where it holds: if in every step all deposits in the same cell are of the same number, the trail does not depend on the
order of the deposits within the steps. The trails are what the grids show by C219. -/
theorem C220_order_partial (f : T → T) {ds ds' : List (List (T × Loc))} (hp : List.Forall₂ List.Perm ds ds')
    (h : ∀ d ∈ ds, ∀ p ∈ d, ∀ q ∈ d, p.2 = q.2 → p.1 = q.1) : scent f ds = scent f ds' ∧ lateScent f ds = lateScent f ds' := by
  induction hp with
  | nil => exact ⟨rfl, rfl⟩
  | cons hd _ ih =>
    obtain ⟨i1, i2⟩ := ih (fun d hd => h d (List.mem_cons_of_mem _ hd))
    have hd := deposit_perm hd (h _ List.mem_cons_self)
    refine ⟨?_, ?_⟩
    · funext l
      rw [scent_cons, scent_cons, hd, i1]
    · funext l
      rw [lateScent_cons, lateScent_cons, hd, i2]

/-- **C220**, where it fails: two deposits of different numbers in one cell, in any step with any other deposits and after any other
steps. There is an order of the deposits of this step that ends with the one number and an order that ends with the other; the trails
differ if evaporation keeps the two numbers apart, and so does every grid of C219. -/
theorem C220_conflict_partial (f : T → T) (ds : List (List (T × Loc))) (d : List (T × Loc)) {p q : T × Loc} (hpm : p ∈ d) (hqm : q ∈ d)
    (hl : p.2 = q.2) (hv : p.1 ≠ q.1) (hf : f p.1 ≠ f q.1) :
    ∃ d1 d2, d.Perm d1 ∧ d.Perm d2 ∧ scent f (d1 :: ds) p.2 ≠ scent f (d2 :: ds) p.2 ∧
      lateScent f (d1 :: ds) p.2 ≠ lateScent f (d2 :: ds) p.2 := by
  obtain ⟨s, t, rfl⟩ := List.append_of_mem hpm
  obtain ⟨s', t', he⟩ := List.append_of_mem hqm
  refine ⟨p :: (s ++ t), q :: (s' ++ t'), List.perm_middle, by rw [he]; exact List.perm_middle, ?_, ?_⟩
  · rw [scent_cons, scent_cons, deposit_cons, deposit_cons, if_pos rfl, if_pos hl]
    simpa using hf
  · rw [lateScent_cons, lateScent_cons, deposit_cons, deposit_cons, if_pos rfl, if_pos hl]
    cases lateScent f ds p.2 with
    | none => simpa using hv
    | some v => simpa using hf

/-- **C220** is false: two agents write 1 and 2 into the same cell of a dense grid. -/
theorem C220_not_any_order_partial :
    ((DenseNumber.new 2 1).bind (fun g => DenseNumber.run g (trail true (· + 0) [[(1, ⟨0, 0⟩), (2, ⟨0, 0⟩)]]))).bind
      (fun g => DenseNumber.getValue g ⟨0, 0⟩) = some (some 1) ∧
    ((DenseNumber.new 2 1).bind (fun g => DenseNumber.run g (trail true (· + 0) [[(2, ⟨0, 0⟩), (1, ⟨0, 0⟩)]]))).bind
      (fun g => DenseNumber.getValue g ⟨0, 0⟩) = some (some 2) := by
  decide +kernel

example : List.Forall₂ List.Perm demo [[(80, ⟨1, 0⟩)], [(50, ⟨0, 0⟩), (60, ⟨0, 0⟩)]] :=
  .cons (.refl _) (.cons (.swap _ _ _) .nil)

example : ∀ d ∈ ([[(80, ⟨1, 0⟩), (9, ⟨0, 0⟩), (80, ⟨1, 0⟩)]] : List (List (Nat × Loc))), ∀ p ∈ d, ∀ q ∈ d, p.2 = q.2 → p.1 = q.1 := by
  decide +kernel

end Verif.Scent
