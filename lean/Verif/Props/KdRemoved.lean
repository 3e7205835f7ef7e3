import Verif.Spec.KdRemoved
import Verif.Props.KdTree

/-!
What processes receive of agents that were removed (C86).
-/

namespace Verif.KdTree

open Torus Field2D

variable {O : Type} [BEq O]

/-- The halo lists after a program are those of its insertions. -/
theorem runCalls_neighbors (own : Tile) {d : Rat} (cs : List (BlockCall O)) :
    ∀ (t t' : Tree O), t.layout.haloRegions = regions own.x own.y own.w own.h d → t.neighbors.length = 4 →
    (∀ a ∈ inserted cs, own.Has a.2) → runCalls t cs = some t' →
    t'.layout = t.layout ∧ t'.neighbors.length = 4 ∧
    ∀ k, t'.neighbors[k]? = t.neighbors[k]?.map (fun l => l ++ haloList own d (inserted cs) k) := by
  induction cs with
  | nil =>
    intro t t' _ hl _ h
    obtain rfl := Option.some.inj h
    refine ⟨rfl, hl, fun k => ?_⟩
    cases t.neighbors[k]? <;> simp [haloList, inserted]
  | cons c cs ih =>
    intro t t' hreg hl has h
    cases c with
    | insert a p =>
      rw [runCalls] at h
      obtain ⟨t1, hi, h⟩ := Option.bind_eq_some_iff.1 h
      have h1 : insertAll t [(a, p)] = some t1 := by
        rw [insertAll, hi]
        rfl
      obtain ⟨a1, a2, _, a4⟩ := insertAll_neighbors own [(a, p)] t t1 hreg hl
        (fun b hb => has b (by rw [List.mem_singleton] at hb; rw [hb]; exact List.mem_cons_self)) h1
      obtain ⟨b1, b2, b3⟩ := ih t1 t' (by rw [a1]; exact hreg) a2 (fun b hb => has b (List.mem_cons_of_mem _ hb)) h
      refine ⟨b1.trans a1, b2, fun k => ?_⟩
      rw [b3 k, a4 k]
      cases t.neighbors[k]? with
      | none => rfl
      | some l =>
        simp only [Option.map_some, Option.some.injEq, List.append_assoc, List.append_cancel_left_eq]
        unfold haloList
        rw [← List.map_append, ← List.filter_append]
        rfl
    | remove a p =>
      rw [runCalls] at h
      obtain ⟨t1, hi, h⟩ := Option.bind_eq_some_iff.1 h
      unfold removeObjectLocation at hi
      obtain ⟨f, _, rfl⟩ := Option.map_eq_some_iff.1 hi
      exact ih { t with bags := f } t' hreg hl has h

/-- **C86**, what happens: whatever is inserted into the own block and removed again before the update, every process receives in the
next halo exchange exactly what it would receive if nothing had been removed. -/
theorem C86_as_if_not_removed_partial (own : Tile) (d : ℚ) (cs : List (BlockCall O)) (t t1 t1' t2 t2' u : Tree O)
    (hreg : t.layout.haloRegions = regions own.x own.y own.w own.h d) (hl : t.neighbors.length = 4)
    (has : ∀ a ∈ inserted cs, own.Has a.2) (h1 : runCalls t cs = some t1) (h1' : insertAll t (inserted cs) = some t1')
    (h2 : lazyUpdate t1 = some t2) (h2' : lazyUpdate t1' = some t2') :
    receivedFrom u t2 t2.precNeighbors true = receivedFrom u t2' t2'.precNeighbors true := by
  obtain ⟨a1, _, a3⟩ := runCalls_neighbors own cs t t1 hreg hl has h1
  obtain ⟨b1, _, _, b4⟩ := insertAll_neighbors own (inserted cs) t t1' hreg hl has h1'
  have hn : t1.neighbors = t1'.neighbors := List.ext_getElem? (fun k => (a3 k).trans (b4 k).symm)
  unfold lazyUpdate at h2 h2'
  obtain ⟨f, _, rfl⟩ := Option.map_eq_some_iff.1 h2
  obtain ⟨f', _, rfl⟩ := Option.map_eq_some_iff.1 h2'
  unfold receivedFrom prepared
  simp only [if_true, a1, b1, hn]

/-- **C86**, where it holds: an agent that was inserted only at positions of the own block farther than the halo distance from all its
borders is not received by anybody, removed or not. -/
theorem C86_interior_partial (own : Tile) (d : ℚ) (cs : List (BlockCall O)) (t t1 t2 u : Tree O)
    (hreg : t.layout.haloRegions = regions own.x own.y own.w own.h d) (hnew : t.neighbors = List.replicate 4 [])
    (has : ∀ a ∈ inserted cs, own.Has a.2) (h1 : runCalls t cs = some t1) (h2 : lazyUpdate t1 = some t2) (a : O)
    (hfar : ∀ p, (a, p) ∈ inserted cs → own.x + d < p.x ∧ p.x < own.x + own.w - d ∧ own.y + d < p.y ∧ p.y < own.y + own.h - d)
    (l : List O) (hr : receivedFrom u t2 t2.precNeighbors true = some l) : a ∉ l := by
  obtain ⟨_, a2, a3⟩ := runCalls_neighbors own cs t t1 hreg (by rw [hnew]; rfl) has h1
  have hno : ∀ ns ∈ t1.neighbors, a ∉ ns := by
    intro ns hns ha
    obtain ⟨k, hk⟩ := List.getElem?_of_mem hns
    rw [a3 k, hnew] at hk
    have hlt : k < 4 := by
      by_contra hc
      rw [List.getElem?_eq_none (by simp; omega)] at hk
      simp at hk
    rw [List.getElem?_replicate, if_pos hlt] at hk
    simp only [Option.map_some, List.nil_append, Option.some.injEq] at hk
    rw [← hk] at ha
    unfold haloList at ha
    obtain ⟨⟨a', p⟩, hm, rfl⟩ := List.mem_map.1 ha
    obtain ⟨m1, m2⟩ := List.mem_filter.1 hm
    obtain ⟨f1, f2, f3, f4⟩ := hfar p m1
    have : haloOf own d p = none := by
      unfold haloOf
      rw [if_neg (not_le.2 f4), if_neg (not_le.2 f2), if_neg (not_le.2 f3), if_neg (not_le.2 f1)]
    rw [this] at m2
    simp at m2
  have hp : t2.precNeighbors = t1.neighbors := by
    unfold lazyUpdate at h2
    obtain ⟨f, _, rfl⟩ := Option.map_eq_some_iff.1 h2
    rfl
  have hfold : ∀ (pairs : List (Nat × Nat)) (dest : Nat) (acc : Option (List O)), (∀ l, acc = some l → a ∉ l) →
      ∀ l, pairs.foldl (sendStep t1.neighbors dest) acc = some l → a ∉ l := by
    intro pairs dest
    induction pairs with
    | nil => intro acc hacc l hl; exact hacc l hl
    | cons pr pairs ih =>
      intro acc hacc l hl
      refine ih _ ?_ l hl
      intro l' hl'
      unfold sendStep at hl'
      cases acc with
      | none => simp at hl'
      | some l0 =>
        cases hg : t1.neighbors[pr.1]? with
        | none => rw [hg] at hl'; simp at hl'
        | some as =>
          rw [hg] at hl'
          obtain rfl := Option.some.inj hl'
          split
          · rw [List.mem_append]
            rintro (h | h)
            · exact hacc l0 rfl h
            · exact hno as (List.mem_of_getElem? hg) h
          · exact hacc l0 rfl
  unfold receivedFrom at hr
  split at hr
  · unfold prepared sentByRegions at hr
    rw [if_pos rfl, hp] at hr
    exact hfold _ _ _ (fun l hl => by obtain rfl := Option.some.inj hl; simp) l hr
  · split at hr
    · simp at hr
    · obtain rfl := Option.some.inj hr
      simp

/-- Two processes; agent 7 comes near the border and is removed, agent 8 stays inside. -/
example :
    (do let t ← (Tree.create 0 2 0 ⟨0, 0, 8, 8⟩ 1 1 : Option (Tree Nat))
        let u ← (Tree.create 1 2 0 ⟨0, 0, 8, 8⟩ 1 1 : Option (Tree Nat))
        let t1 ← runCalls t [.insert 7 ⟨7/2, 3⟩, .insert 8 ⟨2, 3⟩, .remove 7 ⟨7/2, 3⟩]
        let t2 ← lazyUpdate t1
        let l ← receivedFrom u t2 t2.precNeighbors true
        pure (t.layout.width, t.neighbors, l)) = some (4, List.replicate 4 [], [7]) := by
  decide +kernel

end Verif.KdTree
