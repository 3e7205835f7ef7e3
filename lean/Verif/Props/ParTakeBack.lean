import Verif.Props.ParGrid

/-!
C269 under the feature `parallel`: taking back a placement on an object grid (src/engine/fields/dense_object_grid_2d.rs:125-158,
src/engine/fields/sparse_object_grid_2d.rs:165-188).
-/

set_option linter.unusedSectionVars false

namespace Verif.ParGrid

open Grid
open DBDashMap (abs Inv shardAmount getRead getWrite)

variable {O I : Type} [DecidableEq O] [DecidableEq I]

theorem takeBack (ident : O → I) {g : OGrid O I} (hg : OWf ident g) (o : O) (l : Loc) (hr : (abs g.obj2loc).read (ident o) = none)
    (hw : (abs g.obj2loc).write (ident o) = none) {b : List O} (hb : (abs g.loc2objs).write l = some b) (ho : ∀ x ∈ b, ident x ≠ ident o) :
    ∃ g', (g.setObjectLocation ident o l).bind (fun g1 => (g1.removeObjectLocation ident o l).bind (fun g2 => g2.removeObject ident o)) = some g' ∧
      OWf ident g' ∧ g'.width = g.width ∧ g'.height = g.height ∧
      OShows g' (abs g.obj2loc).read (abs g.obj2loc).write (abs g.loc2objs).read (abs g.loc2objs).write := by
  obtain ⟨g1, h1, w1, v1, s1⟩ := oshows_place ident (oshows_self hg.invO hg.invL) o l
  have hg1 := (owf_exec ident hg (.place o l) h1).1
  obtain ⟨g2, h2, hg2, w2, v2, e2, r2, b2⟩ := removeAt_sim ident hg1 o l
  obtain ⟨n3, s3⟩ := remove_object_sim ident hg2 o
  have hread : (abs g2.obj2loc).read (ident o) = none := by
    rw [e2, s1.readO]
    exact hr
  cases h3 : g2.removeObject ident o with
  | none =>
    obtain ⟨e, he, _⟩ := n3.1 h3
    rw [hread] at he
    cases he
  | some g3 =>
    obtain ⟨hg3, w3, v3, a1, a2, a3, a4⟩ := s3 g3 h3
    refine ⟨g3, ?_, hg3, by rw [w3, w2, w1], by rw [v3, v2, v1], hg3.invO, hg3.invL, ?_, ?_, ?_, ?_⟩
    · rw [h1, Option.bind_some, h2, Option.bind_some, h3]
    · rw [a1, e2, s1.readO]
    · rw [a2, e2, s1.writeO]
      funext i
      by_cases hi : i = ident o
      · rw [if_pos hi, hi, hw]
      · simp only [if_neg hi]
    · rw [a3, r2, s1.readL]
    · rw [a4, hread, b2, s1.writeL]
      funext k
      simp only [Option.map_none, reduceCtorEq, if_false]
      by_cases hk : k = l
      · rw [if_pos hk, if_pos trivial, hk, hb]
        have hf : b.filter (fun x => decide (ident x ≠ ident o)) = b := List.filter_eq_self.2 (fun x hx => decide_eq_true (ho x hx))
        unfold pushObject
        simp only [Option.getD_some, Option.map_some]
        rw [hf, List.filter_append, hf]
        simp
      · rw [if_neg hk, if_neg hk]

/-- **C269, object grids under the feature `parallel`.** (Partial: the object is neither published nor written, and there is a written bag.) A placement is taken
back with two calls: `remove_object_location`, which clears the bag, and `remove_object`, which clears the location. -/
theorem C269_parallel_partial (ident : O → I) {g : OGrid O I} (hr : Reachable ident g) (o : O) (l : Loc) (h1 : g.getLocation ident o = some none)
    (h2 : g.getLocationUnbuffered ident o = some none) {b : List O} (hb : getWrite g.loc2objs l = some (some b)) (ho : ∀ x ∈ b, ident x ≠ ident o) :
    ∃ g', (g.setObjectLocation ident o l).bind (fun g1 => (g1.removeObjectLocation ident o l).bind (fun g2 => g2.removeObject ident o)) = some g' ∧
      g'.width = g.width ∧ g'.height = g.height ∧ (∀ i, getRead g'.obj2loc i = getRead g.obj2loc i ∧ getWrite g'.obj2loc i = getWrite g.obj2loc i) ∧
      ∀ k, getRead g'.loc2objs k = getRead g.loc2objs k ∧ getWrite g'.loc2objs k = getWrite g.loc2objs k := by
  have hg := hr.wf
  have h1' : (abs g.obj2loc).read (ident o) = none := by
    unfold OGrid.getLocation at h1
    rw [getRead_abs hg.invO] at h1
    simpa using h1
  have h2' : (abs g.obj2loc).write (ident o) = none := by
    unfold OGrid.getLocationUnbuffered at h2
    rw [getWrite_abs hg.invO] at h2
    simpa using h2
  rw [getWrite_abs hg.invL, Option.some_inj] at hb
  obtain ⟨g', e, _, w, v, s⟩ := takeBack ident hg o l h1' h2' hb ho
  refine ⟨g', e, w, v, fun i => ⟨?_, ?_⟩, fun k => ⟨?_, ?_⟩⟩
  · rw [getRead_abs s.invO, getRead_abs hg.invO, s.readO]
  · rw [getWrite_abs s.invO, getWrite_abs hg.invO, s.writeO]
  · rw [getRead_abs s.invL, getRead_abs hg.invL, s.readL]
  · rw [getWrite_abs s.invL, getWrite_abs hg.invL, s.writeL]

/-- **C269** is false of object grids under the feature `parallel`: (1) after a placement and `remove_object` the object is still in the bag; (2) after a
placement and `remove_object_location` the grid still has a location of it; (3) where no bag is written yet, placing an object and taking it back with both
calls leaves an empty bag, which hides the published bag after the next `update`. -/
theorem C269_parallel_negation_partial :
    (OGrid.run id (OGrid.new 1 id (fun _ => 0) 4 4 : OGrid Nat Nat) [.lazyUpdate, .remove 7, .place 7 ⟨1, 1⟩]).bind (fun g => g.getObjects ⟨1, 1⟩) = some (some [7]) ∧
    (OGrid.run id (OGrid.new 1 id (fun _ => 0) 4 4 : OGrid Nat Nat) [.lazyUpdate, .removeAt 7 ⟨1, 1⟩, .place 7 ⟨1, 1⟩]).bind (fun g => g.getLocation id 7) =
      some (some ⟨1, 1⟩) ∧
    (OGrid.run id (OGrid.new 1 id (fun _ => 0) 4 4 : OGrid Nat Nat) [.update, .remove 7, .removeAt 7 ⟨1, 1⟩, .place 7 ⟨1, 1⟩, .lazyUpdate, .place 8 ⟨1, 1⟩]).bind
      (fun g => g.getObjects ⟨1, 1⟩) = some none ∧
    (OGrid.run id (OGrid.new 1 id (fun _ => 0) 4 4 : OGrid Nat Nat) [.update, .lazyUpdate, .place 8 ⟨1, 1⟩]).bind (fun g => g.getObjects ⟨1, 1⟩) =
      some (some [8]) := by
  refine ⟨?_, ?_, ?_, ?_⟩ <;> decide +kernel

/-- The hypotheses hold of a grid on which another object was placed in the same cell. -/
example : ∃ g : OGrid Nat Nat, Reachable id g ∧ g.getLocation id 7 = some none ∧ g.getLocationUnbuffered id 7 = some none ∧
    getWrite g.loc2objs ⟨1, 1⟩ = some (some [8]) := by
  have h0 := oshows_new (O := Nat) (cpus := 1) (by decide +kernel) (id : Nat → Nat) (fun _ => 0) 4 4
  obtain ⟨g, h1, _, _, h2⟩ := oshows_place (id : Nat → Nat) h0 8 ⟨1, 1⟩
  refine ⟨g, ⟨1, id, fun _ => 0, 4, 4, [.place 8 ⟨1, 1⟩], by decide +kernel, h1⟩, ?_, ?_, ?_⟩
  · unfold OGrid.getLocation
    rw [getRead_abs h2.invO, h2.readO]
    rfl
  · unfold OGrid.getLocationUnbuffered
    rw [getWrite_abs h2.invO, h2.writeO]
    rfl
  · rw [getWrite_abs h2.invL, h2.writeL]
    rfl

end Verif.ParGrid
