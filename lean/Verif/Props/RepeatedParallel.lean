import Verif.Props.Repeated
import Verif.Model.ParGrid
import Verif.Model.ParField2D
import Verif.Model.ParNetwork

/-! C272 under the feature `parallel`: repeating a call changes nothing. -/

set_option linter.unusedSectionVars false

namespace Verif.Repeated

open DBDashMap (DB)
open Grid (Loc)

variable {K V T O I L W : Type} [DecidableEq K] [DecidableEq I]

/-! ### The map of two sides -/

theorem remove_insert (t : HMap K V) (k : K) (v : V) : (HMap.insert (HMap.remove t k).1 k v).1 = t.filter (fun e => e.1 != k) ++ [(k, v)] := by
  unfold HMap.insert HMap.remove
  have : (t.filter (fun e => e.1 != k)).find? (fun e => e.1 == k) = none := List.find?_eq_none.2 (fun e he => by simpa using (List.mem_filter.1 he).2)
  dsimp only
  rw [this]

theorem updateShard_eq : ∀ (w r : HMap K V), DBDashMap.updateShard w r = r.filter (fun e => !(w.map Prod.fst).contains e.1) ++ DBDashMap.updateShard w []
  | [], r => by
    unfold DBDashMap.updateShard
    simp
  | e :: w, r => by
    have h1 : ∀ r : HMap K V, DBDashMap.updateShard (e :: w) r = DBDashMap.updateShard w (r.filter (fun x => x.1 != e.1) ++ [(e.1, e.2)]) := by
      intro r
      unfold DBDashMap.updateShard
      rw [List.foldl_cons, remove_insert]
    rw [h1, h1, updateShard_eq w (r.filter (fun x => x.1 != e.1) ++ [(e.1, e.2)]), updateShard_eq w (([] : HMap K V).filter (fun x => x.1 != e.1) ++ [(e.1, e.2)]), List.filter_append, List.filter_filter]
    have h2 : r.filter (fun x => (!(w.map Prod.fst).contains x.1) && (x.1 != e.1)) = r.filter (fun x => !((e :: w).map Prod.fst).contains x.1) := by
      refine List.filter_congr (fun x _ => ?_)
      rw [List.map_cons, List.contains_cons]
      cases h : (x.1 == e.1) <;> simp [bne, h]
    rw [h2, List.append_assoc]
    rfl

theorem updateShard_keys : ∀ (w : HMap K V), ∀ x ∈ DBDashMap.updateShard w ([] : HMap K V), (w.map Prod.fst).contains x.1 = true
  | [], x, h => by cases h
  | e :: w, x, h => by
    have h1 : DBDashMap.updateShard (e :: w) ([] : HMap K V) = DBDashMap.updateShard w [(e.1, e.2)] := by
      unfold DBDashMap.updateShard
      rw [List.foldl_cons, remove_insert]
      rfl
    rw [h1, updateShard_eq] at h
    rw [List.map_cons, List.contains_cons]
    rcases List.mem_append.1 h with h | h
    · have := List.mem_singleton.1 (List.mem_filter.1 h).1
      rw [this]
      simp
    · rw [updateShard_keys w x h, Bool.or_true]

theorem updateShard_twice (w r : HMap K V) : DBDashMap.updateShard w (DBDashMap.updateShard w r) = DBDashMap.updateShard w r := by
  rw [updateShard_eq w (DBDashMap.updateShard w r), updateShard_eq w r, List.filter_append, filter_twice]
  have : (DBDashMap.updateShard w ([] : HMap K V)).filter (fun e => !(w.map Prod.fst).contains e.1) = [] :=
    List.filter_eq_nil_iff.2 (fun x hx => by rw [updateShard_keys w x hx]; decide)
  rw [this, List.append_nil]

theorem zipWith_twice {A : Type} (f : A → A → A) (hf : ∀ a b, f a (f a b) = f a b) : ∀ l r : List A, List.zipWith f l (List.zipWith f l r) = List.zipWith f l r
  | [], _ => by simp
  | _ :: _, [] => by simp
  | a :: l, b :: r => by
    rw [List.zipWith_cons_cons, List.zipWith_cons_cons, hf, zipWith_twice f hf l r]

theorem update_twice (db : DB K V) : DBDashMap.update (DBDashMap.update db) = DBDashMap.update db := by
  unfold DBDashMap.update
  dsimp only
  rw [zipWith_twice _ updateShard_twice]

/-- **C272, publishing with `update` under the feature `parallel`.** (Partial: false of `lazy_update`, below.) -/
theorem C272_parallel_publication_partial :
    Repeatable (fun db : DB K V => some (DBDashMap.update db)) ∧ Repeatable (fun g : ParGrid.NGrid T => some g.update) ∧ Repeatable (fun g : ParGrid.OGrid O I => some g.update) ∧
    Repeatable (fun f : ParField2D.PField O I => some f.update) := by
  refine ⟨fun s s' h => ?_, fun s s' h => ?_, fun s s' h => ?_, fun s s' h => ?_⟩
  · cases h
    exact congrArg some (update_twice s)
  · cases h
    unfold ParGrid.NGrid.update
    dsimp only
    rw [update_twice]
  · cases h
    unfold ParGrid.OGrid.update
    dsimp only
    rw [update_twice, update_twice]
  · cases h
    unfold ParField2D.PField.update
    dsimp only
    rw [update_twice, update_twice, update_twice]

theorem insert_again {db : DB K V} {k : K} {v : V} {r : DB K V × Option V} (h : DBDashMap.insert db k v = some r) : (DBDashMap.insert r.1 k v).map Prod.fst = some r.1 :=
  (C272_map_partial k v).1 db r.1 (by dsimp only; rw [h]; rfl)

theorem remove_again {db : DB K V} {k : K} {r : DB K V × Option (K × V)} (h : DBDashMap.remove db k = some r) (v : V) : (DBDashMap.remove r.1 k).map Prod.fst = some r.1 :=
  (C272_map_partial k v).2.1 db r.1 (by dsimp only; rw [h]; rfl)

theorem adjust_get (s : HMap K V) (k : K) (f : V → V) : HMap.get (HMap.adjust s k f) k = (HMap.get s k).map f := by
  unfold HMap.get HMap.adjust
  induction s with
  | nil => rfl
  | cons e s ih =>
    rw [List.map_cons, List.find?_cons, List.find?_cons]
    by_cases h : (e.1 == k) = true
    · rw [if_pos h]
      dsimp only
      rw [h]
      rfl
    · rw [if_neg h]
      rw [Bool.not_eq_true] at h
      rw [h]
      exact ih

theorem modify_again {db db' : DB K V} {k : K} {f : V → V} (hf : ∀ v, f (f v) = f v) (h : DBDashMap.modifyWrite db k f = some db') :
    DBDashMap.modifyWrite db' k f = some db' ∧ DBDashMap.getWrite db' k = (DBDashMap.getWrite db k).map (Option.map f) := by
  unfold DBDashMap.modifyWrite at h
  cases hs : db.shards[db.idx k]? with
  | none => rw [hs] at h; cases h
  | some s =>
    rw [hs] at h
    cases h
    obtain ⟨hl, _⟩ := List.getElem?_eq_some_iff.1 hs
    have hi : ∀ sh, DB.idx (⟨db.shift, sh, db.rShards, db.hash⟩ : DB K V) k = db.idx k := fun _ => rfl
    constructor
    · unfold DBDashMap.modifyWrite
      dsimp only
      rw [hi (db.shards.set (db.idx k) (HMap.adjust s k f)), List.getElem?_set_self hl]
      dsimp only
      rw [List.set_set]
      have e : HMap.adjust (HMap.adjust s k f) k f = HMap.adjust s k f := by
        unfold HMap.adjust
        rw [List.map_map]
        refine List.map_congr_left (fun x _ => ?_)
        by_cases hx : (x.1 == k) = true
        · simp only [Function.comp, if_pos hx, hf]
        · simp only [Function.comp, if_neg hx]
      rw [e]
    · unfold DBDashMap.getWrite
      dsimp only
      rw [hi (db.shards.set (db.idx k) (HMap.adjust s k f)), List.getElem?_set_self hl, hs]
      dsimp only
      rw [adjust_get]
      rfl

/-! ### Grids and fields -/

/-- **C272, writing a value under the feature `parallel`.** -/
theorem C272_parallel_number_partial (v : T) (l : Loc) : Repeatable (fun g : ParGrid.NGrid T => g.setValueLocation v l) := by
  intro g g' h
  dsimp only at h ⊢
  unfold ParGrid.NGrid.setValueLocation at h
  obtain ⟨r, h1, rfl⟩ := Option.map_eq_some_iff.1 h
  unfold ParGrid.NGrid.setValueLocation
  obtain ⟨r', h2, h3⟩ := Option.map_eq_some_iff.1 (insert_again h1)
  dsimp only
  rw [h2, Option.map_some, h3]

theorem pushObject_twice (ident : O → I) (o : O) (b : List O) : ParGrid.pushObject ident o (ParGrid.pushObject ident o b) = ParGrid.pushObject ident o b := by
  unfold ParGrid.pushObject
  rw [List.filter_append, filter_twice, List.filter_cons_of_neg (by simp), List.filter_nil, List.append_nil]

theorem putInBag_again {ident : O → I} {o : O} {l : Loc} {g : ParGrid.OGrid O I} {bags : DB Loc (List O)} (h : g.putInBag ident o l = some bags) (ol : DB I (O × Loc)) :
    ParGrid.OGrid.putInBag (⟨ol, bags, g.width, g.height⟩ : ParGrid.OGrid O I) ident o l = some bags := by
  unfold ParGrid.OGrid.putInBag at h ⊢
  dsimp only at h ⊢
  cases hb : DBDashMap.getWrite g.loc2objs l with
  | none => rw [hb] at h; cases h
  | some b =>
    rw [hb, Option.bind_some] at h
    cases b with
    | some b =>
      dsimp only at h
      obtain ⟨h1, h2⟩ := modify_again (pushObject_twice ident o) h
      rw [h2, hb]
      exact h1
    | none =>
      dsimp only at h
      obtain ⟨r, h1, rfl⟩ := Option.map_eq_some_iff.1 h
      unfold DBDashMap.insert at h1
      cases hs : g.loc2objs.shards[g.loc2objs.idx l]? with
      | none => rw [hs] at h1; cases h1
      | some s =>
        rw [hs] at h1
        dsimp only at h1
        cases h1
        obtain ⟨hl, _⟩ := List.getElem?_eq_some_iff.1 hs
        have hi : ∀ sh, DB.idx (⟨g.loc2objs.shift, sh, g.loc2objs.rShards, g.loc2objs.hash⟩ : DB Loc (List O)) l = g.loc2objs.idx l := fun _ => rfl
        unfold DBDashMap.getWrite DBDashMap.modifyWrite
        dsimp only
        rw [remove_insert, hi (g.loc2objs.shards.set (g.loc2objs.idx l) (s.filter (fun e => e.1 != l) ++ [(l, [o])])), List.getElem?_set_self hl]
        dsimp only
        have hg : HMap.get (s.filter (fun e => e.1 != l) ++ [(l, [o])]) l = some [o] := by
          unfold HMap.get
          rw [List.find?_append, List.find?_eq_none.2 (fun e he => by simpa using (List.mem_filter.1 he).2), Option.none_or, List.find?_cons]
          simp
        rw [hg, Option.bind_some]
        dsimp only
        rw [List.set_set]
        have e : HMap.adjust (s.filter (fun e => e.1 != l) ++ [(l, [o])]) l (ParGrid.pushObject ident o) = s.filter (fun e => e.1 != l) ++ [(l, [o])] := by
          unfold HMap.adjust
          rw [List.map_append]
          congr 1
          · conv_rhs => rw [← List.map_id (s.filter (fun e => e.1 != l))]
            refine List.map_congr_left (fun x hx => ?_)
            rw [if_neg (by simpa using (List.mem_filter.1 hx).2)]
            rfl
          · simp [ParGrid.pushObject]
        rw [e]

/-- **C272, placing and removing objects under the feature `parallel`.** -/
theorem C272_parallel_object_partial (ident : O → I) (o : O) (l : Loc) :
    Repeatable (fun g : ParGrid.OGrid O I => g.setObjectLocation ident o l) ∧ Repeatable (fun g : ParGrid.OGrid O I => g.removeObjectLocation ident o l) ∧
    Repeatable (fun g : ParGrid.OGrid O I => g.removeObject ident o) := by
  have ff : ∀ b : List O, (b.filter (fun x => decide (ident x ≠ ident o))).filter (fun x => decide (ident x ≠ ident o)) = b.filter (fun x => decide (ident x ≠ ident o)) := fun b => filter_twice _ b
  refine ⟨fun g g' h => ?_, fun g g' h => ?_, fun g g' h => ?_⟩
  · dsimp only at h ⊢
    unfold ParGrid.OGrid.setObjectLocation at h
    obtain ⟨bags, h1, h2⟩ := Option.bind_eq_some_iff.1 h
    obtain ⟨r, h3, rfl⟩ := Option.map_eq_some_iff.1 h2
    unfold ParGrid.OGrid.setObjectLocation
    dsimp only
    rw [putInBag_again h1, Option.bind_some]
    obtain ⟨r', h4, h5⟩ := Option.map_eq_some_iff.1 (insert_again h3)
    rw [h4, Option.map_some, h5]
  · dsimp only at h ⊢
    unfold ParGrid.OGrid.removeObjectLocation at h
    obtain ⟨bags, h1, rfl⟩ := Option.map_eq_some_iff.1 h
    unfold ParGrid.OGrid.removeObjectLocation
    dsimp only
    rw [(modify_again ff h1).1]
    rfl
  · dsimp only at h ⊢
    unfold ParGrid.OGrid.removeObject at h
    obtain ⟨bags, h1, h2⟩ := Option.bind_eq_some_iff.1 h
    obtain ⟨r, h3, rfl⟩ := Option.map_eq_some_iff.1 h2
    have hr : DBDashMap.getRead r.1 (ident o) = DBDashMap.getRead g.obj2loc (ident o) := by
      unfold DBDashMap.remove at h3
      cases hs : g.obj2loc.shards[g.obj2loc.idx (ident o)]? with
      | none => rw [hs] at h3; cases h3
      | some s =>
        rw [hs] at h3
        cases h3
        rfl
    obtain ⟨r', h4, h5⟩ := Option.map_eq_some_iff.1 (remove_again h3 (o, l))
    unfold ParGrid.OGrid.removeObject
    dsimp only
    have hbag : ParGrid.OGrid.removeFromBag (⟨r.1, bags, g.width, g.height⟩ : ParGrid.OGrid O I) ident o = some bags := by
      unfold ParGrid.OGrid.removeFromBag at h1 ⊢
      dsimp only at h1 ⊢
      rw [hr]
      cases hg : DBDashMap.getRead g.obj2loc (ident o) with
      | none => rw [hg] at h1; cases h1
      | some e =>
        rw [hg, Option.bind_some] at h1
        rw [Option.bind_some]
        cases e with
        | none => rfl
        | some e =>
          dsimp only at h1 ⊢
          cases hb : DBDashMap.getWrite g.loc2objs e.2 with
          | none => rw [hb] at h1; cases h1
          | some b =>
            rw [hb, Option.bind_some] at h1
            cases b with
            | none => cases h1
            | some b =>
              dsimp only at h1
              obtain ⟨h6, h7⟩ := modify_again ff h1
              rw [h7, hb]
              exact h6
    rw [hbag, Option.bind_some, h4, Option.map_some, h5]

/-- **C272, networks under the feature `parallel`:** the publication and the removal of all edges may be repeated. -/
theorem C272_parallel_network_partial :
    Repeatable (fun n : ParNetwork.PNet K O L W => some (ParNetwork.update n)) ∧ Repeatable (fun n : ParNetwork.PNet K O L W => some (ParNetwork.removeAllEdges n)) := by
  refine ⟨fun n n' h => ?_, fun n n' h => ?_⟩
  · cases h
    unfold ParNetwork.update
    dsimp only
    rw [update_twice, update_twice]
  cases h
  unfold ParNetwork.removeAllEdges
  dsimp only
  have h1 := (C272_map_partial (V := List (Network.Edge L W)) (0 : Nat) []).2.2 n.edges _ rfl
  dsimp only at h1
  rw [Option.some.inj h1]

/-- The hypotheses are met: all these calls succeed on a new grid, the removals after a placement, and change something. -/
example : ((ParGrid.OGrid.new 1 id (fun l => l.x.natAbs) 2 2 : ParGrid.OGrid Nat Nat).setObjectLocation id 7 ⟨1, 0⟩).isSome = true ∧
    (((ParGrid.OGrid.new 1 id (fun l => l.x.natAbs) 2 2 : ParGrid.OGrid Nat Nat).run id [.place 7 ⟨1, 0⟩, .lazyUpdate, .place 7 ⟨1, 0⟩]).bind (fun g => g.removeObject id 7)).bind
      (fun g => g.getObjectsUnbuffered ⟨1, 0⟩) = some none := by
  decide +kernel

/-- **C272** is false of `lazy_update` and of placing an object in a field under the feature `parallel`: what is published a second time is empty, and the object is found twice. -/
theorem C272_parallel_negation_partial :
    ((ParGrid.OGrid.new 1 id (fun l => l.x.natAbs) 2 2 : ParGrid.OGrid Nat Nat).run id [.lazyUpdate, .place 7 ⟨1, 0⟩]).bind (fun g => g.getObjects ⟨1, 0⟩) = some (some [7]) ∧
    ((ParGrid.OGrid.new 1 id (fun l => l.x.natAbs) 2 2 : ParGrid.OGrid Nat Nat).run id [.lazyUpdate, .lazyUpdate, .place 7 ⟨1, 0⟩]).bind (fun g => g.getObjects ⟨1, 0⟩) = some none ∧
    ((ParField2D.PField.new 1 id (fun l => l.x.natAbs) 4 4 1 false : ParField2D.PField Nat Nat).run id [.update, .place 7 ⟨1, 1⟩]).bind (fun f => f.getObjects ⟨1, 1⟩) = some [7] ∧
    ((ParField2D.PField.new 1 id (fun l => l.x.natAbs) 4 4 1 false : ParField2D.PField Nat Nat).run id [.update, .place 7 ⟨1, 1⟩, .place 7 ⟨1, 1⟩]).bind (fun f => f.getObjects ⟨1, 1⟩) =
      some [7, 7] := by
  decide +kernel

end Verif.Repeated
