import Verif.Spec.Repeated
import Verif.Lemmas.HNetwork
import Verif.Lemmas.Network
import Verif.Lemmas.Grid
import Verif.Model.Schedule
import Verif.Model.DBDashMap
import Verif.Model.DenseNumberGrid
import Verif.Model.SparseNumberGrid
import Verif.Model.DenseObjectGrid
import Verif.Model.SparseObjectGrid
import Verif.Model.Field2D
import Verif.Model.MachineField

/-!
C272: repeating a call changes nothing. The statements are about any state, except for the hypernetwork, where they are about the state after any history.
-/

set_option linter.unusedSectionVars false

namespace Verif.Repeated

/-! ### Lists and maps -/

theorem filter_twice {α : Type} (p : α → Bool) (b : List α) : (b.filter p).filter p = b.filter p :=
  List.filter_eq_self.2 (fun _ hx => (List.mem_filter.1 hx).2)

theorem insert_twice {K V : Type} [DecidableEq K] (m : HMap K V) (k : K) (v : V) : (HMap.insert (HMap.insert m k v).1 k v).1 = (HMap.insert m k v).1 := by
  unfold HMap.insert
  cases h : m.find? (fun e => e.1 == k) with
  | none =>
    dsimp only
    have h1 : (m ++ [(k, v)]).find? (fun e => e.1 == k) = some (k, v) := by
      rw [List.find?_append, h, Option.none_or, List.find?_cons]
      simp
    rw [h1]
    dsimp only
    rw [List.map_append]
    have h2 : m.map (fun e => if e.1 == k then (e.1, v) else e) = m := by
      rw [List.find?_eq_none] at h
      conv_rhs => rw [← List.map_id m]
      exact List.map_congr_left (fun e he => by rw [if_neg (h e he)]; rfl)
    rw [h2]
    simp
  | some e =>
    dsimp only
    have hk := List.find?_some h
    have hm := List.mem_of_find?_eq_some h
    cases h1 : (m.map (fun e => if e.1 == k then (e.1, v) else e)).find? (fun e => e.1 == k) with
    | none =>
      rw [List.find?_eq_none] at h1
      refine absurd ?_ (h1 (e.1, v) (List.mem_map.2 ⟨e, hm, by rw [if_pos hk]⟩))
      exact hk
    | some e' =>
      dsimp only
      rw [List.map_map]
      refine List.map_congr_left (fun x _ => ?_)
      by_cases hx : (x.1 == k) = true
      · simp only [Function.comp, if_pos hx]
      · simp only [Function.comp, if_neg hx]

theorem adjust_twice {K V : Type} [DecidableEq K] (m : HMap K V) (k : K) (f : V → V) (hf : ∀ v, f (f v) = f v) : HMap.adjust (HMap.adjust m k f) k f = HMap.adjust m k f := by
  unfold HMap.adjust
  rw [List.map_map]
  refine List.map_congr_left (fun x _ => ?_)
  by_cases hx : (x.1 == k) = true
  · simp only [Function.comp, if_pos hx, hf]
  · simp only [Function.comp, if_neg hx]

theorem vecSet_twice {α : Type} {v v' : List α} {height : Int} {loc : Grid.Loc} {a : α} (h : Grid.vecSet v height loc a = some v') :
    Grid.vecSet v' height loc a = some v' ∧ Grid.vecGet v' height loc = some a := by
  unfold Grid.vecSet at h
  by_cases h0 : 0 ≤ loc.x * height + loc.y ∧ (loc.x * height + loc.y).toNat < v.length
  · rw [if_pos h0] at h
    cases h
    constructor
    · unfold Grid.vecSet
      rw [if_pos ⟨h0.1, by rw [List.length_set]; exact h0.2⟩, List.set_set]
    · unfold Grid.vecGet
      rw [if_pos h0.1, List.getElem?_set_self h0.2]
  · rw [if_neg h0] at h
    cases h

theorem vecSet_twice_machine {α : Type} {mode : DenseI32.Mode} {v v' : List α} {height : Int} {loc : Grid.Loc} {a : α} (h : DenseI32.vecSet mode v height loc a = some v') :
    DenseI32.vecSet mode v' height loc a = some v' ∧ DenseI32.vecGet mode v' height loc = some a := by
  unfold DenseI32.vecSet at h
  cases hi : DenseI32.index mode height loc with
  | none => rw [hi] at h; cases h
  | some i =>
    rw [hi] at h
    dsimp only at h
    by_cases h0 : 0 ≤ i ∧ i.toNat < v.length
    · rw [if_pos h0] at h
      cases h
      constructor
      · unfold DenseI32.vecSet
        rw [hi]
        dsimp only
        rw [if_pos ⟨h0.1, by rw [List.length_set]; exact h0.2⟩, List.set_set]
      · unfold DenseI32.vecGet
        rw [hi]
        dsimp only
        rw [if_pos h0.1, List.getElem?_set_self h0.2]
    · rw [if_neg h0] at h
      cases h

/-! ### Grids, fields and maps -/

/-- **C272, dense number grid.** (Partial: only the writing and the removing of a value.) -/
theorem C272_dense_number_partial {T : Type} (v : T) (l : Grid.Loc) :
    Repeatable (fun g : DenseNumber.DGrid T => DenseNumber.setValueLocation g v l) ∧ Repeatable (fun g : DenseNumber.DGrid T => DenseNumber.removeValueLocation g l) := by
  constructor
  · intro g g' h
    obtain ⟨ls, h1, h2⟩ := Option.map_eq_some_iff.1 h
    cases h2
    show (Grid.vecSet ls g.height l (some v)).map _ = _
    rw [(vecSet_twice h1).1]
    rfl
  · intro g g' h
    obtain ⟨ls, h1, h2⟩ := Option.map_eq_some_iff.1 h
    cases h2
    show (Grid.vecSet ls g.height l none).map _ = _
    rw [(vecSet_twice h1).1]
    rfl

/-- **C272, sparse number grid.** (Partial: only the writing and the removing of a value.) -/
theorem C272_sparse_number_partial {T : Type} (v : T) (l : Grid.Loc) :
    Repeatable (fun g : SparseNumber.SGrid T => some (SparseNumber.setValueLocation g v l)) ∧ Repeatable (fun g : SparseNumber.SGrid T => some (SparseNumber.removeValueLocation g l)) := by
  constructor
  · intro g g' h
    cases h
    unfold SparseNumber.setValueLocation
    dsimp only
    rw [insert_twice]
  · intro g g' h
    cases h
    unfold SparseNumber.removeValueLocation HMap.remove
    dsimp only
    rw [filter_twice]

/-- **C272, dense object grid.** (Partial: only the placing and the removing of an object.) Placing an object where it is does not place it twice. -/
theorem C272_dense_object_partial {O : Type} [DecidableEq O] (o : O) (l : Grid.Loc) :
    Repeatable (fun g : DenseObject.OGrid O => DenseObject.setObjectLocation g o l) ∧ Repeatable (fun g : DenseObject.OGrid O => DenseObject.removeObjectLocation g o l) := by
  constructor
  · intro g g' h
    dsimp only at h ⊢
    unfold DenseObject.setObjectLocation at h
    cases hb : Grid.vecGet g.locs g.height l with
    | none => rw [hb] at h; cases h
    | some b =>
      rw [hb] at h
      obtain ⟨ls, h1, h2⟩ := Option.map_eq_some_iff.1 h
      cases h2
      unfold DenseObject.setObjectLocation
      dsimp only
      rw [(vecSet_twice h1).2]
      dsimp only
      have e : (b.filter (fun x => x != o) ++ [o]).filter (fun x => x != o) = b.filter (fun x => x != o) := by
        rw [List.filter_append, filter_twice, List.filter_cons_of_neg (by simp), List.filter_nil, List.append_nil]
      rw [e, (vecSet_twice h1).1]
      rfl
  · intro g g' h
    dsimp only at h ⊢
    unfold DenseObject.removeObjectLocation at h
    cases hb : Grid.vecGet g.locs g.height l with
    | none => rw [hb] at h; cases h
    | some b =>
      rw [hb] at h
      obtain ⟨ls, h1, h2⟩ := Option.map_eq_some_iff.1 h
      cases h2
      unfold DenseObject.removeObjectLocation
      dsimp only
      rw [(vecSet_twice h1).2]
      dsimp only
      rw [filter_twice, (vecSet_twice h1).1]
      rfl

/-- **C272, sparse object grid.** (Partial: only the removing of an object.) -/
theorem C272_sparse_object_partial {O : Type} [DecidableEq O] (o : O) (l : Grid.Loc) : Repeatable (fun g : SparseObject.BGrid O => some (SparseObject.removeObjectLocation g o l)) := by
  intro g g' h
  cases h
  refine congrArg some ?_
  cases hg : HMap.get g.locs l with
  | none =>
    have e : SparseObject.removeObjectLocation g o l = g := by
      unfold SparseObject.removeObjectLocation
      rw [hg]
    rw [e, e]
  | some b =>
    by_cases hb : (b.filter (fun x => x != o)).isEmpty = true
    · have e : SparseObject.removeObjectLocation g o l = { g with locs := (HMap.remove g.locs l).1 } := by
        unfold SparseObject.removeObjectLocation
        rw [hg]
        dsimp only
        rw [if_pos hb]
      rw [e]
      unfold SparseObject.removeObjectLocation
      dsimp only
      rw [HMap.get_remove, if_pos rfl]
    · have e : SparseObject.removeObjectLocation g o l = { g with locs := HMap.adjust g.locs l (fun bag => bag.filter (fun x => x != o)) } := by
        unfold SparseObject.removeObjectLocation
        rw [hg]
        dsimp only
        rw [if_neg hb]
      rw [e]
      unfold SparseObject.removeObjectLocation
      dsimp only
      rw [HMap.get_adjustBy, if_pos rfl, hg, Option.map_some]
      dsimp only
      rw [filter_twice, if_neg hb, adjust_twice _ _ _ (fun v => filter_twice _ v)]

/-- **C272, continuous field.** (Partial: only the removing of an object.) The count of agents is not reduced a second time. -/
theorem C272_field_partial {O : Type} [DecidableEq O] (o : O) (p : Torus.Pos) : Repeatable (fun f : Field2D.Field O => Field2D.removeObjectLocation f o p) := by
  intro f f' h
  dsimp only at h ⊢
  unfold Field2D.removeObjectLocation at h
  cases hb : Grid.vecGet f.bags f.dh (Field2D.discretize f.discretization p) with
  | none => rw [hb] at h; cases h
  | some b =>
    rw [hb] at h
    dsimp only at h
    by_cases he : b.isEmpty = true
    · rw [if_pos he] at h
      cases h
      unfold Field2D.removeObjectLocation
      rw [hb]
      dsimp only
      rw [if_pos he]
    · rw [if_neg he] at h
      by_cases hd : f.densityCheck = true
      · rw [if_pos hd] at h
        obtain ⟨bs, h1, h2⟩ := Option.map_eq_some_iff.1 h
        cases h2
        unfold Field2D.removeObjectLocation
        dsimp only
        rw [(vecSet_twice h1).2]
        dsimp only
        by_cases he' : (b.filter (fun x => x != o)).isEmpty = true
        · rw [if_pos he']
        · rw [if_neg he', if_pos hd, filter_twice, (vecSet_twice h1).1]
          rfl
      · rw [if_neg hd] at h
        by_cases hn : f.nagents < b.length - (b.filter (fun x => x != o)).length
        · rw [if_pos hn] at h
          cases h
        · rw [if_neg hn] at h
          obtain ⟨bs, h1, h2⟩ := Option.map_eq_some_iff.1 h
          cases h2
          unfold Field2D.removeObjectLocation
          dsimp only
          rw [(vecSet_twice h1).2]
          dsimp only
          by_cases he' : (b.filter (fun x => x != o)).isEmpty = true
          · rw [if_pos he']
          · rw [if_neg he', if_neg hd, filter_twice, (vecSet_twice h1).1, if_neg (by omega), Nat.sub_self]
            rfl

/-- **C272, continuous field with machine floats**, in debug and in release builds. (Partial: only the removing of an object.) -/
theorem C272_machine_partial {O : Type} [DecidableEq O] (rnd : Rat → Rat) (mode : DenseI32.Mode) (o : O) (p : Machine.PosF) :
    Repeatable (fun f : Machine.FieldF O => Machine.removeObjectLocation rnd mode f o p) := by
  intro f f' h
  dsimp only at h ⊢
  unfold Machine.removeObjectLocation at h
  cases hb : DenseI32.vecGet mode f.bags f.dh (Machine.discretize rnd f.discretization p) with
  | none => rw [hb] at h; cases h
  | some b =>
    rw [hb] at h
    dsimp only at h
    by_cases he : b.isEmpty = true
    · rw [if_pos he] at h
      cases h
      unfold Machine.removeObjectLocation
      rw [hb]
      dsimp only
      rw [if_pos he]
    · rw [if_neg he] at h
      by_cases hd : f.densityCheck = true
      · rw [if_pos hd] at h
        obtain ⟨bs, h1, h2⟩ := Option.map_eq_some_iff.1 h
        cases h2
        unfold Machine.removeObjectLocation
        dsimp only
        rw [(vecSet_twice_machine h1).2]
        dsimp only
        by_cases he' : (b.filter (fun x => x != o)).isEmpty = true
        · rw [if_pos he']
        · rw [if_neg he', if_pos hd, filter_twice, (vecSet_twice_machine h1).1]
          rfl
      · rw [if_neg hd] at h
        cases hn : Machine.usub mode f.nagents (b.length - (b.filter (fun x => x != o)).length) with
        | none => rw [hn] at h; cases h
        | some n =>
          rw [hn] at h
          obtain ⟨bs, h1, h2⟩ := Option.map_eq_some_iff.1 h
          cases h2
          unfold Machine.removeObjectLocation
          dsimp only
          rw [(vecSet_twice_machine h1).2]
          dsimp only
          by_cases he' : (b.filter (fun x => x != o)).isEmpty = true
          · rw [if_pos he']
          · have h0 : Machine.usub mode n 0 = some n := by cases mode <;> (unfold Machine.usub; simp)
            rw [if_neg he', if_neg hd, filter_twice, (vecSet_twice_machine h1).1, Nat.sub_self, h0]
            rfl

/-- **C272, map of two sides.** (Partial: only the inserting and the removing of a key, and the clearing.) -/
theorem C272_map_partial {K V : Type} [DecidableEq K] (k : K) (v : V) :
    Repeatable (fun db : DBDashMap.DB K V => (DBDashMap.insert db k v).map Prod.fst) ∧ Repeatable (fun db : DBDashMap.DB K V => (DBDashMap.remove db k).map Prod.fst) ∧
    Repeatable (fun db : DBDashMap.DB K V => some (DBDashMap.clear db)) := by
  refine ⟨fun db db' h => ?_, fun db db' h => ?_, fun db db' h => ?_⟩
  · dsimp only at h ⊢
    unfold DBDashMap.insert at h
    cases hs : db.shards[db.idx k]? with
    | none => rw [hs] at h; cases h
    | some s =>
      rw [hs] at h
      cases h
      obtain ⟨hl, _⟩ := List.getElem?_eq_some_iff.1 hs
      have hi : ∀ sh, DBDashMap.DB.idx (⟨db.shift, sh, db.rShards, db.hash⟩ : DBDashMap.DB K V) k = db.idx k := fun _ => rfl
      unfold DBDashMap.insert
      dsimp only
      rw [hi (db.shards.set (db.idx k) (HMap.insert (HMap.remove s k).1 k v).1), List.getElem?_set_self hl]
      dsimp only
      rw [Option.map_some]
      dsimp only
      rw [List.set_set]
      have e : (HMap.insert (HMap.remove (HMap.insert (HMap.remove s k).1 k v).1 k).1 k v).1 = (HMap.insert (HMap.remove s k).1 k v).1 := by
        have h1 : ∀ t : HMap K V, (HMap.insert (HMap.remove t k).1 k v).1 = (HMap.remove t k).1 ++ [(k, v)] := by
          intro t
          unfold HMap.insert HMap.remove
          have : (t.filter (fun e => e.1 != k)).find? (fun e => e.1 == k) = none :=
            List.find?_eq_none.2 (fun e he => by simpa using (List.mem_filter.1 he).2)
          dsimp only
          rw [this]
        rw [h1, h1]
        congr 1
        unfold HMap.remove
        dsimp only
        rw [List.filter_append, filter_twice, List.filter_cons_of_neg (by simp), List.filter_nil, List.append_nil]
      rw [e]
  · dsimp only at h ⊢
    unfold DBDashMap.remove at h
    cases hs : db.shards[db.idx k]? with
    | none => rw [hs] at h; cases h
    | some s =>
      rw [hs] at h
      cases h
      obtain ⟨hl, _⟩ := List.getElem?_eq_some_iff.1 hs
      have hi : ∀ sh, DBDashMap.DB.idx (⟨db.shift, sh, db.rShards, db.hash⟩ : DBDashMap.DB K V) k = db.idx k := fun _ => rfl
      unfold DBDashMap.remove
      dsimp only
      rw [hi (db.shards.set (db.idx k) (HMap.remove s k).1), List.getElem?_set_self hl]
      dsimp only
      rw [Option.map_some]
      dsimp only
      rw [List.set_set]
      have e : (HMap.remove (HMap.remove s k).1 k).1 = (HMap.remove s k).1 := by
        unfold HMap.remove
        dsimp only
        rw [filter_twice]
      rw [e]
  · cases h
    unfold DBDashMap.clear
    dsimp only
    rw [List.map_map]
    rfl

/-! ### The schedule -/

/-- **C272, schedule.** (Partial: only the dequeuing.) The second time it reports that there is nothing to dequeue. -/
theorem C272_schedule_partial {T A : Type} (s : Schedule.Sched T A) (id : Nat) : (s.dequeue id).1.dequeue id = ((s.dequeue id).1, false) := by
  unfold Schedule.Sched.dequeue Schedule.Queue.remove
  dsimp only
  rw [filter_twice]
  have : (s.events.filter (fun e => e.1.id != id)).find? (fun e => e.1.id == id) = none :=
    List.find?_eq_none.2 (fun e he => by simpa using (List.mem_filter.1 he).2)
  rw [this]
  rfl

/-! ### Networks -/

/-- **C272, network.** (Partial: only the publications, the removing of all edges, the replacing of a node and the removing of a node.) -/
theorem C272_network_partial {K O L W : Type} [DecidableEq K] (ident : O → K) (u : O) :
    Repeatable (fun n : Network.Net K O L W => Network.exec ident n .update) ∧ Repeatable (fun n : Network.Net K O L W => Network.exec ident n .lazyUpdate) ∧
    Repeatable (fun n : Network.Net K O L W => Network.exec ident n .removeAllEdges) ∧ Repeatable (fun n : Network.Net K O L W => Network.exec ident n (.updateNode u)) ∧
    Repeatable (fun n : Network.Net K O L W => Network.exec ident n (.removeNode u)) := by
  refine ⟨fun n n' h => ?_, fun n n' h => ?_, fun n n' h => ?_, fun n n' h => ?_, fun n n' h => ?_⟩
  · cases h; rfl
  · cases h; rfl
  · cases h; rfl
  · cases h
    refine congrArg some ?_
    cases hu : HMap.get n.w.nodes2id (ident u) with
    | none =>
      have e : Network.updateNode ident n u = n := by
        unfold Network.updateNode
        rw [hu]
      rw [e, e]
    | some uid =>
      unfold Network.updateNode
      rw [hu]
      dsimp only
      rw [hu]
      dsimp only
      rw [adjust_twice _ _ (fun _ => u) (fun _ => rfl)]
  · change (Network.removeNode ident n u).map Prod.fst = some n' at h
    show (Network.removeNode ident n' u).map Prod.fst = some n'
    obtain ⟨⟨n1, b⟩, h1, rfl⟩ := Option.map_eq_some_iff.1 h
    have same : ∀ {m m' : Network.Net K O L W} {inc : Bool}, Network.removeEdgesOf ident inc m u = some (m', none) → m' = m ∧ HMap.get m.r.nodes2id (ident u) = none := by
      intro m m' inc hm
      unfold Network.removeEdgesOf at hm
      cases hr : HMap.get m.r.nodes2id (ident u) with
      | none => rw [hr] at hm; cases hm; exact ⟨rfl, rfl⟩
      | some uid =>
        rw [hr] at hm
        dsimp only at hm
        cases hf : (HMap.keys m.w.id2nodes).foldl (Network.removeStep ident inc m.w.id2nodes uid u) (some (m, [])) with
        | none => rw [hf] at hm; cases hm
        | some x => rw [hf] at hm; cases hm
    unfold Network.removeNode at h1
    cases hu : HMap.get n.w.nodes2id (ident u) with
    | none =>
      rw [hu] at h1
      cases h1
      unfold Network.removeNode
      rw [hu]
      rfl
    | some uid =>
      rw [hu] at h1
      dsimp only at h1
      cases ho : Network.removeEdgesOf ident false n u with
      | none => rw [ho] at h1; cases h1
      | some x =>
        obtain ⟨n2, r⟩ := x
        rw [ho] at h1
        cases r with
        | none =>
          cases h1
          obtain ⟨rfl, _⟩ := same ho
          unfold Network.removeNode
          rw [hu]
          dsimp only
          rw [ho]
          rfl
        | some es =>
          dsimp only at h1
          cases hi : Network.removeEdgesOf ident true (Network.dropList n2 uid) u with
          | none => rw [hi] at h1; cases h1
          | some x =>
            obtain ⟨n3, r⟩ := x
            rw [hi] at h1
            cases r with
            | none =>
              obtain ⟨_, hr⟩ := same hi
              have hf := Network.removeEdgesOf_frame ho
              have hr' : HMap.get n.r.nodes2id (ident u) = none := by
                have e : (Network.dropList n2 uid).r = n.r := hf.1
                rw [e] at hr
                exact hr
              unfold Network.removeEdgesOf at ho
              rw [hr'] at ho
              cases ho
            | some es' =>
              cases h1
              unfold Network.removeNode
              dsimp only
              rw [HMap.get_remove, if_pos rfl]
              rfl

theorem eraseP_single {α : Type} {p : α → Bool} : ∀ (l : List α), (l.filter p).length ≤ 1 → (l.eraseP p).find? p = none
  | [], _ => rfl
  | a :: l, h => by
    by_cases ha : p a = true
    · rw [List.filter_cons_of_pos ha, List.length_cons] at h
      rw [List.eraseP_cons_of_pos ha, List.find?_eq_none]
      intro x hx hp
      have h0 : l.filter p = [] := List.length_eq_zero_iff.1 (by omega)
      have := List.mem_filter.2 ⟨hx, hp⟩
      rw [h0] at this
      cases this
    · rw [List.filter_cons_of_neg ha] at h
      rw [List.eraseP_cons_of_neg ha, List.find?_cons]
      have : p a = false := by simpa using ha
      rw [this]
      exact eraseP_single l h

/-- **C272, edges of a network.** (Partial: the list of the first node has at most one edge between the two.) Removing an edge again finds none. -/
theorem C272_remove_edge_partial {K O L W : Type} [DecidableEq K] (ident : O → K) {n n' : Network.Net K O L W} (u v : O) {r : Option (Network.Edge L W)}
    (hone : ∀ uid vid ues, HMap.get n.r.nodes2id (ident u) = some uid → HMap.get n.r.nodes2id (ident v) = some vid → HMap.get n.w.edges uid = some ues →
      (ues.filter (Network.between uid vid)).length ≤ 1)
    (h : Network.removeEdge ident n u v = some (n', r)) : Network.removeEdge ident n' u v = some (n', none) := by
  unfold Network.removeEdge at h
  cases hu : HMap.get n.r.nodes2id (ident u) with
  | none =>
    rw [hu] at h
    cases h
    unfold Network.removeEdge
    rw [hu]
  | some uid =>
    rw [hu] at h
    dsimp only at h
    cases hv : HMap.get n.r.nodes2id (ident v) with
    | none =>
      rw [hv] at h
      cases h
      unfold Network.removeEdge
      rw [hu]
      dsimp only
      rw [hv]
    | some vid =>
      rw [hv] at h
      dsimp only at h
      have hone := fun ues => hone uid vid ues hu hv
      cases hx : Network.removeEdgeIds n.direct n.w.edges uid vid with
      | none => rw [hx] at h; cases h
      | some x =>
        rw [hx] at h
        cases h
        have key : Network.removeEdgeIds n.direct x.1 uid vid = some (x.1, none) := by
          unfold Network.removeEdgeIds at hx
          cases he : HMap.get n.w.edges uid with
          | none => rw [he] at hx; cases hx
          | some ues =>
            rw [he] at hx
            dsimp only at hx
            cases hf : ues.find? (Network.between uid vid) with
            | none =>
              rw [hf] at hx
              cases hx
              unfold Network.removeEdgeIds
              rw [he]
              dsimp only
              rw [hf]
            | some e =>
              rw [hf] at hx
              dsimp only at hx
              by_cases hd : n.direct = true
              · rw [if_pos hd] at hx
                cases hx
                unfold Network.removeEdgeIds
                dsimp only
                rw [HMap.get_adjustBy, if_pos rfl, he, Option.map_some]
                dsimp only
                rw [eraseP_single ues (hone ues he)]
              · rw [if_neg hd] at hx
                cases hw : HMap.get n.w.edges vid with
                | none => rw [hw] at hx; cases hx
                | some ves =>
                  rw [hw] at hx
                  cases hx
                  have hl : ∃ es, HMap.get (HMap.adjust (HMap.adjust n.w.edges uid (fun es => es.eraseP (Network.between uid vid))) vid
                      (fun es => es.filter (fun e => !Network.between uid vid e))) uid = some es ∧ es.find? (Network.between uid vid) = none := by
                    rw [HMap.get_adjustBy]
                    by_cases huv : uid = vid
                    · rw [if_pos huv, HMap.get_adjustBy, if_pos huv.symm, he, Option.map_some, Option.map_some]
                      exact ⟨_, rfl, List.find?_eq_none.2 (fun x hx => by simpa using (List.mem_filter.1 hx).2)⟩
                    · rw [if_neg huv, HMap.get_adjustBy, if_pos rfl, he, Option.map_some]
                      exact ⟨_, rfl, eraseP_single ues (hone ues he)⟩
                  obtain ⟨es, h1, h2⟩ := hl
                  unfold Network.removeEdgeIds
                  dsimp only
                  rw [h1]
                  dsimp only
                  rw [h2]
        unfold Network.removeEdge
        dsimp only
        rw [hu]
        dsimp only
        rw [hv]
        dsimp only
        rw [key]

/-! ### Hypernetworks -/

theorem addLoop_keeps {L W : Type} {e : HNetwork.HEdge L W} : ∀ (ids : List Nat) (m : HNetwork.HEdgeMap L W) (i : Nat),
    (∃ es, HMap.get m i = some es ∧ es.any (fun x => x.eq e) = true) → ∃ es, HMap.get (HNetwork.addLoop e ids m).1 i = some es ∧ es.any (fun x => x.eq e) = true
  | [], m, i, h => h
  | j :: ids, m, i, ⟨es, h1, h2⟩ => by
    rw [HNetwork.addLoop]
    cases hj : HMap.get m j with
    | none =>
      dsimp only
      refine addLoop_keeps ids _ i ⟨es, ?_, h2⟩
      have hij : i ≠ j := fun hc => by rw [hc, hj] at h1; cases h1
      rw [HMap.get_insert, if_neg hij, h1]
    | some fs =>
      dsimp only
      by_cases ha : fs.any (fun x => x.eq e) = true
      · rw [if_pos ha]
        exact ⟨es, h1, h2⟩
      · rw [if_neg ha]
        refine addLoop_keeps ids _ i ?_
        rw [HMap.get_adjustBy]
        by_cases hij : i = j
        · rw [if_pos hij, hj]
          refine ⟨fs ++ [e], rfl, ?_⟩
          rw [hij, hj] at h1
          cases h1
          exact absurd h2 ha
        · rw [if_neg hij]
          exact ⟨es, h1, h2⟩

theorem addLoop_twice {L W : Type} (e : HNetwork.HEdge L W) (i : Nat) (ids : List Nat) (m : HNetwork.HEdgeMap L W) :
    HNetwork.addLoop e (i :: ids) (HNetwork.addLoop e (i :: ids) m).1 = ((HNetwork.addLoop e (i :: ids) m).1, false) := by
  have hself : e.eq e = true := by
    unfold HNetwork.HEdge.eq
    simp
  have h : ∃ es, HMap.get (HNetwork.addLoop e (i :: ids) m).1 i = some es ∧ es.any (fun x => x.eq e) = true := by
    rw [HNetwork.addLoop]
    cases hi : HMap.get m i with
    | none =>
      dsimp only
      refine addLoop_keeps ids _ i ⟨[e], ?_, ?_⟩
      · rw [HMap.get_insert, if_pos rfl]
      · simp [hself]
    | some es =>
      dsimp only
      by_cases ha : es.any (fun x => x.eq e) = true
      · rw [if_pos ha]
        exact ⟨es, hi, ha⟩
      · rw [if_neg ha]
        refine addLoop_keeps ids _ i ⟨es ++ [e], ?_, ?_⟩
        · rw [HMap.get_adjustBy, if_pos rfl, hi]
          rfl
        · simp [hself]
  obtain ⟨es, h1, h2⟩ := h
  generalize (HNetwork.addLoop e (i :: ids) m).1 = m' at h1
  rw [HNetwork.addLoop, h1]
  dsimp only
  rw [if_pos h2]

theorem idsOf_edges {K O L W : Type} [DecidableEq K] (ident : O → K) (n : HNetwork.HNet K O L W) (m : HNetwork.HEdgeMap L W) (us : List O) :
    HNetwork.idsOf ident (⟨m, n.redges, n.nodes2id, n.id2nodes, n.rid2nodes⟩ : HNetwork.HNet K O L W) us = HNetwork.idsOf ident n us := by
  induction us with
  | nil => rfl
  | cons u us ih => rw [HNetwork.idsOf, HNetwork.idsOf, ih]

theorem addEdge_twice {K O L W : Type} [DecidableEq K] (ident : O → K) (n : HNetwork.HNet K O L W) (us : List O) (o : Network.EdgeOptions L W) :
    HNetwork.addEdge ident (HNetwork.addEdge ident n us o).1 us o = ((HNetwork.addEdge ident n us o).1, false) := by
  cases us with
  | nil => rfl
  | cons u us =>
    cases hi : HNetwork.idsOf ident n (u :: us) with
    | none =>
      have e : HNetwork.addEdge ident n (u :: us) o = (n, false) := by
        unfold HNetwork.addEdge
        dsimp only
        rw [hi]
      rw [e, e]
    | some ids =>
      cases ids with
      | nil =>
        exfalso
        rw [HNetwork.idsOf] at hi
        cases hg : HMap.get n.nodes2id (ident u) with
        | none => rw [hg] at hi; cases hi
        | some j =>
          rw [hg] at hi
          obtain ⟨is, _, h⟩ := Option.map_eq_some_iff.1 hi
          cases h
      | cons i ids =>
        have e : HNetwork.addEdge ident n (u :: us) o = (⟨(HNetwork.addLoop (HNetwork.HEdge.new (i :: ids) o) (i :: ids) n.edges).1, n.redges, n.nodes2id, n.id2nodes, n.rid2nodes⟩,
            (HNetwork.addLoop (HNetwork.HEdge.new (i :: ids) o) (i :: ids) n.edges).2) := by
          unfold HNetwork.addEdge
          dsimp only
          rw [hi]
        rw [e]
        unfold HNetwork.addEdge
        dsimp only
        rw [idsOf_edges, hi]
        dsimp only
        rw [addLoop_twice]

theorem removeLoop_nothing {L W : Type} {t : HNetwork.HEdge L W} : ∀ (ids : List Nat) (m : HNetwork.HEdgeMap L W) (r : Option (HNetwork.HEdge L W)),
    (∀ i ∈ ids, ∃ es, HMap.get m i = some es ∧ es.find? (fun x => x.eq t) = none) → HNetwork.removeLoop t ids m r = some (m, r)
  | [], m, r, _ => rfl
  | i :: ids, m, r, h => by
    obtain ⟨es, h1, h2⟩ := h i List.mem_cons_self
    rw [HNetwork.removeLoop, h1]
    dsimp only
    rw [h2]
    exact removeLoop_nothing ids m r (fun j hj => h j (List.mem_cons_of_mem _ hj))

/-- **C272, hypernetwork.** (Partial: every call but the adding of a node.) After any history, adding a hyperedge again reports that it is there, removing one again
finds none. -/
theorem C272_hypernetwork_partial {K O L W : Type} [DecidableEq K] (ident : O → K) (ops : List (HNetwork.Op O L W)) {n n' : HNetwork.HNet K O L W} (op : HNetwork.Op O L W)
    (hr : HNetwork.run ident HNetwork.HNet.new ops = some n) (hop : ∀ u, op ≠ .addNode u) (h : HNetwork.exec ident n op = some n') :
    HNetwork.exec ident n' op = some n' ∧
    (∀ us o, op = .addEdge us o → (HNetwork.addEdge ident n' us o).2 = false) ∧
    (∀ us, op = .removeEdge us → (HNetwork.removeEdge ident n' us).map Prod.snd = some none) := by
  have hb : HNetwork.Base n := HNetwork.run_inv (fun a b o' => HNetwork.exec_base a b o') _ HNetwork.base_new hr
  cases op with
  | addNode u => exact absurd rfl (hop u)
  | addEdge us o =>
    cases h
    refine ⟨?_, fun us' o' h => ?_, fun _ h => (by cases h)⟩
    · show some _ = some _
      rw [addEdge_twice]
    · cases h
      rw [addEdge_twice]
  | removeEdge us =>
    obtain ⟨⟨n1, r⟩, h1, rfl⟩ := Option.map_eq_some_iff.1 h
    have key : HNetwork.removeEdge ident n1 us = some (n1, none) := by
      rcases HNetwork.removeEdge_eq h1 with ⟨rfl, rfl⟩ | ⟨ids, x, hi, hx, rfl, rfl⟩
      · exact h1
      · obtain ⟨ha, hs, -, -⟩ := HNetwork.removeLoop_spec _ ids n.edges none x hb.noRepeats hx
        cases us with
        | nil =>
          have h2 : HNetwork.removeEdge ident n ([] : List O) = some (n, none) := rfl
          rw [h2] at h1
          have h3 := (Prod.mk.inj (Option.some.inj h1)).1
          show some (_, none) = some (_, none)
          rfl
        | cons u us =>
          unfold HNetwork.removeEdge
          dsimp only
          rw [idsOf_edges, hi]
          dsimp only
          rw [removeLoop_nothing ids x.1 none (fun i hm => by
            obtain ⟨es, hes⟩ := Option.isSome_iff_exists.1 (hs i hm)
            refine ⟨es.filter (fun e => !(e.eq (HNetwork.HEdge.new ids .simple))), ?_, ?_⟩
            · rw [ha i, if_pos hm, hes]
              rfl
            · exact List.find?_eq_none.2 (fun e he => by simpa using (List.mem_filter.1 he).2))]
    refine ⟨?_, fun _ _ h => (by cases h), fun us' h => ?_⟩
    · show (HNetwork.removeEdge ident n1 us).map Prod.fst = some n1
      rw [key]
      rfl
    · cases h
      show (HNetwork.removeEdge ident n1 us).map Prod.snd = some none
      rw [key]
      rfl
  | removeObject u =>
    refine ⟨?_, fun _ _ h => (by cases h), fun _ h => (by cases h)⟩
    obtain ⟨⟨n1, b⟩, h1, rfl⟩ := Option.map_eq_some_iff.1 h
    show (HNetwork.removeObject ident n1 u).map Prod.fst = some n1
    rcases HNetwork.removeObject_eq h1 with ⟨rfl, rfl⟩ | ⟨uid, m, _, _, rfl, _⟩
    · rw [h1]
      rfl
    · unfold HNetwork.removeObject
      dsimp only
      rw [HMap.get_remove, if_pos rfl]
      rfl
  | removeAllEdges =>
    cases h
    exact ⟨rfl, fun _ _ h => (by cases h), fun _ h => (by cases h)⟩
  | updateNode u =>
    cases h
    refine ⟨?_, fun _ _ h => (by cases h), fun _ h => (by cases h)⟩
    refine congrArg some ?_
    cases hu : HMap.get n.nodes2id (ident u) with
    | none =>
      have e : HNetwork.updateNode ident n u = n := by
        unfold HNetwork.updateNode
        rw [hu]
      rw [e, e]
    | some uid =>
      unfold HNetwork.updateNode
      rw [hu]
      dsimp only
      rw [hu]
      dsimp only
      rw [adjust_twice _ _ (fun _ => u) (fun _ => rfl)]
  | update =>
    cases h
    exact ⟨rfl, fun _ _ h => (by cases h), fun _ h => (by cases h)⟩

/-! ### Where it fails, and cases -/

/-- **C272** is false of the publications of number grids: publishing again shows an empty grid. -/
theorem C272_number_publication_negation_partial :
    ((DenseNumber.new 2 2 : Option (DenseNumber.DGrid Nat)).bind (fun g => (DenseNumber.run g [.update, .set 7 ⟨1, 0⟩]).bind (fun g => DenseNumber.getValue g ⟨1, 0⟩))) = some (some 7) ∧
    ((DenseNumber.new 2 2 : Option (DenseNumber.DGrid Nat)).bind (fun g => (DenseNumber.run g [.update, .update, .set 7 ⟨1, 0⟩]).bind (fun g => DenseNumber.getValue g ⟨1, 0⟩))) = some none ∧
    SparseNumber.getValue (SparseNumber.run (SparseNumber.new 2 2 : SparseNumber.SGrid Nat) [.lazyUpdate, .set 7 ⟨1, 0⟩]) ⟨1, 0⟩ = some 7 ∧
    SparseNumber.getValue (SparseNumber.run (SparseNumber.new 2 2 : SparseNumber.SGrid Nat) [.lazyUpdate, .lazyUpdate, .set 7 ⟨1, 0⟩]) ⟨1, 0⟩ = none := by
  decide +kernel

/-- **C272** is false of the publications of object grids and fields: publishing again shows nothing, or, with `update` on a dense grid, moves bags to other cells. -/
theorem C272_object_publication_negation_partial :
    (DenseObject.run (⟨[[], [], [], []], [[7], [], [], []], 2, 2⟩ : DenseObject.OGrid Nat) [.lazyUpdate]).map (fun g => g.rlocs) = some [[7], [], [], []] ∧
    (DenseObject.run (⟨[[], [], [], []], [[7], [], [], []], 2, 2⟩ : DenseObject.OGrid Nat) [.lazyUpdate, .lazyUpdate]).map (fun g => g.rlocs) = some [[], [], [], []] ∧
    (DenseObject.run (⟨[[], [], [], []], [[7], [], [], []], 2, 2⟩ : DenseObject.OGrid Nat) [.update]).map (fun g => g.rlocs) = some [[7], [], [], [], [], [], [], []] ∧
    (DenseObject.run (⟨[[], [], [], []], [[7], [], [], []], 2, 2⟩ : DenseObject.OGrid Nat) [.update, .update]).map (fun g => g.rlocs) =
      some [[7], [], [], [], [7], [], [], [], [], [], [], []] ∧
    (SparseObject.run (SparseObject.new 2 2 : SparseObject.BGrid Nat) [.update, .place 7 ⟨0, 0⟩]).map (fun g => g.rlocs) = some [(⟨0, 0⟩, [7])] ∧
    (SparseObject.run (SparseObject.new 2 2 : SparseObject.BGrid Nat) [.update, .update, .place 7 ⟨0, 0⟩]).map (fun g => g.rlocs) = some [] ∧
    (Field2D.run (Field2D.new 2 2 1 false : Field2D.Field Nat) [.lazyUpdate, .place 7 ⟨1, 1⟩]).map (fun f => f.rbags.flatten) = some [7] ∧
    (Field2D.run (Field2D.new 2 2 1 false : Field2D.Field Nat) [.lazyUpdate, .lazyUpdate, .place 7 ⟨1, 1⟩]).map (fun f => f.rbags.flatten) = some [] := by
  decide +kernel

/-- **C272** is false of placing an object on a sparse grid or in a field: it is placed twice. -/
theorem C272_placed_negation_partial :
    (SparseObject.run (SparseObject.new 2 2 : SparseObject.BGrid Nat) [.place 7 ⟨0, 0⟩, .place 7 ⟨0, 0⟩]).map (fun g => g.locs) = some [(⟨0, 0⟩, [7, 7])] ∧
    (Field2D.run (Field2D.new 2 2 1 false : Field2D.Field Nat) [.place 7 ⟨1, 1⟩, .place 7 ⟨1, 1⟩]).map (fun f => (f.bags.flatten, f.nagents)) = some ([7, 7], 2) := by
  decide +kernel

/-- **C272** is false of the publication of a map of two sides. -/
theorem C272_map_negation_partial :
    ((DBDashMap.insert (DBDashMap.new 1 id : DBDashMap.DB Nat Nat) 1 7).bind (fun x => DBDashMap.getRead (DBDashMap.lazyUpdate x.1) 1)) = some (some 7) ∧
    ((DBDashMap.insert (DBDashMap.new 1 id : DBDashMap.DB Nat Nat) 1 7).bind (fun x => DBDashMap.getRead (DBDashMap.lazyUpdate (DBDashMap.lazyUpdate x.1)) 1)) = some none := by
  decide +kernel

/-- **C272** is false of the scheduling of an agent: it is scheduled twice. -/
theorem C272_schedule_negation_partial :
    (((Schedule.Sched.new 0 : Schedule.Sched Nat Nat).scheduleRepeating 8 1 0).1.scheduleRepeating 8 1 0).1.getAllEvents = [8, 8] := rfl

/-- **C272** is false of adding a node to a network, which gives it another id, and of adding and removing an edge. -/
theorem C272_network_negation_partial :
    (Network.run id (Network.Net.new true : Network.Net Nat Nat Nat Nat) [.addNode 1, .update]).map (fun n => Network.getId id n 1) = some (some 0) ∧
    (Network.run id (Network.Net.new true : Network.Net Nat Nat Nat Nat) [.addNode 1, .addNode 1, .update]).map (fun n => Network.getId id n 1) = some (some 1) ∧
    (Network.run id (Network.Net.new true : Network.Net Nat Nat Nat Nat) [.addNode 1, .addNode 2, .addEdge 1 2 .simple, .addEdge 1 2 .simple, .update]).map
      (fun n => (Network.getEdges id n 1).map List.length) = some (some 2) ∧
    (Network.run id (Network.Net.new true : Network.Net Nat Nat Nat Nat) [.addNode 1, .addNode 2, .addEdge 1 2 .simple, .addEdge 1 2 .simple, .update, .removeEdge 1 2, .update]).map
      (fun n => (Network.getEdges id n 1).map List.length) = some (some 1) ∧
    (Network.run id (Network.Net.new true : Network.Net Nat Nat Nat Nat) [.addNode 1, .addNode 2, .addEdge 1 2 .simple, .addEdge 1 2 .simple, .update, .removeEdge 1 2, .removeEdge 1 2, .update]).map
      (fun n => (Network.getEdges id n 1).map List.length) = some (some 0) := ⟨rfl, rfl, rfl, rfl, rfl⟩

/-- **C272** is false of removing the edges of a node: of several edges to the same node one is removed at a time. -/
theorem C272_edges_negation_partial :
    (Network.run id (Network.Net.new true : Network.Net Nat Nat Nat Nat) [.addNode 1, .addNode 2, .addEdge 1 2 .simple, .addEdge 1 2 .simple, .update, .removeOutgoing 1, .update]).map
      (fun n => (Network.getEdges id n 1).map List.length) = some (some 1) ∧
    (Network.run id (Network.Net.new true : Network.Net Nat Nat Nat Nat) [.addNode 1, .addNode 2, .addEdge 1 2 .simple, .addEdge 1 2 .simple, .update, .removeOutgoing 1, .removeOutgoing 1, .update]).map
      (fun n => (Network.getEdges id n 1).map List.length) = some (some 0) ∧
    (Network.run id (Network.Net.new true : Network.Net Nat Nat Nat Nat) [.addNode 1, .addNode 2, .addEdge 1 2 .simple, .addEdge 1 2 .simple, .update, .removeIncoming 2, .update]).map
      (fun n => (Network.getEdges id n 1).map List.length) = some (some 1) ∧
    (Network.run id (Network.Net.new true : Network.Net Nat Nat Nat Nat) [.addNode 1, .addNode 2, .addEdge 1 2 .simple, .addEdge 1 2 .simple, .update, .removeIncoming 2, .removeIncoming 2, .update]).map
      (fun n => (Network.getEdges id n 1).map List.length) = some (some 0) := ⟨rfl, rfl, rfl, rfl⟩

/-- **C272** is false of adding a node to a hypernetwork. -/
theorem C272_hypernetwork_negation_partial :
    (HNetwork.run id (HNetwork.HNet.new : HNetwork.HNet Nat Nat Nat Nat) [.addNode 1]).map (fun n => HNetwork.getId id n 1) = some (some 0) ∧
    (HNetwork.run id (HNetwork.HNet.new : HNetwork.HNet Nat Nat Nat Nat) [.addNode 1, .addNode 1]).map (fun n => HNetwork.getId id n 1) = some (some 1) := ⟨rfl, rfl⟩

/-- A removal that does something, on a field with two agents in the bag. -/
example : ((Field2D.run (Field2D.new 2 2 1 false : Field2D.Field Nat) [.place 7 ⟨1, 1⟩, .place 8 ⟨1, 1⟩]).bind (fun f => Field2D.removeObjectLocation f 7 ⟨1, 1⟩)).map
    (fun f => (f.bags.flatten, f.nagents)) = some ([8], 1) := by decide +kernel

/-- A hyperedge that is added, and one that is removed. -/
example : (HNetwork.run id (HNetwork.HNet.new : HNetwork.HNet Nat Nat Nat Nat) [.addNode 1, .addNode 2]).map (fun n => (HNetwork.addEdge id n [1, 2] .simple).2) = some true ∧
    ((HNetwork.run id (HNetwork.HNet.new : HNetwork.HNet Nat Nat Nat Nat) [.addNode 1, .addNode 2, .addEdge [1, 2] .simple]).bind (fun n => HNetwork.removeEdge id n [2, 1])).map
      (fun x => x.2.isSome) = some true := ⟨rfl, rfl⟩

/-- A node that is removed. -/
example : ((Network.run id (Network.Net.new false : Network.Net Nat Nat Nat Nat) [.addNode 1, .addNode 2, .addEdge 1 2 .simple, .update]).bind (fun n => Network.removeNode id n 1)).map
    Prod.snd = some true := rfl

/-- An edge that is removed, and the only one between its ends. -/
example : ((Network.run id (Network.Net.new false : Network.Net Nat Nat Nat Nat) [.addNode 1, .addNode 2, .addNode 3, .addEdge 1 2 .simple, .addEdge 1 3 .simple, .update]).bind (fun n =>
    (Network.removeEdge id n 1 2).map (fun x => (x.2.isSome, ((HMap.get n.w.edges 0).getD []).length, (((HMap.get n.w.edges 0).getD []).filter (Network.between 0 1)).length)))) =
    some (true, 2, 1) := rfl

/-- An object that is placed where it is. -/
example : (DenseObject.run (⟨[[], [], [], []], [[7, 8], [], [], []], 2, 2⟩ : DenseObject.OGrid Nat) [.place 7 ⟨0, 0⟩]).map (fun g => g.locs) = some [[8, 7], [], [], []] := by decide +kernel

end Verif.Repeated
