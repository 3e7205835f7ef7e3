import Verif.Lemmas.HNetwork
import Verif.Lemmas.Network
import Verif.Lemmas.Grid
import Verif.Model.Schedule
import Verif.Model.DenseObjectGrid
import Verif.Model.SparseObjectGrid
import Verif.Model.Field2D
import Verif.Model.KdTree
import Verif.Model.MachineField

/-!
C269: taking back a call leaves everything as it was. The statements are about any state, hence about the state after any history.
-/

set_option linter.unusedSectionVars false

namespace Verif

/-! ### Lists -/

theorem filter_back {α : Type} [DecidableEq α] {b : List α} {o : α} (h : o ∉ b) : (b ++ [o]).filter (fun x => x != o) = b := by
  rw [List.filter_append, List.filter_cons_of_neg (by simp), List.filter_nil, List.append_nil]
  exact List.filter_eq_self.2 (fun x hx => by
    have : x ≠ o := fun hc => h (hc ▸ hx)
    simp [this])

theorem filter_absent {α : Type} [DecidableEq α] {b : List α} {o : α} (h : o ∉ b) : b.filter (fun x => x != o) = b :=
  List.filter_eq_self.2 (fun x hx => by
    have : x ≠ o := fun hc => h (hc ▸ hx)
    simp [this])

theorem eraseP_back {α : Type} {p : α → Bool} {b : List α} {e : α} (h : ∀ x ∈ b, p x = false) (he : p e = true) : (b ++ [e]).eraseP p = b := by
  rw [List.eraseP_append_right _ (fun x hx => by rw [h x hx]; simp), List.eraseP_cons_of_pos he, List.append_nil]

theorem find_back {α : Type} {p : α → Bool} {b : List α} {e : α} (h : ∀ x ∈ b, p x = false) (he : p e = true) : (b ++ [e]).find? p = some e := by
  rw [List.find?_append, List.find?_eq_none.2 (fun x hx => by rw [h x hx]; simp), Option.none_or, List.find?_cons, he]

theorem vec_back {α : Type} {v : List α} {height : Int} {loc : Grid.Loc} {b b' : α} (h : Grid.vecGet v height loc = some b) :
    ∃ v', Grid.vecSet v height loc b' = some v' ∧ Grid.vecGet v' height loc = some b' ∧ Grid.vecSet v' height loc b = some v := by
  unfold Grid.vecGet at h
  by_cases h0 : 0 ≤ loc.x * height + loc.y
  · rw [if_pos h0] at h
    obtain ⟨hl, hb⟩ := List.getElem?_eq_some_iff.1 h
    refine ⟨v.set (loc.x * height + loc.y).toNat b', ?_, ?_, ?_⟩
    · unfold Grid.vecSet
      rw [if_pos ⟨h0, hl⟩]
    · unfold Grid.vecGet
      rw [if_pos h0, List.getElem?_set_self hl]
    · unfold Grid.vecSet
      rw [if_pos ⟨h0, by rw [List.length_set]; exact hl⟩, List.set_set, ← hb, List.set_getElem_self]
  · rw [if_neg h0] at h
    cases h

/-! ### Grids and fields -/

/-- **C269, dense object grid.** (Partial: the object is not in the bag yet.) Placing an object and removing it from there again leaves the grid as it was. -/
theorem C269_dense_partial {O : Type} [DecidableEq O] (g : DenseObject.OGrid O) (o : O) (l : Grid.Loc) {b : List O} (hb : Grid.vecGet g.locs g.height l = some b) (ho : o ∉ b) :
    (DenseObject.setObjectLocation g o l).bind (fun g' => DenseObject.removeObjectLocation g' o l) = some g := by
  unfold DenseObject.setObjectLocation
  rw [hb]
  dsimp only
  obtain ⟨v', h1, h2, h3⟩ := vec_back (b' := b ++ [o]) hb
  rw [filter_absent ho, h1, Option.map_some, Option.bind_some]
  unfold DenseObject.removeObjectLocation
  dsimp only
  rw [h2]
  dsimp only
  rw [filter_back ho, h3]
  rfl

/-- **C269, sparse object grid.** (Partial: the object is not in the bag yet.) -/
theorem C269_sparse_partial {O : Type} [DecidableEq O] (g : SparseObject.BGrid O) (o : O) (l : Grid.Loc) (hb : HMap.get g.locs l ≠ some [])
    (ho : ∀ b, HMap.get g.locs l = some b → o ∉ b) :
    (SparseObject.removeObjectLocation (SparseObject.setObjectLocation g o l) o l).rlocs = g.rlocs ∧
    ∀ c, HMap.get (SparseObject.removeObjectLocation (SparseObject.setObjectLocation g o l) o l).locs c = HMap.get g.locs c := by
  unfold SparseObject.setObjectLocation
  cases hg : HMap.get g.locs l with
  | none =>
    dsimp only
    have e : HMap.get (HMap.insert g.locs l [o]).1 l = some [o] := by rw [HMap.get_insert, if_pos rfl]
    unfold SparseObject.removeObjectLocation
    dsimp only
    rw [e]
    dsimp only
    have : ([o].filter (fun x => x != o)).isEmpty = true := by simp
    rw [if_pos this]
    refine ⟨rfl, fun c => ?_⟩
    dsimp only
    rw [HMap.get_remove, HMap.get_insert]
    by_cases hc : c = l
    · rw [if_pos hc, hc, hg]
    · rw [if_neg hc, if_neg hc]
  | some b =>
    dsimp only
    have e : HMap.get (HMap.adjust g.locs l (fun bag => bag ++ [o])) l = some (b ++ [o]) := by rw [HMap.get_adjustBy, if_pos rfl, hg]; rfl
    unfold SparseObject.removeObjectLocation
    dsimp only
    rw [e]
    dsimp only
    rw [filter_back (ho b hg)]
    have : ¬ b.isEmpty = true := fun hc => hb (by rw [hg, List.isEmpty_iff.1 hc])
    rw [if_neg this]
    refine ⟨rfl, fun c => ?_⟩
    dsimp only
    rw [HMap.get_adjustBy, e, Option.map_some, filter_back (ho b hg), HMap.get_adjustBy]
    by_cases hc : c = l
    · rw [if_pos hc, hc, hg]
    · rw [if_neg hc, if_neg hc]

/-- **C269, continuous field.** (Partial: the object is not in the bag yet.) The count of agents is as before, too. -/
theorem C269_field_partial {O : Type} [DecidableEq O] (f : Field2D.Field O) (o : O) (p : Torus.Pos) {b : List O}
    (hb : Grid.vecGet f.bags f.dh (Field2D.discretize f.discretization p) = some b) (ho : o ∉ b) :
    (Field2D.setObjectLocation f o p).bind (fun f' => Field2D.removeObjectLocation f' o p) = some f := by
  unfold Field2D.setObjectLocation
  rw [hb]
  dsimp only
  obtain ⟨v', h1, h2, h3⟩ := vec_back (b' := b ++ [o]) hb
  rw [h1, Option.map_some, Option.bind_some]
  unfold Field2D.removeObjectLocation
  dsimp only
  rw [h2]
  dsimp only
  rw [filter_back ho, h3]
  have h4 : ¬ (b ++ [o]).isEmpty = true := by simp
  rw [if_neg h4]
  by_cases hd : f.densityCheck = true
  · rw [if_pos hd, if_pos hd]
    rfl
  · have h5 : (b ++ [o]).length - b.length = 1 := by simp
    rw [if_neg hd, if_neg hd, h5, if_neg (by omega)]
    rfl

theorem vec_back_machine {α : Type} {mode : DenseI32.Mode} {v : List α} {height : Int} {loc : Grid.Loc} {b b' : α} (h : DenseI32.vecGet mode v height loc = some b) :
    ∃ v', DenseI32.vecSet mode v height loc b' = some v' ∧ DenseI32.vecGet mode v' height loc = some b' ∧ DenseI32.vecSet mode v' height loc b = some v := by
  unfold DenseI32.vecGet at h
  cases hi : DenseI32.index mode height loc with
  | none => rw [hi] at h; cases h
  | some i =>
    rw [hi] at h
    dsimp only at h
    by_cases h0 : 0 ≤ i
    · rw [if_pos h0] at h
      obtain ⟨hl, hb⟩ := List.getElem?_eq_some_iff.1 h
      refine ⟨v.set i.toNat b', ?_, ?_, ?_⟩
      · unfold DenseI32.vecSet
        rw [hi]
        dsimp only
        rw [if_pos ⟨h0, hl⟩]
      · unfold DenseI32.vecGet
        rw [hi]
        dsimp only
        rw [if_pos h0, List.getElem?_set_self hl]
      · unfold DenseI32.vecSet
        rw [hi]
        dsimp only
        rw [if_pos ⟨h0, by rw [List.length_set]; exact hl⟩, List.set_set, ← hb, List.set_getElem_self]
    · rw [if_neg h0] at h
      cases h

/-- **C269, continuous field with machine floats**, in debug and in release builds. (Partial: the object is not in the bag yet.) -/
theorem C269_machine_partial {O : Type} [DecidableEq O] (rnd : Rat → Rat) (mode : DenseI32.Mode) (f : Machine.FieldF O) (o : O) (p : Machine.PosF) {b : List O}
    (hb : DenseI32.vecGet mode f.bags f.dh (Machine.discretize rnd f.discretization p) = some b) (ho : o ∉ b) :
    (Machine.setObjectLocation rnd mode f o p).bind (fun f' => Machine.removeObjectLocation rnd mode f' o p) = some f := by
  unfold Machine.setObjectLocation
  rw [hb]
  dsimp only
  obtain ⟨v', h1, h2, h3⟩ := vec_back_machine (b' := b ++ [o]) hb
  rw [h1, Option.map_some, Option.bind_some]
  unfold Machine.removeObjectLocation
  dsimp only
  rw [h2]
  dsimp only
  rw [filter_back ho, h3]
  have h4 : ¬ (b ++ [o]).isEmpty = true := by simp
  rw [if_neg h4]
  by_cases hd : f.densityCheck = true
  · rw [if_pos hd, if_pos hd]
    rfl
  · have h5 : (b ++ [o]).length - b.length = 1 := by simp
    have h6 : Machine.usub mode (f.nagents + 1) 1 = some f.nagents := by
      cases mode <;> (unfold Machine.usub; simp)
    rw [if_neg hd, if_neg hd, h5, h6]
    rfl

/-- **C269, distributed field.** (Partial: the object is not in the bag yet and its location lies in no region that other processes have to know.) -/
theorem C269_distributed_partial {O : Type} [DecidableEq O] (t : KdTree.Tree O) (o : O) (p : Torus.Pos) {b : List O}
    (hb : Grid.vecGet t.bags.bags t.bags.dh (Field2D.discretize t.bags.discretization p) = some b) (ho : o ∉ b)
    (hh : ∀ r ∈ t.layout.haloRegions, r.contains p = false) :
    (KdTree.insert t o p).bind (fun t' => KdTree.removeObjectLocation t' o p) = some t := by
  have hp : ∀ (rs : List KdTree.Block) (ns : List (List O)), (∀ r ∈ rs, r.contains p = false) → KdTree.pushHalo o p rs ns = some ns := by
    intro rs ns h
    induction rs with
    | nil => rfl
    | cons r rs ih =>
      rw [KdTree.pushHalo, if_neg (by rw [h r List.mem_cons_self]; simp)]
      exact ih (fun r hr => h r (List.mem_cons_of_mem _ hr))
  have h1 := C269_field_partial t.bags o p hb ho
  obtain ⟨f', h2, h3⟩ := Option.bind_eq_some_iff.1 h1
  unfold KdTree.insert
  rw [h2]
  dsimp only
  rw [hp _ _ hh, Option.map_some, Option.bind_some]
  unfold KdTree.removeObjectLocation
  dsimp only
  rw [h3]
  rfl

/-! ### The schedule -/

/-- **C269, schedule.** (Partial: no pending agent has the next id.) Scheduling an agent and dequeuing it with the id handed out leaves the pending agents, the
clock and the step as they were; the dequeuing succeeds, and the id is not handed out again. -/
theorem C269_schedule_partial {T A : Type} (s : Schedule.Sched T A) (a : A) (t : T) (o : Int) (hf : ∀ e ∈ s.events, e.1.id ≠ s.idCount) :
    Schedule.Sched.dequeue (s.scheduleRepeating a t o).1 (s.scheduleRepeating a t o).2.1 = ({ s with idCount := s.idCount + 1 }, true) := by
  have h1 : s.events.find? (fun e => e.1.id == s.idCount) = none := List.find?_eq_none.2 (fun e he => by simp [hf e he])
  have h2 : s.events.filter (fun e => e.1.id != s.idCount) = s.events := List.filter_eq_self.2 (fun e he => by simp [hf e he])
  unfold Schedule.Sched.scheduleRepeating Schedule.Queue.push Schedule.Sched.dequeue Schedule.Queue.remove Schedule.AgentImpl.new
  dsimp only
  rw [h1]
  dsimp only
  rw [List.filter_append, h2, List.find?_append, h1]
  simp

/-! ### Networks -/

/-- **C269, network.** (Partial: both nodes are published and have lists, and there is no edge between them yet.) Adding an edge and removing it again gives
back the edge and leaves the network as it was. -/
theorem C269_network_partial {K O L W : Type} [DecidableEq K] (ident : O → K) (n : Network.Net K O L W) (u v : O) (o : Network.EdgeOptions L W) {uid vid : Nat} {ues ves : List (Network.Edge L W)}
    (hu : HMap.get n.r.nodes2id (ident u) = some uid) (hv : HMap.get n.r.nodes2id (ident v) = some vid)
    (hu' : HMap.get n.w.nodes2id (ident u) = some uid) (hv' : HMap.get n.w.nodes2id (ident v) = some vid)
    (hl : HMap.get n.w.edges uid = some ues) (hl' : HMap.get n.w.edges vid = some ves)
    (hn : ∀ e ∈ ues, Network.between uid vid e = false) (hn' : ∀ e ∈ ves, Network.between uid vid e = false) :
    ∃ m, Network.removeEdge ident (Network.addEdge ident n u v o).1 u v =
        some (⟨n.r, ⟨m, n.w.nodes2id, n.w.id2nodes⟩, n.direct⟩, some (Network.Edge.new uid vid o)) ∧ ∀ k, HMap.get m k = HMap.get n.w.edges k := by
  have e1 : Network.between uid vid (Network.Edge.new uid vid o) = true := by
    cases o <;> simp [Network.between, Network.Edge.new]
  have e2 : Network.between uid vid (Network.Edge.new vid uid o) = true := by
    cases o <;> simp [Network.between, Network.Edge.new]
  have key : ∀ d : Bool, n.direct = d → ∃ m, Network.removeEdgeIds d (Network.addEdge ident n u v o).1.w.edges uid vid = some (m, some (Network.Edge.new uid vid o)) ∧
      ∀ k, HMap.get m k = HMap.get n.w.edges k := by
    intro d hd
    unfold Network.addEdge
    rw [hu']
    dsimp only
    rw [hv']
    dsimp only
    unfold Network.removeEdgeIds
    cases d with
    | true =>
      rw [if_pos hd]
      dsimp only
      have e3 : HMap.get (Network.pushEdge n.w.edges uid (Network.Edge.new uid vid o)) uid = some (ues ++ [Network.Edge.new uid vid o]) := by
        rw [Network.get_pushEdge, if_pos rfl, hl]
        rfl
      rw [e3]
      dsimp only
      rw [find_back hn e1]
      dsimp only
      rw [if_pos rfl]
      refine ⟨_, rfl, fun k => ?_⟩
      rw [HMap.get_adjustBy, e3, Option.map_some, eraseP_back hn e1, Network.get_pushEdge]
      by_cases hk : k = uid
      · rw [if_pos hk, hk, hl]
      · rw [if_neg hk, if_neg hk]
    | false =>
      rw [if_neg (by rw [hd]; simp)]
      dsimp only
      by_cases huv : uid = vid
      · subst huv
        have e3 : HMap.get (Network.pushEdge (Network.pushEdge n.w.edges uid (Network.Edge.new uid uid o)) uid (Network.Edge.new uid uid o)) uid =
            some ((ues ++ [Network.Edge.new uid uid o]) ++ [Network.Edge.new uid uid o]) := by
          rw [Network.get_pushEdge, if_pos rfl, Network.get_pushEdge, if_pos rfl, hl]
          rfl
        rw [e3]
        dsimp only
        rw [List.find?_append, find_back hn e1, Option.some_or]
        dsimp only
        rw [if_neg (by simp)]
        refine ⟨_, rfl, fun k => ?_⟩
        rw [HMap.get_adjustBy, HMap.get_adjustBy, if_pos rfl, e3, Option.map_some, Option.map_some, HMap.get_adjustBy]
        by_cases hk : k = uid
        · rw [if_pos hk, hk, hl]
          congr 1
          rw [List.eraseP_append_left e1 _ (List.mem_append_right _ (List.mem_singleton.2 rfl)), eraseP_back hn e1, List.filter_append]
          rw [List.filter_eq_self.2 (fun e he => by rw [hn e he]; rfl), List.filter_cons_of_neg (by rw [e1]; simp), List.filter_nil, List.append_nil]
        · rw [if_neg hk, if_neg hk, Network.get_pushEdge, if_neg hk, Network.get_pushEdge, if_neg hk]
      · have e3 : HMap.get (Network.pushEdge (Network.pushEdge n.w.edges uid (Network.Edge.new uid vid o)) vid (Network.Edge.new vid uid o)) uid =
            some (ues ++ [Network.Edge.new uid vid o]) := by
          rw [Network.get_pushEdge, if_neg huv, Network.get_pushEdge, if_pos rfl, hl]
          rfl
        have e4 : HMap.get (Network.pushEdge (Network.pushEdge n.w.edges uid (Network.Edge.new uid vid o)) vid (Network.Edge.new vid uid o)) vid =
            some (ves ++ [Network.Edge.new vid uid o]) := by
          rw [Network.get_pushEdge, if_pos rfl, Network.get_pushEdge, if_neg (Ne.symm huv), hl']
          rfl
        rw [e3]
        dsimp only
        rw [find_back hn e1]
        dsimp only
        rw [if_neg (by simp), e4]
        refine ⟨_, rfl, fun k => ?_⟩
        rw [HMap.get_adjustBy]
        by_cases hk : k = vid
        · rw [if_pos hk, HMap.get_adjustBy, if_neg (Ne.symm huv), e4, Option.map_some, hk, hl', List.filter_append]
          rw [List.filter_eq_self.2 (fun e he => by rw [hn' e he]; rfl), List.filter_cons_of_neg (by rw [e2]; simp), List.filter_nil, List.append_nil]
        · rw [if_neg hk, HMap.get_adjustBy]
          by_cases hk' : k = uid
          · rw [if_pos hk', e3, Option.map_some, eraseP_back hn e1, hk', hl]
          · rw [if_neg hk', Network.get_pushEdge, if_neg hk, Network.get_pushEdge, if_neg hk']
  have hrest : (Network.addEdge ident n u v o).1 = ⟨n.r, ⟨(Network.addEdge ident n u v o).1.w.edges, n.w.nodes2id, n.w.id2nodes⟩, n.direct⟩ := by
    unfold Network.addEdge
    rw [hu']
    dsimp only
    rw [hv']
    dsimp only
    by_cases hd : n.direct = true
    · rw [if_pos hd]
    · rw [if_neg hd]
  obtain ⟨m, h1, h2⟩ := key n.direct rfl
  refine ⟨m, ?_, h2⟩
  rw [hrest]
  unfold Network.removeEdge
  dsimp only
  rw [hu]
  dsimp only
  rw [hv]
  dsimp only
  rw [h1]

/-! ### Hypernetworks -/

theorem addLoop_true {L W : Type} {e : HNetwork.HEdge L W} : ∀ (ids : List Nat) {m : HNetwork.HEdgeMap L W} (l : Nat → List (HNetwork.HEdge L W)),
    (HNetwork.addLoop e ids m).2 = true → (∀ i ∈ ids, HMap.get m i = some (l i)) →
    ids.Nodup ∧ (∀ i ∈ ids, ∀ x ∈ l i, x.eq e = false) ∧
      ∀ k, HMap.get (HNetwork.addLoop e ids m).1 k = if k ∈ ids then some (l k ++ [e]) else HMap.get m k
  | [], m, l, _, _ => ⟨List.nodup_nil, fun i hi => (by cases hi), fun k => (by simp [HNetwork.addLoop])⟩
  | i :: ids, m, l, ht, hm => by
    rw [HNetwork.addLoop, hm i List.mem_cons_self] at ht ⊢
    dsimp only at ht ⊢
    by_cases ha : (l i).any (fun x => x.eq e) = true
    · rw [if_pos ha] at ht
      cases ht
    · rw [if_neg ha] at ht ⊢
      have hi0 : ∀ x ∈ l i, x.eq e = false := fun x hx => by
        cases hc : x.eq e with
        | false => rfl
        | true => exact absurd (List.any_eq_true.2 ⟨x, hx, hc⟩) ha
      have hself : e.eq e = true := by
        unfold HNetwork.HEdge.eq
        simp
      have hg : ∀ j ∈ ids, HMap.get (HMap.adjust m i (fun es => es ++ [e])) j = some (if j = i then l i ++ [e] else l j) := by
        intro j hj
        rw [HMap.get_adjustBy]
        by_cases hji : j = i
        · rw [if_pos hji, if_pos hji, hm i List.mem_cons_self]
          rfl
        · rw [if_neg hji, if_neg hji, hm j (List.mem_cons_of_mem _ hj)]
      obtain ⟨h1, h2, h3⟩ := addLoop_true ids (fun j => if j = i then l i ++ [e] else l j) ht hg
      have hni : i ∉ ids := fun hc => by
        have := h2 i hc e (by simp)
        rw [hself] at this
        cases this
      refine ⟨List.nodup_cons.2 ⟨hni, h1⟩, fun j hj x hx => ?_, fun k => ?_⟩
      · rcases List.mem_cons.1 hj with rfl | hj
        · exact hi0 x hx
        · have hji : j ≠ i := fun hc => hni (hc ▸ hj)
          exact h2 j hj x (by rw [if_neg hji]; exact hx)
      · rw [h3 k]
        by_cases hk : k ∈ ids
        · have hki : k ≠ i := fun hc => hni (hc ▸ hk)
          rw [if_pos hk, if_pos (List.mem_cons_of_mem _ hk), if_neg hki]
        · rw [if_neg hk, HMap.get_adjustBy]
          by_cases hki : k = i
          · rw [if_pos hki, hki, if_pos List.mem_cons_self, hm i List.mem_cons_self]
            rfl
          · rw [if_neg hki, if_neg (fun hc => by rcases List.mem_cons.1 hc with h | h <;> contradiction)]

theorem removeLoop_back {L W : Type} {e t : HNetwork.HEdge L W} (het : e.eq t = true) : ∀ (ids : List Nat) {m : HNetwork.HEdgeMap L W} (l : Nat → List (HNetwork.HEdge L W))
    (r : Option (HNetwork.HEdge L W)), ids.Nodup → (∀ i ∈ ids, ∀ x ∈ l i, x.eq t = false) → (∀ i ∈ ids, HMap.get m i = some (l i ++ [e])) →
    ∃ m', HNetwork.removeLoop t ids m r = some (m', if ids = [] then r else some e) ∧ ∀ k, HMap.get m' k = if k ∈ ids then some (l k) else HMap.get m k
  | [], m, l, r, _, _, _ => ⟨m, rfl, fun k => by simp⟩
  | i :: ids, m, l, r, hd, hx, hm => by
    obtain ⟨hni, hd⟩ := List.nodup_cons.1 hd
    rw [HNetwork.removeLoop, hm i List.mem_cons_self]
    dsimp only
    rw [find_back (hx i List.mem_cons_self) het]
    dsimp only
    obtain ⟨m', h1, h2⟩ := removeLoop_back het ids (m := HMap.adjust m i (fun es => es.eraseP (fun x => x.eq t))) l (some e) hd
      (fun j hj => hx j (List.mem_cons_of_mem _ hj)) (fun j hj => by
        have hji : j ≠ i := fun hc => hni (hc ▸ hj)
        rw [HMap.get_adjustBy, if_neg hji]
        exact hm j (List.mem_cons_of_mem _ hj))
    refine ⟨m', ?_, fun k => ?_⟩
    · rw [h1]
      by_cases hn : ids = []
      · rw [if_pos hn]; simp
      · rw [if_neg hn]; simp
    · rw [h2 k]
      by_cases hk : k ∈ ids
      · rw [if_pos hk, if_pos (List.mem_cons_of_mem _ hk)]
      · rw [if_neg hk, HMap.get_adjustBy]
        by_cases hki : k = i
        · rw [if_pos hki, hki, if_pos List.mem_cons_self, hm i List.mem_cons_self, Option.map_some, eraseP_back (hx i List.mem_cons_self) het]
        · rw [if_neg hki, if_neg (fun hc => by rcases List.mem_cons.1 hc with h | h <;> contradiction)]

/-- **C269, hypernetwork.** (Partial: the nodes have lists.) Adding a hyperedge that `add_edge` reports as added and removing it again gives back the hyperedge
and leaves the hypernetwork as it was. -/
theorem C269_hypernetwork_partial {K O L W : Type} [DecidableEq K] (ident : O → K) (n : HNetwork.HNet K O L W) (us : List O) (o : Network.EdgeOptions L W) {ids : List Nat}
    (hi : HNetwork.idsOf ident n us = some ids) (hl : ∀ i ∈ ids, (HMap.get n.edges i).isSome = true) (ht : (HNetwork.addEdge ident n us o).2 = true) :
    ∃ m, HNetwork.removeEdge ident (HNetwork.addEdge ident n us o).1 us =
        some (⟨m, n.redges, n.nodes2id, n.id2nodes, n.rid2nodes⟩, some (HNetwork.HEdge.new ids o)) ∧ ∀ k, HMap.get m k = HMap.get n.edges k := by
  cases us with
  | nil => cases ht
  | cons u us =>
    have hne : ids ≠ [] := by
      rintro rfl
      rw [HNetwork.idsOf] at hi
      cases hg : HMap.get n.nodes2id (ident u) with
      | none => rw [hg] at hi; cases hi
      | some j =>
        rw [hg] at hi
        obtain ⟨is, _, h⟩ := Option.map_eq_some_iff.1 hi
        cases h
    have hsame : ∀ m, HNetwork.idsOf ident (⟨m, n.redges, n.nodes2id, n.id2nodes, n.rid2nodes⟩ : HNetwork.HNet K O L W) (u :: us) = some ids := by
      intro m
      have : ∀ vs : List O, HNetwork.idsOf ident (⟨m, n.redges, n.nodes2id, n.id2nodes, n.rid2nodes⟩ : HNetwork.HNet K O L W) vs = HNetwork.idsOf ident n vs := by
        intro vs
        induction vs with
        | nil => rfl
        | cons v vs ih => rw [HNetwork.idsOf, HNetwork.idsOf, ih]
      rw [this, hi]
    unfold HNetwork.addEdge at ht ⊢
    dsimp only at ht ⊢
    rw [hi] at ht ⊢
    dsimp only at ht ⊢
    have hl' : ∀ i ∈ ids, HMap.get n.edges i = some ((HMap.get n.edges i).getD []) := fun i hm => by
      obtain ⟨x, hx⟩ := Option.isSome_iff_exists.1 (hl i hm)
      rw [hx]
      rfl
    obtain ⟨h1, h2, h3⟩ := addLoop_true ids (fun i => (HMap.get n.edges i).getD []) ht hl'
    have heq : ∀ x : HNetwork.HEdge L W, x.eq (HNetwork.HEdge.new ids .simple) = x.eq (HNetwork.HEdge.new ids o) := by
      intro x
      cases o <;> rfl
    have hself : (HNetwork.HEdge.new ids o).eq (HNetwork.HEdge.new ids .simple) = true := by
      rw [heq]
      unfold HNetwork.HEdge.eq
      simp
    obtain ⟨m', h4, h5⟩ := removeLoop_back hself ids (m := (HNetwork.addLoop (HNetwork.HEdge.new ids o) ids n.edges).1) (fun i => (HMap.get n.edges i).getD []) none h1
      (fun i hm x hx => by rw [heq]; exact h2 i hm x hx) (fun i hm => by rw [h3 i, if_pos hm])
    refine ⟨m', ?_, fun k => ?_⟩
    · unfold HNetwork.removeEdge
      dsimp only
      rw [hsame]
      dsimp only
      rw [h4, if_neg hne]
    · rw [h5 k, h3 k]
      by_cases hk : k ∈ ids
      · rw [if_pos hk, hl' k hk]
        rfl
      · rw [if_neg hk, if_neg hk]

/-! ### Where it fails, and cases -/

/-- **C269** is false of an object that is in the bag already: placing it again and removing it leaves the bag without it, on both kinds of object grid and in the
continuous field. -/
theorem C269_placed_negation_partial :
    (DenseObject.run (⟨[[7], [], [], []], [[7], [], [], []], 2, 2⟩ : DenseObject.OGrid Nat) [.remove 7 ⟨0, 0⟩, .place 7 ⟨0, 0⟩]).map (fun g => g.locs) = some [[], [], [], []] ∧
    (SparseObject.run (SparseObject.new 2 2 : SparseObject.BGrid Nat) [.remove 7 ⟨0, 0⟩, .place 7 ⟨0, 0⟩, .place 7 ⟨0, 0⟩]).map (fun g => g.locs) = some [] ∧
    (Field2D.run (Field2D.new 2 2 1 false : Field2D.Field Nat) [.remove 7 ⟨1, 1⟩, .place 7 ⟨1, 1⟩, .place 7 ⟨1, 1⟩]).map (fun f => f.bags.flatten) = some [] ∧
    (Field2D.run (Field2D.new 2 2 1 false : Field2D.Field Nat) [.place 7 ⟨1, 1⟩]).map (fun f => f.bags.flatten) = some [7] := by
  decide +kernel

/-- **C269** is false of a distributed field: an agent that was placed near another process and removed again is still sent there. -/
theorem C269_distributed_negation_partial :
    ((KdTree.Tree.create 0 2 0 ⟨0, 0, 8, 8⟩ 1 1 : Option (KdTree.Tree Nat)).bind (fun t => (KdTree.insert t 7 ⟨7/2, 3⟩).bind (fun t1 =>
      (KdTree.removeObjectLocation t1 7 ⟨7/2, 3⟩).map (fun t2 => (t.neighbors.flatten, t2.neighbors.flatten))))) = some ([], [7]) := by
  decide +kernel

/-- **C269** is false of a schedule in which `schedule_once` was called with the next id: the agent that was scheduled then is dequeued. -/
theorem C269_schedule_negation_partial :
    (Schedule.Sched.dequeue (((Schedule.Sched.new 0 : Schedule.Sched Nat Nat).scheduleOnce (.new 8 0) 1 0).scheduleRepeating 9 1 0).1 0).1.getAllEvents = [] ∧
    ((Schedule.Sched.new 0 : Schedule.Sched Nat Nat).scheduleOnce (.new 8 0) 1 0).getAllEvents = [8] := ⟨rfl, rfl⟩

/-- **C269** is false of a network with an edge between the nodes: the older edge is the one that is removed. It is false of nodes: a node that was not
published yet is not removed again. -/
theorem C269_network_negation_partial :
    (Network.run id (Network.Net.new true : Network.Net Nat Nat Nat Nat) [.addNode 1, .addNode 2, .addEdge 1 2 (.labeled 3), .update, .addEdge 1 2 (.labeled 4), .removeEdge 1 2, .update]).map
      (fun n => (Network.getEdges id n 1).map (List.map Network.Edge.label)) = some (some [some 4]) ∧
    (Network.run id (Network.Net.new true : Network.Net Nat Nat Nat Nat) [.addNode 1, .addNode 2, .addEdge 1 2 (.labeled 3), .update]).map
      (fun n => (Network.getEdges id n 1).map (List.map Network.Edge.label)) = some (some [some 3]) ∧
    (Network.run id (Network.Net.new false : Network.Net Nat Nat Nat Nat) [.addNode 1, .update, .addNode 5, .removeNode 5, .update]).map (fun n => Network.getId id n 5) =
      some (some 1) := ⟨rfl, rfl, rfl⟩

/-- **C269** is false of a hypernetwork after `remove_all_edges`: the nodes have empty lists afterwards, where they had none. -/
theorem C269_hypernetwork_negation_partial :
    (HNetwork.run id (HNetwork.HNet.new : HNetwork.HNet Nat Nat Nat Nat) [.addNode 1, .addNode 2, .removeAllEdges, .addEdge [1, 2] .simple, .removeEdge [1, 2], .update]).map
      (fun n => (HNetwork.getEdges id n 1).map List.length) = some (some 0) ∧
    (HNetwork.run id (HNetwork.HNet.new : HNetwork.HNet Nat Nat Nat Nat) [.addNode 1, .addNode 2, .removeAllEdges, .update]).map
      (fun n => (HNetwork.getEdges id n 1).map List.length) = some none := ⟨rfl, rfl⟩

namespace DemoTakeBack

/-- A network with an edge between the nodes 1 and 2, and a node 3. -/
def net : Network.Net Nat Nat Nat Nat :=
  ((Network.run id (Network.Net.new false) [.addNode 1, .addNode 2, .addNode 3, .addEdge 1 2 .simple, .update]).getD (Network.Net.new false))

/-- A hypernetwork with a hyperedge of the nodes 1 and 2, and a node 3. -/
def hnet : HNetwork.HNet Nat Nat Nat Nat :=
  ((HNetwork.run id HNetwork.HNet.new [.addNode 1, .addNode 2, .addNode 3, .addEdge [1, 2] .simple]).getD HNetwork.HNet.new)

end DemoTakeBack

example : Grid.vecGet ([[7], [], [8], []] : List (List Nat)) 2 ⟨1, 0⟩ = some [8] ∧ 7 ∉ [8] := by decide

example : (∀ i ∈ [1, 2], (HMap.get DemoTakeBack.hnet.edges i).isSome = true) ∧ HNetwork.idsOf id DemoTakeBack.hnet [2, 3] = some [1, 2] ∧
    (HNetwork.addEdge id DemoTakeBack.hnet [2, 3] .simple).2 = true := by
  refine ⟨by decide, rfl, rfl⟩

example : HMap.get DemoTakeBack.net.r.nodes2id 1 = some 0 ∧ HMap.get DemoTakeBack.net.w.nodes2id 3 = some 2 ∧
    HMap.get DemoTakeBack.net.w.edges 0 = some [⟨0, 1, none, none⟩] ∧ Network.between 0 2 (⟨0, 1, none, none⟩ : Network.Edge Nat Nat) = false := ⟨rfl, rfl, rfl, rfl⟩

example : ∀ e ∈ ((Schedule.Sched.new 0 : Schedule.Sched Nat Nat).scheduleRepeating 8 1 0).1.events, e.1.id ≠ 1 := by decide

end Verif
