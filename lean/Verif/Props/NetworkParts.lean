import Verif.Lemmas.Network
import Verif.Spec.NetworkParts

/-!
C265: parts of a network without edges between them do not influence each other
(src/engine/fields/network.rs:688-1659).
-/

set_option linter.unusedSectionVars false

namespace Verif.Network

variable {K O L W : Type} [DecidableEq K]

/-! ### Ids within a part -/

/-- The node with this id is in the part. -/
def inPart (N : List K) (P : K → Bool) (i : Nat) : Bool := (N[i]?).any P

/-- The id it has if there are only the nodes of the part. -/
def partId (N : List K) (P : K → Bool) (i : Nat) : Nat := ((N.take i).filter P).length

variable {N : List K} {P : K → Bool}

theorem partId_mono {i j : Nat} (h : i ≤ j) : partId N P i ≤ partId N P j :=
  List.Sublist.length_le ((List.take_sublist_take_left h).filter P)

theorem partId_succ {i : Nat} (h : inPart N P i = true) : partId N P (i + 1) = partId N P i + 1 := by
  unfold partId inPart at *
  cases hi : N[i]? with
  | none => rw [hi] at h; simp at h
  | some k =>
    rw [hi] at h
    rw [List.take_add_one, hi, List.filter_append, List.length_append]
    have : P k = true := h
    simp [this]

theorem partId_skip {i : Nat} (h : inPart N P i = false) : partId N P (i + 1) = partId N P i := by
  unfold partId inPart at *
  cases hi : N[i]? with
  | none => rw [List.take_add_one, hi, List.filter_append, List.length_append]; simp
  | some k =>
    rw [hi] at h
    rw [List.take_add_one, hi, List.filter_append, List.length_append]
    have : P k = false := h
    simp [this]

theorem partId_lt {i j : Nat} (h : inPart N P i = true) (hij : i < j) : partId N P i < partId N P j := by
  have h1 := partId_succ h
  have h2 := partId_mono (N := N) (P := P) (show i + 1 ≤ j from hij)
  omega

theorem partId_inj {i j : Nat} (hi : inPart N P i = true) (hj : inPart N P j = true) (h : partId N P i = partId N P j) : i = j := by
  rcases Nat.lt_trichotomy i j with hl | hl | hl
  · have := partId_lt hi hl; omega
  · exact hl
  · have := partId_lt hj hl; omega

theorem part_range (len : Nat) : ((List.range len).filter (inPart N P)).map (partId N P) = List.range (partId N P len) := by
  induction len with
  | zero => simp [partId]
  | succ n ih =>
    rw [List.range_succ, List.filter_append, List.map_append, ih]
    by_cases h : inPart N P n = true
    · rw [partId_succ h, List.range_succ]
      simp [h]
    · have h' : inPart N P n = false := by simpa using h
      rw [partId_skip h']
      simp [h']

theorem take_get {len i : Nat} {k : K} : (N.take len)[i]? = some k ↔ i < len ∧ N[i]? = some k := by
  rw [List.getElem?_take]
  by_cases h : i < len
  · simp [h]
  · simp [h]

theorem filter_get {len i : Nat} {k : K} (h : N[i]? = some k) (hi : i < len) (hk : P k = true) :
    ((N.take len).filter P)[partId N P i]? = some k := by
  have hl : i < N.length := (List.getElem?_eq_some_iff.1 h).1
  have e : N.take len = N.take i ++ k :: (N.take len).drop (i + 1) := by
    have h1 : (N.take len)[i]? = some k := take_get.2 ⟨hi, h⟩
    obtain ⟨hlt, hk'⟩ := List.getElem?_eq_some_iff.1 h1
    have h2 : N.take i = (N.take len).take i := by rw [List.take_take, Nat.min_eq_left (Nat.le_of_lt hi)]
    rw [h2, ← hk', ← List.drop_eq_getElem_cons hlt, List.take_append_drop]
  rw [e, List.filter_append, List.filter_cons_of_pos hk]
  unfold partId
  simp

theorem filter_get_iff (hN : N.Nodup) {len j : Nat} {k : K} : ((N.take len).filter P)[j]? = some k ↔
    ∃ i, i < len ∧ N[i]? = some k ∧ P k = true ∧ j = partId N P i := by
  constructor
  · intro h
    have hm := List.mem_filter.1 (List.mem_of_getElem? h)
    obtain ⟨i, hi⟩ := List.mem_iff_getElem?.1 hm.1
    obtain ⟨hlt, hi⟩ := take_get.1 hi
    refine ⟨i, hlt, hi, hm.2, ?_⟩
    have hn : ((N.take len).filter P).Nodup := (hN.sublist (List.take_sublist _ _)).sublist List.filter_sublist
    have h2 := filter_get hi hlt hm.2
    have hj := (List.getElem?_eq_some_iff.1 h).1
    exact (List.getElem?_inj hj hn).1 (h.trans h2.symm)
  · rintro ⟨i, hlt, hi, hk, rfl⟩
    exact filter_get hi hlt hk

/-! ### PartLists of edges -/

/-- The edge with the ids of the part. -/
def Edge.via (f : Nat → Nat) (e : Edge L W) : Edge L W := ⟨f e.u, f e.v, e.label, e.weight⟩

/-- The lists of the part are the same in both networks, and no edge leaves its part. -/
structure PartLists (N : List K) (P : K → Bool) (len : Nat) (m m' : EdgeMap L W) : Prop where
  own : ∀ i es, HMap.get m i = some es → i < len ∧ ∀ e ∈ es, e.u = i ∧ e.v < len ∧ inPart N P e.v = inPart N P i
  keys : ∀ j es, HMap.get m' j = some es → j < partId N P len
  same : ∀ i, i < len → inPart N P i = true → HMap.get m' (partId N P i) = (HMap.get m i).map (List.map (Edge.via (partId N P)))

theorem edge_new_via (f : Nat → Nat) (u v : Nat) (o : EdgeOptions L W) : (Edge.new u v o).via f = Edge.new (f u) (f v) o := by
  cases o <;> rfl

theorem edge_new_u (u v : Nat) (o : EdgeOptions L W) : (Edge.new u v o).u = u ∧ (Edge.new u v o).v = v := by
  cases o <;> exact ⟨rfl, rfl⟩

theorem PartLists.push_own {len : Nat} {m m' : EdgeMap L W} (h : PartLists N P len m m') {i j : Nat} (hi : i < len) (hj : j < len)
    (hp : inPart N P j = inPart N P i) (o : EdgeOptions L W) : ∀ k es, HMap.get (pushEdge m i (Edge.new i j o)) k = some es →
      k < len ∧ ∀ e ∈ es, e.u = k ∧ e.v < len ∧ inPart N P e.v = inPart N P k := by
  intro k es hk
  rw [get_pushEdge] at hk
  by_cases hki : k = i
  · rw [if_pos hki] at hk
    subst hki
    refine ⟨hi, fun e he => ?_⟩
    cases hk
    rcases List.mem_append.1 he with he | he
    · cases hg : HMap.get m k with
      | none => rw [hg] at he; cases he
      | some es => rw [hg] at he; exact (h.own k es hg).2 e he
    · rw [List.mem_singleton] at he
      subst he
      rw [(edge_new_u k j o).1, (edge_new_u k j o).2]
      exact ⟨rfl, hj, hp⟩
  · rw [if_neg hki] at hk
    exact h.own k es hk

theorem PartLists.push_in {len : Nat} {m m' : EdgeMap L W} (h : PartLists N P len m m') {i j : Nat} (hi : i < len) (hj : j < len)
    (hp : inPart N P j = inPart N P i) (hpi : inPart N P i = true) (o : EdgeOptions L W) :
    PartLists N P len (pushEdge m i (Edge.new i j o)) (pushEdge m' (partId N P i) (Edge.new (partId N P i) (partId N P j) o)) := by
  refine ⟨h.push_own hi hj hp o, fun k es hk => ?_, fun k hk hpk => ?_⟩
  · rw [get_pushEdge] at hk
    by_cases hki : k = partId N P i
    · rw [hki]; exact partId_lt hpi hi
    · rw [if_neg hki] at hk
      exact h.keys k es hk
  · rw [get_pushEdge, get_pushEdge]
    by_cases hki : k = i
    · rw [if_pos hki, if_pos (by rw [hki]), h.same i hi hpi]
      cases HMap.get m i with
      | none => simp [edge_new_via]
      | some es => simp [edge_new_via]
    · rw [if_neg hki, if_neg (fun hc => hki (partId_inj hpk hpi hc))]
      exact h.same k hk hpk

theorem PartLists.push_out {len : Nat} {m m' : EdgeMap L W} (h : PartLists N P len m m') {i j : Nat} (hi : i < len) (hj : j < len)
    (hp : inPart N P j = inPart N P i) (hpi : inPart N P i = false) (o : EdgeOptions L W) :
    PartLists N P len (pushEdge m i (Edge.new i j o)) m' := by
  refine ⟨h.push_own hi hj hp o, h.keys, fun k hk hpk => ?_⟩
  rw [get_pushEdge, if_neg (fun hc => by rw [hc, hpi] at hpk; cases hpk)]
  exact h.same k hk hpk

theorem PartLists.adjust_own {len : Nat} {m m' : EdgeMap L W} (h : PartLists N P len m m') (i : Nat) {f : List (Edge L W) → List (Edge L W)}
    (hf : ∀ es, ∀ e ∈ f es, e ∈ es) : ∀ k es, HMap.get (HMap.adjust m i f) k = some es →
      k < len ∧ ∀ e ∈ es, e.u = k ∧ e.v < len ∧ inPart N P e.v = inPart N P k := by
  intro k es hk
  rw [HMap.get_adjustBy] at hk
  by_cases hki : k = i
  · rw [if_pos hki] at hk
    subst hki
    cases hg : HMap.get m k with
    | none => rw [hg] at hk; cases hk
    | some es' =>
      rw [hg] at hk
      cases hk
      exact ⟨(h.own k es' hg).1, fun e he => (h.own k es' hg).2 e (hf _ e he)⟩
  · rw [if_neg hki] at hk
    exact h.own k es hk

theorem PartLists.adjust_in {len : Nat} {m m' : EdgeMap L W} (h : PartLists N P len m m') {i : Nat} (hi : i < len) (hpi : inPart N P i = true)
    {f f' : List (Edge L W) → List (Edge L W)} (hf : ∀ es, ∀ e ∈ f es, e ∈ es)
    (hff : ∀ es, HMap.get m i = some es → f' (es.map (Edge.via (partId N P))) = (f es).map (Edge.via (partId N P))) :
    PartLists N P len (HMap.adjust m i f) (HMap.adjust m' (partId N P i) f') := by
  refine ⟨h.adjust_own i hf, fun k es hk => ?_, fun k hk hpk => ?_⟩
  · rw [HMap.get_adjustBy] at hk
    by_cases hki : k = partId N P i
    · rw [hki]; exact partId_lt hpi hi
    · rw [if_neg hki] at hk
      exact h.keys k es hk
  · rw [HMap.get_adjustBy, HMap.get_adjustBy]
    by_cases hki : k = i
    · rw [if_pos hki, if_pos (by rw [hki]), h.same i hi hpi]
      cases hg : HMap.get m i with
      | none => rfl
      | some es => simp [hff es hg]
    · rw [if_neg hki, if_neg (fun hc => hki (partId_inj hpk hpi hc))]
      exact h.same k hk hpk

theorem PartLists.adjust_out {len : Nat} {m m' : EdgeMap L W} (h : PartLists N P len m m') {i : Nat} (hpi : inPart N P i = false)
    {f : List (Edge L W) → List (Edge L W)} (hf : ∀ es, ∀ e ∈ f es, e ∈ es) : PartLists N P len (HMap.adjust m i f) m' := by
  refine ⟨h.adjust_own i hf, h.keys, fun k hk hpk => ?_⟩
  rw [HMap.get_adjustBy, if_neg (fun hc => by rw [hc, hpi] at hpk; cases hpk)]
  exact h.same k hk hpk

theorem between_via {a b : Nat} (ha : inPart N P a = true) (hb : inPart N P b = true) {e : Edge L W} (hu : inPart N P e.u = true)
    (hv : inPart N P e.v = true) : between (partId N P a) (partId N P b) (e.via (partId N P)) = between a b e := by
  have key : ∀ x y, inPart N P x = true → inPart N P y = true → (partId N P x == partId N P y) = (x == y) := fun x y hx hy => by
    rw [Bool.eq_iff_iff, beq_iff_eq, beq_iff_eq]
    exact ⟨partId_inj hx hy, fun h => by rw [h]⟩
  unfold between Edge.via
  dsimp only
  rw [key _ _ hu ha, key _ _ hv hb, key _ _ hu hb, key _ _ hv ha]

theorem eraseP_map_via {p q : Edge L W → Bool} {f : Edge L W → Edge L W} : ∀ {es : List (Edge L W)}, (∀ e ∈ es, p (f e) = q e) →
    (es.map f).eraseP p = (es.eraseP q).map f
  | [], _ => rfl
  | e :: es, h => by
    rw [List.map_cons, List.eraseP_cons, List.eraseP_cons, h e List.mem_cons_self]
    by_cases hq : q e = true
    · simp [hq]
    · simp [hq, eraseP_map_via (fun x hx => h x (List.mem_cons_of_mem _ hx))]

theorem find_map_via {p q : Edge L W → Bool} {f : Edge L W → Edge L W} : ∀ {es : List (Edge L W)}, (∀ e ∈ es, p (f e) = q e) →
    (es.map f).find? p = (es.find? q).map f
  | [], _ => rfl
  | e :: es, h => by
    rw [List.map_cons, List.find?_cons, List.find?_cons, h e List.mem_cons_self]
    cases q e with
    | true => rfl
    | false => exact find_map_via (fun x hx => h x (List.mem_cons_of_mem _ hx))

theorem filter_map_via {p q : Edge L W → Bool} {f : Edge L W → Edge L W} {es : List (Edge L W)} (h : ∀ e ∈ es, p (f e) = q e) :
    (es.map f).filter p = (es.filter q).map f := by
  rw [List.filter_map]
  congr 1
  exact List.filter_congr h

theorem PartLists.removeIds_in {len : Nat} {d : Bool} {m m' : EdgeMap L W} (h : PartLists N P len m m') {a b : Nat} (ha : a < len) (hb : b < len)
    (hpa : inPart N P a = true) (hpb : inPart N P b = true) {x : EdgeMap L W × Option (Edge L W)} (hx : removeEdgeIds d m a b = some x) :
    ∃ x', removeEdgeIds d m' (partId N P a) (partId N P b) = some x' ∧ PartLists N P len x.1 x'.1 := by
  have hbt : ∀ i, inPart N P i = true → ∀ es, HMap.get m i = some es → ∀ e ∈ es,
      between (partId N P a) (partId N P b) (e.via (partId N P)) = between a b e := fun i hi es hg e he => by
    obtain ⟨h1, _, h3⟩ := (h.own i es hg).2 e he
    exact between_via hpa hpb (by rw [h1]; exact hi) (by rw [h3]; exact hi)
  unfold removeEdgeIds at hx ⊢
  rw [h.same a ha hpa]
  cases hg : HMap.get m a with
  | none => rw [hg] at hx; cases hx
  | some ues =>
    rw [hg] at hx
    dsimp only [Option.map_some] at hx ⊢
    rw [find_map_via (hbt a hpa ues hg)]
    cases hf : ues.find? (between a b) with
    | none =>
      rw [hf] at hx
      cases hx
      exact ⟨_, rfl, h⟩
    | some e =>
      rw [hf] at hx
      dsimp only [Option.map_some] at hx ⊢
      have h1 : PartLists N P len (HMap.adjust m a (fun es => es.eraseP (between a b)))
          (HMap.adjust m' (partId N P a) (fun es => es.eraseP (between (partId N P a) (partId N P b)))) :=
        h.adjust_in ha hpa (fun es e he => List.mem_of_mem_eraseP he) (fun es hes => eraseP_map_via (hbt a hpa es hes))
      by_cases hd : d = true
      · rw [if_pos hd] at hx ⊢
        cases hx
        exact ⟨_, rfl, h1⟩
      · rw [if_neg hd] at hx ⊢
        rw [h.same b hb hpb]
        cases hgb : HMap.get m b with
        | none => rw [hgb] at hx; cases hx
        | some ves =>
          rw [hgb] at hx
          cases hx
          refine ⟨_, rfl, h1.adjust_in hb hpb (fun es e he => List.mem_of_mem_filter he) (fun es hes => filter_map_via (fun e he => ?_))⟩
          obtain ⟨h2, _, h3⟩ := (h1.own b es hes).2 e he
          rw [between_via hpa hpb (by rw [h2]; exact hpb) (by rw [h3]; exact hpb)]

theorem PartLists.removeIds_out {len : Nat} {d : Bool} {m m' : EdgeMap L W} (h : PartLists N P len m m') {a b : Nat}
    (hp : ¬ (inPart N P a = true ∧ inPart N P b = true)) {x : EdgeMap L W × Option (Edge L W)} (hx : removeEdgeIds d m a b = some x) :
    PartLists N P len x.1 m' := by
  unfold removeEdgeIds at hx
  cases hg : HMap.get m a with
  | none => rw [hg] at hx; cases hx
  | some ues =>
    rw [hg] at hx
    dsimp only at hx
    cases hf : ues.find? (between a b) with
    | none =>
      rw [hf] at hx
      cases hx
      exact h
    | some e =>
      rw [hf] at hx
      have hab : inPart N P b = inPart N P a := by
        obtain ⟨h1, _, h3⟩ := (h.own a ues hg).2 e (List.mem_of_find?_eq_some hf)
        have hb := List.find?_some hf
        unfold between at hb
        rw [Bool.or_eq_true, Bool.and_eq_true, Bool.and_eq_true] at hb
        simp only [beq_iff_eq] at hb
        rcases hb with ⟨_, hb⟩ | ⟨hb1, hb2⟩
        · rw [← hb]; exact h3
        · rw [← hb1, h1]
      have hpa : inPart N P a = false := by
        cases hc : inPart N P a with
        | true => exact absurd ⟨hc, hab.trans hc⟩ hp
        | false => rfl
      have h1 : PartLists N P len (HMap.adjust m a (fun es => es.eraseP (between a b))) m' :=
        h.adjust_out hpa (fun es e he => List.mem_of_mem_eraseP he)
      dsimp only at hx
      by_cases hd : d = true
      · rw [if_pos hd] at hx
        cases hx
        exact h1
      · rw [if_neg hd] at hx
        cases hgb : HMap.get m b with
        | none => rw [hgb] at hx; cases hx
        | some ves =>
          rw [hgb] at hx
          cases hx
          exact h1.adjust_out (hab.trans hpa) (fun es e he => List.mem_of_mem_filter he)

/-! ### One side -/

/-- The ids of the nodes are their places. -/
structure Named (ns : List K) (m : HMap K Nat) : Prop where
  get : ∀ k i, HMap.get m k = some i ↔ ns[i]? = some k
  len : m.length = ns.length

theorem Named.add {ns : List K} {m : HMap K Nat} (h : Named ns m) {k : K} (hk : k ∉ ns) :
    Named (ns ++ [k]) (HMap.insert m k m.length).1 := by
  have h0 : HMap.get m k = none := by
    cases hg : HMap.get m k with
    | none => rfl
    | some i => exact absurd (List.mem_of_getElem? ((h.get k i).1 hg)) hk
  refine ⟨fun k' i => ?_, ?_⟩
  · rw [HMap.insert_absent h0, HMap.get_append]
    rw [HMap.get_cons, HMap.get_nil]
    by_cases hkk : k = k'
    · subst hkk
      rw [h0, if_pos rfl, Option.none_or]
      constructor
      · intro hi
        cases hi
        rw [h.len, List.getElem?_append_right (Nat.le_refl _)]
        simp
      · intro hi
        by_cases hl : i < ns.length
        · rw [List.getElem?_append_left hl] at hi
          exact absurd (List.mem_of_getElem? hi) hk
        · have := (List.getElem?_eq_some_iff.1 hi).1
          rw [List.length_append, List.length_singleton] at this
          rw [h.len]
          congr 1
          omega
    · rw [if_neg hkk, Option.or_none, h.get]
      by_cases hl : i < ns.length
      · rw [List.getElem?_append_left hl]
      · rw [List.getElem?_append_right (Nat.le_of_not_lt hl), List.getElem?_eq_none (Nat.le_of_not_lt hl)]
        constructor
        · intro hc; cases hc
        · intro hc
          have := List.mem_of_getElem? hc
          rw [List.mem_singleton] at this
          exact absurd this.symm hkk
  · rw [HMap.insert_absent h0, List.length_append, List.length_append, h.len]
    rfl

/-- One side of both networks. -/
structure PartHalf (ident : O → K) (N : List K) (P : K → Bool) (len : Nat) (s s' : Side K O L W) : Prop where
  le : len ≤ N.length
  names : Named (N.take len) s.nodes2id
  names' : Named ((N.take len).filter P) s'.nodes2id
  ids : HMap.keys s.id2nodes = List.range len
  ids' : HMap.keys s'.id2nodes = List.range (partId N P len)
  objs : ∀ i o, HMap.get s.id2nodes i = some o → N[i]? = some (ident o)
  same : ∀ i, i < len → inPart N P i = true → HMap.get s'.id2nodes (partId N P i) = HMap.get s.id2nodes i
  lists : PartLists N P len s.edges s'.edges

/-- PartBoth networks. -/
structure PartBoth (ident : O → K) (N : List K) (P : K → Bool) (lr lw : Nat) (n n' : Net K O L W) : Prop where
  le : lr ≤ lw
  r : PartHalf ident N P lr n.r n'.r
  w : PartHalf ident N P lw n.w n'.w
  direct : n'.direct = n.direct

variable {ident : O → K}

theorem PartHalf.id_lt {len : Nat} {s s' : Side K O L W} (h : PartHalf ident N P len s s') {k : K} {i : Nat}
    (hi : HMap.get s.nodes2id k = some i) : i < len ∧ N[i]? = some k ∧ inPart N P i = P k := by
  obtain ⟨h1, h2⟩ := take_get.1 ((h.names.get k i).1 hi)
  exact ⟨h1, h2, by unfold inPart; rw [h2]; rfl⟩

theorem PartHalf.id_via (hN : N.Nodup) {len : Nat} {s s' : Side K O L W} (h : PartHalf ident N P len s s') {k : K} (hk : P k = true) :
    HMap.get s'.nodes2id k = (HMap.get s.nodes2id k).map (partId N P) := by
  cases hg : HMap.get s.nodes2id k with
  | some i =>
    obtain ⟨h1, h2, _⟩ := h.id_lt hg
    rw [Option.map_some, h.names'.get, filter_get_iff hN]
    exact ⟨i, h1, h2, hk, rfl⟩
  | none =>
    cases hg' : HMap.get s'.nodes2id k with
    | none => rfl
    | some j =>
      obtain ⟨i, h1, h2, _, _⟩ := (filter_get_iff hN).1 ((h.names'.get k j).1 hg')
      rw [(h.names.get k i).2 (take_get.2 ⟨h1, h2⟩)] at hg
      cases hg

theorem PartHalf.withEdges {len : Nat} {s s' : Side K O L W} (h : PartHalf ident N P len s s') {m m' : EdgeMap L W} (hm : PartLists N P len m m') :
    PartHalf ident N P len ⟨m, s.nodes2id, s.id2nodes⟩ ⟨m', s'.nodes2id, s'.id2nodes⟩ :=
  ⟨h.le, h.names, h.names', h.ids, h.ids', h.objs, h.same, hm⟩

theorem PartBoth.withEdges {lr lw : Nat} {n n' : Net K O L W} (h : PartBoth ident N P lr lw n n') {m m' : EdgeMap L W} (hm : PartLists N P lw m m') :
    PartBoth ident N P lr lw ⟨n.r, ⟨m, n.w.nodes2id, n.w.id2nodes⟩, n.direct⟩ ⟨n'.r, ⟨m', n'.w.nodes2id, n'.w.id2nodes⟩, n'.direct⟩ :=
  ⟨h.le, h.r, h.w.withEdges hm, h.direct⟩

/-! ### The calls -/

theorem PartBoth.removeEdge_in (hN : N.Nodup) {lr lw : Nat} {n n' n1 : Net K O L W} (h : PartBoth ident N P lr lw n n') {u v : O}
    (hu : P (ident u) = true) (hv : P (ident v) = true) {e : Option (Edge L W)} (hx : removeEdge ident n u v = some (n1, e)) :
    ∃ n1' e', removeEdge ident n' u v = some (n1', e') ∧ PartBoth ident N P lr lw n1 n1' := by
  unfold removeEdge at hx ⊢
  rw [h.r.id_via hN hu, h.r.id_via hN hv]
  cases hgu : HMap.get n.r.nodes2id (ident u) with
  | none =>
    rw [hgu] at hx
    cases hx
    exact ⟨_, _, rfl, h⟩
  | some a =>
    rw [hgu] at hx
    dsimp only [Option.map_some] at hx ⊢
    cases hgv : HMap.get n.r.nodes2id (ident v) with
    | none =>
      rw [hgv] at hx
      cases hx
      exact ⟨_, _, rfl, h⟩
    | some b =>
      rw [hgv] at hx
      dsimp only [Option.map_some] at hx ⊢
      obtain ⟨ha, _, hpa⟩ := h.r.id_lt hgu
      obtain ⟨hb, _, hpb⟩ := h.r.id_lt hgv
      cases hr : removeEdgeIds n.direct n.w.edges a b with
      | none => rw [hr] at hx; cases hx
      | some x =>
        rw [hr] at hx
        cases hx
        obtain ⟨x', hx', hl⟩ := h.w.lists.removeIds_in (Nat.lt_of_lt_of_le ha h.le) (Nat.lt_of_lt_of_le hb h.le) (hpa.trans hu)
          (hpb.trans hv) hr
        rw [h.direct, hx']
        exact ⟨_, _, rfl, ⟨h.le, h.r, h.w.withEdges hl, rfl⟩⟩

theorem PartBoth.removeEdge_out {lr lw : Nat} {n n' n1 : Net K O L W} (h : PartBoth ident N P lr lw n n') {u v : O}
    (hp : ¬ (P (ident u) = true ∧ P (ident v) = true)) {e : Option (Edge L W)} (hx : removeEdge ident n u v = some (n1, e)) :
    PartBoth ident N P lr lw n1 n' := by
  unfold removeEdge at hx
  cases hgu : HMap.get n.r.nodes2id (ident u) with
  | none =>
    rw [hgu] at hx
    cases hx
    exact h
  | some a =>
    rw [hgu] at hx
    dsimp only at hx
    cases hgv : HMap.get n.r.nodes2id (ident v) with
    | none =>
      rw [hgv] at hx
      cases hx
      exact h
    | some b =>
      rw [hgv] at hx
      dsimp only at hx
      obtain ⟨_, _, hpa⟩ := h.r.id_lt hgu
      obtain ⟨_, _, hpb⟩ := h.r.id_lt hgv
      cases hr : removeEdgeIds n.direct n.w.edges a b with
      | none => rw [hr] at hx; cases hx
      | some x =>
        rw [hr] at hx
        cases hx
        have hl := h.w.lists.removeIds_out (fun hc => hp ⟨hpa.symm.trans hc.1, hpb.symm.trans hc.2⟩) hr
        exact ⟨h.le, h.r, h.w.withEdges hl, h.direct⟩

theorem removeSteps_none (inc : Bool) (obs : HMap Nat O) (uid : Nat) (u : O) (vs : List Nat) :
    vs.foldl (removeStep ident inc obs uid u) (none : Option (Net K O L W × List (Edge L W))) = none := by
  induction vs with
  | nil => rfl
  | cons v vs ih => exact ih

/-- The loop of `remove_incoming_edges` and `remove_outgoing_edges` for a node of the part. -/
theorem PartBoth.loop_in (hN : N.Nodup) {inc : Bool} {obs obs' : HMap Nat O} {uid : Nat} {u : O} {len lr lw : Nat} (hu : P (ident u) = true)
    (hpu : inPart N P uid = true) (hobj : ∀ i o, HMap.get obs i = some o → N[i]? = some (ident o))
    (hsame : ∀ i, i < len → inPart N P i = true → HMap.get obs' (partId N P i) = HMap.get obs i) :
    ∀ (vs : List Nat), (∀ v ∈ vs, v < len) → ∀ {n n' n1 : Net K O L W} {l l1 : List (Edge L W)} (l' : List (Edge L W)),
      PartBoth ident N P lr lw n n' → vs.foldl (removeStep ident inc obs uid u) (some (n, l)) = some (n1, l1) →
      ∃ n1' l1', ((vs.filter (inPart N P)).map (partId N P)).foldl (removeStep ident inc obs' (partId N P uid) u) (some (n', l')) =
        some (n1', l1') ∧ PartBoth ident N P lr lw n1 n1'
  | [], _, n, n', n1, l, l1, l', h, hx => by
    cases hx
    exact ⟨_, _, rfl, h⟩
  | v :: vs, hv, n, n', n1, l, l1, l', h, hx => by
    rw [List.foldl_cons] at hx
    have hvl := hv v List.mem_cons_self
    have hvs := fun w hw => hv w (List.mem_cons_of_mem _ hw)
    by_cases hvu : v = uid
    · have e1 : removeStep ident inc obs uid u (some (n, l)) v = some (n, l) := by unfold removeStep; exact if_pos hvu
      rw [e1] at hx
      obtain ⟨n1', l1', h1, h2⟩ := PartBoth.loop_in hN hu hpu hobj hsame vs hvs l' h hx
      refine ⟨n1', l1', ?_, h2⟩
      rw [List.filter_cons_of_pos (by rw [hvu]; exact hpu), List.map_cons, List.foldl_cons]
      have e2 : removeStep ident inc obs' (partId N P uid) u (some (n', l')) (partId N P v) = some (n', l') := by
        unfold removeStep; exact if_pos (by rw [hvu])
      rw [e2]
      exact h1
    · cases hg : HMap.get obs v with
      | none =>
        have e1 : removeStep ident inc obs uid u (some (n, l)) v = none := by unfold removeStep; simp only [if_neg hvu, hg]
        rw [e1, removeSteps_none] at hx
        cases hx
      | some vnode =>
        have hpv : inPart N P v = P (ident vnode) := by unfold inPart; rw [hobj v vnode hg]; rfl
        have e1 : removeStep ident inc obs uid u (some (n, l)) v =
            match (if inc then removeEdge ident n vnode u else removeEdge ident n u vnode) with
            | none => none
            | some (n', none) => some (n', l)
            | some (n', some e) => some (n', l ++ [e]) := by unfold removeStep; simp only [if_neg hvu, hg]; rfl
        rw [e1] at hx
        cases hr : (if inc then removeEdge ident n vnode u else removeEdge ident n u vnode) with
        | none => rw [hr] at hx; dsimp only at hx; rw [removeSteps_none] at hx; cases hx
        | some x =>
          obtain ⟨n2, e⟩ := x
          rw [hr] at hx
          have hx' : ∃ l2, vs.foldl (removeStep ident inc obs uid u) (some (n2, l2)) = some (n1, l1) := by
            cases e with
            | none => exact ⟨_, hx⟩
            | some e => exact ⟨_, hx⟩
          obtain ⟨l2, hx'⟩ := hx'
          by_cases hvp : P (ident vnode) = true
          · have hin : ∃ n2' e', (if inc then removeEdge ident n' vnode u else removeEdge ident n' u vnode) = some (n2', e') ∧
                PartBoth ident N P lr lw n2 n2' := by
              cases inc with
              | true => exact h.removeEdge_in hN hvp hu hr
              | false => exact h.removeEdge_in hN hu hvp hr
            obtain ⟨n2', e', hr', h2⟩ := hin
            rw [List.filter_cons_of_pos (hpv.trans hvp), List.map_cons, List.foldl_cons]
            have hne : ¬ partId N P v = partId N P uid := fun hc => hvu (partId_inj (hpv.trans hvp) hpu hc)
            have e2 : ∃ l2', removeStep ident inc obs' (partId N P uid) u (some (n', l')) (partId N P v) = some (n2', l2') := by
              unfold removeStep
              simp only [if_neg hne, hsame v hvl (hpv.trans hvp), hg, hr']
              cases e' with
              | none => exact ⟨_, rfl⟩
              | some e => exact ⟨_, rfl⟩
            obtain ⟨l2', e2⟩ := e2
            rw [e2]
            exact PartBoth.loop_in hN hu hpu hobj hsame vs hvs l2' h2 hx'
          · have h2 : PartBoth ident N P lr lw n2 n' := by
              cases inc with
              | true => exact h.removeEdge_out (fun hc => hvp hc.1) hr
              | false => exact h.removeEdge_out (fun hc => hvp hc.2) hr
            rw [List.filter_cons_of_neg (by rw [hpv]; exact hvp)]
            exact PartBoth.loop_in hN hu hpu hobj hsame vs hvs l' h2 hx'

/-- The loop for a node outside the part. -/
theorem PartBoth.loop_out {inc : Bool} {obs : HMap Nat O} {uid : Nat} {u : O} {lr lw : Nat} (hu : P (ident u) = false) :
    ∀ (vs : List Nat) {n n' n1 : Net K O L W} {l l1 : List (Edge L W)}, PartBoth ident N P lr lw n n' →
      vs.foldl (removeStep ident inc obs uid u) (some (n, l)) = some (n1, l1) → PartBoth ident N P lr lw n1 n'
  | [], n, n', n1, l, l1, h, hx => by
    cases hx
    exact h
  | v :: vs, n, n', n1, l, l1, h, hx => by
    rw [List.foldl_cons] at hx
    by_cases hvu : v = uid
    · have e1 : removeStep ident inc obs uid u (some (n, l)) v = some (n, l) := by unfold removeStep; exact if_pos hvu
      rw [e1] at hx
      exact PartBoth.loop_out hu vs h hx
    · cases hg : HMap.get obs v with
      | none =>
        have e1 : removeStep ident inc obs uid u (some (n, l)) v = none := by unfold removeStep; simp only [if_neg hvu, hg]
        rw [e1, removeSteps_none] at hx
        cases hx
      | some vnode =>
        have e1 : removeStep ident inc obs uid u (some (n, l)) v =
            match (if inc then removeEdge ident n vnode u else removeEdge ident n u vnode) with
            | none => none
            | some (n', none) => some (n', l)
            | some (n', some e) => some (n', l ++ [e]) := by unfold removeStep; simp only [if_neg hvu, hg]; rfl
        rw [e1] at hx
        cases hr : (if inc then removeEdge ident n vnode u else removeEdge ident n u vnode) with
        | none => rw [hr] at hx; dsimp only at hx; rw [removeSteps_none] at hx; cases hx
        | some x =>
          obtain ⟨n2, e⟩ := x
          rw [hr] at hx
          have h2 : PartBoth ident N P lr lw n2 n' := by
            cases inc with
            | true => exact h.removeEdge_out (fun hc => by rw [hu] at hc; cases hc.2) hr
            | false => exact h.removeEdge_out (fun hc => by rw [hu] at hc; cases hc.1) hr
          cases e with
          | none => exact PartBoth.loop_out hu vs h2 hx
          | some e => exact PartBoth.loop_out hu vs h2 hx

theorem PartBoth.removeOf (hN : N.Nodup) {inc : Bool} {lr lw : Nat} {n n' n1 : Net K O L W} (h : PartBoth ident N P lr lw n n') {u : O}
    {ris : Option (List (Edge L W))} (hx : removeEdgesOf ident inc n u = some (n1, ris)) :
    (P (ident u) = true → ∃ n1' ris', removeEdgesOf ident inc n' u = some (n1', ris') ∧ PartBoth ident N P lr lw n1 n1') ∧
    (P (ident u) = false → PartBoth ident N P lr lw n1 n') := by
  unfold removeEdgesOf at hx ⊢
  cases hg : HMap.get n.r.nodes2id (ident u) with
  | none =>
    rw [hg] at hx
    cases hx
    refine ⟨fun hu => ?_, fun _ => h⟩
    rw [h.r.id_via hN hu, hg]
    exact ⟨_, _, rfl, h⟩
  | some uid =>
    rw [hg] at hx
    dsimp only at hx
    obtain ⟨_, _, hpu⟩ := h.r.id_lt hg
    cases hf : (HMap.keys n.w.id2nodes).foldl (removeStep ident inc n.w.id2nodes uid u) (some (n, [])) with
    | none => rw [hf] at hx; cases hx
    | some x =>
      obtain ⟨n2, l2⟩ := x
      rw [hf] at hx
      cases hx
      refine ⟨fun hu => ?_, fun hu => PartBoth.loop_out hu _ h hf⟩
      rw [h.r.id_via hN hu, hg]
      dsimp only [Option.map_some]
      obtain ⟨n1', l1', h1, h2⟩ := PartBoth.loop_in hN (obs' := n'.w.id2nodes) (len := lw) hu (hpu.trans hu) h.w.objs h.w.same
        (HMap.keys n.w.id2nodes) (fun v hv => by rw [h.w.ids] at hv; exact List.mem_range.1 hv) [] h hf
      rw [h.w.ids, part_range, ← h.w.ids'] at h1
      rw [h1]
      exact ⟨_, _, rfl, h2⟩

theorem PartBoth.addEdge_in (hN : N.Nodup) {lr lw : Nat} {n n' : Net K O L W} (h : PartBoth ident N P lr lw n n') {u v : O}
    (hu : P (ident u) = true) (hv : P (ident v) = true) (o : EdgeOptions L W) :
    PartBoth ident N P lr lw (addEdge ident n u v o).1 (addEdge ident n' u v o).1 := by
  unfold addEdge
  rw [h.w.id_via hN hu, h.w.id_via hN hv, h.direct]
  cases hgu : HMap.get n.w.nodes2id (ident u) with
  | none => exact h
  | some a =>
    dsimp only [Option.map_some]
    cases hgv : HMap.get n.w.nodes2id (ident v) with
    | none => exact h
    | some b =>
      dsimp only [Option.map_some]
      obtain ⟨ha, _, hpa⟩ := h.w.id_lt hgu
      obtain ⟨hb, _, hpb⟩ := h.w.id_lt hgv
      have hpa := hpa.trans hu
      have hpb := hpb.trans hv
      have h1 := h.w.lists.push_in ha hb (hpb.trans hpa.symm) hpa o
      by_cases hd : n.direct = true
      · rw [if_pos hd, if_pos hd]
        exact ⟨h.le, h.r, h.w.withEdges h1, rfl⟩
      · rw [if_neg hd, if_neg hd]
        exact ⟨h.le, h.r, h.w.withEdges (h1.push_in hb ha (hpa.trans hpb.symm) hpb o), rfl⟩

theorem PartBoth.addEdge_out {lr lw : Nat} {n n' : Net K O L W} (h : PartBoth ident N P lr lw n n') {u v : O}
    (hu : P (ident u) = false) (hv : P (ident v) = false) (o : EdgeOptions L W) :
    PartBoth ident N P lr lw (addEdge ident n u v o).1 n' := by
  unfold addEdge
  cases hgu : HMap.get n.w.nodes2id (ident u) with
  | none => exact h
  | some a =>
    dsimp only
    cases hgv : HMap.get n.w.nodes2id (ident v) with
    | none => exact h
    | some b =>
      dsimp only
      obtain ⟨ha, _, hpa⟩ := h.w.id_lt hgu
      obtain ⟨hb, _, hpb⟩ := h.w.id_lt hgv
      have hpa := hpa.trans hu
      have hpb := hpb.trans hv
      have h1 := h.w.lists.push_out ha hb (hpb.trans hpa.symm) hpa o
      by_cases hd : n.direct = true
      · rw [if_pos hd]
        exact ⟨h.le, h.r, h.w.withEdges h1, h.direct⟩
      · rw [if_neg hd]
        exact ⟨h.le, h.r, h.w.withEdges (h1.push_out hb ha (hpa.trans hpb.symm) hpb o), h.direct⟩

theorem part_updateNode {lr lw : Nat} (hN : N.Nodup) {n n' : Net K O L W} (h : PartBoth ident N P lr lw n n') (u : O) :
    (P (ident u) = true → PartBoth ident N P lr lw (updateNode ident n u) (updateNode ident n' u)) ∧
    (P (ident u) = false → PartBoth ident N P lr lw (updateNode ident n u) n') := by
  have keys : ∀ (m : HMap Nat O) (i : Nat) (f : O → O), HMap.keys (HMap.adjust m i f) = HMap.keys m := fun m i f =>
    HMap.keys_map_snd m _ (by intro e; split <;> rfl)
  unfold updateNode
  cases hg : HMap.get n.w.nodes2id (ident u) with
  | none =>
    refine ⟨fun hu => ?_, fun _ => h⟩
    rw [h.w.id_via hN hu, hg]
    exact h
  | some i =>
    obtain ⟨hi, hik, hp⟩ := h.w.id_lt hg
    have hobj : ∀ j o, HMap.get (HMap.adjust n.w.id2nodes i (fun _ => u)) j = some o → N[j]? = some (ident o) := fun j o hj => by
      rw [HMap.get_adjustBy] at hj
      by_cases hji : j = i
      · rw [if_pos hji] at hj
        obtain ⟨_, _, rfl⟩ := Option.map_eq_some_iff.1 hj
        rw [hji]
        exact hik
      · rw [if_neg hji] at hj
        exact h.w.objs j o hj
    refine ⟨fun hu => ?_, fun hu => ?_⟩
    · rw [h.w.id_via hN hu, hg]
      refine ⟨h.le, h.r, ⟨h.w.le, h.w.names, h.w.names', (keys n.w.id2nodes i (fun _ => u)).trans h.w.ids, (keys n'.w.id2nodes (partId N P i) (fun _ => u)).trans h.w.ids', hobj, ?_, h.w.lists⟩, h.direct⟩
      intro j hj hpj
      show HMap.get (HMap.adjust n'.w.id2nodes (partId N P i) (fun _ => u)) (partId N P j) = HMap.get (HMap.adjust n.w.id2nodes i (fun _ => u)) j
      rw [HMap.get_adjustBy, HMap.get_adjustBy]
      by_cases hji : j = i
      · rw [if_pos hji, if_pos (by rw [hji]), h.w.same i hi (hp.trans hu)]
      · rw [if_neg hji, if_neg (fun hc => hji (partId_inj hpj (hp.trans hu) hc))]
        exact h.w.same j hj hpj
    · refine ⟨h.le, h.r, ⟨h.w.le, h.w.names, h.w.names', (keys n.w.id2nodes i (fun _ => u)).trans h.w.ids, h.w.ids', hobj, ?_, h.w.lists⟩, h.direct⟩
      intro j hj hpj
      show HMap.get n'.w.id2nodes (partId N P j) = HMap.get (HMap.adjust n.w.id2nodes i (fun _ => u)) j
      rw [HMap.get_adjustBy, if_neg (fun hc => by rw [hc, hp, hu] at hpj; cases hpj)]
      exact h.w.same j hj hpj

theorem get_keys_range {V : Type} {m : HMap Nat V} {len : Nat} (h : HMap.keys m = List.range len) {i : Nat} (hi : len ≤ i) :
    HMap.get m i = none := by
  rw [HMap.get_eq_none_iff, h, List.mem_range]
  omega

theorem part_addNode (hN : N.Nodup) {lr lw : Nat} {n n' : Net K O L W} (h : PartBoth ident N P lr lw n n') {u : O}
    (hk : N[lw]? = some (ident u)) :
    (P (ident u) = true → PartBoth ident N P lr (lw + 1) (addNode ident n u) (addNode ident n' u)) ∧
    (P (ident u) = false → PartBoth ident N P lr (lw + 1) (addNode ident n u) n') := by
  have hlt : lw < N.length := (List.getElem?_eq_some_iff.1 hk).1
  have htake : N.take (lw + 1) = N.take lw ++ [ident u] := by rw [List.take_add_one, hk]; rfl
  have hfresh : ident u ∉ N.take lw := by
    have := hN.sublist (List.take_sublist (lw + 1) N)
    rw [htake] at this
    exact fun hc => (List.nodup_append.1 this).2.2 _ hc _ (List.mem_singleton.2 rfl) rfl
  have hl : n.w.nodes2id.length = lw := by rw [h.w.names.len, List.length_take, Nat.min_eq_left h.w.le]
  have hl' : n'.w.nodes2id.length = partId N P lw := h.w.names'.len
  have hpart : inPart N P lw = P (ident u) := by unfold inPart; rw [hk]; rfl
  have hnames : Named (N.take (lw + 1)) (HMap.insert n.w.nodes2id (ident u) n.w.nodes2id.length).1 := by
    rw [htake]; exact h.w.names.add hfresh
  have hfree : HMap.get n.w.id2nodes lw = none := get_keys_range h.w.ids (Nat.le_refl _)
  have hids : HMap.keys (HMap.insert n.w.id2nodes n.w.nodes2id.length u).1 = List.range (lw + 1) := by
    rw [hl, HMap.insert_absent hfree]
    unfold HMap.keys
    rw [List.map_append, List.range_succ]
    have := h.w.ids
    unfold HMap.keys at this
    rw [this]
    rfl
  have hget : ∀ j, HMap.get (HMap.insert n.w.id2nodes n.w.nodes2id.length u).1 j = if j = lw then some u else HMap.get n.w.id2nodes j := fun j => by
    rw [hl, HMap.insert_absent hfree, HMap.get_append, HMap.get_cons, HMap.get_nil]
    by_cases hj : j = lw
    · rw [if_pos hj, if_pos hj.symm, hj, hfree]; rfl
    · rw [if_neg hj, if_neg (fun hc => hj hc.symm), Option.or_none]
  have hobj : ∀ j o, HMap.get (HMap.insert n.w.id2nodes n.w.nodes2id.length u).1 j = some o → N[j]? = some (ident o) := fun j o hj => by
    rw [hget] at hj
    by_cases hjl : j = lw
    · rw [if_pos hjl] at hj
      cases hj
      rw [hjl]
      exact hk
    · rw [if_neg hjl] at hj
      exact h.w.objs j o hj
  have hnone : HMap.get n.w.edges lw = none := by
    cases hg : HMap.get n.w.edges lw with
    | none => rfl
    | some es => exact absurd (h.w.lists.own lw es hg).1 (Nat.lt_irrefl _)
  have hown : ∀ i es, HMap.get (ensureList n.w.edges n.w.nodes2id.length) i = some es →
      i < lw + 1 ∧ ∀ e ∈ es, e.u = i ∧ e.v < lw + 1 ∧ inPart N P e.v = inPart N P i := fun i es hi => by
    rw [get_ensureList, hl] at hi
    by_cases hil : i = lw
    · rw [if_pos hil, hnone] at hi
      cases hi
      exact ⟨by omega, fun e he => by cases he⟩
    · rw [if_neg hil] at hi
      obtain ⟨h1, h2⟩ := h.w.lists.own i es hi
      exact ⟨by omega, fun e he => ⟨(h2 e he).1, by have := (h2 e he).2.1; omega, (h2 e he).2.2⟩⟩
  refine ⟨fun hu => ?_, fun hu => ?_⟩
  · have hps := partId_succ (hpart.trans hu)
    have hnames' : Named ((N.take (lw + 1)).filter P) (HMap.insert n'.w.nodes2id (ident u) n'.w.nodes2id.length).1 := by
      rw [htake, List.filter_append]
      have : [ident u].filter P = [ident u] := by simp [hu]
      rw [this]
      exact h.w.names'.add (fun hc => hfresh (List.mem_of_mem_filter hc))
    have hfree' : HMap.get n'.w.id2nodes (partId N P lw) = none := get_keys_range h.w.ids' (Nat.le_refl _)
    have hids' : HMap.keys (HMap.insert n'.w.id2nodes n'.w.nodes2id.length u).1 = List.range (partId N P (lw + 1)) := by
      rw [hl', HMap.insert_absent hfree', hps]
      unfold HMap.keys
      rw [List.map_append, List.range_succ]
      have := h.w.ids'
      unfold HMap.keys at this
      rw [this]
      rfl
    refine ⟨Nat.le_succ_of_le h.le, h.r, ⟨hlt, hnames, hnames', hids, hids', hobj, ?_, ⟨hown, ?_, ?_⟩⟩, h.direct⟩
    · intro i hi hpi
      show HMap.get (HMap.insert n'.w.id2nodes n'.w.nodes2id.length u).1 (partId N P i) = HMap.get (HMap.insert n.w.id2nodes n.w.nodes2id.length u).1 i
      rw [hget, hl', HMap.insert_absent hfree', HMap.get_append, HMap.get_cons, HMap.get_nil]
      by_cases hil : i = lw
      · rw [if_pos hil, hil, hfree', if_pos rfl]; rfl
      · rw [if_neg hil, if_neg (fun hc => hil (partId_inj hpi (hpart.trans hu) hc.symm)), Option.or_none]
        exact h.w.same i (by omega) hpi
    · intro j es hj
      change HMap.get (ensureList n'.w.edges n'.w.nodes2id.length) j = some es at hj
      rw [get_ensureList, hl'] at hj
      by_cases hjl : j = partId N P lw
      · rw [hps]; omega
      · rw [if_neg hjl] at hj
        have := h.w.lists.keys j es hj
        omega
    · intro i hi hpi
      show HMap.get (ensureList n'.w.edges n'.w.nodes2id.length) (partId N P i) = (HMap.get (ensureList n.w.edges n.w.nodes2id.length) i).map _
      rw [get_ensureList, get_ensureList, hl, hl']
      by_cases hil : i = lw
      · have hnone' : HMap.get n'.w.edges (partId N P lw) = none := by
          cases hg : HMap.get n'.w.edges (partId N P lw) with
          | none => rfl
          | some es => exact absurd (h.w.lists.keys _ es hg) (Nat.lt_irrefl _)
        rw [if_pos hil, if_pos (by rw [hil]), hnone, hnone']
        rfl
      · rw [if_neg hil, if_neg (fun hc => hil (partId_inj hpi (hpart.trans hu) hc))]
        exact h.w.lists.same i (by omega) hpi
  · have hps := partId_skip (hpart.trans hu)
    have hfil : (N.take (lw + 1)).filter P = (N.take lw).filter P := by
      rw [htake, List.filter_append]
      simp [hu]
    refine ⟨Nat.le_succ_of_le h.le, h.r, ⟨hlt, hnames, by rw [hfil]; exact h.w.names', hids, by rw [hps]; exact h.w.ids', hobj, ?_,
      ⟨hown, by rw [hps]; exact h.w.lists.keys, ?_⟩⟩, h.direct⟩
    · intro i hi hpi
      have hil : i ≠ lw := fun hc => by rw [hc, hpart, hu] at hpi; cases hpi
      show HMap.get n'.w.id2nodes (partId N P i) = HMap.get (HMap.insert n.w.id2nodes n.w.nodes2id.length u).1 i
      rw [hget, if_neg hil]
      exact h.w.same i (by omega) hpi
    · intro i hi hpi
      have hil : i ≠ lw := fun hc => by rw [hc, hpart, hu] at hpi; cases hpi
      show HMap.get n'.w.edges (partId N P i) = (HMap.get (ensureList n.w.edges n.w.nodes2id.length) i).map _
      rw [get_ensureList, hl, if_neg hil]
      exact h.w.lists.same i (by omega) hpi

/-! ### Histories -/

theorem PartBoth.step (hN : N.Nodup) {lr lw : Nat} {n n' n1 : Net K O L W} (h : PartBoth ident N P lr lw n n') {op : Op O L W}
    (hw : op.Within ident P) (hr : ∀ u, op ≠ .removeNode u) (hadd : ∀ u, op = .addNode u → N[lw]? = some (ident u))
    (hx : exec ident n op = some n1) :
    ∃ lr', (op.about ident P = true → ∃ n1', exec ident n' op = some n1' ∧ PartBoth ident N P lr' (lw + (nodesAdded [op]).length) n1 n1') ∧
      (op.about ident P = false → PartBoth ident N P lr' (lw + (nodesAdded [op]).length) n1 n') := by
  cases op with
  | addNode u =>
    cases hx
    have := part_addNode hN h (hadd u rfl)
    exact ⟨lr, fun hu => ⟨_, rfl, this.1 hu⟩, this.2⟩
  | addEdge u v o =>
    cases hx
    have hv : P (ident u) = P (ident v) := hw
    exact ⟨lr, fun hu => ⟨_, rfl, h.addEdge_in hN hu (hv.symm.trans hu) o⟩, fun hu => h.addEdge_out hu (hv.symm.trans hu) o⟩
  | removeEdge u v =>
    obtain ⟨⟨n2, e⟩, hx2, rfl⟩ := Option.map_eq_some_iff.1 hx
    have hv : P (ident u) = P (ident v) := hw
    refine ⟨lr, fun hu => ?_, fun hu => h.removeEdge_out (fun hc => by rw [show P (ident u) = false from hu] at hc; cases hc.1) hx2⟩
    obtain ⟨n1', e', h1, h2⟩ := h.removeEdge_in hN hu (hv.symm.trans hu) hx2
    exact ⟨n1', by show (removeEdge ident n' u v).map Prod.fst = _; rw [h1]; rfl, h2⟩
  | removeIncoming u =>
    obtain ⟨⟨n2, e⟩, hx2, rfl⟩ := Option.map_eq_some_iff.1 hx
    obtain ⟨h1, h2⟩ := h.removeOf hN hx2
    refine ⟨lr, fun hu => ?_, h2⟩
    obtain ⟨n1', e', h3, h4⟩ := h1 hu
    exact ⟨n1', by show (removeEdgesOf ident true n' u).map Prod.fst = _; rw [h3]; rfl, h4⟩
  | removeOutgoing u =>
    obtain ⟨⟨n2, e⟩, hx2, rfl⟩ := Option.map_eq_some_iff.1 hx
    obtain ⟨h1, h2⟩ := h.removeOf hN hx2
    refine ⟨lr, fun hu => ?_, h2⟩
    obtain ⟨n1', e', h3, h4⟩ := h1 hu
    exact ⟨n1', by show (removeEdgesOf ident false n' u).map Prod.fst = _; rw [h3]; rfl, h4⟩
  | removeNode u => exact absurd rfl (hr u)
  | removeAllEdges =>
    cases hx
    refine ⟨lr, fun _ => ⟨_, rfl, h.withEdges ⟨fun i es hi => ?_, fun j es hj => ?_, fun i _ _ => rfl⟩⟩, fun hc => by cases hc⟩
    · cases hi
    · cases hj
  | updateNode u =>
    cases hx
    have := part_updateNode hN h u
    exact ⟨lr, fun hu => ⟨_, rfl, this.1 hu⟩, this.2⟩
  | update =>
    cases hx
    exact ⟨lw, fun _ => ⟨_, rfl, ⟨Nat.le_refl _, h.w, h.w, h.direct⟩⟩, fun hc => by cases hc⟩
  | lazyUpdate =>
    cases hx
    exact ⟨lw, fun _ => ⟨_, rfl, ⟨Nat.le_refl _, h.w, h.w, h.direct⟩⟩, fun hc => by cases hc⟩

theorem PartBoth.run (hN : N.Nodup) : ∀ (ops : List (Op O L W)) {lr lw : Nat} {n n' n1 : Net K O L W}, PartBoth ident N P lr lw n n' →
    (∀ op ∈ ops, op.Within ident P) → (∀ u, Op.removeNode u ∉ ops) → N.drop lw = (nodesAdded ops).map ident →
    Network.run ident n ops = some n1 →
    ∃ n1' lr' lw', Network.run ident n' (ops.filter (Op.about ident P)) = some n1' ∧ PartBoth ident N P lr' lw' n1 n1'
  | [], lr, lw, n, n', n1, h, _, _, _, hx => by
    cases hx
    exact ⟨n', lr, lw, rfl, h⟩
  | op :: ops, lr, lw, n, n', n1, h, hw, hr, hd, hx => by
    rw [Network.run] at hx
    cases he : exec ident n op with
    | none => rw [he] at hx; cases hx
    | some n2 =>
      rw [he] at hx
      have hadd : ∀ u, op = .addNode u → N[lw]? = some (ident u) := by
        rintro u rfl
        have := congrArg (fun l : List K => l[0]?) hd
        rw [List.getElem?_drop] at this
        exact this
      have hd' : N.drop (lw + (nodesAdded [op]).length) = (nodesAdded ops).map ident := by
        rw [← List.drop_drop, hd]
        cases op <;> rfl
      obtain ⟨lr', h1, h2⟩ := h.step hN (hw op List.mem_cons_self) (fun u hc => hr u (hc ▸ List.mem_cons_self)) hadd he
      have hw' := fun o ho => hw o (List.mem_cons_of_mem _ ho)
      have hr' := fun u hu => hr u (List.mem_cons_of_mem _ hu)
      by_cases ha : op.about ident P = true
      · obtain ⟨n2', h3, h4⟩ := h1 ha
        rw [List.filter_cons_of_pos ha, Network.run, h3]
        exact PartBoth.run hN ops h4 hw' hr' hd' hx
      · have ha' : op.about ident P = false := by simpa using ha
        rw [List.filter_cons_of_neg ha]
        exact PartBoth.run hN ops (h2 ha') hw' hr' hd' hx

theorem both_new (ident : O → K) (N : List K) (P : K → Bool) (d : Bool) :
    PartBoth ident N P 0 0 (Net.new d : Net K O L W) (Net.new d) := by
  have h : PartHalf ident N P 0 (⟨[], [], []⟩ : Side K O L W) ⟨[], [], []⟩ := by
    refine ⟨Nat.zero_le _, ⟨fun k i => ?_, rfl⟩, ⟨fun k i => ?_, rfl⟩, rfl, rfl, fun i o hi => ?_, fun i hi => ?_, ⟨fun i es hi => ?_, fun j es hj => ?_, fun i hi => ?_⟩⟩
    · simp
    · simp
    · cases hi
    · omega
    · cases hi
    · cases hj
    · omega
  exact ⟨Nat.le_refl _, h, h, rfl⟩

/-- **C265.** (Partial: nodes are added once each and not removed.) If a history makes no edge between the nodes of a part and the others and panics
nowhere, then the calls about this part alone panic nowhere either, and every node of the part is there exactly if it is there after the whole
history and has the same object and the same edges in the same order. -/
theorem C265_parts_partial (ident : O → K) (P : K → Bool) (d : Bool) (ops : List (Op O L W)) (hw : ∀ op ∈ ops, op.Within ident P)
    (hr : ∀ u, Op.removeNode u ∉ ops) (ha : ((nodesAdded ops).map ident).Nodup) (n : Net K O L W) (hx : run ident (Net.new d) ops = some n) :
    ∃ n', run ident (Net.new d) (ops.filter (Op.about ident P)) = some n' ∧ ∀ u, P (ident u) = true →
      edgesShown ident n' u = edgesShown ident n u ∧ (getId ident n' u).bind (getObject n') = (getId ident n u).bind (getObject n) := by
  obtain ⟨n', lr, lw, h1, h2⟩ := PartBoth.run ha ops (both_new ident _ P d) hw hr rfl hx
  refine ⟨n', h1, fun u hu => ?_⟩
  unfold edgesShown getEdges getId getObject
  rw [h2.r.id_via ha hu]
  cases hg : HMap.get n.r.nodes2id (ident u) with
  | none => exact ⟨rfl, rfl⟩
  | some i =>
    obtain ⟨hi, _, hp⟩ := h2.r.id_lt hg
    have hpi := hp.trans hu
    dsimp only [Option.map_some, Option.bind_some]
    refine ⟨?_, h2.r.same i hi hpi⟩
    rw [h2.r.lists.same i hi hpi]
    cases hl : HMap.get n.r.edges i with
    | none => rfl
    | some es =>
      simp only [Option.map_some, List.map_map]
      congr 1
      apply List.map_congr_left
      intro e he
      obtain ⟨e1, e2, e3⟩ := (h2.r.lists.own i es hl).2 e he
      have a1 := h2.r.same e.u (by rw [e1]; exact hi) (by rw [e1]; exact hpi)
      have a2 := h2.r.same e.v e2 (e3.trans hpi)
      unfold Function.comp Edge.via
      dsimp only
      rw [a1, a2]

/-- A history of two parts, the nodes below 5 and the others, with all calls. -/
def demoParts : List (Op Nat Nat Nat) :=
  [.addNode 8, .addNode 1, .addNode 9, .addNode 2, .addEdge 8 9 .simple, .addEdge 1 2 (.labeled 7), .addEdge 2 1 .simple, .update,
    .removeEdge 9 8, .addNode 3, .addEdge 3 1 (.weighted 4), .lazyUpdate, .removeIncoming 8, .removeOutgoing 2, .updateNode 1, .addEdge 2 2 .simple, .update]

/-- A case that meets the hypotheses. -/
example : (∀ op ∈ demoParts, op.Within id (fun k => decide (k < 5))) ∧ (∀ u, Op.removeNode u ∉ demoParts) ∧ ((nodesAdded demoParts).map id).Nodup ∧
    (run id (Net.new false) demoParts).map (fun n => (edgesShown id n 1, edgesShown id n 2)) =
      some (some [(some 1, some 3, none, some 4)], some [(some 2, some 1, none, none), (some 2, some 2, none, none), (some 2, some 2, none, none)]) ∧
    (run id (Net.new false) (demoParts.filter (Op.about id (fun k => decide (k < 5))))).map (fun n => (edgesShown id n 1, edgesShown id n 2)) =
      some (some [(some 1, some 3, none, some 4)], some [(some 2, some 1, none, none), (some 2, some 2, none, none), (some 2, some 2, none, none)]) := by
  refine ⟨?_, ?_, by decide, rfl, rfl⟩
  · intro op hop
    simp only [demoParts, List.mem_cons, List.not_mem_nil, or_false] at hop
    rcases hop with rfl | rfl | rfl | rfl | rfl | rfl | rfl | rfl | rfl | rfl | rfl | rfl | rfl | rfl | rfl | rfl | rfl <;> trivial
  · intro u hu
    simp [demoParts] at hu

/-- **C265** is false of calls that remove edges: after `remove_all_edges` the nodes of another part have no lists, and removing the edges of a node
of this part panics at them, although the calls about this part alone do not. -/
theorem C265_panic_negation_partial : ∃ ops : List (Op Nat Nat Nat), (∀ op ∈ ops, op.Within id (fun k => decide (k < 5))) ∧
    (∀ u, Op.removeNode u ∉ ops) ∧ ((nodesAdded ops).map id).Nodup ∧ run id (Net.new false : Net Nat Nat Nat Nat) ops = none ∧
    (run id (Net.new false : Net Nat Nat Nat Nat) (ops.filter (Op.about id (fun k => decide (k < 5))))).isSome = true := by
  refine ⟨[.addNode 1, .addNode 2, .addNode 9, .update, .removeAllEdges, .addEdge 1 2 .simple, .removeIncoming 1], ?_, ?_, by decide, by decide +kernel,
    by decide +kernel⟩
  · intro op hop
    simp only [List.mem_cons, List.not_mem_nil, or_false] at hop
    rcases hop with rfl | rfl | rfl | rfl | rfl | rfl | rfl <;> trivial
  · intro u hu
    simp at hu

/-- **C265** is false of networks in which nodes are removed: a node of this part gets the id of a node of the other part and shows its edges. -/
theorem C265_removal_negation_partial : ∃ ops : List (Op Nat Nat Nat), (∀ op ∈ ops, op.Within id (fun k => decide (k < 5))) ∧
    ((nodesAdded ops).map id).Nodup ∧
    (run id (Net.new false : Net Nat Nat Nat Nat) ops).map (fun n => edgesShown id n 2) = some (some [(some 2, some 9, none, none)]) ∧
    (run id (Net.new false : Net Nat Nat Nat Nat) (ops.filter (Op.about id (fun k => decide (k < 5))))).map (fun n => edgesShown id n 2) =
      some (some []) := by
  refine ⟨[.addNode 1, .addNode 8, .addNode 9, .addNode 10, .addEdge 9 10 .simple, .update, .removeNode 8, .addNode 2, .update], ?_, by decide, rfl,
    rfl⟩
  intro op hop
  simp only [List.mem_cons, List.not_mem_nil, or_false] at hop
  rcases hop with rfl | rfl | rfl | rfl | rfl | rfl | rfl | rfl | rfl <;> trivial

/-- **C265** is false of networks in which a node is added twice. -/
theorem C265_again_negation_partial : ∃ ops : List (Op Nat Nat Nat), (∀ op ∈ ops, op.Within id (fun k => decide (k < 5))) ∧
    (∀ u, Op.removeNode u ∉ ops) ∧
    (run id (Net.new true : Net Nat Nat Nat Nat) ops).map (fun n => edgesShown id n 2) = some (some [(some 2, some 2, none, none)]) ∧
    (run id (Net.new true : Net Nat Nat Nat Nat) (ops.filter (Op.about id (fun k => decide (k < 5))))).map (fun n => edgesShown id n 2) =
      some (some []) := by
  refine ⟨[.addNode 1, .addNode 8, .addNode 8, .addEdge 8 8 .simple, .addNode 2, .update], ?_, ?_, rfl, rfl⟩
  · intro op hop
    simp only [List.mem_cons, List.not_mem_nil, or_false] at hop
    rcases hop with rfl | rfl | rfl | rfl | rfl | rfl <;> trivial
  · intro u hu
    simp at hu

end Verif.Network
