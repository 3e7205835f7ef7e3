import Verif.Lemmas.Network3
import Verif.Spec.NetworkPA

/-! Lemmas about preferential attachment. -/

set_option linter.unusedSectionVars false

namespace Verif.Network

variable {K O L W : Type} [DecidableEq K]

/-! ### The degree table -/

theorem length_bump (dist : List (O × Int × Nat)) (cs : List Nat) : (bump dist cs).length = dist.length := by
  unfold bump
  induction cs generalizing dist with
  | nil => rfl
  | cons c cs ih => rw [List.foldl_cons, ih, List.length_modify]

theorem bump_get (cs : List Nat) : ∀ (dist : List (O × Int × Nat)) (k : Nat) (o : O) (w : Int) (p : Nat),
    dist[k]? = some (o, w, p) → ∃ w', w ≤ w' ∧ (bump dist cs)[k]? = some (o, w', p) := by
  unfold bump
  induction cs with
  | nil => intro dist k o w p h; exact ⟨w, by omega, h⟩
  | cons c cs ih =>
    intro dist k o w p h
    rw [List.foldl_cons]
    by_cases hk : c = k
    · subst hk
      obtain ⟨w', h1, h2⟩ := ih (dist.modify c (fun x => (x.1, x.2.1 + 1, x.2.2))) c o (w + 1) p
        (by rw [List.getElem?_modify, h]; simp)
      exact ⟨w', by omega, h2⟩
    · exact ih _ k o w p (by rw [List.getElem?_modify, h]; simp [hk])

/-- The table has `i` rows, row `c` being node `c` with a positive weight. -/
def DistOk (node : Nat → O) (dist : List (O × Int × Nat)) (i : Nat) : Prop :=
  dist.length = i ∧ ∀ c, c < i → ∃ w, 0 < w ∧ dist[c]? = some (node c, w, c)

theorem DistOk.next {node : Nat → O} {dist : List (O × Int × Nat)} {i : Nat} (h : DistOk node dist i) (cs : List Nat)
    {w : Int} (hw : 0 < w) : DistOk node (bump dist cs ++ [(node i, w, i)]) (i + 1) := by
  refine ⟨by simp [length_bump, h.1], ?_⟩
  intro c hc
  by_cases hci : c = i
  · subst hci
    refine ⟨w, hw, ?_⟩
    rw [List.getElem?_append_right (by rw [length_bump, h.1]; omega), length_bump, h.1]
    simp
  · obtain ⟨w0, h1, h2⟩ := h.2 c (by omega)
    obtain ⟨w1, h3, h4⟩ := bump_get cs dist c _ _ _ h2
    refine ⟨w1, by omega, ?_⟩
    rw [List.getElem?_append_left (by rw [length_bump, h.1]; omega)]
    exact h4

/-! ### The edges added -/

/-- Adding the edges between the numbered nodes, in order. -/
def addPairs (ident : O → K) (node : Nat → O) (n : Net K O L W) (E : List (Nat × Nat)) : Net K O L W :=
  E.foldl (fun n p => (addEdge ident n (node p.1) (node p.2) .simple).1) n

/-- The pairs of the later nodes. -/
def pairs (i k : Nat) (T : Nat → List Nat) : List (Nat × Nat) :=
  (List.range' i k).flatMap (fun j => (T j).map (fun t => (j, t)))

theorem pairs_succ (i k : Nat) (T : Nat → List Nat) :
    pairs i (k + 1) T = (T i).map (fun t => (i, t)) ++ pairs (i + 1) k T := by
  unfold pairs
  rw [List.range'_succ, List.flatMap_cons]

theorem pairs_congr {i k : Nat} {T T' : Nat → List Nat} (h : ∀ j, i ≤ j → j < i + k → T j = T' j) :
    pairs i k T = pairs i k T' := by
  unfold pairs
  apply List.flatMap_congr
  intro j hj
  rw [List.mem_range'_1] at hj
  rw [h j hj.1 hj.2]

theorem mem_pairs {i k : Nat} {T : Nat → List Nat} {a b : Nat} :
    (a, b) ∈ pairs i k T ↔ i ≤ a ∧ a < i + k ∧ b ∈ T a := by
  unfold pairs
  rw [List.mem_flatMap]
  constructor
  · rintro ⟨j, hj, hm⟩
    rw [List.mem_range'_1] at hj
    rw [List.mem_map] at hm
    obtain ⟨t, ht, heq⟩ := hm
    simp at heq
    obtain ⟨rfl, rfl⟩ := heq
    exact ⟨hj.1, hj.2, ht⟩
  · rintro ⟨h1, h2, h3⟩
    exact ⟨a, by rw [List.mem_range'_1]; exact ⟨h1, h2⟩, by rw [List.mem_map]; exact ⟨b, h3, rfl⟩⟩

theorem nodup_pairs (k : Nat) (T : Nat → List Nat) : ∀ i, (∀ j, i ≤ j → j < i + k → (T j).Nodup) →
    (pairs i k T).Nodup := by
  induction k with
  | zero => intro i _; simp [pairs]
  | succ k ih =>
    intro i h
    rw [pairs_succ, List.nodup_append]
    refine ⟨?_, ih (i + 1) (fun j h1 h2 => h j (by omega) (by omega)), ?_⟩
    · have := h i (Nat.le_refl _) (by omega)
      rw [List.nodup_map_iff (fun x y hxy => by simpa using hxy)]
      exact this
    · intro x hx y hy hxy
      subst hxy
      rw [List.mem_map] at hx
      obtain ⟨t, _, rfl⟩ := hx
      rw [mem_pairs] at hy
      omega

theorem filterMap_dist {node : Nat → O} {dist : List (O × Int × Nat)} {i : Nat} (h : DistOk node dist i) (cs : List Nat)
    (hc : ∀ c ∈ cs, c < i) :
    (cs.filterMap (fun c => dist[c]?)).map (fun c => c.2.2) = cs ∧
    (cs.filterMap (fun c => dist[c]?)).map (fun c => c.1) = cs.map node := by
  induction cs with
  | nil => exact ⟨rfl, rfl⟩
  | cons c cs ih =>
    obtain ⟨w, _, hw⟩ := h.2 c (hc c List.mem_cons_self)
    obtain ⟨h1, h2⟩ := ih (fun d hd => hc d (List.mem_cons_of_mem _ hd))
    rw [List.filterMap_cons_some hw]
    simp [h1, h2]

theorem attach_eq (ident : O → K) (node : Nat → O) (i : Nat) (chosen : List (O × Int × Nat)) (cs : List Nat)
    (h : chosen.map (fun c => c.1) = cs.map node) (n : Net K O L W) :
    attach ident n (node i) chosen = addPairs ident node n (cs.map (fun t => (i, t))) := by
  unfold attach addPairs
  induction chosen generalizing cs n with
  | nil =>
    cases cs with
    | nil => rfl
    | cons c cs => simp at h
  | cons x xs ih =>
    cases cs with
    | nil => simp at h
    | cons c cs =>
      simp only [List.map_cons, List.cons.injEq] at h
      rw [List.map_cons, List.foldl_cons, List.foldl_cons, ih cs h.2, h.1]

theorem attachLoop_spec {ident : O → K} {pick : Nat → List (O × Int × Nat) → Nat → List Nat} (hp : GoodPick pick)
    {node : Nat → O} {nodes : List O} {m : Nat} (hm : 1 ≤ m) (k : Nat) :
    ∀ (i : Nat) (n : Net K O L W) (dist : List (O × Int × Nat)), 1 ≤ i → DistOk node dist i →
      (∀ j, j < i + k → nodes[j]? = some (node j)) →
      ∃ T : Nat → List Nat,
        (∀ j, i ≤ j → j < i + k → (T j).Nodup ∧ (T j).length = min j m ∧ ∀ t ∈ T j, t < j) ∧
        attachLoop ident pick nodes m k i n dist = some (addPairs ident node n (pairs i k T)) := by
  induction k with
  | zero => intro i n dist _ _ _; exact ⟨fun _ => [], fun j h1 h2 => by omega, rfl⟩
  | succ k ih =>
    intro i n dist hi hd hn
    unfold attachLoop
    rw [hn i (by omega)]
    dsimp only
    generalize ha : (if dist.length < m then dist.length else m) = amount
    have ham : amount = min i m := by
      rw [← ha, hd.1]
      split <;> omega
    obtain ⟨h1, h2, h3⟩ := hp i dist amount (by
      intro x hx
      obtain ⟨c, hc⟩ := List.mem_iff_getElem?.1 hx
      have hlt : c < i := by
        rw [← hd.1]
        exact (List.getElem?_eq_some_iff.1 hc).1
      obtain ⟨w, hw, hw'⟩ := hd.2 c hlt
      rw [hc] at hw'
      simp at hw'
      rw [hw']
      exact hw) (by rw [ham, hd.1]; omega)
    rw [hd.1] at h3
    obtain ⟨h4, h5⟩ := filterMap_dist hd (pick i dist amount) h3
    rw [h4, attach_eq ident node i _ _ h5 n]
    obtain ⟨T, h6, h7⟩ := ih (i + 1) (addPairs ident node n ((pick i dist amount).map (fun t => (i, t))))
      (bump dist (pick i dist amount) ++ [(node i, (amount : Int), i)]) (by omega)
      (hd.next _ (by rw [ham]; omega)) (fun j hj => hn j (by omega))
    refine ⟨fun j => if j = i then pick i dist amount else T j, ?_, ?_⟩
    · intro j hj1 hj2
      by_cases hji : j = i
      · simp only [hji, if_true]
        exact ⟨h1, by rw [h2, ham], h3⟩
      · simp only [hji, if_false]
        exact h6 j (by omega) (by omega)
    · rw [h7, pairs_succ, if_pos rfl]
      rw [pairs_congr (T := fun j => if j = i then pick i dist amount else T j) (T' := T)
        (fun j hj _ => if_neg (by omega))]
      unfold addPairs
      rw [List.foldl_append]

/-! ### What the lists are afterwards -/

/-- The entries a pair makes in the list of id `x`. -/
def entries (idOf : Nat → Nat) (direct : Bool) (x : Nat) (p : Nat × Nat) : List (Edge L W) :=
  (if x = idOf p.1 then [⟨idOf p.1, idOf p.2, none, none⟩] else []) ++
  (if direct = false ∧ x = idOf p.2 then [⟨idOf p.2, idOf p.1, none, none⟩] else [])

theorem addPairs_adj {ident : O → K} {node : Nat → O} {idOf : Nat → Nat} (E : List (Nat × Nat)) :
    ∀ (n : Net K O L W), (∀ p ∈ E, HMap.get n.w.nodes2id (ident (node p.1)) = some (idOf p.1) ∧
        HMap.get n.w.nodes2id (ident (node p.2)) = some (idOf p.2)) →
      (addPairs ident node n E).w.nodes2id = n.w.nodes2id ∧ (addPairs ident node n E).w.id2nodes = n.w.id2nodes ∧
      (addPairs ident node n E).direct = n.direct ∧
      ∀ x, (addPairs ident node n E).w.adj x = n.w.adj x ++ E.flatMap (entries idOf n.direct x) := by
  induction E with
  | nil => intro n _; exact ⟨rfl, rfl, rfl, fun x => by simp [addPairs]⟩
  | cons p E ih =>
    intro n h
    obtain ⟨hu, hv⟩ := h p List.mem_cons_self
    obtain ⟨_, h2, h3, h4, _⟩ := addEdge_ok (o := EdgeOptions.simple) hu hv
    have hr := addEdge_r ident n (node p.1) (node p.2) EdgeOptions.simple
    obtain ⟨a, b, c, d⟩ := ih (addEdge ident n (node p.1) (node p.2) .simple).1 (by
      intro q hq
      rw [h2]
      exact h q (List.mem_cons_of_mem _ hq))
    unfold addPairs at *
    rw [List.foldl_cons]
    refine ⟨a.trans h2, b.trans h3, c.trans hr.2, ?_⟩
    intro x
    rw [d, h4, hr.2, List.flatMap_cons, entries]
    simp [Edge.new, List.append_assoc]

theorem countP_entries {idOf : Nat → Nat} {N : Nat} (hinj : ∀ a b, a < N → b < N → idOf a = idOf b → a = b)
    (direct : Bool) {a b : Nat} (ha : a < N) (hb : b < N) {p : Nat × Nat} (hp : p.1 < N ∧ p.2 < N) :
    (entries (L := L) (W := W) idOf direct (idOf a) p).countP (fun e => e.v == idOf b) =
      (if p = (a, b) then 1 else 0) + (if direct = false ∧ p = (b, a) then 1 else 0) := by
  obtain ⟨c, d⟩ := p
  have e1 : ∀ y z, y < N → z < N → (idOf y = idOf z ↔ y = z) :=
    fun y z hy hz => ⟨hinj y z hy hz, fun h => by rw [h]⟩
  have ec : (idOf a = idOf c ↔ a = c) := e1 _ _ ha hp.1
  have ed : (idOf a = idOf d ↔ a = d) := e1 _ _ ha hp.2
  have fc : (idOf c = idOf b ↔ c = b) := e1 _ _ hp.1 hb
  have fd : (idOf d = idOf b ↔ d = b) := e1 _ _ hp.2 hb
  unfold entries
  simp only [ec, ed, Prod.mk.injEq, List.countP_append]
  congr 1
  · by_cases h1 : a = c
    · rw [if_pos h1, List.countP_cons]
      by_cases h2 : d = b
      · subst h2; subst h1; simp
      · have : ¬ (idOf d = idOf b) := fun h => h2 (fd.1 h)
        simp [this, h2]
    · rw [if_neg h1, if_neg (fun h => h1 h.1.symm)]; rfl
  · cases direct with
    | true => simp
    | false =>
      by_cases h1 : a = d
      · rw [if_pos ⟨rfl, h1⟩, List.countP_cons]
        by_cases h2 : c = b
        · subst h2; subst h1; simp
        · have : ¬ (idOf c = idOf b) := fun h => h2 (fc.1 h)
          simp [this, h2]
      · rw [if_neg (fun h => h1 h.2), if_neg (fun h => h1 h.2.2.symm)]; rfl

theorem countP_flatMap_entries {idOf : Nat → Nat} {N : Nat} (hinj : ∀ a b, a < N → b < N → idOf a = idOf b → a = b)
    (direct : Bool) {a b : Nat} (ha : a < N) (hb : b < N) (E : List (Nat × Nat)) (hE : ∀ p ∈ E, p.1 < N ∧ p.2 < N) :
    (E.flatMap (entries (L := L) (W := W) idOf direct (idOf a))).countP (fun e => e.v == idOf b) =
      E.count (a, b) + (if direct = false then E.count (b, a) else 0) := by
  induction E with
  | nil => simp
  | cons p E ih =>
    rw [List.flatMap_cons, List.countP_append, ih (fun q hq => hE q (List.mem_cons_of_mem _ hq)),
      countP_entries hinj direct ha hb (hE p List.mem_cons_self), List.count_cons, List.count_cons]
    cases direct with
    | true => simp; omega
    | false => simp; omega

theorem length_entries_sum {idOf : Nat → Nat} {N : Nat} (hinj : ∀ a b, a < N → b < N → idOf a = idOf b → a = b)
    (direct : Bool) {p : Nat × Nat} (hp : p.1 < N ∧ p.2 < N) :
    ((List.range N).map (fun a => (entries (L := L) (W := W) idOf direct (idOf a) p).length)).sum =
      if direct then 1 else 2 := by
  have one : ∀ c, c < N → ((List.range N).map (fun a => if idOf a = idOf c then 1 else 0)).sum = 1 := by
    intro c hc
    have e : (List.range N).map (fun a => if idOf a = idOf c then 1 else 0) =
        (List.range N).map (fun a => if a = c then 1 else 0) := by
      refine List.map_congr_left ?_
      intro a ha
      rw [List.mem_range] at ha
      have : (idOf a = idOf c ↔ a = c) := ⟨hinj a c ha hc, fun h => by rw [h]⟩
      simp only [this]
    rw [e]
    have : ∀ l : List Nat, (l.map (fun a => if a = c then 1 else 0)).sum = l.count c := by
      intro l
      induction l with
      | nil => rfl
      | cons x l ih =>
        rw [List.map_cons, List.sum_cons, ih, List.count_cons]
        by_cases h : x = c
        · simp [h]; omega
        · simp [h]
    rw [this, List.count_range]
    simp [hc]
  have e : ∀ a, (entries (L := L) (W := W) idOf direct (idOf a) p).length =
      (if idOf a = idOf p.1 then 1 else 0) + (if direct then 0 else if idOf a = idOf p.2 then 1 else 0) := by
    intro a
    unfold entries
    rw [List.length_append]
    congr 1
    · split <;> rfl
    · cases direct with
      | true => simp
      | false =>
        simp only [true_and, Bool.false_eq_true, if_false]
        split <;> rfl
  simp only [e]
  have add : ∀ (f g : Nat → Nat) (l : List Nat), (l.map (fun a => f a + g a)).sum = (l.map f).sum + (l.map g).sum := by
    intro f g l
    induction l with
    | nil => rfl
    | cons x l ih => simp only [List.map_cons, List.sum_cons, ih]; omega
  rw [add (fun a => if idOf a = idOf p.1 then 1 else 0)
    (fun a => if direct then 0 else if idOf a = idOf p.2 then 1 else 0), one p.1 hp.1]
  cases direct with
  | true =>
    simp only [if_true]
    have : ∀ l : List Nat, (l.map (fun _ => 0)).sum = 0 := by
      intro l
      induction l with
      | nil => rfl
      | cons x l ih => simp only [List.map_cons, List.sum_cons, ih]
    rw [this]
  | false =>
    simp only [Bool.false_eq_true, if_false]
    rw [one p.2 hp.2]

theorem length_flatMap_entries_sum {idOf : Nat → Nat} {N : Nat} (hinj : ∀ a b, a < N → b < N → idOf a = idOf b → a = b)
    (direct : Bool) (E : List (Nat × Nat)) (hE : ∀ p ∈ E, p.1 < N ∧ p.2 < N) :
    ((List.range N).map (fun a => (E.flatMap (entries (L := L) (W := W) idOf direct (idOf a))).length)).sum =
      (if direct then 1 else 2) * E.length := by
  induction E with
  | nil =>
    have : ∀ l : List Nat, (l.map (fun _ => 0)).sum = 0 := by
      intro l
      induction l with
      | nil => rfl
      | cons x l ih => simp only [List.map_cons, List.sum_cons, ih]
    simp
  | cons p E ih =>
    have add : ∀ (f g : Nat → Nat) (l : List Nat), (l.map (fun a => f a + g a)).sum = (l.map f).sum + (l.map g).sum := by
      intro f g l
      induction l with
      | nil => rfl
      | cons x l ih => simp only [List.map_cons, List.sum_cons, ih]; omega
    simp only [List.flatMap_cons, List.length_append]
    rw [add (fun a => (entries (L := L) (W := W) idOf direct (idOf a) p).length)
      (fun a => (E.flatMap (entries (L := L) (W := W) idOf direct (idOf a))).length),
      length_entries_sum hinj direct (hE p List.mem_cons_self), ih (fun q hq => hE q (List.mem_cons_of_mem _ hq)),
      List.length_cons, Nat.mul_add, Nat.mul_one, Nat.add_comm]

theorem length_pairs (m k : Nat) (T : Nat → List Nat) : ∀ i, (∀ j, i ≤ j → j < i + k → (T j).length = min j m) →
    (pairs i k T).length = ((List.range' i k).map (fun j => min j m)).sum := by
  induction k with
  | zero => intro i _; rfl
  | succ k ih =>
    intro i h
    rw [pairs_succ, List.length_append, List.length_map, h i (Nat.le_refl _) (by omega),
      ih (i + 1) (fun j h1 h2 => h j (by omega) (by omega)), List.range'_succ, List.map_cons, List.sum_cons]

end Verif.Network
