import Verif.Lemmas.Network4
import Verif.Spec.Degrees
import Mathlib.Data.List.Induction

/-!
Sums of degrees (C243).
-/

namespace Verif.Network

variable {K O L W : Type} [DecidableEq K]

/-- `f 0 + … + f (n - 1)`. -/
def sumTo (f : Nat → Nat) : Nat → Nat
  | 0 => 0
  | n + 1 => sumTo f n + f n

theorem sumTo_congr {f g : Nat → Nat} : ∀ {N : Nat}, (∀ i, i < N → f i = g i) → sumTo f N = sumTo g N
  | 0, _ => rfl
  | N + 1, h => by rw [sumTo, sumTo, sumTo_congr (fun i hi => h i (by omega)), h N (by omega)]

theorem sumTo_one {f g : Nat → Nat} {a : Nat} : ∀ {N : Nat}, a < N → (∀ i, i ≠ a → f i = g i) →
    sumTo f N + g a = sumTo g N + f a
  | 0, h, _ => absurd h (by omega)
  | N + 1, h, he => by
    rw [sumTo, sumTo]
    by_cases ha : a = N
    · subst ha
      rw [sumTo_congr (f := f) (g := g) (fun i hi => he i (by omega))]
      omega
    · have := sumTo_one (f := f) (g := g) (N := N) (by omega) he
      have := he N (Ne.symm ha)
      omega

theorem sum_eq_sumTo {α : Type} {F : α → Nat} {f : Nat → Nat} (l : List α)
    (h : ∀ i x, l[i]? = some x → F x = f i) : (l.map F).sum = sumTo f l.length := by
  induction l using List.reverseRecOn with
  | nil => rfl
  | append_singleton l x ih =>
    rw [List.map_append, List.sum_append, List.length_append]
    have h1 := ih (fun i y hy => h i y (by
      rw [List.getElem?_append_left (by
        rcases List.getElem?_eq_some_iff.1 hy with ⟨hl, _⟩; exact hl)]
      exact hy))
    have h2 := h l.length x (by simp)
    simp only [List.map_cons, List.map_nil, List.sum_cons, List.sum_nil, List.length_cons, List.length_nil]
    rw [h1, h2, sumTo]
    omega

/-- The number of entriesTo in the lists of the ids below `N`. -/
def entriesTo (m : EdgeMap L W) (N : Nat) : Nat := sumTo (fun i => ((HMap.get m i).getD []).length) N

/-- Only ids below `N` have lists. -/
def Below (m : EdgeMap L W) (N : Nat) : Prop := ∀ i es, HMap.get m i = some es → i < N

theorem Below.shrinks {m m' : EdgeMap L W} {N : Nat} (h : Below m N) (hs : Shrinks m m') : Below m' N := by
  intro i es hg
  cases hm : HMap.get m i with
  | none => rw [(hs i).1 hm] at hg; simp at hg
  | some es' => exact h i es' hm

theorem length_filter_not {α : Type} (p : α → Bool) (l : List α) :
    (l.filter (fun x => !p x)).length + l.countP p = l.length := by
  induction l with
  | nil => rfl
  | cons x l ih =>
    rw [List.filter_cons, List.countP_cons]
    cases hx : p x with
    | true => simp; omega
    | false => simp; omega

theorem length_eraseP_one {α : Type} {p : α → Bool} {l : List α} {e : α} (h : l.find? p = some e) :
    (l.eraseP p).length + 1 = l.length := by
  have hm := List.mem_of_find?_eq_some h
  have hp := List.find?_some h
  rw [List.length_eraseP_of_mem hm hp]
  have : 0 < l.length := List.length_pos_of_mem hm
  omega

/-- A directed removal takes out one entry for each edge it answers. -/
theorem entriesTo_directed {m m' : EdgeMap L W} {a b N : Nat} {r : Option (Edge L W)} (hown : Own m) (hb : Below m N)
    (h : removeEdgeIds true m a b = some (m', r)) : entriesTo m' N + r.toList.length = entriesTo m N := by
  cases hu : HMap.get m a with
  | none => unfold removeEdgeIds at h; rw [hu] at h; simp at h
  | some ues =>
    obtain ⟨m1, h1, h2⟩ := removeEdgeIds_directed (b := b) hu (hown a ues hu)
    rw [h1] at h
    simp at h
    obtain ⟨rfl, rfl⟩ := h
    have := sumTo_one (f := fun i => ((HMap.get m1 i).getD []).length) (g := fun i => ((HMap.get m i).getD []).length)
      (a := a) (hb a ues hu) (by intro i hi; rw [h2, if_neg hi])
    unfold entriesTo
    rw [h2 a, if_pos rfl, hu] at this
    simp only [Option.getD_some] at this
    cases hf : ues.find? (fun e => e.v == b) with
    | none =>
      rw [List.eraseP_of_forall_not (by rw [List.find?_eq_none] at hf; exact hf)] at this
      simp only [Option.toList_none, List.length_nil]; omega
    | some e =>
      have := length_eraseP_one hf
      simp only [Option.toList_some, List.length_cons, List.length_nil]; omega

/-- An undirected removal takes out two entriesTo for each edge it answers if there is at most one edge. -/
theorem entriesTo_undirected {m m' : EdgeMap L W} {a b N : Nat} {r : Option (Edge L W)} (hown : Own m) (hb : Below m N)
    (hs : ∀ i j, multM m i j = multM m j i) (h1 : a ≠ b → multM m a b ≤ 1)
    (h2 : a = b → multM m a a = 0 ∨ multM m a a = 2)
    (h : removeEdgeIds false m a b = some (m', r)) : entriesTo m' N + 2 * r.toList.length = entriesTo m N := by
  cases hu : HMap.get m a with
  | none => unfold removeEdgeIds at h; rw [hu] at h; simp at h
  | some ues =>
    have ha := hb a ues hu
    have ou := hown a ues hu
    cases hf : ues.find? (fun e => e.v == b) with
    | none =>
      rw [List.find?_eq_none] at hf
      rw [removeEdgeIds_undirected_none hu ou (fun e he => by simpa using hf e he)] at h
      simp at h
      obtain ⟨rfl, rfl⟩ := h
      simp
    | some e =>
      have hpos : multM m a b ≠ 0 := by
        unfold multM; rw [hu]
        intro h0
        rw [Option.getD_some, ← find?_isSome_countP, hf] at h0
        simp at h0
      by_cases hab : a = b
      · subst hab
        obtain ⟨m1, e1, e2⟩ := removeEdgeIds_loop hu ou hf
        rw [e1] at h
        simp at h
        obtain ⟨rfl, rfl⟩ := h
        have := sumTo_one (f := fun i => ((HMap.get m1 i).getD []).length)
          (g := fun i => ((HMap.get m i).getD []).length) ha (by intro i hi; rw [e2, if_neg hi])
        rw [e2 a, if_pos rfl, hu] at this
        simp only [Option.getD_some] at this
        have two : ues.countP (fun e => e.v == a) = 2 := by
          have := (h2 rfl).resolve_left hpos
          unfold multM at this; rwa [hu] at this
        have := length_filter_not (fun e : Edge L W => e.v == a) ues
        unfold entriesTo
        simp only [Option.toList_some, List.length_cons, List.length_nil]; omega
      · cases hv : HMap.get m b with
        | none =>
          have := hs a b
          have z : multM m b a = 0 := by unfold multM; rw [hv]; rfl
          omega
        | some ves =>
          have hbN := hb b ves hv
          obtain ⟨m1, e1, e2⟩ := removeEdgeIds_undirected hab hu hv ou (hown b ves hv) hf
          rw [e1] at h
          simp at h
          obtain ⟨rfl, rfl⟩ := h
          have one : ves.countP (fun e => e.v == a) = 1 := by
            have := hs a b
            have := h1 hab
            have : multM m b a = 1 := by omega
            unfold multM at this; rwa [hv] at this
          have l1 := length_filter_not (fun e : Edge L W => e.v == a) ves
          have l2 := length_eraseP_one hf
          -- change `a` first, then `b`
          have s1 := sumTo_one
            (f := fun i => if i = a then (ues.eraseP (fun e => e.v == b)).length else ((HMap.get m i).getD []).length)
            (g := fun i => ((HMap.get m i).getD []).length) ha (by intro i hi; rw [if_neg hi])
          have s2 := sumTo_one (f := fun i => ((HMap.get m1 i).getD []).length)
            (g := fun i => if i = a then (ues.eraseP (fun e => e.v == b)).length else ((HMap.get m i).getD []).length)
            hbN (by
              intro i hi
              rw [e2, if_neg hi]
              by_cases hia : i = a
              · rw [if_pos hia, if_pos hia]; rfl
              · rw [if_neg hia, if_neg hia])
          rw [e2 b, if_neg (Ne.symm hab), if_pos rfl] at s2
          rw [if_pos rfl, hu] at s1
          rw [if_neg (Ne.symm hab), hv] at s2
          simp only [Option.getD_some] at s1 s2
          unfold entriesTo
          simp only [Option.toList_some, List.length_cons, List.length_nil]
          omega

/-- How many entriesTo an edge has. -/
def perEdge (d : Bool) : Nat := if d then 1 else 2

/-- The facts used for counting entriesTo. -/
structure Counted (n : Net K O L W) (N : Nat) : Prop where
  own : Own n.w.edges
  below : Below n.w.edges N
  sym : n.direct = false → SymInv n

theorem entriesTo_removeEdge {ident : O → K} {n n' : Net K O L W} {u v : O} {r : Option (Edge L W)} {N : Nat}
    (hc : Counted n N) (ho : n.direct = false → OneBetween ident n (.removeEdge u v))
    (hr : removeEdge ident n u v = some (n', r)) :
    Counted n' N ∧ entriesTo n'.w.edges N + perEdge n.direct * r.toList.length = entriesTo n.w.edges N := by
  have hf := removeEdge_frame hr
  have hsym : n'.direct = false → SymInv n' := by
    intro hd
    rw [hf.direct] at hd
    refine removeEdge_sym (hc.sym hd) ?_ hr
    intro a b ha hb
    by_cases hab : a = b
    · exact Or.inl hab
    · exact Or.inr ((ho hd a b ha hb).1 hab)
  refine ⟨⟨hc.own.shrinks hf.edges, hc.below.shrinks hf.edges, hsym⟩, ?_⟩
  unfold removeEdge at hr
  cases hu : HMap.get n.r.nodes2id (ident u) with
  | none => rw [hu] at hr; simp at hr; obtain ⟨rfl, rfl⟩ := hr; simp
  | some uid =>
    rw [hu] at hr
    dsimp only at hr
    cases hv : HMap.get n.r.nodes2id (ident v) with
    | none => rw [hv] at hr; simp at hr; obtain ⟨rfl, rfl⟩ := hr; simp
    | some vid =>
      rw [hv] at hr
      dsimp only at hr
      cases hx : removeEdgeIds n.direct n.w.edges uid vid with
      | none => rw [hx] at hr; simp at hr
      | some x =>
        obtain ⟨m', r'⟩ := x
        rw [hx] at hr
        simp at hr
        obtain ⟨rfl, rfl⟩ := hr
        dsimp only
        cases hd : n.direct with
        | true =>
          rw [hd] at hx
          have := entriesTo_directed (N := N) hc.own hc.below hx
          unfold perEdge; rw [if_pos rfl]; omega
        | false =>
          rw [hd] at hx
          have hq := ho hd uid vid hu hv
          have := entriesTo_undirected (N := N) hc.own hc.below (hc.sym hd).w hq.1 hq.2 hx
          unfold perEdge; simp only [Bool.false_eq_true, if_false]; omega

theorem entriesTo_removeStep {ident : O → K} {inc : Bool} {ns : HMap Nat O} {uid : Nat} {u : O} {n n' : Net K O L W}
    {l l' : List (Edge L W)} {v N : Nat} (hc : Counted n N) (hu : HMap.get n.r.nodes2id (ident u) = some uid)
    (hm : n.direct = false → ∀ i, i ≠ uid → n.w.mult i uid ≤ 1)
    (hns : ∀ i o, i ≠ uid → HMap.get ns i = some o → HMap.get n.r.nodes2id (ident o) ≠ some uid)
    (hr : removeStep ident inc ns uid u (some (n, l)) v = some (n', l')) :
    Counted n' N ∧ entriesTo n'.w.edges N + perEdge n.direct * l'.length =
      entriesTo n.w.edges N + perEdge n.direct * l.length := by
  unfold removeStep at hr
  dsimp only at hr
  by_cases hv : v = uid
  · rw [if_pos hv] at hr; simp at hr; obtain ⟨rfl, rfl⟩ := hr; exact ⟨hc, rfl⟩
  · rw [if_neg hv] at hr
    cases hg : HMap.get ns v with
    | none => rw [hg] at hr; simp at hr
    | some o =>
      rw [hg] at hr
      dsimp only at hr
      have hne := hns v o hv hg
      cases hq : (if inc = true then removeEdge ident n o u else removeEdge ident n u o) with
      | none => rw [hq] at hr; simp at hr
      | some x =>
        obtain ⟨n1, r⟩ := x
        have key : Counted n1 N ∧ entriesTo n1.w.edges N + perEdge n.direct * r.toList.length = entriesTo n.w.edges N := by
          cases inc with
          | true =>
            refine entriesTo_removeEdge hc ?_ (by simpa using hq)
            intro hd a b ha hb
            rw [hu] at hb
            obtain rfl : uid = b := by simpa using hb
            refine ⟨fun hab => hm hd a hab, fun hab => ?_⟩
            subst hab
            exact absurd ha hne
          | false =>
            refine entriesTo_removeEdge hc ?_ (by simpa using hq)
            intro hd a b ha hb
            rw [hu] at ha
            obtain rfl : uid = a := by simpa using ha
            refine ⟨fun hab => by rw [(hc.sym hd).w]; exact hm hd b (Ne.symm hab), fun hab => ?_⟩
            subst hab
            exact absurd hb hne
        rw [hq] at hr
        cases r with
        | none =>
          simp at hr; obtain ⟨rfl, rfl⟩ := hr
          refine ⟨key.1, ?_⟩
          have := key.2
          simp only [Option.toList_none, List.length_nil] at this
          omega
        | some e =>
          simp at hr; obtain ⟨rfl, rfl⟩ := hr
          refine ⟨key.1, ?_⟩
          have := key.2
          simp only [Option.toList_some, List.length_cons, List.length_nil] at this
          rw [List.length_append, List.length_cons, List.length_nil, Nat.mul_add]
          omega

theorem entriesTo_foldl {ident : O → K} {inc : Bool} {ns : HMap Nat O} {uid : Nat} {u : O} {N : Nat} (ks : List Nat) :
    ∀ {n n' : Net K O L W} {l l' : List (Edge L W)}, Counted n N → HMap.get n.r.nodes2id (ident u) = some uid →
      (n.direct = false → ∀ i, i ≠ uid → n.w.mult i uid ≤ 1) →
      (∀ i o, i ≠ uid → HMap.get ns i = some o → HMap.get n.r.nodes2id (ident o) ≠ some uid) →
      ks.foldl (removeStep ident inc ns uid u) (some (n, l)) = some (n', l') →
      Counted n' N ∧ entriesTo n'.w.edges N + perEdge n.direct * l'.length =
        entriesTo n.w.edges N + perEdge n.direct * l.length := by
  induction ks with
  | nil => intro n n' l l' h _ _ _ hr; simp at hr; obtain ⟨rfl, rfl⟩ := hr; exact ⟨h, rfl⟩
  | cons k ks ih =>
    intro n n' l l' h hu hm hns hr
    rw [List.foldl_cons] at hr
    cases hs : removeStep ident inc ns uid u (some (n, l)) k with
    | none => rw [hs, foldl_removeStep_none] at hr; simp at hr
    | some x =>
      obtain ⟨n1, l1⟩ := x
      rw [hs] at hr
      have hf := removeStep_frame hs
      obtain ⟨c1, c2⟩ := entriesTo_removeStep h hu hm hns hs
      obtain ⟨d1, d2⟩ := ih c1 (by rw [hf.r]; exact hu)
        (by
          intro hd i hi
          rw [hf.direct] at hd
          exact Nat.le_trans (multM_shrinks hf.edges i uid) (hm hd i hi))
        (by rw [hf.r]; exact hns) hr
      rw [hf.direct] at d2
      exact ⟨d1, by omega⟩

end Verif.Network
