import Verif.Lemmas.ParNetwork

/-!
Helper lemmas: the loops of `remove_incoming_edges` and `remove_outgoing_edges` come to the same lists in every
order of the ids.
-/

namespace Verif.Network

set_option linter.unusedSectionVars false

variable {L W : Type}

/-- Lists by id. -/
abbrev Lists (L W : Type) := Nat → Option (List (Edge L W))

def upd (f : Lists L W) (k : Nat) (g : List (Edge L W) → List (Edge L W)) : Lists L W :=
  fun i => if i = k then (f i).map g else f i

def found (f : Lists L W) (a b : Nat) : Option (Edge L W) := (f a).bind (fun es => es.find? (between a b))

def remOk (d : Bool) (f : Lists L W) (a b : Nat) : Bool :=
  (f a).isSome && ((found f a b).isNone || d || (f b).isSome)

def eff (d : Bool) (f : Lists L W) (a b : Nat) : Lists L W :=
  if (found f a b).isSome then
    if d then upd f a (fun es => es.eraseP (between a b))
    else upd (upd f a (fun es => es.eraseP (between a b))) b (fun es => es.filter (fun e => !between a b e))
  else f

theorem eff_eq (d : Bool) (f : Lists L W) (a b : Nat) : eff d f a b =
    if (found f a b).isSome then
      if d then upd f a (fun es => es.eraseP (between a b))
      else upd (upd f a (fun es => es.eraseP (between a b))) b (fun es => es.filter (fun e => !between a b e))
    else f := rfl

def fRem (d : Bool) (f : Lists L W) (a b : Nat) : Option (Lists L W × Option (Edge L W)) :=
  if remOk d f a b then some (eff d f a b, found f a b) else none

theorem upd_isSome (f : Lists L W) (k : Nat) (g : List (Edge L W) → List (Edge L W)) (i : Nat) :
    (upd f k g i).isSome = (f i).isSome := by
  unfold upd
  by_cases h : i = k
  · rw [if_pos h]; simp
  · rw [if_neg h]

theorem eff_isSome (d : Bool) (f : Lists L W) (a b i : Nat) : (eff d f a b i).isSome = (f i).isSome := by
  unfold eff
  by_cases h : (found f a b).isSome = true
  · rw [if_pos h]
    cases d <;> simp [upd_isSome]
  · rw [if_neg h]

theorem removeEdgeIds_get (d : Bool) (m : EdgeMap L W) (a b : Nat) :
    (removeEdgeIds d m a b).map (fun x => (HMap.get x.1, x.2)) = fRem d (HMap.get m) a b := by
  unfold removeEdgeIds fRem remOk eff found
  cases hg : HMap.get m a with
  | none => simp
  | some ues =>
    simp only [Option.bind_some, Option.isSome_some, Bool.true_and]
    rcases Option.eq_none_or_eq_some (ues.find? (between a b)) with hf | ⟨e, hf⟩
    · simp [hf]
    · simp only [hf]
      have hx : HMap.get (HMap.adjust m a (fun es => es.eraseP (between a b))) =
          upd (HMap.get m) a (fun es => es.eraseP (between a b)) := by
        funext i
        rw [HMap.get_adjustBy]
        unfold upd
        by_cases hi : i = a
        · rw [if_pos hi, if_pos hi, hi]
        · rw [if_neg hi, if_neg hi]
      cases d with
      | true =>
        simp only [if_true, Option.map_some, hx]
        simp
      | false =>
        cases hb : HMap.get m b with
        | none => simp
        | some ves =>
          simp only [Bool.false_eq_true, if_false, Option.map_some, Option.isSome_some]
          simp only [Bool.or_true, if_true]
          congr 2
          funext i
          rw [HMap.get_adjustBy, hx]
          unfold upd
          by_cases hi : i = b
          · subst hi; simp
          · simp [hi]

def fStep (d inc : Bool) (uid : Nat) (f : Lists L W) (k : Nat) : Option (Lists L W × Option (Edge L W)) :=
  if inc then fRem d f k uid else fRem d f uid k

def fLoop (d inc : Bool) (uid : Nat) : List Nat → Lists L W → Option (Lists L W × List (Edge L W))
  | [], f => some (f, [])
  | k :: ks, f =>
    if k = uid then fLoop d inc uid ks f
    else (fStep d inc uid f k).bind (fun x => (fLoop d inc uid ks x.1).map (fun y => (y.1, x.2.toList ++ y.2)))

theorem removeLoop_get (d inc : Bool) (uid : Nat) (ks : List Nat) : ∀ m : EdgeMap L W,
    (removeLoop d inc uid ks m).map (fun x => (HMap.get x.1, x.2)) = fLoop d inc uid ks (HMap.get m) := by
  induction ks with
  | nil => intro m; rfl
  | cons k ks ih =>
    intro m
    unfold removeLoop fLoop
    by_cases hk : k = uid
    · rw [if_pos hk, if_pos hk]; exact ih m
    · rw [if_neg hk, if_neg hk]
      have h1 : (if inc then removeEdgeIds d m k uid else removeEdgeIds d m uid k).map (fun x => (HMap.get x.1, x.2)) =
          fStep d inc uid (HMap.get m) k := by
        cases inc <;> simp only [fStep, Bool.false_eq_true, if_false, if_true, ← removeEdgeIds_get]
      rw [← h1]
      cases hr : (if inc then removeEdgeIds d m k uid else removeEdgeIds d m uid k) with
      | none => rfl
      | some x =>
        dsimp only [Option.map_some, Option.bind_some]
        rw [← ih x.1]
        cases removeLoop d inc uid ks x.1 <;> rfl

/-! ### Two ids -/

theorem between_disjoint {uid k k' : Nat} (h : k ≠ k') (hk : k ≠ uid) (hk' : k' ≠ uid) (e : Edge L W)
    (he : between uid k e = true) : between uid k' e = false := by
  unfold between at *
  simp only [Bool.or_eq_true, Bool.and_eq_true, beq_iff_eq, Bool.or_eq_false_iff, Bool.and_eq_false_iff,
    beq_eq_false_iff_ne] at *
  omega

theorem between_comm (a b : Nat) (e : Edge L W) : between a b e = between b a e := by
  unfold between
  rw [Bool.or_comm]

theorem find?_eraseP_disjoint {α : Type} {p q : α → Bool} (h : ∀ x, p x = true → q x = false) (l : List α) :
    (l.eraseP q).find? p = l.find? p := by
  induction l with
  | nil => rfl
  | cons x l ih =>
    by_cases hq : q x = true
    · rw [List.eraseP_cons_of_pos hq]
      have : p x = false := by
        cases hp : p x with
        | false => rfl
        | true => rw [h x hp] at hq; simp at hq
      rw [List.find?_cons_of_neg (by simp [this])]
    · rw [List.eraseP_cons_of_neg hq]
      by_cases hp : p x = true
      · rw [List.find?_cons_of_pos hp, List.find?_cons_of_pos hp]
      · rw [List.find?_cons_of_neg hp, List.find?_cons_of_neg hp, ih]

theorem eraseP_comm_disjoint {α : Type} {p q : α → Bool} (h : ∀ x, p x = true → q x = false) (l : List α) :
    (l.eraseP q).eraseP p = (l.eraseP p).eraseP q := by
  induction l with
  | nil => rfl
  | cons x l ih =>
    by_cases hq : q x = true
    · have hp : ¬ p x = true := by
        intro hp; rw [h x hp] at hq; simp at hq
      rw [List.eraseP_cons_of_pos hq, List.eraseP_cons_of_neg hp, List.eraseP_cons_of_pos hq]
    · by_cases hp : p x = true
      · rw [List.eraseP_cons_of_neg hq, List.eraseP_cons_of_pos hp, List.eraseP_cons_of_pos hp]
      · rw [List.eraseP_cons_of_neg hq, List.eraseP_cons_of_neg hp, List.eraseP_cons_of_neg hp,
          List.eraseP_cons_of_neg hq, ih]

theorem found_eff_out (d : Bool) (f : Lists L W) {uid k k' : Nat} (h : k ≠ k') (hk : k ≠ uid) (hk' : k' ≠ uid) :
    found (eff d f uid k') uid k = found f uid k := by
  have hd : ∀ e : Edge L W, between uid k e = true → between uid k' e = false := between_disjoint h hk hk'
  have key : eff d f uid k' uid = f uid ∨
      eff d f uid k' uid = (f uid).map (fun es => es.eraseP (between uid k')) := by
    unfold eff
    by_cases hf : (found f uid k').isSome = true
    · right
      rw [if_pos hf]
      cases d <;> simp [upd, Ne.symm hk']
    · left; rw [if_neg hf]
  unfold found
  rcases key with h1 | h1
  · rw [h1]
  · rw [h1]
    cases f uid with
    | none => rfl
    | some es => exact find?_eraseP_disjoint hd es

theorem found_eff_in (d : Bool) (f : Lists L W) {uid k k' : Nat} (h : k ≠ k') (hk : k ≠ uid) :
    found (eff d f k' uid) k uid = found f k uid := by
  have key : eff d f k' uid k = f k := by
    unfold eff
    by_cases hf : (found f k' uid).isSome = true
    · rw [if_pos hf]
      cases d <;> simp [upd, hk, h]
    · rw [if_neg hf]
  unfold found
  rw [key]

theorem eff_comm_out (d : Bool) (f : Lists L W) {uid k k' : Nat} (h : k ≠ k') (hk : k ≠ uid) (hk' : k' ≠ uid) :
    eff d (eff d f uid k) uid k' = eff d (eff d f uid k') uid k := by
  have hd : ∀ e : Edge L W, between uid k' e = true → between uid k e = false :=
    between_disjoint (Ne.symm h) hk' hk
  have e1 := found_eff_out d f h hk hk'
  have e2 := found_eff_out d f (Ne.symm h) hk' hk
  rw [eff_eq d (eff d f uid k) uid k', eff_eq d (eff d f uid k') uid k, e1, e2]
  by_cases h1 : (found f uid k).isSome = true <;> by_cases h2 : (found f uid k').isSome = true
  · rw [if_pos h1, if_pos h2]
    unfold eff
    rw [if_pos h1, if_pos h2]
    funext i
    cases d
    · simp only [Bool.false_eq_true, if_false, upd]
      by_cases hi : i = uid
      · subst hi
        simp only [if_true, if_neg (Ne.symm hk), if_neg (Ne.symm hk'), Option.map_map]
        congr 1
        funext es
        exact eraseP_comm_disjoint hd es
      · by_cases hi2 : i = k
        · subst hi2; simp [hk, h]
        · by_cases hi3 : i = k'
          · subst hi3; simp [hk', Ne.symm h]
          · simp [hi, hi2, hi3]
    · simp only [if_true, upd]
      by_cases hi : i = uid
      · subst hi
        simp only [if_true, Option.map_map]
        congr 1
        funext es
        exact eraseP_comm_disjoint hd es
      · simp [hi]
  · rw [if_pos h1, if_neg h2]
    unfold eff
    rw [if_pos h1, if_neg h2]
  · rw [if_neg h1, if_pos h2]
    unfold eff
    rw [if_neg h1, if_pos h2]
  · rw [if_neg h1, if_neg h2]
    unfold eff
    rw [if_neg h1, if_neg h2]

theorem eff_comm_in (d : Bool) (f : Lists L W) {uid k k' : Nat} (h : k ≠ k') (hk : k ≠ uid) (hk' : k' ≠ uid) :
    eff d (eff d f k uid) k' uid = eff d (eff d f k' uid) k uid := by
  have e1 := found_eff_in d f h hk
  have e2 := found_eff_in d f (Ne.symm h) hk'
  rw [eff_eq d (eff d f k uid) k' uid, eff_eq d (eff d f k' uid) k uid, e1, e2]
  by_cases h1 : (found f k uid).isSome = true <;> by_cases h2 : (found f k' uid).isSome = true
  · rw [if_pos h1, if_pos h2]
    unfold eff
    rw [if_pos h1, if_pos h2]
    funext i
    cases d
    · simp only [Bool.false_eq_true, if_false, upd]
      by_cases hi : i = uid
      · subst hi
        simp only [if_true, if_neg (Ne.symm hk), if_neg (Ne.symm hk'), Option.map_map]
        congr 1
        funext es
        simp only [Function.comp, List.filter_filter]
        congr 1
        funext e
        exact Bool.and_comm _ _
      · by_cases hi2 : i = k
        · subst hi2; simp [hk, h]
        · by_cases hi3 : i = k'
          · subst hi3; simp [hk', Ne.symm h]
          · simp [hi, hi2, hi3]
    · simp only [if_true, upd]
      by_cases hi2 : i = k
      · subst hi2; simp [h]
      · by_cases hi3 : i = k'
        · subst hi3; simp [Ne.symm h]
        · simp [hi2, hi3]
  · rw [if_pos h1, if_neg h2]
    unfold eff
    rw [if_pos h1, if_neg h2]
  · rw [if_neg h1, if_pos h2]
    unfold eff
    rw [if_neg h1, if_pos h2]
  · rw [if_neg h1, if_neg h2]
    unfold eff
    rw [if_neg h1, if_neg h2]

/-- Whether the call for `k` panics. -/
def stepOk (d inc : Bool) (uid : Nat) (f : Lists L W) (k : Nat) : Bool :=
  if inc then remOk d f k uid else remOk d f uid k
def stepEff (d inc : Bool) (uid : Nat) (f : Lists L W) (k : Nat) : Lists L W :=
  if inc then eff d f k uid else eff d f uid k
def stepFound (inc : Bool) (uid : Nat) (f : Lists L W) (k : Nat) : Option (Edge L W) :=
  if inc then found f k uid else found f uid k

theorem fStep_eq (d inc : Bool) (uid : Nat) (f : Lists L W) (k : Nat) :
    fStep d inc uid f k = if stepOk d inc uid f k then some (stepEff d inc uid f k, stepFound inc uid f k) else none := by
  cases inc <;> rfl

theorem stepFound_eff (d inc : Bool) (f : Lists L W) {uid k k' : Nat} (h : k ≠ k') (hk : k ≠ uid) (hk' : k' ≠ uid) :
    stepFound inc uid (stepEff d inc uid f k') k = stepFound inc uid f k := by
  cases inc
  · exact found_eff_out d f h hk hk'
  · exact found_eff_in d f h hk

theorem stepOk_eff (d inc : Bool) (f : Lists L W) {uid k k' : Nat} (h : k ≠ k') (hk : k ≠ uid) (hk' : k' ≠ uid) :
    stepOk d inc uid (stepEff d inc uid f k') k = stepOk d inc uid f k := by
  cases inc
  · simp only [stepOk, stepEff, remOk, Bool.false_eq_true, if_false, eff_isSome, found_eff_out d f h hk hk']
  · simp only [stepOk, stepEff, remOk, if_true, eff_isSome, found_eff_in d f h hk]

theorem stepEff_comm (d inc : Bool) (f : Lists L W) {uid k k' : Nat} (h : k ≠ k') (hk : k ≠ uid) (hk' : k' ≠ uid) :
    stepEff d inc uid (stepEff d inc uid f k) k' = stepEff d inc uid (stepEff d inc uid f k') k := by
  cases inc
  · exact eff_comm_out d f h hk hk'
  · exact eff_comm_in d f h hk hk'

/-- Results with the same lists and the same edges removed, in some order. -/
def SameUpToOrder {A B : Type} : Option (A × List B) → Option (A × List B) → Prop
  | none, none => True
  | some x, some y => x.1 = y.1 ∧ x.2.Perm y.2
  | _, _ => False

theorem SameUpToOrder.refl {A B : Type} (x : Option (A × List B)) : SameUpToOrder x x := by
  cases x with
  | none => trivial
  | some x => exact ⟨rfl, List.Perm.refl _⟩

theorem SameUpToOrder.trans {A B : Type} {x y z : Option (A × List B)} (h : SameUpToOrder x y)
    (h' : SameUpToOrder y z) : SameUpToOrder x z := by
  cases x <;> cases y <;> cases z <;> simp only [SameUpToOrder] at *
  exact ⟨h.1.trans h'.1, h.2.trans h'.2⟩

theorem fLoop_perm (d inc : Bool) (uid : Nat) {ks ks' : List Nat} (h : ks.Perm ks') : ks.Nodup → ∀ f : Lists L W,
    SameUpToOrder (fLoop d inc uid ks f) (fLoop d inc uid ks' f) := by
  induction h with
  | nil => intro _ f; exact SameUpToOrder.refl _
  | cons k hp ih =>
    intro hn f
    have ih' := ih (List.nodup_cons.1 hn).2
    unfold fLoop
    by_cases hk : k = uid
    · rw [if_pos hk, if_pos hk]; exact ih' f
    · rw [if_neg hk, if_neg hk, fStep_eq]
      by_cases ho : stepOk d inc uid f k = true
      · rw [if_pos ho]
        dsimp only [Option.bind_some]
        have := ih' (stepEff d inc uid f k)
        revert this
        cases fLoop d inc uid _ (stepEff d inc uid f k) <;> cases fLoop d inc uid _ (stepEff d inc uid f k) <;>
          simp only [SameUpToOrder, Option.map_some, Option.map_none, imp_self]
        rintro ⟨a1, a2⟩
        exact ⟨a1, List.Perm.append_left _ a2⟩
      · rw [if_neg ho]; trivial
  | swap a b l =>
    intro hn f
    have hab : a ≠ b := by
      intro he; subst he; simp at hn
    by_cases ha : a = uid
    · subst ha
      simp only [fLoop, if_true]
      exact SameUpToOrder.refl _
    · by_cases hb : b = uid
      · subst hb
        simp only [fLoop, if_true]
        exact SameUpToOrder.refl _
      · simp only [fLoop, if_neg ha, if_neg hb, fStep_eq]
        by_cases oa : stepOk d inc uid f a = true <;> by_cases ob : stepOk d inc uid f b = true
        · simp only [if_pos oa, if_pos ob, Option.bind_some, stepOk_eff d inc f hab ha hb,
            stepOk_eff d inc f (Ne.symm hab) hb ha, stepFound_eff d inc f hab ha hb,
            stepFound_eff d inc f (Ne.symm hab) hb ha, stepEff_comm d inc f hab ha hb]
          cases fLoop d inc uid l (stepEff d inc uid (stepEff d inc uid f b) a) with
          | none => trivial
          | some y =>
            refine ⟨rfl, ?_⟩
            dsimp only [Option.map_some]
            rw [← List.append_assoc, ← List.append_assoc]
            exact List.Perm.append_right _ List.perm_append_comm
        · simp only [if_pos oa, if_neg ob, Option.bind_some, Option.bind_none,
            stepOk_eff d inc f (Ne.symm hab) hb ha]
          trivial
        · simp only [if_neg oa, if_pos ob, Option.bind_some, Option.bind_none,
            stepOk_eff d inc f hab ha hb]
          trivial
        · simp only [if_neg oa, if_neg ob, Option.bind_none]
          trivial
  | trans h1 h2 ih1 ih2 =>
    intro hn f
    exact (ih1 hn f).trans (ih2 (h1.nodup hn) f)

end Verif.Network
