import Verif.Spec.HashesNetwork
import Verif.Props.Hashes
import Verif.Lemmas.ParNetwork5

/-!
Helper lemmas: networks under the feature `parallel` with different hash functions.
-/

namespace Verif.ParNetwork

open Verif.Network (Edge EdgeOptions Op between Lists found eff remOk fRem upd SameUpToOrder)
open Verif.DBDashMap (DB Inv abs insert_sim remove_sim modifyWrite_sim update_sim HasSize)
open Verif.ParGrid (getRead_abs getWrite_abs Names Both MRel)

set_option linter.unusedSectionVars false
set_option linter.unusedSimpArgs false

section
variable {L W : Type}

/-! ### One map of lists -/

theorem pushEdge_fun {db : DB Nat (List (Edge L W))} (h : Inv db) (k : Nat) (e : Edge L W) :
    ∃ db', pushEdge db k e = some db' ∧ Inv db' ∧
      abs db' = ⟨(abs db).read, DBDashMap.set (abs db).write k (some (((abs db).write k).getD [] ++ [e]))⟩ := by
  unfold pushEdge
  rw [getWrite_abs h]
  cases hg : (abs db).write k with
  | none =>
    obtain ⟨db', h1, h2, _, h3⟩ := insert_sim h k [e]
    exact ⟨db', by simp only [h1]; rfl, h2, by rw [h3]; rfl⟩
  | some es =>
    obtain ⟨db', h1, h2, h3⟩ := modifyWrite_sim h k (fun es => es ++ [e])
    exact ⟨db', h1, h2, by rw [h3, hg]; rfl⟩

theorem ensureList_fun {db : DB Nat (List (Edge L W))} (h : Inv db) (k : Nat) :
    ∃ db', ensureList db k = some db' ∧ Inv db' ∧
      abs db' = ⟨(abs db).read, if ((abs db).read k).isSome then (abs db).write else DBDashMap.set (abs db).write k (some [])⟩ := by
  unfold ensureList
  rw [getRead_abs h]
  cases hg : (abs db).read k with
  | none =>
    obtain ⟨db', h1, h2, _, h3⟩ := insert_sim h k ([] : List (Edge L W))
    exact ⟨db', by simp only [h1]; rfl, h2, by rw [h3]; rfl⟩
  | some es => exact ⟨db, rfl, h, rfl⟩

theorem removeEdgeIds_fun {db : DB Nat (List (Edge L W))} (h : Inv db) (d : Bool) (a b : Nat) :
    match fRem d (abs db).write a b with
    | none => removeEdgeIds d db a b = none
    | some x => ∃ db', removeEdgeIds d db a b = some (db', x.2) ∧ Inv db' ∧ abs db' = ⟨(abs db).read, x.1⟩ := by
  have hr : Reps db db.shards.flatten := ⟨h, fun i => (h.w.get_flatten i).symm⟩
  have hs := removeEdgeIds_sim hr d a b
  have hg := Network.removeEdgeIds_get d db.shards.flatten a b
  have hw : HMap.get db.shards.flatten = (abs db).write := funext (fun i => (hr.w i).symm)
  rw [hw] at hg
  rw [← hg]
  cases hm : Network.removeEdgeIds d db.shards.flatten a b with
  | none => rw [hm] at hs; exact hs
  | some x =>
    rw [hm] at hs
    obtain ⟨db', h1, h2, h3⟩ := hs
    refine ⟨db', h1, h2.inv, ?_⟩
    cases ha : abs db' with
    | mk r w =>
      rw [ha] at h3
      have : w = HMap.get x.1 := by
        funext i
        have := h2.w i
        rw [ha] at this
        exact this
      simp only at h3
      rw [h3, this]

/-! ### Two removals commute, whatever the ids -/

theorem between_apart {uid k k' : Nat} (h : k ≠ k') (e : Edge L W) (he : between uid k e = true) : between uid k' e = false := by
  unfold between at *
  simp only [Bool.or_eq_true, Bool.and_eq_true, beq_iff_eq, Bool.or_eq_false_iff, Bool.and_eq_false_iff,
    beq_eq_false_iff_ne] at *
  omega

theorem find?_filter_apart {α : Type} {p q : α → Bool} (h : ∀ x, p x = true → q x = false) (l : List α) :
    (l.filter (fun x => !q x)).find? p = l.find? p := by
  induction l with
  | nil => rfl
  | cons x l ih =>
    by_cases hp : p x = true
    · rw [List.filter_cons_of_pos (by rw [h x hp]; rfl), List.find?_cons_of_pos hp, List.find?_cons_of_pos hp]
    · by_cases hq : q x = true
      · rw [List.filter_cons_of_neg (by rw [hq]; simp), List.find?_cons_of_neg hp, ih]
      · rw [List.filter_cons_of_pos (by simpa using hq), List.find?_cons_of_neg hp, List.find?_cons_of_neg hp, ih]

theorem eraseP_filter_apart {α : Type} {p q : α → Bool} (h : ∀ x, p x = true → q x = false) (l : List α) :
    (l.filter (fun x => !q x)).eraseP p = (l.eraseP p).filter (fun x => !q x) := by
  induction l with
  | nil => rfl
  | cons x l ih =>
    by_cases hp : p x = true
    · rw [List.filter_cons_of_pos (by rw [h x hp]; rfl), List.eraseP_cons_of_pos hp, List.eraseP_cons_of_pos hp]
    · rw [List.eraseP_cons_of_neg hp]
      by_cases hq : q x = true
      · rw [List.filter_cons_of_neg (by rw [hq]; simp), List.filter_cons_of_neg (by rw [hq]; simp), ih]
      · rw [List.filter_cons_of_pos (by simpa using hq), List.filter_cons_of_pos (by simpa using hq), List.eraseP_cons_of_neg hp, ih]

/-- What a list undergoes: `ia` and `ib` tell whether it is that of the first and of the second id. -/
def actB (d ia ib : Bool) (p : Edge L W → Bool) (es : List (Edge L W)) : List (Edge L W) :=
  bif d then (bif ia then es.eraseP p else es)
  else bif ib then (bif ia then es.eraseP p else es).filter (fun e => !p e)
  else bif ia then es.eraseP p else es

/-- What the list of `i` undergoes. -/
def act (d : Bool) (a b i : Nat) (es : List (Edge L W)) : List (Edge L W) :=
  actB d (decide (i = a)) (decide (i = b)) (between a b) es

theorem eff_act (d : Bool) (f : Lists L W) (a b i : Nat) :
    eff d f a b i = if (found f a b).isSome then (f i).map (act d a b i) else f i := by
  unfold eff
  by_cases h : (found f a b).isSome = true
  · rw [if_pos h, if_pos h]
    unfold upd act actB
    cases d <;> by_cases h1 : i = a <;> by_cases h2 : i = b <;> simp [h1, h2] <;> cases f _ <;> simp_all
  · rw [if_neg h, if_neg h]

/-- Partners of `uid`: the edges looked for are different ones. -/
theorem act_find (d : Bool) {uid k k' : Nat} (h : k ≠ k') (i : Nat) (es : List (Edge L W)) (a b : Nat)
    (hab : (a = uid ∧ b = k') ∨ (a = k' ∧ b = uid)) :
    (act d a b i es).find? (between uid k) = es.find? (between uid k) := by
  have hd : ∀ e : Edge L W, between uid k e = true → between a b e = false := by
    intro e he
    rcases hab with ⟨rfl, rfl⟩ | ⟨rfl, rfl⟩
    · exact between_apart h e he
    · rw [Network.between_comm]; exact between_apart h e he
  have h1 := Network.find?_eraseP_disjoint hd es
  have h2 := find?_filter_apart hd es
  have h3 := find?_filter_apart hd (es.eraseP (between a b))
  unfold act actB
  cases d <;> by_cases h4 : i = a <;> by_cases h5 : i = b <;> simp_all

/-- The two ids of the call for partner `k`. -/
def fstId (inc : Bool) (uid k : Nat) : Nat := if inc then k else uid
def sndId (inc : Bool) (uid k : Nat) : Nat := if inc then uid else k

theorem ids_cases (inc : Bool) (uid k : Nat) :
    (fstId inc uid k = uid ∧ sndId inc uid k = k) ∨ (fstId inc uid k = k ∧ sndId inc uid k = uid) := by
  cases inc
  · exact Or.inl ⟨rfl, rfl⟩
  · exact Or.inr ⟨rfl, rfl⟩

theorem between_ids (inc : Bool) (uid k : Nat) : (between (fstId inc uid k) (sndId inc uid k) : Edge L W → Bool) = between uid k := by
  funext e
  cases inc
  · rfl
  · exact Network.between_comm _ _ _

theorem found_apart (d inc : Bool) (f : Lists L W) {uid k k' : Nat} (h : k ≠ k') :
    found (eff d f (fstId inc uid k') (sndId inc uid k')) (fstId inc uid k) (sndId inc uid k) =
      found f (fstId inc uid k) (sndId inc uid k) := by
  unfold found
  rw [between_ids, eff_act]
  by_cases hf : (found f (fstId inc uid k') (sndId inc uid k')).isSome = true
  · rw [if_pos hf]
    cases f (fstId inc uid k) with
    | none => rfl
    | some es => exact act_find d h _ es _ _ (ids_cases inc uid k')
  · rw [if_neg hf]

theorem act_comm (d inc : Bool) {uid k k' : Nat} (h : k ≠ k') (i : Nat) (es : List (Edge L W)) :
    act d (fstId inc uid k') (sndId inc uid k') i (act d (fstId inc uid k) (sndId inc uid k) i es) =
      act d (fstId inc uid k) (sndId inc uid k) i (act d (fstId inc uid k') (sndId inc uid k') i es) := by
  have hd : ∀ e : Edge L W, between uid k e = true → between uid k' e = false := between_apart h
  have hd' : ∀ e : Edge L W, between uid k' e = true → between uid k e = false := between_apart (Ne.symm h)
  have c1 : ∀ l : List (Edge L W), (l.eraseP (between uid k')).eraseP (between uid k) = (l.eraseP (between uid k)).eraseP (between uid k') :=
    fun l => Network.eraseP_comm_disjoint hd l
  have c2 : ∀ l : List (Edge L W), (l.filter (fun x => !between uid k' x)).eraseP (between uid k) =
      (l.eraseP (between uid k)).filter (fun x => !between uid k' x) := fun l => eraseP_filter_apart hd l
  have c3 : ∀ l : List (Edge L W), (l.filter (fun x => !between uid k x)).eraseP (between uid k') =
      (l.eraseP (between uid k')).filter (fun x => !between uid k x) := fun l => eraseP_filter_apart hd' l
  have c4 : ∀ l : List (Edge L W), (l.filter (fun x => !between uid k x)).filter (fun x => !between uid k' x) =
      (l.filter (fun x => !between uid k' x)).filter (fun x => !between uid k x) := by
    intro l
    rw [List.filter_filter, List.filter_filter]
    congr 1
    funext e
    exact Bool.and_comm _ _
  unfold act actB
  rw [between_ids, between_ids]
  cases d <;> cases decide (i = sndId inc uid k) <;> cases decide (i = fstId inc uid k) <;> cases decide (i = sndId inc uid k') <;>
    cases decide (i = fstId inc uid k') <;> simp only [cond_true, cond_false, c1, c2, c3, c4]

theorem eff_comm (d inc : Bool) (f : Lists L W) {uid k k' : Nat} (h : k ≠ k') :
    eff d (eff d f (fstId inc uid k) (sndId inc uid k)) (fstId inc uid k') (sndId inc uid k') =
      eff d (eff d f (fstId inc uid k') (sndId inc uid k')) (fstId inc uid k) (sndId inc uid k) := by
  funext i
  rw [eff_act d (eff d f _ _) (fstId inc uid k'), eff_act d (eff d f _ _) (fstId inc uid k), found_apart d inc f (Ne.symm h),
    found_apart d inc f h, eff_act d f (fstId inc uid k), eff_act d f (fstId inc uid k')]
  by_cases h1 : (found f (fstId inc uid k) (sndId inc uid k)).isSome = true <;>
    by_cases h2 : (found f (fstId inc uid k') (sndId inc uid k')).isSome = true <;> simp only [h1, h2, if_true, if_false, Bool.false_eq_true]
  cases f i with
  | none => rfl
  | some es => simp only [Option.map_some, act_comm d inc h i es]

/-! ### The loop -/

/-- What the loop does for a published id: panic, nothing, or remove the edge to a partner. -/
def gStep (d inc : Bool) (uid : Nat) (tr : Nat → Option (Option Nat)) (acc : Option (Lists L W × List (Edge L W))) (v : Nat) :
    Option (Lists L W × List (Edge L W)) :=
  acc.bind (fun x => (tr v).bind (fun t =>
    match t with
    | none => some x
    | some k => (fRem d x.1 (fstId inc uid k) (sndId inc uid k)).map (fun y => (y.1, x.2 ++ y.2.toList))))

theorem gStep_none (d inc : Bool) (uid : Nat) (tr : Nat → Option (Option Nat)) (ks : List Nat) :
    ks.foldl (gStep (L := L) (W := W) d inc uid tr) none = none := by
  induction ks with
  | nil => rfl
  | cons a ks ih => exact ih

theorem remOk_apart (d inc : Bool) (f : Lists L W) {uid k k' : Nat} (h : k ≠ k') :
    remOk d (eff d f (fstId inc uid k') (sndId inc uid k')) (fstId inc uid k) (sndId inc uid k) =
      remOk d f (fstId inc uid k) (sndId inc uid k) := by
  unfold remOk
  rw [Network.eff_isSome, Network.eff_isSome, found_apart d inc f h]

/-- Lists removed so far may be in another order. -/
theorem gStep_perm (d inc : Bool) (uid : Nat) (tr : Nat → Option (Option Nat)) {a b : Option (Lists L W × List (Edge L W))}
    (h : SameUpToOrder a b) (v : Nat) : SameUpToOrder (gStep d inc uid tr a v) (gStep d inc uid tr b v) := by
  cases a with
  | none => cases b with
    | none => trivial
    | some y => exact absurd h id
  | some x => cases b with
    | none => exact absurd h id
    | some y =>
      obtain ⟨f, l⟩ := x
      obtain ⟨g, m⟩ := y
      obtain ⟨h1, h2⟩ := h
      dsimp only at h1 h2
      subst h1
      unfold gStep
      dsimp only [Option.bind_some]
      cases tr v with
      | none => trivial
      | some t =>
        dsimp only [Option.bind_some]
        cases t with
        | none => exact ⟨rfl, h2⟩
        | some k =>
          dsimp only
          cases fRem d f (fstId inc uid k) (sndId inc uid k) with
          | none => trivial
          | some z => exact ⟨rfl, h2.append_right _⟩

theorem gLoop_perm' (d inc : Bool) (uid : Nat) (tr : Nat → Option (Option Nat)) (ks : List Nat) :
    ∀ {a b : Option (Lists L W × List (Edge L W))}, SameUpToOrder a b →
      SameUpToOrder (ks.foldl (gStep d inc uid tr) a) (ks.foldl (gStep d inc uid tr) b) := by
  induction ks with
  | nil => intro a b h; exact h
  | cons k ks ih => intro a b h; exact ih (gStep_perm d inc uid tr h k)

theorem gStep_swap (d inc : Bool) (uid : Nat) (tr : Nat → Option (Option Nat)) (acc : Option (Lists L W × List (Edge L W))) (v v' : Nat) :
    SameUpToOrder (gStep d inc uid tr (gStep d inc uid tr acc v) v') (gStep d inc uid tr (gStep d inc uid tr acc v') v) := by
  cases acc with
  | none => trivial
  | some x =>
    obtain ⟨f, l⟩ := x
    unfold gStep
    dsimp only [Option.bind_some]
    cases h1 : tr v with
    | none => cases h2 : tr v' with
      | none => trivial
      | some t' =>
        cases t' with
        | none => simp only [Option.bind_some, Option.bind_none]; trivial
        | some k' =>
          simp only [Option.bind_some, Option.bind_none]
          cases fRem d f (fstId inc uid k') (sndId inc uid k') <;> trivial
    | some t => cases h2 : tr v' with
      | none =>
        cases t with
        | none => simp only [Option.bind_some, Option.bind_none]; trivial
        | some k =>
          simp only [Option.bind_some, Option.bind_none]
          cases fRem d f (fstId inc uid k) (sndId inc uid k) <;> trivial
      | some t' =>
        cases t with
        | none =>
          cases t' with
          | none => exact SameUpToOrder.refl _
          | some k' =>
            simp only [Option.bind_some]
            cases fRem d f (fstId inc uid k') (sndId inc uid k') <;> exact SameUpToOrder.refl _
        | some k =>
          cases t' with
          | none =>
            simp only [Option.bind_some]
            cases fRem d f (fstId inc uid k) (sndId inc uid k) <;> exact SameUpToOrder.refl _
          | some k' =>
            by_cases hk : k = k'
            · subst hk
              exact SameUpToOrder.refl _
            · simp only [Option.bind_some]
              unfold fRem
              by_cases o1 : remOk d f (fstId inc uid k) (sndId inc uid k) = true <;>
                by_cases o2 : remOk d f (fstId inc uid k') (sndId inc uid k') = true
              · simp only [o1, o2, if_true, Option.map_some, Option.bind_some, remOk_apart d inc f hk,
                  remOk_apart d inc f (Ne.symm hk), found_apart d inc f hk, found_apart d inc f (Ne.symm hk)]
                refine ⟨eff_comm d inc f hk, ?_⟩
                dsimp only
                rw [List.append_assoc, List.append_assoc]
                exact List.perm_append_comm.append_left l
              · simp only [o1, o2, if_true, if_false, Option.map_some, Option.map_none, Option.bind_some, Option.bind_none,
                  remOk_apart d inc f (Ne.symm hk)]
                trivial
              · simp only [o1, o2, if_true, if_false, Option.map_some, Option.map_none, Option.bind_some, Option.bind_none,
                  remOk_apart d inc f hk]
                trivial
              · simp only [o1, o2, if_false, Option.map_none, Option.bind_none]
                trivial

theorem gLoop_perm (d inc : Bool) (uid : Nat) (tr : Nat → Option (Option Nat)) {ks ks' : List Nat} (h : ks.Perm ks') :
    ∀ a : Option (Lists L W × List (Edge L W)),
      SameUpToOrder (ks.foldl (gStep d inc uid tr) a) (ks'.foldl (gStep d inc uid tr) a) := by
  induction h with
  | nil => intro a; exact SameUpToOrder.refl _
  | cons k _ ih => intro a; exact ih (gStep d inc uid tr a k)
  | swap k k' l =>
    intro a
    rw [List.foldl_cons, List.foldl_cons, List.foldl_cons, List.foldl_cons]
    exact gLoop_perm' d inc uid tr l (gStep_swap d inc uid tr a k' k)
  | trans _ _ ih1 ih2 => intro a; exact (ih1 a).trans (ih2 a)

end

end Verif.ParNetwork
