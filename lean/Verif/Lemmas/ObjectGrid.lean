import Verif.Lemmas.Grid
import Verif.Lemmas.HashMap
import Verif.Model.DenseObjectGrid
import Verif.Model.SparseObjectGrid

/-! Lemmas about the object grids. -/

set_option linter.unusedSectionVars false

namespace Verif.Grid

/-- How often a place is told, with objects of a kind, in the concatenation of tagged bags. -/
theorem callsAt_tagged {K O : Type} [DecidableEq K] (F : K → List O) (cs : List K) (hn : cs.Nodup) (l : K) (q : O → Bool) :
    callsAt (cs.flatMap (fun c => (F c).map (fun o => (c, o)))) l q = if l ∈ cs then (F l).countP q else 0 := by
  induction cs with
  | nil => simp [callsAt]
  | cons c cs ih =>
    rw [List.nodup_cons] at hn
    have e : callsAt (List.flatMap (fun c => (F c).map (fun o => (c, o))) (c :: cs)) l q =
        callsAt ((F c).map (fun o => (c, o))) l q + callsAt (cs.flatMap (fun c => (F c).map (fun o => (c, o)))) l q := by
      unfold callsAt
      rw [List.flatMap_cons, List.countP_append]
    rw [e, ih hn.2]
    by_cases h : l = c
    · subst h
      have : callsAt ((F l).map (fun o => (l, o))) l q = (F l).countP q := by
        unfold callsAt
        rw [List.countP_map]
        congr 1
        funext o
        simp
      simp [this, hn.1]
    · have : callsAt ((F c).map (fun o => (c, o))) l q = 0 := by
        unfold callsAt
        rw [List.countP_map, List.countP_eq_zero]
        intro o _
        simp [Ne.symm h]
      simp [this, h]

theorem range_mul (w h : Nat) :
    (List.range w).flatMap (fun i => (List.range h).map (fun j => i * h + j)) = List.range (w * h) := by
  induction w with
  | zero => simp
  | succ n ih =>
    rw [List.range_succ, List.flatMap_append, ih, Nat.succ_mul, List.range_add]
    simp

/-- The cells are visited in the order of their indexes. -/
theorem cells_index (w h : Int) :
    (cells w h).map (fun c => (c.x * h + c.y).toNat) = List.range (w.toNat * h.toNat) := by
  rw [← range_mul, cells, List.map_flatMap]
  congr 1
  funext i
  rw [List.map_map]
  apply List.map_congr_left
  intro j hj
  rw [List.mem_range] at hj
  have : (h.toNat : Int) = h := by omega
  simp only [Function.comp]
  rw [show (i : Int) * h + (j : Int) = ((i * h.toNat + j : Nat) : Int) by rw [Int.natCast_add, Int.natCast_mul, this]]
  rfl

end Verif.Grid

namespace Verif.DenseObject

open Grid

variable {O : Type} [BEq O]

/-- The vectors hold at least one bag per cell. -/
structure WF (g : OGrid O) : Prop where
  r : Big g.width g.height g.rlocs
  w : Big g.width g.height g.locs
  pw : 0 ≤ g.width
  ph : 0 ≤ g.height

/-- The vectors hold exactly one bag per cell. -/
structure Tight (g : OGrid O) : Prop where
  r : Sized g.width g.height g.rlocs
  w : Sized g.width g.height g.locs
  pw : 0 ≤ g.width
  ph : 0 ≤ g.height

theorem Tight.wf {g : OGrid O} (h : Tight g) : WF g := ⟨h.r.big, h.w.big, h.pw, h.ph⟩

/-- What a grid holds, as two functions on the in-range locations. -/
structure Shows (g : OGrid O) (w h : Int) (pub cur : Loc → List O) : Prop where
  wf : Tight g
  width : g.width = w
  height : g.height = h
  read : ∀ l, InRange w h l → vecGet g.rlocs g.height l = some (pub l)
  write : ∀ l, InRange w h l → vecGet g.locs g.height l = some (cur l)

theorem shows_new {width height : Int} {g : OGrid O} (h : new width height = some g) :
    Shows g width.natAbs height.natAbs (fun _ => []) (fun _ => []) := by
  unfold new at h
  split at h
  · exact absurd h (by simp)
  · rename_i hn
    have hn : 0 ≤ width * height := by omega
    simp only [Option.some.injEq] at h
    subst h
    have hs : Sized (width.natAbs : Int) (height.natAbs : Int)
      (List.replicate (width * height).toNat ([] : List O)) := sized_replicate hn []
    exact ⟨⟨hs, hs, by dsimp only; omega, by dsimp only; omega⟩, rfl, rfl,
      fun l hl => vecGet_replicate hs hl, fun l hl => vecGet_replicate hs hl⟩

theorem shows_set {g : OGrid O} {w h : Int} {pub cur : Loc → List O} (hs : Shows g w h pub cur) (l : Loc)
    (hl : InRange w h l) (b : List O) :
    ∃ v, vecSet g.locs g.height l b = some v ∧
      Shows { g with locs := v } w h pub (fun l' => if l' = l then b else cur l') := by
  obtain ⟨rfl, rfl⟩ : g.width = w ∧ g.height = h := ⟨hs.width, hs.height⟩
  obtain ⟨v, h1, h2, h3⟩ := vecSet_some hs.wf.wf.w hl b
  refine ⟨v, h1, ⟨⟨hs.wf.r, ?_, hs.wf.pw, hs.wf.ph⟩, rfl, rfl, hs.read, ?_⟩⟩
  · have := hs.wf.w
    unfold Sized at *
    rw [h2]; exact this
  · intro l' hl'
    show vecGet v g.height l' = _
    rw [h3 l' hl', hs.write l' hl']
    split <;> rfl

theorem shows_place {g : OGrid O} {w h : Int} {pub cur : Loc → List O} (hs : Shows g w h pub cur) (o : O) (l : Loc)
    (hl : InRange w h l) :
    ∃ g', setObjectLocation g o l = some g' ∧
      Shows g' w h pub (fun l' => if l' = l then (cur l').filter (fun x => x != o) ++ [o] else cur l') := by
  obtain ⟨v, h1, h2⟩ := shows_set hs l hl ((cur l).filter (fun x => x != o) ++ [o])
  refine ⟨_, by unfold setObjectLocation; rw [hs.write l hl]; dsimp only; rw [h1]; rfl, ?_⟩
  have : (fun l' => if l' = l then (cur l').filter (fun x => x != o) ++ [o] else cur l') =
      (fun l' => if l' = l then (cur l).filter (fun x => x != o) ++ [o] else cur l') := by
    funext l'; split
    · rename_i h; rw [h]
    · rfl
  rw [this]; exact h2

theorem shows_remove {g : OGrid O} {w h : Int} {pub cur : Loc → List O} (hs : Shows g w h pub cur) (o : O) (l : Loc)
    (hl : InRange w h l) :
    ∃ g', removeObjectLocation g o l = some g' ∧
      Shows g' w h pub (fun l' => if l' = l then (cur l').filter (fun x => x != o) else cur l') := by
  obtain ⟨v, h1, h2⟩ := shows_set hs l hl ((cur l).filter (fun x => x != o))
  refine ⟨_, by unfold removeObjectLocation; rw [hs.write l hl]; dsimp only; rw [h1]; rfl, ?_⟩
  have : (fun l' => if l' = l then (cur l').filter (fun x => x != o) else cur l') =
      (fun l' => if l' = l then (cur l).filter (fun x => x != o) else cur l') := by
    funext l'; split
    · rename_i h; rw [h]
    · rfl
  rw [this]; exact h2

theorem shows_lazy {g : OGrid O} {w h : Int} {pub cur : Loc → List O} (hs : Shows g w h pub cur) :
    Shows (lazyUpdate g) w h cur (fun _ => []) := by
  refine ⟨⟨hs.wf.w, sized_map hs.wf.r _, hs.wf.pw, hs.wf.ph⟩, hs.width, hs.height, hs.write, ?_⟩
  intro l hl
  show vecGet (g.rlocs.map (fun _ => [])) g.height l = _
  rw [vecGet_map, hs.read l hl]
  rfl

/-! ### update -/

theorem vecInsert_step {r wv : List (List O)} {k : Nat} {b : List O} (hk : wv[k]? = some b) :
    vecInsert (wv.take k ++ r) k b = some (wv.take (k + 1) ++ r) := by
  have hlt : k < wv.length := by
    rw [List.getElem?_eq_some_iff] at hk; exact hk.1
  have hl : (wv.take k).length = k := by rw [List.length_take]; omega
  unfold vecInsert
  rw [if_pos (by simp; omega), List.take_append_of_le_length (by omega), List.drop_append]
  rw [List.take_of_length_le (by omega), List.take_add_one, hk]
  simp [hl]

theorem update_fold {g : OGrid O} (n : Nat) : ∀ (cs : List Loc) (k : Nat),
    (∀ c ∈ cs, 0 ≤ c.x * g.height + c.y) →
    cs.map (fun c => (c.x * g.height + c.y).toNat) = List.range' k n → k + n ≤ g.locs.length →
    cs.foldlM (updateCell g) (g.locs.take k ++ g.rlocs) = some (g.locs.take (k + n) ++ g.rlocs) := by
  induction n with
  | zero =>
    intro cs k _ hm _
    have : cs = [] := by simpa using hm
    subst this; rfl
  | succ n ih =>
    intro cs k hpos hm hle
    cases cs with
    | nil => simp at hm
    | cons c cs =>
      rw [List.range'_succ, List.map_cons, List.cons.injEq] at hm
      have hk : g.locs[k]? = some g.locs[k] := List.getElem?_eq_getElem (by omega)
      rw [List.foldlM_cons]
      have h1 : updateCell g (g.locs.take k ++ g.rlocs) c = some (g.locs.take (k + 1) ++ g.rlocs) := by
        unfold updateCell vecGet
        rw [if_pos (hpos c List.mem_cons_self), hm.1, hk]
        exact vecInsert_step hk
      rw [h1]
      show cs.foldlM (updateCell g) _ = _
      rw [ih cs (k + 1) (fun c h => hpos c (List.mem_cons_of_mem _ h)) hm.2 (by omega)]
      congr 3
      omega

/-- `update` puts the write bags in front of the old read bags. -/
theorem update_eq {g : OGrid O} (hg : WF g) :
    update g = some { g with rlocs := g.locs.take (g.width * g.height).toNat ++ g.rlocs } := by
  have hn : g.width.toNat * g.height.toNat = (g.width * g.height).toNat := by
    rw [Int.toNat_mul hg.pw hg.ph]
  have := update_fold (g := g) (g.width * g.height).toNat (cells g.width g.height) 0
    (fun c hc => (index_range (mem_cells.1 hc)).1)
    (by rw [cells_index, List.range_eq_range', hn]) (by have := hg.w; unfold Big at this; omega)
  unfold update
  simp only [List.take_zero, List.nil_append, Nat.zero_add] at this
  rw [this]; rfl

theorem vecGet_take_append {w h : Int} {v r : List (List O)} (hv : Big w h v) {l : Loc} (hl : InRange w h l) :
    vecGet (v.take (w * h).toNat ++ r) h l = vecGet v h l := by
  obtain ⟨h1, h2⟩ := index_range hl
  unfold Big at hv
  unfold vecGet
  rw [if_pos h1, if_pos h1, List.getElem?_append_left (by rw [List.length_take]; omega), List.getElem?_take]
  rw [if_pos (by omega)]

/-! ### apply -/

/-- The location told to the closure for the bag stored at index `i`. -/
def toldAt (w : Int) (i : Nat) : Loc := ⟨(i : Int) % w, (i : Int) / w⟩

theorem calculateIndexesBag_in {w h : Int} {i : Nat} (hi : (i : Int) < w * h) (hw : 0 < w) (hh : 0 ≤ h) :
    calculateIndexesBag i w h = some (toldAt w i) := by
  have hdiv : (i : Int) / w * w + (i : Int) % w = i := by
    have := Int.mul_ediv_add_emod (i : Int) w
    rw [Int.mul_comm]; exact this
  have hm1 := Int.emod_nonneg (i : Int) (b := w) (by omega)
  have hm2 := Int.emod_lt_of_pos (i : Int) hw
  have hd0 : 0 ≤ (i : Int) / w := Int.ediv_nonneg (by omega) (by omega)
  have hdlt : (i : Int) / w < h := by
    apply Int.ediv_lt_of_lt_mul hw
    rw [Int.mul_comm]; exact hi
  unfold calculateIndexesBag
  have key : (List.range h.toNat).find? (fun i' : Nat => decide ((i : Int) < w * i' + w ∧ (i : Int) ≥ w * i')) =
      some ((i : Int) / w).toNat := by
    rw [List.find?_range_eq_some]
    have hcast : ((((i : Int) / w).toNat : Nat) : Int) = (i : Int) / w := by omega
    refine ⟨?_, List.mem_range.2 (by omega), ?_⟩
    · rw [hcast]
      have : w * ((i : Int) / w) = (i : Int) / w * w := Int.mul_comm _ _
      simp only [decide_eq_true_eq]
      omega
    · intro j hj
      simp only [Bool.not_eq_true', decide_eq_false_iff_not, not_and, ge_iff_le, Int.not_le]
      intro hc
      exfalso
      have h1 : ((j : Int) + 1) * w ≤ (i : Int) / w * w := Int.mul_le_mul_of_nonneg_right (by omega) (by omega)
      rw [Int.add_mul, Int.one_mul, Int.mul_comm (j : Int) w] at h1
      omega
  rw [key]
  simp only [Option.map_some, toldAt, Option.some.injEq, Loc.mk.injEq]
  have hcast : ((((i : Int) / w).toNat : Nat) : Int) = (i : Int) / w := by omega
  rw [hcast]
  have : w * ((i : Int) / w) = (i : Int) / w * w := Int.mul_comm _ _
  exact ⟨by omega, rfl⟩

theorem calculateIndexesBag_out {w h : Int} {i : Nat} (hi : w * h ≤ i) (hw : 0 ≤ w) :
    calculateIndexesBag i w h = none := by
  unfold calculateIndexesBag
  rw [Option.map_eq_none_iff, List.find?_eq_none]
  intro j hj
  rw [List.mem_range] at hj
  simp only [decide_eq_true_eq, not_and, ge_iff_le, Int.not_le]
  intro hc
  exfalso
  have h1 : w * ((j : Int) + 1) ≤ w * h := Int.mul_le_mul_of_nonneg_left (by omega) hw
  rw [Int.mul_add, Int.mul_one] at h1
  omega

theorem applyRead_spec (f : Loc → O → Option O) {w h : Int} (hw : 0 ≤ w) (hh : 0 ≤ h) :
    ∀ (rs : List (List O)) (i : Nat), (i + rs.length : Int) ≤ w * h →
      ∃ v, applyRead f w h i rs = some v ∧ v.length = rs.length ∧
        ∀ j : Nat, v[j]? = (rs[j]?).map (fun b : List O => b.filterMap (f (toldAt w (i + j)))) := by
  intro rs
  induction rs with
  | nil => intro i _; exact ⟨[], rfl, rfl, by simp⟩
  | cons r rs ih =>
    intro i hi
    simp only [List.length_cons] at hi
    have hlt : (i : Int) < w * h := by omega
    have hw' : 0 < w := by
      rcases Int.lt_or_eq_of_le hw with h' | h'
      · exact h'
      · exfalso; rw [← h', Int.zero_mul] at hlt; omega
    obtain ⟨v, h1, h2, h3⟩ := ih (i + 1) (by omega)
    refine ⟨r.filterMap (f (toldAt w i)) :: v, ?_, by simp [h2], ?_⟩
    · rw [applyRead, calculateIndexesBag_in hlt hw' hh]
      dsimp only
      rw [h1]; rfl
    · intro j
      cases j with
      | zero => simp
      | succ j =>
        rw [List.getElem?_cons_succ, List.getElem?_cons_succ, h3 j]
        congr 3
        funext b
        rw [show i + 1 + j = i + (j + 1) by omega]

theorem applyWrite_spec (f : Loc → O → Option O) {w h : Int} (hw : 0 ≤ w) (hh : 0 ≤ h) :
    ∀ (rs bs : List (List O)) (i : Nat), (i + rs.length : Int) ≤ w * h → rs.length = bs.length →
      ∃ v, applyWrite f w h i rs bs = some v ∧ v.length = rs.length ∧
        ∀ (j : Nat) (b r : List O), bs[j]? = some b → rs[j]? = some r →
          v[j]? = some (b ++ r.filterMap (f (toldAt w (i + j)))) := by
  intro rs
  induction rs with
  | nil => intro bs i _ hl; exact ⟨bs, rfl, hl.symm, by simp⟩
  | cons r rs ih =>
    intro bs i hi hl
    cases bs with
    | nil => simp at hl
    | cons b bs =>
    simp only [List.length_cons] at hi hl
    have hlt : (i : Int) < w * h := by omega
    have hw' : 0 < w := by
      rcases Int.lt_or_eq_of_le hw with h' | h'
      · exact h'
      · exfalso; rw [← h', Int.zero_mul] at hlt; omega
    obtain ⟨v, h1, h2, h3⟩ := ih bs (i + 1) (by omega) (by omega)
    refine ⟨(b ++ r.filterMap (f (toldAt w i))) :: v, ?_, by simp [h2], ?_⟩
    · rw [applyWrite, calculateIndexesBag_in hlt hw' hh]
      dsimp only
      rw [h1]; rfl
    · intro j b' r' hb hr
      cases j with
      | zero => simp at hb hr; subst hb hr; simp
      | succ j =>
        rw [List.getElem?_cons_succ] at hb hr ⊢
        rw [h3 j b' r' hb hr, show i + 1 + j = i + (j + 1) by omega]

theorem applyReadWrite_spec (f : Loc → O → Option O) {w h : Int} (hw : 0 ≤ w) (hh : 0 ≤ h) :
    ∀ (rs bs : List (List O)) (i : Nat), (i + rs.length : Int) ≤ w * h → rs.length = bs.length →
      ∃ v, applyReadWrite f w h i rs bs = some v ∧ v.length = rs.length ∧
        ∀ (j : Nat) (b r : List O), bs[j]? = some b → rs[j]? = some r →
          v[j]? = some (applyRWBag (f (toldAt w (i + j))) b r) := by
  intro rs
  induction rs with
  | nil => intro bs i _ hl; exact ⟨bs, rfl, hl.symm, by simp⟩
  | cons r rs ih =>
    intro bs i hi hl
    cases bs with
    | nil => simp at hl
    | cons b bs =>
    simp only [List.length_cons] at hi hl
    have hlt : (i : Int) < w * h := by omega
    have hw' : 0 < w := by
      rcases Int.lt_or_eq_of_le hw with h' | h'
      · exact h'
      · exfalso; rw [← h', Int.zero_mul] at hlt; omega
    obtain ⟨v, h1, h2, h3⟩ := ih bs (i + 1) (by omega) (by omega)
    refine ⟨applyRWBag (f (toldAt w i)) b r :: v, ?_, by simp [h2], ?_⟩
    · rw [applyReadWrite, calculateIndexesBag_in hlt hw' hh]
      dsimp only
      rw [h1]; rfl
    · intro j b' r' hb hr
      cases j with
      | zero => simp at hb hr; subst hb hr; simp
      | succ j =>
        rw [List.getElem?_cons_succ] at hb hr ⊢
        rw [h3 j b' r' hb hr, show i + 1 + j = i + (j + 1) by omega]

/-- Past the last cell, READ panics. -/
theorem applyRead_long (f : Loc → O → Option O) {w h : Int} (hw : 0 ≤ w) :
    ∀ (rs : List (List O)) (i : Nat), (w * h < i + rs.length) → rs ≠ [] → applyRead f w h i rs = none := by
  intro rs
  induction rs with
  | nil => intro i _ h; exact absurd rfl h
  | cons r rs ih =>
    intro i hi _
    rw [applyRead]
    simp only [List.length_cons] at hi
    by_cases hc : w * h ≤ i
    · rw [calculateIndexesBag_out hc hw]
    · have hne : rs ≠ [] := by
        rintro rfl
        simp at hi
        omega
      rw [ih (i + 1) (by omega) hne]
      cases calculateIndexesBag i w h <;> rfl

theorem applyWrite_long (f : Loc → O → Option O) {w h : Int} (hw : 0 ≤ w) :
    ∀ (rs bs : List (List O)) (i : Nat), (w * h < i + rs.length) → rs ≠ [] → applyWrite f w h i rs bs = none := by
  intro rs
  induction rs with
  | nil => intro _ i _ h; exact absurd rfl h
  | cons r rs ih =>
    intro bs i hi _
    rw [applyWrite.eq_def]
    dsimp only
    simp only [List.length_cons] at hi
    by_cases hc : w * h ≤ i
    · rw [calculateIndexesBag_out hc hw]
    · have hne : rs ≠ [] := by
        rintro rfl
        simp at hi
        omega
      cases calculateIndexesBag i w h with
      | none => rfl
      | some id =>
        cases bs with
        | nil =>
          dsimp only
          split
          · exact ih _ (i + 1) (by omega) hne
          · rfl
        | cons b bs =>
          dsimp only
          rw [ih _ (i + 1) (by omega) hne]; rfl

theorem applyReadWrite_long (f : Loc → O → Option O) {w h : Int} (hw : 0 ≤ w) :
    ∀ (rs bs : List (List O)) (i : Nat), (w * h < i + rs.length) → rs ≠ [] →
      applyReadWrite f w h i rs bs = none := by
  intro rs
  induction rs with
  | nil => intro _ i _ h; exact absurd rfl h
  | cons r rs ih =>
    intro bs i hi _
    rw [applyReadWrite.eq_def]
    dsimp only
    simp only [List.length_cons] at hi
    by_cases hc : w * h ≤ i
    · rw [calculateIndexesBag_out hc hw]
    · have hne : rs ≠ [] := by
        rintro rfl
        simp at hi
        omega
      cases calculateIndexesBag i w h with
      | none => rfl
      | some id =>
        cases bs with
        | nil => rfl
        | cons b bs =>
          dsimp only
          rw [ih _ (i + 1) (by omega) hne]; rfl

end Verif.DenseObject

namespace Verif.SparseObject

open Grid

variable {O : Type} [BEq O]

structure WF (g : BGrid O) : Prop where
  r : HMap.WF g.rlocs
  w : HMap.WF g.locs

/-- An absent bag for the empty list. -/
def entry (b : List O) : Option (List O) := if b.isEmpty then none else some b

structure Shows (g : BGrid O) (pub cur : Loc → List O) : Prop where
  wf : WF g
  read : ∀ l, HMap.get g.rlocs l = entry (pub l)
  write : ∀ l, HMap.get g.locs l = entry (cur l)

theorem shows_place {g : BGrid O} {pub cur : Loc → List O} (hs : Shows g pub cur) (o : O) (l : Loc) :
    Shows (setObjectLocation g o l) pub (fun l' => if l' = l then cur l' ++ [o] else cur l') := by
  unfold setObjectLocation
  have hw := hs.write l
  unfold entry at hw
  cases hc : HMap.get g.locs l with
  | none =>
    refine ⟨⟨hs.wf.r, HMap.WF_insert hs.wf.w _ _⟩, hs.read, ?_⟩
    intro l'
    show HMap.get (HMap.insert g.locs l [o]).1 l' = _
    rw [HMap.get_insert]
    by_cases h : l' = l
    · subst h
      rw [hc] at hw
      have : cur l' = [] := by
        split at hw
        · rename_i h; simpa using h
        · exact absurd hw (by simp)
      simp [entry, this]
    · simp [h, hs.write l', entry]
  | some b =>
    dsimp only
    refine ⟨⟨hs.wf.r, HMap.WF_adjust hs.wf.w l (fun bag => bag ++ [o])⟩, hs.read, ?_⟩
    intro l'
    show HMap.get (HMap.adjust g.locs l (fun bag => bag ++ [o])) l' = _
    rw [HMap.get_adjustBy]
    by_cases h : l' = l
    · subst h
      rw [hc] at hw ⊢
      have : b = cur l' := by
        split at hw
        · exact absurd hw (by simp)
        · simpa using hw
      simp [entry, this]
    · simp [h, hs.write l', entry]

theorem shows_remove {g : BGrid O} {pub cur : Loc → List O} (hs : Shows g pub cur) (o : O) (l : Loc) :
    Shows (removeObjectLocation g o l) pub
      (fun l' => if l' = l then (cur l').filter (fun x => x != o) else cur l') := by
  unfold removeObjectLocation
  have hw := hs.write l
  unfold entry at hw
  cases hc : HMap.get g.locs l with
  | none =>
    refine ⟨hs.wf, hs.read, ?_⟩
    intro l'
    show HMap.get g.locs l' = _
    by_cases h : l' = l
    · subst h
      rw [hc] at hw
      have : cur l' = [] := by
        split at hw
        · rename_i h; simpa using h
        · exact absurd hw (by simp)
      simp [entry, this, hc]
    · simp [h, hs.write l', entry]
  | some b =>
    have hb : b = cur l := by
      rw [hc] at hw
      split at hw
      · exact absurd hw (by simp)
      · simpa using hw
    subst hb
    dsimp only
    split
    · rename_i he
      refine ⟨⟨hs.wf.r, HMap.WF_remove hs.wf.w _⟩, hs.read, ?_⟩
      intro l'
      show HMap.get (HMap.remove g.locs l).1 l' = _
      rw [HMap.get_remove]
      by_cases h : l' = l
      · subst h; simp only [if_true, entry]; rw [if_pos he]
      · simp [h, hs.write l', entry]
    · rename_i he
      refine ⟨⟨hs.wf.r, HMap.WF_adjust hs.wf.w l (fun bag => bag.filter (fun o' => o' != o))⟩, hs.read, ?_⟩
      intro l'
      show HMap.get (HMap.adjust g.locs l (fun bag => bag.filter (fun o' => o' != o))) l' = _
      rw [HMap.get_adjustBy]
      by_cases h : l' = l
      · subst h
        simp only [if_true, hc, Option.map_some, entry]
        rw [if_neg he]
      · simp [h, hs.write l', entry]

theorem shows_lazy {g : BGrid O} {pub cur : Loc → List O} (hs : Shows g pub cur) :
    Shows (lazyUpdate g) cur (fun _ => []) :=
  ⟨⟨hs.wf.w, HMap.WF_nil⟩, hs.write, fun l => by simp [lazyUpdate, entry]⟩

theorem shows_update {g : BGrid O} {pub cur : Loc → List O} (hs : Shows g pub cur) :
    Shows (update g) cur (fun _ => []) := by
  refine ⟨⟨HMap.WF_foldl_insert g.locs id [] HMap.WF_nil, HMap.WF_nil⟩, ?_, fun l => by simp [update, entry]⟩
  intro l
  have := HMap.get_foldl_insert g.locs id [] hs.wf.w l
  simp only [id] at this
  show HMap.get (g.locs.foldl (fun m e => (HMap.insert m e.1 e.2).1) []) l = _
  rw [this]
  simp [← hs.write l]

/-! ### apply -/

theorem applyBag_some (f : O → Option O) : ∀ (b b' : List O), applyBag f b = some b' ↔ b.map f = b'.map some := by
  intro b
  induction b with
  | nil => intro b'; cases b' <;> simp [applyBag]
  | cons o b ih =>
    intro b'
    rw [applyBag]
    cases h : f o with
    | none => cases b' <;> simp [h]
    | some x =>
      cases b' with
      | nil => simp
      | cons y b' =>
        simp only [Option.map_eq_some_iff, List.cons.injEq, List.map_cons, h, Option.some.injEq]
        constructor
        · rintro ⟨t, h1, h2, h3⟩
          subst h3; exact ⟨h2, (ih _).1 h1⟩
        · rintro ⟨h1, h2⟩
          exact ⟨b', (ih _).2 h2, h1, rfl⟩

theorem applyBag_none (f : O → Option O) : ∀ (b : List O), applyBag f b = none ↔ ∃ o ∈ b, f o = none := by
  intro b
  induction b with
  | nil => simp [applyBag]
  | cons o b ih =>
    rw [applyBag]
    cases h : f o with
    | none => simp [h]
    | some x => simp [ih, h]

theorem applyMap_some (f : Loc → O → Option O) : ∀ (m m' : HMap Loc (List O)), applyMap f m = some m' →
    (m'.map Prod.fst = m.map Prod.fst) ∧
    ∀ l, (HMap.get m' l).map (fun b => b.map some) = (HMap.get m l).map (fun b => b.map (f l)) := by
  intro m
  induction m with
  | nil => intro m' h; simp [applyMap] at h; subst h; simp
  | cons e m ih =>
    intro m' h
    rw [applyMap] at h
    cases hb : applyBag (f e.1) e.2 with
    | none => rw [hb] at h; simp at h
    | some b =>
      rw [hb] at h
      obtain ⟨t, ht, rfl⟩ := Option.map_eq_some_iff.1 h
      obtain ⟨h1, h2⟩ := ih t ht
      refine ⟨by simp [h1], ?_⟩
      intro l
      rw [HMap.get_cons, HMap.get_cons]
      by_cases hl : e.1 = l
      · subst hl
        simp [(applyBag_some _ _ _).1 hb]
      · simp [hl, h2 l]

theorem applyMap_none (f : Loc → O → Option O) : ∀ (m : HMap Loc (List O)),
    applyMap f m = none ↔ ∃ e ∈ m, ∃ o ∈ e.2, f e.1 o = none := by
  intro m
  induction m with
  | nil => simp [applyMap]
  | cons e m ih =>
    rw [applyMap]
    cases hb : applyBag (f e.1) e.2 with
    | none =>
      have := (applyBag_none _ _).1 hb
      simp only [List.mem_cons, true_iff]
      exact ⟨e, Or.inl rfl, this⟩
    | some b =>
      have : ¬ ∃ o ∈ e.2, f e.1 o = none := by
        rw [← applyBag_none, hb]; simp
      simp only [Option.map_eq_none_iff, ih, List.mem_cons]
      constructor
      · rintro ⟨e', h1, h2⟩; exact ⟨e', Or.inr h1, h2⟩
      · rintro ⟨e', h1 | h1, h2⟩
        · subst h1; exact absurd h2 this
        · exact ⟨e', h1, h2⟩

/-- Inserting one bag per object keeps the last object only. -/
theorem insertEach_total (f : O → O) (key : Loc) : ∀ (os : List O) (m : HMap Loc (List O)), HMap.WF m →
    ∃ m', insertEach (fun o => some (f o)) key m os = some m' ∧ HMap.WF m' ∧
      ∀ l, HMap.get m' l = if l = key then ((os.getLast?).map (fun o => [f o])).or (HMap.get m l) else HMap.get m l := by
  intro os
  induction os with
  | nil => intro m hm; exact ⟨m, rfl, hm, by simp⟩
  | cons o os ih =>
    intro m hm
    obtain ⟨m', h1, h2, h3⟩ := ih (HMap.insert m key [f o]).1 (HMap.WF_insert hm _ _)
    refine ⟨m', by rw [insertEach]; exact h1, h2, ?_⟩
    intro l
    rw [h3 l, HMap.get_insert]
    by_cases hl : l = key
    · subst hl
      cases os with
      | nil => simp
      | cons a os =>
        rw [List.getLast?_cons_cons]
        cases hg : (a :: os).getLast? with
        | none => simp at hg
        | some x => simp
    · simp [hl]

theorem applyBag_total (f : O → O) (b : List O) : applyBag (fun o => some (f o)) b = some (b.map f) := by
  rw [applyBag_some]; simp

/-- READWRITE with a closure that never returns `None`. -/
theorem applyRW_total (f : Loc → O → O) : ∀ (rl m : HMap Loc (List O)), HMap.WF rl → HMap.WF m →
    ∃ m', rl.foldlM (applyRWEntry (fun l o => some (f l o))) m = some m' ∧ HMap.WF m' ∧
      ∀ l, HMap.get m' l =
        match HMap.get rl l, HMap.get m l with
        | none, c => c
        | some _, some b => some (b.map (f l))
        | some r, none => (r.getLast?).map (fun o => [f l o]) := by
  intro rl
  induction rl with
  | nil => intro m _ hm; exact ⟨m, rfl, hm, by simp⟩
  | cons e rl ih =>
    intro m hrl hm
    rw [HMap.WF_cons] at hrl
    have hnone : HMap.get rl e.1 = none := HMap.get_eq_none_iff.2 hrl.1
    rw [List.foldlM_cons]
    cases hc : HMap.get m e.1 with
    | some b =>
      obtain ⟨m', h1, h2, h3⟩ := ih (HMap.adjust m e.1 (fun _ => b.map (f e.1))) hrl.2 (HMap.WF_adjust hm _ _)
      refine ⟨m', ?_, h2, ?_⟩
      · unfold applyRWEntry at *
        rw [hc]
        dsimp only
        rw [applyBag_total]
        exact h1
      · intro l
        rw [h3 l, HMap.get_adjustBy, HMap.get_cons]
        by_cases hl : l = e.1
        · subst hl; simp [hnone, hc]
        · simp [hl, Ne.symm hl]
    | none =>
      obtain ⟨m1, h1, h2, h3⟩ := insertEach_total (f e.1) e.1 e.2 m hm
      obtain ⟨m', g1, g2, g3⟩ := ih m1 hrl.2 h2
      refine ⟨m', ?_, g2, ?_⟩
      · have : applyRWEntry (fun l o => some (f l o)) m e = some m1 := by
          unfold applyRWEntry
          rw [hc]
          exact h1
        rw [this]; exact g1
      · intro l
        rw [g3 l, h3 l, HMap.get_cons]
        by_cases hl : l = e.1
        · subst hl; simp [hnone, hc]
        · simp [hl, Ne.symm hl]

end Verif.SparseObject
