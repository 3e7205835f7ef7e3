import Verif.Spec.SyncCells
import Verif.Lemmas.SynchronousFields
import Verif.Lemmas.SyncNetworks
import Verif.Lemmas.NumberGrid
import Mathlib.Logic.Encodable.Basic
import Mathlib.Logic.Equiv.List

/-! The number grids as fields of a synchronous simulation. -/

namespace Verif.Sync

open Grid (Loc InRange)

variable {B T : Type} {loc : B → Loc} {val : B → T} {nbh : B → List Loc}

/-- The number of a cell. -/
def cellNo (l : Loc) : Nat := Encodable.encode ((l.x, l.y) : ℤ × ℤ)

theorem cellNo_inj {l l' : Loc} (h : cellNo l = cellNo l') : l = l' := by
  have := Encodable.encode_injective h
  cases l; cases l'
  simp only [Prod.mk.injEq] at this
  rw [this.1, this.2]

theorem valueAt_perm {r r' : List B} (h : r.Perm r') (l : Loc) : valueAt loc val r l = valueAt loc val r' l := by
  have hp := h.filter (fun b => decide (loc b = l))
  unfold valueAt
  generalize r.filter (fun b => decide (loc b = l)) = a at hp
  generalize r'.filter (fun b => decide (loc b = l)) = c at hp
  match a, c, hp with
  | [], [], _ => rfl
  | [], _ :: _, hp => exact absurd hp.length_eq (by simp)
  | _ :: _, [], hp => exact absurd hp.length_eq (by simp)
  | [x], [y], hp => rw [List.perm_singleton.1 hp.symm]
  | [x], _ :: _ :: _, hp => exact absurd hp.length_eq (by simp)
  | _ :: _ :: _, [y], hp => exact absurd hp.length_eq (by simp)
  | _ :: _ :: _, _ :: _ :: _, _ => rfl

theorem valueAt_nil : valueAt loc val ([] : List B) = fun _ => none := rfl

/-- One more agent with a cell of its own. -/
theorem valueAt_snoc {w : List B} {b : B} (h : ∀ x ∈ w, loc x ≠ loc b) (l : Loc) :
    valueAt loc val (w ++ [b]) l = if l = loc b then some (val b) else valueAt loc val w l := by
  unfold valueAt
  rw [List.filter_append]
  by_cases hb : l = loc b
  · subst hb
    have h1 : w.filter (fun x => decide (loc x = loc b)) = [] := by
      rw [List.filter_eq_nil_iff]; intro x hx; simpa using h x hx
    rw [h1, if_pos rfl]
    simp
  · have h1 : [b].filter (fun x => decide (loc x = l)) = [] := by
      rw [List.filter_eq_nil_iff]
      intro x hx
      rw [List.mem_singleton] at hx
      subst hx
      simpa using fun e : loc x = l => hb e.symm
    rw [h1, List.append_nil, if_neg hb]

theorem filter_loc {w : List B} (hn : (w.map loc).Nodup) {x : B} (hx : x ∈ w) : w.filter (fun y => decide (loc y = loc x)) = [x] := by
  induction w with
  | nil => cases hx
  | cons y w ih =>
    rw [List.map_cons, List.nodup_cons] at hn
    rw [List.filter_cons]
    rcases List.mem_cons.1 hx with rfl | hx
    · have : w.filter (fun y => decide (loc y = loc x)) = [] := by
        rw [List.filter_eq_nil_iff]
        intro z hz
        have : loc z ≠ loc x := fun e => hn.1 (e ▸ List.mem_map_of_mem hz)
        simpa using this
      rw [this]
      simp
    · have hyx : loc y ≠ loc x := fun e => hn.1 (e ▸ List.mem_map_of_mem hx)
      rw [ih hn.2 hx]
      simp [hyx]

/-- Agents with different cells, one of which is replaced by an agent with the same cell. -/
theorem valueAt_replace {w : List B} (hn : (w.map loc).Nodup) {b : B} (hb : ∃ x ∈ w, loc x = loc b) (l : Loc) :
    valueAt loc val (w.map (fun x => if loc x = loc b then b else x)) l =
      if l = loc b then some (val b) else valueAt loc val w l := by
  have key : ∀ w : List B, (w.map (fun x => if loc x = loc b then b else x)).filter (fun x => decide (loc x = l)) =
      (w.filter (fun x => decide (loc x = l))).map (fun x => if loc x = loc b then b else x) := by
    intro w
    induction w with
    | nil => rfl
    | cons x w ih =>
      rw [List.map_cons, List.filter_cons, List.filter_cons, ih]
      have hx : (loc (if loc x = loc b then b else x) = l) ↔ loc x = l := by
        split
        · rename_i h; rw [h]
        · rfl
      simp only [hx]
      split <;> rfl
  unfold valueAt
  rw [key]
  by_cases hl : l = loc b
  · subst hl
    obtain ⟨x, hx, hxb⟩ := hb
    have h1 := filter_loc hn hx
    rw [hxb] at h1
    rw [h1, if_pos rfl]
    simp [hxb]
  · rw [if_neg hl]
    have : (w.filter (fun x => decide (loc x = l))).map (fun x => if loc x = loc b then b else x) =
        w.filter (fun x => decide (loc x = l)) := by
      conv_rhs => rw [← List.map_id (w.filter _)]
      apply List.map_congr_left
      intro x hx
      have := (List.mem_filter.1 hx).2
      simp only [decide_eq_true_eq] at this
      rw [if_neg (fun e => hl (by rw [← this, e]))]
      rfl
    rw [this]

theorem valueAt_some {w : List B} (hn : (w.map loc).Nodup) {x : B} (hx : x ∈ w) : valueAt loc val w (loc x) = some (val x) := by
  unfold valueAt
  rw [filter_loc hn hx]

theorem valueAt_none {w : List B} {l : Loc} (h : ∀ x ∈ w, loc x ≠ l) : valueAt loc val w l = none := by
  unfold valueAt
  rw [List.filter_eq_nil_iff.2 (by intro x hx; simpa using h x hx)]

/-! ### The grids -/

theorem nodup_snoc {w : List B} {b : B} (hn : (w.map loc).Nodup) (h : ∀ x ∈ w, cellNo (loc x) ≠ cellNo (loc b)) :
    ((w ++ [b]).map loc).Nodup ∧ ∀ x ∈ w, loc x ≠ loc b := by
  have h' : ∀ x ∈ w, loc x ≠ loc b := fun x hx e => h x hx (by rw [e])
  refine ⟨?_, h'⟩
  rw [List.map_append, List.nodup_append]
  refine ⟨hn, by simp, ?_⟩
  intro a ha c hc
  obtain ⟨x, hx, rfl⟩ := List.mem_map.1 ha
  rw [List.map_cons, List.map_nil, List.mem_singleton] at hc
  rw [hc]
  exact h' x hx

/-- `Holds` of the sequential dense grid. -/
def DenseCells (loc : B → Loc) (val : B → T) (w h : Int) (g : DenseNumber.DGrid T) (r wr : List B) : Prop :=
  DenseNumber.Shows g w h (valueAt loc val r) (valueAt loc val wr) ∧ (wr.map loc).Nodup

theorem denseCellLaws (fast : Bool) (loc : B → Loc) (val : B → T) (nbh : B → List Loc) (w h : Int) :
    Laws (denseCellOps fast loc val nbh) (fun b => cellNo (loc b)) (GridOk loc nbh w h) (cellView loc val nbh) Eq
      (CellsShow DenseNumber.getValue loc val (InRange w h)) (DenseCells loc val w h) where
  place {g r wr} b hs hok hfr := by
    obtain ⟨g', h1, h2⟩ := DenseNumber.shows_write hs.1 (loc b) hok.1 (some (val b))
    obtain ⟨h3, h4⟩ := nodup_snoc hs.2 hfr
    refine ⟨g', h1, ?_, h3⟩
    have : Grid.upd (valueAt loc val wr) (loc b) (some (val b)) = valueAt loc val (wr ++ [b]) := by
      funext l
      rw [valueAt_snoc h4]
      rfl
    rwa [this] at h2
  publish {g r wr} hs := by
    refine ⟨_, rfl, ?_, by simp⟩
    cases fast
    · exact DenseNumber.shows_update hs.1
    · exact DenseNumber.shows_lazy hs.1
  look {g r wr} b hs _ hok := ⟨_, mapM_some (fun l hl => hs.1.read l (hok.2 l hl)), rfl⟩
  shows {g r wr pop} hs hp := fun l hl => by rw [hs.1.read l hl, valueAt_perm hp]
  perm b _ _ hp := by
    unfold cellView
    exact List.map_congr_left (fun l _ => valueAt_perm hp l)

/-- `Holds` of the sequential sparse grid. -/
def SparseCells (loc : B → Loc) (val : B → T) (g : SparseNumber.SGrid T) (r wr : List B) : Prop :=
  SparseNumber.WF g ∧ SparseNumber.getValue g = valueAt loc val r ∧ SparseNumber.getValueUnbuffered g = valueAt loc val wr ∧
    (wr.map loc).Nodup

theorem sparseCellLaws (fast : Bool) (loc : B → Loc) (val : B → T) (nbh : B → List Loc) :
    Laws (sparseCellOps fast loc val nbh) (fun b => cellNo (loc b)) (fun _ => True) (cellView loc val nbh) Eq
      (CellsShow (fun g l => some (SparseNumber.getValue g l)) loc val (fun _ => True)) (SparseCells loc val) where
  place {g r wr} b hs _ hfr := by
    obtain ⟨h1, h2, h3, h4⟩ := hs
    obtain ⟨h5, h6⟩ := nodup_snoc h4 hfr
    refine ⟨_, rfl, SparseNumber.wf_exec h1 (.set (val b) (loc b)), h2, ?_, h5⟩
    funext l
    rw [valueAt_snoc h6, ← h3]
    exact HMap.get_insert ..
  publish {g r wr} hs := by
    obtain ⟨h1, h2, h3, h4⟩ := hs
    refine ⟨_, rfl, ?_⟩
    cases fast
    · refine ⟨SparseNumber.wf_exec h1 .update, ?_, rfl, by simp⟩
      funext l
      rw [← h3]
      exact SparseNumber.getValue_update h1 l
    · exact ⟨SparseNumber.wf_exec h1 .lazyUpdate, h3, rfl, by simp⟩
  look {g r wr} b hs _ _ := ⟨_, rfl, by rw [hs.2.1]; rfl⟩
  shows {g r wr pop} hs hp := fun l _ => by
    show some (SparseNumber.getValue g l) = _
    rw [hs.2.1, valueAt_perm hp]
  perm b _ _ hp := by
    unfold cellView
    exact List.map_congr_left (fun l _ => valueAt_perm hp l)

theorem getValue_par {g : ParGrid.NGrid T} {r w : Loc → Option T} (h : ParGrid.NShows g r w) (l : Loc) : g.getValue l = some (r l) := by
  unfold ParGrid.NGrid.getValue
  rw [ParGrid.getRead_abs h.inv, h.read]

/-- `Holds` of the grids of the feature `parallel`, published with `lazy_update`. -/
def ParCells (loc : B → Loc) (val : B → T) (g : ParGrid.NGrid T) (r wr : List B) : Prop :=
  ParGrid.NShows g (valueAt loc val r) (valueAt loc val wr) ∧ (wr.map loc).Nodup

theorem parCellLaws (loc : B → Loc) (val : B → T) (nbh : B → List Loc) :
    Laws (parCellOps true loc val nbh) (fun b => cellNo (loc b)) (fun _ => True) (cellView loc val nbh) Eq
      (CellsShow ParGrid.NGrid.getValue loc val (fun _ => True)) (ParCells loc val) where
  place {g r wr} b hs _ hfr := by
    obtain ⟨g', h1, _, _, h2⟩ := ParGrid.nshows_exec hs.1 (.set (val b) (loc b))
    obtain ⟨h3, h4⟩ := nodup_snoc hs.2 hfr
    refine ⟨g', h1, ?_, h3⟩
    have : (fun l' => if l' = loc b then some (val b) else valueAt loc val wr l') = valueAt loc val (wr ++ [b]) := by
      funext l
      rw [valueAt_snoc h4]
    dsimp only at h2
    rwa [this] at h2
  publish {g r wr} hs := by
    obtain ⟨g', h1, _, _, h2⟩ := ParGrid.nshows_exec hs.1 .lazyUpdate
    exact ⟨g', h1, h2, by simp⟩
  look {g r wr} b hs _ _ := ⟨_, mapM_some (fun l _ => getValue_par hs.1 l), rfl⟩
  shows {g r wr pop} hs hp := fun l _ => by rw [getValue_par hs.1, valueAt_perm hp]
  perm b _ _ hp := by
    unfold cellView
    exact List.map_congr_left (fun l _ => valueAt_perm hp l)

/-- `Holds` of the grids of the feature `parallel`, published with `update`: the write buffer keeps the values of all cells. -/
def ParKept (loc : B → Loc) (val : B → T) (g : ParGrid.NGrid T) (r wr : List B) : Prop :=
  (wr.map loc).Nodup ∧ ∃ pub, ParGrid.NShows g pub (valueAt loc val wr) ∧
    (pub = (fun _ => none) ∧ r = [] ∨ pub = valueAt loc val r ∧ r.map loc = wr.map loc)

theorem parKeptLaws (loc : B → Loc) (val : B → T) (nbh : B → List Loc) :
    NodeLaws (parCellOps false loc val nbh) loc (cellView loc val nbh)
      (CellsShow ParGrid.NGrid.getValue loc val (fun _ => True)) (ParKept loc val) where
  place {g r wr} b hs hb := by
    obtain ⟨hn, pub, hs, hp⟩ := hs
    obtain ⟨g', h1, _, _, h2⟩ := ParGrid.nshows_exec hs (.set (val b) (loc b))
    have hk : (wr.map (fun x => if loc x = loc b then b else x)).map loc = wr.map loc := replace_keys rfl b
    refine ⟨g', h1, by rw [hk]; exact hn, pub, ?_, by rw [hk]; exact hp⟩
    have : (fun l' => if l' = loc b then some (val b) else valueAt loc val wr l') =
        valueAt loc val (wr.map (fun x => if loc x = loc b then b else x)) := by
      funext l
      rw [valueAt_replace hn hb]
    dsimp only at h2
    rwa [this] at h2
  publish {g r wr} hs := by
    obtain ⟨hn, pub, hs, hp⟩ := hs
    obtain ⟨g', h1, _, _, h2⟩ := ParGrid.nshows_exec hs .update
    refine ⟨g', h1, hn, valueAt loc val wr, ?_, Or.inr ⟨rfl, rfl⟩⟩
    have : (fun l => (valueAt loc val wr l).or (pub l)) = valueAt loc val wr := by
      funext l
      rcases hp with ⟨rfl, _⟩ | ⟨rfl, hk⟩
      · simp
      · by_cases h : ∃ x ∈ wr, loc x = l
        · obtain ⟨x, hx, rfl⟩ := h
          rw [valueAt_some hn hx]
          rfl
        · rw [valueAt_none (w := r), Option.or_none]
          intro x hx e
          have : loc x ∈ wr.map loc := by rw [← hk]; exact List.mem_map_of_mem hx
          obtain ⟨y, hy, hyx⟩ := List.mem_map.1 this
          exact h ⟨y, hy, hyx.trans e⟩
    dsimp only at h2
    rwa [this] at h2
  look {g r wr} b hs hb := by
    obtain ⟨hn, pub, hs, hp⟩ := hs
    rcases hp with ⟨_, rfl⟩ | ⟨rfl, _⟩
    · cases hb
    · exact mapM_some (fun l _ => getValue_par hs l)
  shows {g r wr} hs hr := by
    obtain ⟨hn, pub, hs, hp⟩ := hs
    rcases hp with ⟨_, rfl⟩ | ⟨rfl, _⟩
    · exact absurd rfl hr
    · exact fun l _ => getValue_par hs l

/-- The agents write their values one after the other into an empty grid. -/
theorem parKept_build (fast : Bool) {g : ParGrid.NGrid T} (hg : ParGrid.NShows g (fun _ => none) (fun _ => none)) (agents : List B)
    (hn : (agents.map loc).Nodup) :
    ∃ f, agents.foldlM (parCellOps fast loc val nbh).place g = some f ∧ ParKept loc val f [] agents := by
  induction agents using List.reverseRecOn with
  | nil => exact ⟨g, rfl, by simp, _, hg, Or.inl ⟨rfl, rfl⟩⟩
  | append_singleton l b ih =>
    obtain ⟨f, h1, _, pub, hs, hp⟩ := ih (hn.sublist (by simp))
    have hpub : pub = fun _ => none := by
      rcases hp with ⟨h, _⟩ | ⟨h, _⟩ <;> exact h
    subst hpub
    obtain ⟨g', h2, _, _, h3⟩ := ParGrid.nshows_exec hs (.set (val b) (loc b))
    refine ⟨g', ?_, hn, _, ?_, Or.inl ⟨rfl, rfl⟩⟩
    · rw [List.foldlM_append, h1]
      show ([b].foldlM (parCellOps fast loc val nbh).place f) = _
      rw [List.foldlM_cons]
      show ((f.setValueLocation (val b) (loc b)).bind _) = _
      rw [show f.setValueLocation (val b) (loc b) = some g' from h2]
      rfl
    · have : (fun l' => if l' = loc b then some (val b) else valueAt loc val l l') = valueAt loc val (l ++ [b]) := by
        funext l'
        rw [valueAt_snoc]
        intro x hx e
        rw [List.map_append, List.nodup_append] at hn
        exact hn.2.2 _ (List.mem_map_of_mem hx) _ (by simp) e
      dsimp only at h3
      rwa [this] at h3

end Verif.Sync
