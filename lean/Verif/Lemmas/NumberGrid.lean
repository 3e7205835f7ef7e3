import Verif.Model.DenseNumberGrid
import Verif.Model.SparseNumberGrid
import Verif.Lemmas.Grid
import Verif.Lemmas.HashMap

/-! Lemmas for the number grids (C20-C27). -/

namespace Verif.DenseNumber

open Grid

variable {T : Type}

/-- The shape every grid made by `new` keeps. -/
structure WF (g : DGrid T) : Prop where
  r : Sized g.width g.height g.rlocs
  w : Sized g.width g.height g.locs

/-- The grid shows `pub` to readers and has `cur` in its write buffer. -/
structure Shows (g : DGrid T) (w h : Int) (pub cur : Loc → Option T) : Prop where
  width : g.width = w
  height : g.height = h
  wf : WF g
  read : ∀ l, InRange w h l → getValue g l = some (pub l)
  write : ∀ l, InRange w h l → getValueUnbuffered g l = some (cur l)

theorem shows_new {w h : Int} {g : DGrid T} (hn : new w h = some g) :
    Shows g (w.natAbs : Int) (h.natAbs : Int) (fun _ => none) (fun _ => none) := by
  unfold new at hn
  split at hn
  · exact absurd hn (by simp)
  · simp only [Option.some.injEq] at hn
    subst hn
    have hs := sized_replicate (w := w) (h := h) (by omega) (none : Option T)
    exact ⟨rfl, rfl, ⟨hs, hs⟩, fun l hl => vecGet_replicate hs hl, fun l hl => vecGet_replicate hs hl⟩

theorem shows_write {g : DGrid T} {w h : Int} {pub cur : Loc → Option T} (hs : Shows g w h pub cur) (l : Loc)
    (hl : InRange w h l) (a : Option T) :
    ∃ g', ((vecSet g.locs g.height l a).map (fun v => { g with locs := v })) = some g' ∧
      Shows g' w h pub (upd cur l a) := by
  obtain ⟨h1, h2, hwf, h3, h4⟩ := hs
  subst h1 h2
  obtain ⟨v, hv, hsz, hg⟩ := vecSet_some hwf.w.big hl a
  refine ⟨{ g with locs := v }, by rw [hv]; rfl, rfl, rfl, ⟨hwf.r, hsz.trans hwf.w⟩, h3, ?_⟩
  intro l' hl'
  show vecGet v g.height l' = _
  rw [hg l' hl']
  unfold upd
  split
  · rfl
  · exact h4 l' hl'

theorem shows_lazy {g : DGrid T} {w h : Int} {pub cur : Loc → Option T} (hs : Shows g w h pub cur) :
    Shows (lazyUpdate g) w h cur (fun _ => none) := by
  obtain ⟨h1, h2, hwf, h3, h4⟩ := hs
  subst h1 h2
  refine ⟨rfl, rfl, ⟨hwf.w, sized_map hwf.r _⟩, h4, ?_⟩
  intro l hl
  show vecGet (g.rlocs.map _) g.height l = _
  rw [vecGet_map, show vecGet g.rlocs g.height l = some _ from h3 l hl]
  rfl

theorem shows_update {g : DGrid T} {w h : Int} {pub cur : Loc → Option T} (hs : Shows g w h pub cur) :
    Shows (update g) w h cur (fun _ => none) := by
  obtain ⟨h1, h2, hwf, h3, h4⟩ := hs
  subst h1 h2
  refine ⟨rfl, rfl, ⟨sized_zipWith hwf.w hwf.r _, sized_map hwf.w _⟩, ?_, ?_⟩
  · intro l hl
    exact vecGet_zipWith (fun w _ => w) g.locs g.rlocs g.height l (h4 l hl) (h3 l hl)
  · intro l hl
    show vecGet (g.locs.map _) g.height l = _
    rw [vecGet_map, show vecGet g.locs g.height l = some _ from h4 l hl]
    rfl

theorem shows_apply {g : DGrid T} {w h : Int} {pub cur : Loc → Option T} (hs : Shows g w h pub cur) (f : T → T)
    (o : GridOption) :
    Shows (applyToAllValues g f o) w h
      (match o with | .READ => fun l => (pub l).map f | _ => pub)
      (match o with
        | .READ => cur
        | .WRITE => fun l => applyW f (cur l) (pub l)
        | .READWRITE => fun l => applyRW f (cur l) (pub l)) := by
  obtain ⟨h1, h2, hwf, h3, h4⟩ := hs
  subst h1 h2
  cases o with
  | READ =>
    refine ⟨rfl, rfl, ⟨sized_map hwf.r _, hwf.w⟩, ?_, h4⟩
    intro l hl
    show vecGet (g.rlocs.map _) g.height l = _
    rw [vecGet_map, show vecGet g.rlocs g.height l = some _ from h3 l hl]
    rfl
  | WRITE =>
    refine ⟨rfl, rfl, ⟨hwf.r, sized_zipWith hwf.w hwf.r _⟩, h3, ?_⟩
    intro l hl
    exact vecGet_zipWith (applyW f) g.locs g.rlocs g.height l (h4 l hl) (h3 l hl)
  | READWRITE =>
    refine ⟨rfl, rfl, ⟨hwf.r, sized_zipWith hwf.w hwf.r _⟩, h3, ?_⟩
    intro l hl
    exact vecGet_zipWith (applyRW f) g.locs g.rlocs g.height l (h4 l hl) (h3 l hl)

/-- Every well-shaped grid shows something. -/
theorem shows_self {g : DGrid T} (hg : WF g) :
    ∃ pub cur, Shows g g.width g.height pub cur := by
  refine ⟨fun l => (getValue g l).getD none, fun l => (getValueUnbuffered g l).getD none, rfl, rfl, hg, ?_, ?_⟩
  · intro l hl
    obtain ⟨a, ha⟩ := vecGet_some hg.r.big hl
    simp [getValue, ha]
  · intro l hl
    obtain ⟨a, ha⟩ := vecGet_some hg.w.big hl
    simp [getValueUnbuffered, ha]

end Verif.DenseNumber

namespace Verif.SparseNumber

open Grid

variable {T : Type}

/-- Both maps have distinct keys. -/
structure WF (g : SGrid T) : Prop where
  r : HMap.WF g.rlocs
  w : HMap.WF g.locs

theorem applyRW_get (f : T → T) (locs : HMap Loc T) (e : Loc × T) (k : Loc) :
    HMap.get (applyRW f locs e) k =
      if k = e.1 then some (f ((HMap.get locs e.1).getD e.2)) else HMap.get locs k := by
  unfold applyRW
  cases h : HMap.get locs e.1 with
  | none => simp
  | some v => simp [HMap.get_adjustBy, h]

theorem applyRW_wf (f : T → T) {locs : HMap Loc T} (h : HMap.WF locs) (e : Loc × T) :
    HMap.WF (applyRW f locs e) := by
  unfold applyRW
  split
  · exact HMap.WF_adjust h _ _
  · exact HMap.WF_insert h _ _

theorem foldRW_get (f : T → T) (r : HMap Loc T) : ∀ (w : HMap Loc T), HMap.WF r → ∀ k,
    HMap.get (r.foldl (applyRW f) w) k = match HMap.get r k with
      | none => HMap.get w k
      | some v => some (f ((HMap.get w k).getD v)) := by
  induction r with
  | nil => intro w _ k; rfl
  | cons e r ih =>
    intro w hr k
    rw [HMap.WF_cons] at hr
    rw [List.foldl_cons, ih _ hr.2, applyRW_get, HMap.get_cons]
    by_cases h : e.1 = k
    · subst h
      simp [HMap.get_eq_none_iff.2 hr.1]
    · simp [h, Ne.symm h]

theorem foldRW_wf (f : T → T) (r : HMap Loc T) : ∀ (w : HMap Loc T), HMap.WF w →
    HMap.WF (r.foldl (applyRW f) w) := by
  induction r with
  | nil => intro w h; exact h
  | cons e r ih => intro w h; exact ih _ (applyRW_wf f h e)

theorem wf_exec {g : SGrid T} (hg : WF g) (op : NumOp T) : WF (exec g op) := by
  cases op with
  | set v l => exact ⟨hg.r, HMap.WF_insert hg.w _ _⟩
  | remove l => exact ⟨hg.r, HMap.WF_remove hg.w _⟩
  | update => exact ⟨HMap.WF_foldl_insert g.locs id [] HMap.WF_nil, HMap.WF_nil⟩
  | lazyUpdate => exact ⟨hg.w, HMap.WF_nil⟩
  | apply f o =>
    cases o with
    | READ => exact ⟨HMap.WF_map hg.r _ (fun _ => rfl), hg.w⟩
    | WRITE => exact ⟨hg.r, HMap.WF_map hg.w _ (fun _ => rfl)⟩
    | READWRITE => exact ⟨hg.r, foldRW_wf f _ _ hg.w⟩

theorem wf_run {g : SGrid T} (hg : WF g) (hist : List (NumOp T)) : WF (run g hist) := by
  induction hist with
  | nil => exact hg
  | cons op h ih => exact wf_exec ih op

theorem wf_new (w h : Int) : WF (new w h : SGrid T) := ⟨HMap.WF_nil, HMap.WF_nil⟩

theorem getValue_update {g : SGrid T} (hg : WF g) (l : Loc) :
    getValue (update g) l = getValueUnbuffered g l := by
  show HMap.get (g.locs.foldl (fun m e => (HMap.insert m e.1 (id e.2)).1) []) l = HMap.get g.locs l
  rw [HMap.get_foldl_insert g.locs id [] hg.w]
  cases HMap.get g.locs l <;> rfl

end Verif.SparseNumber
