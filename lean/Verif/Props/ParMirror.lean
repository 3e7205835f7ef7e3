import Verif.Spec.ParMirror
import Verif.Props.Hashes
import Verif.Props.MirrorField

/-!
Under the feature `parallel` the two axes are treated alike (C260).
-/

namespace Verif.Grid

/-- Rows by rows or columns by columns. -/
theorem flatMap_swap {α β γ : Type} (f : α → β → γ) (bs : List β) : ∀ as : List α,
    (as.flatMap (fun a => bs.map (f a))).Perm (bs.flatMap (fun b => as.map (fun a => f a b)))
  | [] => by simp
  | a :: as => by
    rw [List.flatMap_cons]
    refine ((flatMap_swap f bs as).append_left _).trans ?_
    have e : bs.map (f a) = bs.flatMap (fun b => [f a b]) := by induction bs <;> simp_all
    rw [e]
    exact List.flatMap_append_perm bs (fun b => [f a b]) (fun b => as.map (fun a => f a b))

theorem mirror_twice (l : Loc) : l.mirror.mirror = l := rfl

theorem mirror_eq {a b : Loc} : a.mirror = b ↔ a = b.mirror := by
  constructor
  · intro h; rw [← h, mirror_twice]
  · intro h; rw [h, mirror_twice]

theorem cells_mirror (w h : Int) : (cells h w).Perm ((cells w h).map Loc.mirror) := by
  unfold cells
  rw [List.map_flatMap]
  refine (flatMap_swap (fun (i j : Nat) => (⟨i, j⟩ : Loc)) _ _).trans (List.Perm.of_eq ?_)
  refine List.flatMap_congr (fun j _ => ?_)
  rw [List.map_map]
  rfl

end Verif.Grid

namespace Verif.ParGrid

open Grid DBDashMap

variable {T O I : Type} [DecidableEq I]

/-! ### Number grids -/

theorem nmirror_exec {g g' : NGrid T} {r w : Loc → Option T} (h : NShows g r w)
    (h' : NShows g' (fun l => r l.mirror) (fun l => w l.mirror)) (op : NOp T) :
    ∃ k k' r' w', g.exec op = some k ∧ g'.exec op.mirror = some k' ∧ NShows k r' w' ∧
      NShows k' (fun l => r' l.mirror) (fun l => w' l.mirror) := by
  obtain ⟨k, e, _, _, s⟩ := nshows_exec h op
  obtain ⟨k', e', _, _, s'⟩ := nshows_exec h' op.mirror
  cases op with
  | set v l =>
    refine ⟨k, k', _, _, e, e', s, ?_⟩
    have : (fun c : Loc => if c = l.mirror then some v else w c.mirror) = fun c => if c.mirror = l then some v else w c.mirror := by
      funext c
      exact if_congr mirror_eq.symm rfl rfl
    have s' : NShows k' (fun l => r l.mirror) (fun c : Loc => if c = l.mirror then some v else w c.mirror) := s'
    rw [this] at s'
    exact s'
  | update => exact ⟨k, k', _, _, e, e', s, s'⟩
  | lazyUpdate => exact ⟨k, k', _, _, e, e', s, s'⟩
  | apply f o => cases o <;> exact ⟨k, k', _, _, e, e', s, s'⟩

theorem nmirror_run {g0 g0' : NGrid T} {r0 w0 : Loc → Option T} (h0 : NShows g0 r0 w0)
    (h0' : NShows g0' (fun l => r0 l.mirror) (fun l => w0 l.mirror)) (h : List (NOp T)) :
    ∃ g g' r w, NGrid.run g0 h = some g ∧ NGrid.run g0' (h.map NOp.mirror) = some g' ∧ NShows g r w ∧
      NShows g' (fun l => r l.mirror) (fun l => w l.mirror) := by
  induction h with
  | nil => exact ⟨g0, g0', r0, w0, rfl, rfl, h0, h0'⟩
  | cons op h ih =>
    obtain ⟨g, g', r, w, e, e', s, s'⟩ := ih
    obtain ⟨k, k', r', w', a, a', b, b'⟩ := nmirror_exec s s' op
    exact ⟨k, k', r', w', by rw [NGrid.run, e]; exact a, by rw [List.map_cons, NGrid.run, e']; exact a', b, b'⟩

/-- **C260**, number grids: the program with the axes exchanged, closures and places outside the grid included, leaves the grid with
the axes exchanged, whatever the hash functions and the numbers of processors. -/
theorem C260_number_grids {cpus cpus' : Nat} (hc : shardAmount cpus ≤ 2 ^ 64) (hc' : shardAmount cpus' ≤ 2 ^ 64)
    (hash hash' : Loc → Nat) (width height : Int) (h : List (NOp T)) :
    (∃ g g', NGrid.run (NGrid.newDense cpus hash width height) h = some g ∧
      NGrid.run (NGrid.newDense cpus' hash' height width) (h.map NOp.mirror) = some g' ∧ g.MirrorAnswers g') ∧
    ∃ g g', NGrid.run (NGrid.newSparse cpus hash width height) h = some g ∧
      NGrid.run (NGrid.newSparse cpus' hash' height width) (h.map NOp.mirror) = some g' ∧ g.MirrorAnswers g' := by
  have fin : ∀ {g g' : NGrid T} {r w : Loc → Option T}, NShows g r w → NShows g' (fun l => r l.mirror) (fun l => w l.mirror) →
      g.MirrorAnswers g' := by
    intro g g' r w s s'
    refine ⟨fun l => ?_, fun l => ?_⟩
    · unfold NGrid.getValue; rw [getRead_abs s.inv, getRead_abs s'.inv, s.read, s'.read]; rfl
    · unfold NGrid.getValueUnbuffered; rw [getWrite_abs s.inv, getWrite_abs s'.inv, s.write, s'.write]; rfl
  obtain ⟨g, g', r, w, e, e', s, s'⟩ := nmirror_run (nshows_new (T := T) hc hash width height).1 (nshows_new hc' hash' height width).1 h
  obtain ⟨k, k', r', w', a, a', b, b'⟩ :=
    nmirror_run (nshows_new (T := T) hc hash width height).2 (nshows_new hc' hash' height width).2 h
  exact ⟨⟨g, g', e, e', fin s s'⟩, ⟨k, k', a, a', fin b b'⟩⟩

/-! ### Object grids -/

/-- The location of an entry exchanged. -/
def swapE (e : O × Loc) : O × Loc := (e.1, e.2.mirror)

/-- Two grids that hold the same with the axes exchanged. -/
structure OMir (ident : O → I) (g g' : OGrid O I) : Prop where
  wf : OWf ident g
  wf' : OWf ident g'
  width : g'.width = g.height
  height : g'.height = g.width
  readO : ∀ i, (abs g'.obj2loc).read i = ((abs g.obj2loc).read i).map swapE
  writeO : ∀ i, (abs g'.obj2loc).write i = ((abs g.obj2loc).write i).map swapE
  readL : ∀ l, (abs g'.loc2objs).read l = (abs g.loc2objs).read l.mirror
  writeL : ∀ l, (abs g'.loc2objs).write l = (abs g.loc2objs).write l.mirror

variable {ident : O → I}

theorem omir_exec {g g' : OGrid O I} (h : OMir ident g g') (op : POp O) (hop : op.KeepsIdentity ident) :
    Both (OMir ident) (g.exec ident op) (g'.exec ident op.mirror) := by
  cases op with
  | place o l =>
    obtain ⟨k, e, w1, h1, s⟩ := oshows_place ident (oshows_self h.wf.invO h.wf.invL) o l
    obtain ⟨k', e', w1', h1', s'⟩ := oshows_place ident (oshows_self h.wf'.invO h.wf'.invL) o l.mirror
    have wk := owf_exec ident h.wf (.place o l) e
    have wk' := owf_exec ident h.wf' (.place o l.mirror) e'
    show Both _ (g.setObjectLocation ident o l) (g'.setObjectLocation ident o l.mirror)
    rw [e, e']
    refine ⟨wk.1, wk'.1, by rw [h1, w1', h.width], by rw [w1, h1', h.height], ?_, ?_, ?_, ?_⟩
    · intro i; rw [s.readO, s'.readO]; exact h.readO i
    · intro i
      rw [s.writeO, s'.writeO]
      dsimp only
      by_cases hi : i = ident o
      · rw [if_pos hi, if_pos hi]; rfl
      · rw [if_neg hi, if_neg hi]; exact h.writeO i
    · intro c; rw [s.readL, s'.readL]; exact h.readL c
    · intro c
      rw [s.writeL, s'.writeL]
      dsimp only
      by_cases hcl : c = l.mirror
      · rw [if_pos hcl, if_pos (mirror_eq.2 hcl), h.writeL, mirror_twice]
      · rw [if_neg hcl, if_neg (fun hx => hcl (mirror_eq.1 hx)), h.writeL]
  | remove o =>
    obtain ⟨a, b⟩ := remove_object_sim ident h.wf o
    obtain ⟨a', b'⟩ := remove_object_sim ident h.wf' o
    show Both _ (g.removeObject ident o) (g'.removeObject ident o)
    have hiff : g.removeObject ident o = none ↔ g'.removeObject ident o = none := by
      rw [a, a', h.readO]
      constructor
      · rintro ⟨e, e1, e2⟩
        exact ⟨swapE e, by rw [e1]; rfl, by rw [h.writeL]; exact e2⟩
      · rintro ⟨e, e1, e2⟩
        obtain ⟨x, x1, x2⟩ := Option.map_eq_some_iff.1 e1
        refine ⟨x, x1, ?_⟩
        rw [h.writeL, ← x2] at e2
        exact e2
    cases hr : g.removeObject ident o with
    | none => rw [hiff.1 hr]; trivial
    | some k =>
      cases hr' : g'.removeObject ident o with
      | none => exact absurd (hiff.2 hr') (by rw [hr]; simp)
      | some k' =>
        obtain ⟨c1, c2, c3, c4, c5, c6, c7⟩ := b k hr
        obtain ⟨d1, d2, d3, d4, d5, d6, d7⟩ := b' k' hr'
        refine ⟨c1, d1, by rw [d2, c3, h.width], by rw [d3, c2, h.height], ?_, ?_, ?_, ?_⟩
        · intro i; rw [c4, d4]; exact h.readO i
        · intro i
          rw [c5, d5]
          dsimp only
          by_cases hi : i = ident o
          · rw [if_pos hi, if_pos hi]; rfl
          · rw [if_neg hi, if_neg hi]; exact h.writeO i
        · intro l; rw [c6, d6]; exact h.readL l
        · intro l
          rw [c7, d7]
          dsimp only
          rw [h.writeL, h.readO]
          refine if_congr ?_ rfl rfl
          cases (abs g.obj2loc).read (ident o) with
          | none => simp
          | some e =>
            simp only [Option.map_some, Option.some.injEq]
            exact mirror_eq
  | removeAt o l =>
    obtain ⟨k, e, c1, c2, c3, c4, c5, c6⟩ := removeAt_sim ident h.wf o l
    obtain ⟨k', e', d1, d2, d3, d4, d5, d6⟩ := removeAt_sim ident h.wf' o l.mirror
    show Both _ (g.removeObjectLocation ident o l) (g'.removeObjectLocation ident o l.mirror)
    rw [e, e']
    refine ⟨c1, d1, by rw [d2, c3, h.width], by rw [d3, c2, h.height], ?_, ?_, ?_, ?_⟩
    · intro i; rw [c4, d4]; exact h.readO i
    · intro i; rw [c4, d4]; exact h.writeO i
    · intro c; rw [c5, d5]; exact h.readL c
    · intro c
      rw [c6, d6]
      dsimp only
      rw [h.writeL, h.writeL, mirror_twice]
      exact if_congr mirror_eq.symm rfl rfl
  | update =>
    have s := oshows_update (oshows_self h.wf.invO h.wf.invL)
    have s' := oshows_update (oshows_self h.wf'.invO h.wf'.invL)
    have wk := owf_exec ident h.wf .update rfl
    have wk' := owf_exec ident h.wf' .update rfl
    refine ⟨wk.1, wk'.1, h.width, h.height, ?_, ?_, ?_, ?_⟩
    · intro i
      rw [s.readO, s'.readO]
      dsimp only
      rw [h.writeO, h.readO]
      cases (abs g.obj2loc).write i <;> rfl
    · intro i; rw [s.writeO, s'.writeO]; exact h.writeO i
    · intro l
      rw [s.readL, s'.readL]
      dsimp only
      rw [h.readL, h.writeL]
    · intro l; rw [s.writeL, s'.writeL]; exact h.writeL l
  | lazyUpdate =>
    have s := oshows_lazy (oshows_self h.wf.invO h.wf.invL)
    have s' := oshows_lazy (oshows_self h.wf'.invO h.wf'.invL)
    have wk := owf_exec ident h.wf .lazyUpdate rfl
    have wk' := owf_exec ident h.wf' .lazyUpdate rfl
    refine ⟨wk.1, wk'.1, h.width, h.height, ?_, ?_, ?_, ?_⟩
    · intro i; rw [s.readO, s'.readO]; exact h.writeO i
    · intro i; rw [s.writeO, s'.writeO]; rfl
    · intro l; rw [s.readL, s'.readL]; exact h.writeL l
    · intro l; rw [s.writeL, s'.writeL]
  | apply f opt =>
    obtain ⟨k, e, c1, c2, c3, c4, c5, c6⟩ := apply_sim ident h.wf f opt
    obtain ⟨k', e', d1, d2, d3, d4, d5, d6⟩ := apply_sim ident h.wf' (fun l o => f l.mirror o) opt
    show Both _ (g.applyToAllValues ident f opt) (g'.applyToAllValues ident (fun l o => f l.mirror o) opt)
    rw [e, e']
    refine ⟨c1, d1, by rw [d3, c4, h.width], by rw [d4, c3, h.height], ?_, ?_, ?_, ?_⟩
    · intro i; rw [c5, d5]; exact h.readO i
    · intro i
      rw [apply_write h.wf hop c6, apply_write h.wf' (fun l o x hx => hop l.mirror o x hx) d6, h.readO, h.writeO]
      cases (abs g.obj2loc).read i with
      | none => rfl
      | some x =>
        dsimp only [Option.map_some, Option.bind_some, swapE]
        rw [mirror_twice]
        cases f x.2 x.1 <;> rfl
    · intro l; rw [c2, d2]; exact h.readL l
    · intro l; rw [c2, d2]; exact h.writeL l

theorem omir_run {g0 g0' : OGrid O I} (h0 : OMir ident g0 g0') (h : List (POp O)) (hk : ∀ op ∈ h, op.KeepsIdentity ident) :
    Both (OMir ident) (OGrid.run ident g0 h) (OGrid.run ident g0' (h.map POp.mirror)) := by
  induction h with
  | nil => exact h0
  | cons op h ih =>
    have ih := ih (fun o ho => hk o (List.mem_cons_of_mem _ ho))
    rw [List.map_cons, OGrid.run, OGrid.run]
    cases e : OGrid.run ident g0 h with
    | none =>
      cases e' : OGrid.run ident g0' (h.map POp.mirror) with
      | none => trivial
      | some k' => rw [e, e'] at ih; exact ih.elim
    | some k =>
      cases e' : OGrid.run ident g0' (h.map POp.mirror) with
      | none => rw [e, e'] at ih; exact ih.elim
      | some k' => rw [e, e'] at ih; exact omir_exec ih op (hk op List.mem_cons_self)

theorem omir_answers {g g' : OGrid O I} (h : OMir ident g g') : g.MirrorAnswers ident g' := by
  refine ⟨fun o => ?_, fun o => ?_, fun o => ?_, fun o => ?_, fun l => ?_, fun l => ?_, ?_, ?_⟩
  · unfold OGrid.get
    rw [getRead_abs h.wf.invO, getRead_abs h.wf'.invO, h.readO]
    cases (abs g.obj2loc).read (ident o) <;> rfl
  · unfold OGrid.getLocation
    rw [getRead_abs h.wf.invO, getRead_abs h.wf'.invO, h.readO]
    cases (abs g.obj2loc).read (ident o) <;> rfl
  · unfold OGrid.getLocationUnbuffered
    rw [getWrite_abs h.wf.invO, getWrite_abs h.wf'.invO, h.writeO]
    cases (abs g.obj2loc).write (ident o) <;> rfl
  · unfold OGrid.getUnbuffered
    rw [getWrite_abs h.wf.invO, getWrite_abs h.wf'.invO, h.writeO, Option.bind_some, Option.bind_some]
    cases (abs g.obj2loc).write (ident o) with
    | none => rfl
    | some e =>
      dsimp only [Option.map_some, swapE]
      rw [getWrite_abs h.wf.invL, getWrite_abs h.wf'.invL, h.writeL, mirror_twice]
  · rw [getObjects_abs h.wf.invL, getObjects_abs h.wf'.invL, h.readL, mirror_twice]
  · rw [getObjectsUnbuffered_abs h.wf.invL, getObjectsUnbuffered_abs h.wf'.invL, h.writeL, mirror_twice]
  · unfold OGrid.getEmptyBags
    rw [emptyBags_filter h.wf.invL, emptyBags_filter h.wf'.invL, h.width, h.height]
    refine ⟨_, _, rfl, rfl, ?_⟩
    refine ((cells_mirror g.width g.height).filter _).trans (List.Perm.of_eq ?_)
    rw [List.filter_map]
    congr 1
    refine List.filter_congr (fun c _ => ?_)
    simp only [Function.comp]
    rw [h.readL, mirror_twice]
  · unfold OGrid.iterObjects
    rw [iterCells_eq h.wf.invL, iterCells_eq h.wf'.invL, h.width, h.height]
    refine ⟨_, _, rfl, rfl, ?_⟩
    refine ((cells_mirror g.width g.height).flatMap_right _).trans (List.Perm.of_eq ?_)
    rw [List.flatMap_map, List.map_flatMap]
    refine List.flatMap_congr (fun c _ => ?_)
    rw [h.readL, mirror_twice, List.map_map]
    rfl

/-- **C260**, object grids: the program and the one with the axes exchanged both panic, or the grids answer alike with the axes
exchanged, also about places outside the grid. The closures of `apply_to_all_values` leave the objects their identities. -/
theorem C260_object_grids {cpus cpus' : Nat} (hc : shardAmount cpus ≤ 2 ^ 64) (hc' : shardAmount cpus' ≤ 2 ^ 64)
    (ident : O → I) (hashO hashO' : I → Nat) (hashL hashL' : Loc → Nat) (width height : Int) (h : List (POp O))
    (hk : ∀ op ∈ h, op.KeepsIdentity ident) :
    Both (OGrid.MirrorAnswers ident) (OGrid.run ident (OGrid.new cpus hashO hashL width height) h)
      (OGrid.run ident (OGrid.new cpus' hashO' hashL' height width) (h.map POp.mirror)) := by
  have s := oshows_new (O := O) hc hashO hashL width height
  have s' := oshows_new (O := O) hc' hashO' hashL' height width
  have h0 : OMir ident (OGrid.new cpus hashO hashL width height) (OGrid.new cpus' hashO' hashL' height width) := by
    refine ⟨owf_new hc ident hashO hashL width height, owf_new hc' ident hashO' hashL' height width, rfl, rfl, ?_, ?_, ?_, ?_⟩
    · intro i; rw [s.readO, s'.readO]; rfl
    · intro i; rw [s.writeO, s'.writeO]; rfl
    · intro l; rw [s.readL, s'.readL]
    · intro l; rw [s.writeL, s'.writeL]
  have := omir_run h0 h hk
  revert this
  cases OGrid.run ident (OGrid.new cpus hashO hashL width height) h <;>
    cases OGrid.run ident (OGrid.new cpus' hashO' hashL' height width) (h.map POp.mirror) <;> intro this
  · trivial
  · exact this
  · exact this
  · exact omir_answers this

/-- A grid that is not square, with a removal and a closure. -/
example :
    let h : List (POp Nat) := [.lazyUpdate, .apply (fun _ o => some o) .READ, .remove 1, .place 1 ⟨2, 0⟩, .lazyUpdate, .place 2 ⟨1, 1⟩, .place 1 ⟨2, 0⟩]
    (∀ op ∈ h, op.KeepsIdentity (id : Nat → Nat)) ∧
    ((OGrid.run (id : Nat → Nat) (OGrid.new 1 id (fun _ => 0) 3 2) h).bind (fun g => g.getLocation id 2)) = some (some ⟨1, 1⟩) ∧
    ((OGrid.run (id : Nat → Nat) (OGrid.new 1 id (fun _ => 0) 3 2) h).bind (fun g => g.getEmptyBags)) =
      some [⟨0, 0⟩, ⟨0, 1⟩, ⟨1, 0⟩, ⟨1, 1⟩, ⟨2, 1⟩] ∧
    ((OGrid.run (id : Nat → Nat) (OGrid.new 1 id (fun _ => 0) 2 3) (h.map POp.mirror)).bind (fun g => g.getEmptyBags)) =
      some [⟨0, 0⟩, ⟨0, 1⟩, ⟨1, 0⟩, ⟨1, 1⟩, ⟨1, 2⟩] := by
  refine ⟨?_, by decide +kernel, by decide +kernel, by decide +kernel⟩
  intro op hop
  simp only [List.mem_cons, List.not_mem_nil, or_false] at hop
  rcases hop with rfl | rfl | rfl | rfl | rfl | rfl | rfl <;> first | trivial | exact fun l o x hx => by injection hx with hx; rw [hx]

end Verif.ParGrid

namespace Verif.ParField2D

open Grid Torus DBDashMap Field2D ParGrid

variable {O I : Type} [DecidableEq I]

/-- The position of an entry exchanged. -/
def swapP (e : O × Pos) : O × Pos := (e.1, e.2.mirror)

/-- What the field with the axes exchanged shows. -/
def Mir (w h d : ℚ) (t : Bool) (f f' : PField O I) (rl wl : I → Option (O × Pos)) (rb wb : Loc → Option (List O)) : Prop :=
  FShows f w h d t rl wl rb wb ∧
  FShows f' h w d t (fun i => (rl i).map swapP) (fun i => (wl i).map swapP) (fun l => rb l.mirror) (fun l => wb l.mirror)

variable {ident : O → I} {w h d : ℚ} {t : Bool}

theorem mir_exec {f f' : PField O I} {rl wl : I → Option (O × Pos)} {rb wb : Loc → Option (List O)} (m : Mir w h d t f f' rl wl rb wb) (op : ROp O) :
    ∃ k k' rl' wl' rb' wb', f.exec ident op = some k ∧ f'.exec ident op.mirror = some k' ∧ Mir w h d t k k' rl' wl' rb' wb' := by
  obtain ⟨s, s'⟩ := m
  cases op with
  | place o l =>
    obtain ⟨k, e, a⟩ := fshows_place ident s o l
    obtain ⟨k', e', a'⟩ := fshows_place ident s' o l.mirror
    refine ⟨k, k', _, _, _, _, e, e', a, a'.congr ?_ ?_ ?_ ?_⟩
    · rfl
    · funext i
      by_cases hi : i = ident o
      · rw [if_pos hi, if_pos hi]; rfl
      · rw [if_neg hi, if_neg hi]
    · rfl
    · funext c
      rw [discretize_mirror]
      exact if_congr mirror_eq rfl rfl
  | update =>
    refine ⟨_, _, _, _, _, _, rfl, rfl, fshows_update s, (fshows_update s').congr ?_ rfl rfl rfl⟩
    funext i
    cases wl i <;> rfl
  | lazyUpdate => exact ⟨_, _, _, _, _, _, rfl, rfl, fshows_lazy s, fshows_lazy s'⟩

theorem mir_run {f0 f0' : PField O I} {rl wl : I → Option (O × Pos)} {rb wb : Loc → Option (List O)} (m : Mir w h d t f0 f0' rl wl rb wb)
    (hist : List (ROp O)) :
    ∃ f f' rl' wl' rb' wb', PField.run ident f0 hist = some f ∧ PField.run ident f0' (hist.map ROp.mirror) = some f' ∧
      Mir w h d t f f' rl' wl' rb' wb' := by
  induction hist with
  | nil => exact ⟨f0, f0', _, _, _, _, rfl, rfl, m⟩
  | cons op hist ih =>
    obtain ⟨f, f', rl', wl', rb', wb', e, e', s⟩ := ih
    obtain ⟨k, k', rl2, wl2, rb2, wb2, a, a', b⟩ := mir_exec (ident := ident) s op
    exact ⟨k, k', _, _, _, _, by rw [PField.run, e]; exact a, by rw [List.map_cons, PField.run, e']; exact a', b⟩

theorem Mir.readBag {f f' : PField O I} {rl wl : I → Option (O × Pos)} {rb wb : Loc → Option (List O)} (m : Mir w h d t f f' rl wl rb wb)
    (b : Loc) : (abs f'.fbag).read b.mirror = (abs f.fbag).read b := by rw [m.1.readL, m.2.readL]; rfl

theorem Mir.writeBag {f f' : PField O I} {rl wl : I → Option (O × Pos)} {rb wb : Loc → Option (List O)} (m : Mir w h d t f f' rl wl rb wb)
    (b : Loc) : (abs f'.fbag).write b.mirror = (abs f.fbag).write b := by rw [m.1.writeL, m.2.writeL]; rfl

theorem bagId_mirror {f f' : PField O I} {rl wl : I → Option (O × Pos)} {rb wb : Loc → Option (List O)} (m : Mir w h d t f f' rl wl rb wb)
    (c : Loc) : f'.bagId c.mirror = (f.bagId c).map Loc.mirror := by
  unfold PField.bagId Loc.mirror
  rw [m.1.width, m.1.height, m.1.disc, m.2.width, m.2.height, m.2.disc]
  dsimp only
  cases tTransform c.x (w / d).ceil <;> cases tTransform c.y (h / d).ceil <;> rfl

/-- The search through the exchanged cells. -/
theorem scan_mirrored {f f' : PField O I} {rl wl : I → Option (O × Pos)} {rb wb : Loc → Option (List O)} (m : Mir w h d t f f' rl wl rb wb)
    {keep keep' : Loc → O → Bool} (hk : ∀ c o, keep' c.mirror o = keep c o) (cs : List Loc) :
    f'.scan keep' (cs.map Loc.mirror) = f.scan keep cs := by
  induction cs with
  | nil => rfl
  | cons c cs ih =>
    rw [List.map_cons, PField.scan, PField.scan, bagId_mirror m]
    cases f.bagId c with
    | none => rfl
    | some b =>
      dsimp only [Option.map_some]
      rw [getRead_abs m.1.invL, getRead_abs m.2.invL, m.readBag, ih]
      have : ∀ bag : List O, bag.filter (keep' b.mirror) = bag.filter (keep b) := fun bag => List.filter_congr (fun o _ => hk b o)
      simp only [this]

/-- One cell of the search. -/
theorem scan_cons {f : PField O I} {rl wl : I → Option (O × Pos)} {rb wb : Loc → Option (List O)} (s : FShows f w h d t rl wl rb wb)
    (keep : Loc → O → Bool) (c : Loc) (cs : List Loc) : f.scan keep (c :: cs) =
      (f.bagId c).bind (fun b => (f.scan keep cs).map (fun r => ((rb b).getD []).filter (keep b) ++ r)) := by
  rw [PField.scan]
  cases f.bagId c with
  | none => rfl
  | some b =>
    dsimp only [Option.bind_some]
    rw [getRead_abs s.invL, s.readL]
    cases rb b with
    | none => cases f.scan keep cs <;> rfl
    | some x => rfl

/-- The search in another order. -/
theorem scan_order {f : PField O I} {rl wl : I → Option (O × Pos)} {rb wb : Loc → Option (List O)} (s : FShows f w h d t rl wl rb wb)
    (keep : Loc → O → Bool) {cs cs' : List Loc} (hp : cs.Perm cs') : Both List.Perm (f.scan keep cs) (f.scan keep cs') := by
  have both_self : ∀ x : Option (List O), Both List.Perm x x := by intro x; cases x; exacts [trivial, .refl _]
  induction hp with
  | nil => exact both_self _
  | cons c _ ih =>
    rw [scan_cons s, scan_cons s]
    cases f.bagId c with
    | none => trivial
    | some b =>
      rename_i l l' _
      dsimp only [Option.bind_some]
      revert ih
      cases f.scan keep l <;> cases f.scan keep l' <;> intro ih
      · trivial
      · exact ih
      · exact ih
      · exact List.Perm.append_left _ ih
  | swap a b cs =>
    rw [scan_cons s, scan_cons s, scan_cons s, scan_cons s]
    cases f.bagId a with
    | none => cases f.bagId b <;> trivial
    | some x =>
      cases f.bagId b with
      | none => trivial
      | some y =>
        cases f.scan keep cs with
        | none => trivial
        | some r =>
          show List.Perm (_ ++ (_ ++ _)) (_ ++ (_ ++ _))
          rw [← List.append_assoc, ← List.append_assoc]
          exact List.Perm.append_right _ List.perm_append_comm
  | trans _ _ ih1 ih2 =>
    rename_i l1 l2 l3 _ _
    revert ih1 ih2
    cases f.scan keep l1 <;> cases f.scan keep l2 <;> cases f.scan keep l3 <;> intro ih1 ih2
    · trivial
    · exact ih2
    · exact ih1.elim
    · exact ih1.elim
    · exact ih1.elim
    · exact ih1.elim
    · exact ih2.elim
    · exact List.Perm.trans ih1 ih2

theorem pcells_mirror {f f' : PField O I} {rl wl : I → Option (O × Pos)} {rb wb : Loc → Option (List O)} (m : Mir w h d t f f' rl wl rb wb)
    (p : Pos) (dist : ℚ) : ((f.searchCells p dist).map Loc.mirror).Perm (f'.searchCells p.mirror dist) := by
  unfold PField.searchCells
  rw [cellOf_eq, cellOf_eq, m.1.width, m.1.height, m.1.disc, m.1.tor, m.2.width, m.2.height, m.2.disc, m.2.tor, discretize_mirror,
    List.map_flatMap]
  simp only [List.map_map]
  exact flatMap_swap (fun (i j : Int) => (⟨j, i⟩ : Loc)) _ _

theorem mir_answers {f f' : PField O I} {rl wl : I → Option (O × Pos)} {rb wb : Loc → Option (List O)} (m : Mir w h d t f f' rl wl rb wb) :
    f.MirrorAnswers ident f' := by
  have hcell : ∀ p : Pos, f'.cellOf p.mirror = (f.cellOf p).mirror := by
    intro p; rw [cellOf_eq, cellOf_eq, m.1.disc, m.2.disc, discretize_mirror]
  have hlen : rLen f'.findex = rLen f.findex := by
    refine (MRel.size (ident := (id : I → I)) (ident' := (id : I → I)) (φ := id) (g := fun e : O × Loc => (e.1, e.2.mirror))
      (fun _ _ => Iff.rfl) ?_ (rLen_hasSize m.1.invI) (rLen_hasSize m.2.invI)).symm
    rw [m.1.readI, m.2.readI]
    refine ⟨fun i => ?_, fun i _ => ⟨i, rfl⟩, fun i _ => ⟨i, rfl⟩⟩
    dsimp only [id]
    cases rl i <;> rfl
  refine ⟨fun o => ?_, fun o => ?_, fun o => ?_, fun o => ?_, fun p => ?_, hlen, fun p => ?_, fun locOf p dist => ?_, fun p dist => ?_⟩
  · unfold PField.get
    rw [getRead_abs m.1.invO, getRead_abs m.2.invO, m.1.readO, m.2.readO]
    dsimp only
    cases rl (ident o) <;> rfl
  · unfold PField.getLocation
    rw [getRead_abs m.1.invO, getRead_abs m.2.invO, m.1.readO, m.2.readO]
    dsimp only
    cases rl (ident o) <;> rfl
  · unfold PField.getLocationUnbuffered
    rw [getWrite_abs m.1.invO, getWrite_abs m.2.invO, m.1.writeO, m.2.writeO]
    dsimp only [Option.bind_some]
    cases wl (ident o) <;> rfl
  · unfold PField.getUnbuffered
    rw [getWrite_abs m.1.invO, getWrite_abs m.2.invO, m.1.writeO, m.2.writeO]
    dsimp only [Option.bind_some]
    cases wl (ident o) with
    | none => rfl
    | some e =>
      dsimp only [Option.map_some, swapP]
      rw [hcell, getWrite_abs m.1.invL, getWrite_abs m.2.invL, m.writeBag]
  · unfold PField.getObjects
    rw [hcell, getRead_abs m.1.invL, getRead_abs m.2.invL, m.readBag]
  · unfold PField.numObjectsAtLocation
    rw [hcell, getRead_abs m.1.invL, getRead_abs m.2.invL, m.readBag]
  · unfold PField.getNeighborsWithinDistance
    rw [hlen]
    by_cases h0 : rLen f.findex = 0
    · rw [if_pos h0, if_pos h0]; trivial
    · rw [if_neg h0, if_neg h0]
      by_cases h1 : dist ≤ 0
      · rw [if_pos h1, if_pos h1]; exact .refl _
      · rw [if_neg h1, if_neg h1]
        refine Eq.mp ?_ (scan_order m.2 (f'.keepExact (fun o => (locOf o).mirror) p.mirror dist) (pcells_mirror m p dist))
        rw [scan_mirrored m (keep := f.keepExact locOf p dist)]
        intro c o
        unfold PField.keepExact
        rw [m.1.width, m.1.height, m.1.disc, m.1.tor, m.2.width, m.2.height, m.2.disc, m.2.tor, checkCircle_mirror, distSq_mirror]
  · unfold PField.getNeighborsWithinRelaxDistance
    rw [hlen]
    by_cases h0 : rLen f.findex = 0
    · rw [if_pos h0, if_pos h0]; trivial
    · rw [if_neg h0, if_neg h0]
      by_cases h1 : dist ≤ 0
      · rw [if_pos h1, if_pos h1]; exact .refl _
      · rw [if_neg h1, if_neg h1]
        refine Eq.mp ?_ (scan_order m.2 (fun _ _ => true) (pcells_mirror m p dist))
        rw [scan_mirrored m (keep := fun _ _ => true) (fun _ _ => rfl)]

/-- **C260**, continuous fields: the program with the axes exchanged leaves the field with the axes exchanged, whatever the sizes, the
places, the hash functions and the numbers of processors; the searches panic in the same cases. -/
theorem C260_fields {cpus cpus' : Nat} (hc : shardAmount cpus ≤ 2 ^ 64) (hc' : shardAmount cpus' ≤ 2 ^ 64) (ident : O → I)
    (hashO hashO' : I → Nat) (hashL hashL' : Loc → Nat) (w h d : ℚ) (t : Bool) (hist : List (ROp O)) :
    ∃ f f', PField.run ident (PField.new cpus hashO hashL w h d t) hist = some f ∧
      PField.run ident (PField.new cpus' hashO' hashL' h w d t) (hist.map ROp.mirror) = some f' ∧ f.MirrorAnswers ident f' := by
  obtain ⟨f, f', rl, wl, rb, wb, e, e', m⟩ := mir_run (ident := ident) (w := w) (h := h) (d := d) (t := t) (rl := fun _ => none)
    (wl := fun _ => none) (rb := fun _ => none) (wb := fun _ => none)
    ⟨fshows_new (O := O) hc hashO hashL w h d t, fshows_new (O := O) hc' hashO' hashL' h w d t⟩ hist
  exact ⟨f, f', e, e', mir_answers m⟩

/-- A field that is not square, one object beyond its edge. -/
example : ((PField.run id (PField.new 1 id (fun _ => 0) 4 2 1 false) [.lazyUpdate, .place 9 ⟨1, 3⟩, .place 8 ⟨2, 1⟩, .place 7 ⟨1, 1⟩] : Option (PField Nat Nat)).bind
      (fun f => f.getNeighborsWithinRelaxDistance ⟨1, 1⟩ 1)) = some [7, 8] ∧
    ((PField.run id (PField.new 1 id (fun _ => 0) 2 4 1 false)
      ([.lazyUpdate, .place 9 ⟨1, 3⟩, .place 8 ⟨2, 1⟩, .place 7 ⟨1, 1⟩].map ROp.mirror) : Option (PField Nat Nat)).bind
      (fun f => f.getNeighborsWithinRelaxDistance ⟨1, 1⟩ 1)) = some [7, 8] := by
  refine ⟨by decide +kernel, by decide +kernel⟩

end Verif.ParField2D
