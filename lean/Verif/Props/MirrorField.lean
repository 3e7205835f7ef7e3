import Verif.Props.Field2D
import Verif.Spec.Mirror

/-!
C250 on `Field2D`: the two axes are treated alike.
-/

namespace Verif.Field2D

open Grid Torus

variable {O : Type} [BEq O]

theorem discretize_mirror (d : ℚ) (p : Pos) : discretize d p.mirror = (discretize d p).mirror := rfl

theorem notDiscretize_mirror (d : ℚ) (c : Loc) : notDiscretize d c.mirror = (notDiscretize d c).mirror := rfl

theorem sameSquare_mirror (d : ℚ) (p q : Pos) : sameSquare d p.mirror q.mirror = sameSquare d p q := by
  unfold sameSquare Pos.mirror
  exact Bool.and_comm _ _

theorem inField_mirror {w h : ℚ} {p : Pos} (hp : InField w h p) : InField h w p.mirror := ⟨hp.2.2.1, hp.2.2.2, hp.1, hp.2.1⟩

omit [BEq O] in
theorem op_mirror {w h : ℚ} {op : FieldOp O} (hp : op.InField w h) : op.mirror.InField h w := by
  cases op with
  | place o l => exact inField_mirror hp
  | remove o l => exact inField_mirror hp
  | update => trivial
  | lazyUpdate => trivial

theorem objsWritten_mirror (d : ℚ) (hist : List (FieldOp O)) (q : Pos) :
    objsWritten d (hist.map FieldOp.mirror) q.mirror = objsWritten d hist q := by
  induction hist with
  | nil => rfl
  | cons op hist ih => cases op <;> simp only [List.map_cons, FieldOp.mirror, objsWritten, sameSquare_mirror, ih]

theorem objsPublished_mirror (d : ℚ) (hist : List (FieldOp O)) (q : Pos) :
    objsPublished d (hist.map FieldOp.mirror) q.mirror = objsPublished d hist q := by
  induction hist with
  | nil => rfl
  | cons op hist ih => cases op <;> simp only [List.map_cons, FieldOp.mirror, objsPublished, ih, objsWritten_mirror]

theorem distSq_mirror (p q : Pos) (w h : ℚ) (t : Bool) : distSq p.mirror q.mirror h w t = distSq p q w h t := by
  unfold distSq Pos.mirror
  exact Rat.add_comm _ _

theorem checkCircle_mirror (b : Loc) (d w h : ℚ) (loc : Pos) (dis : ℚ) (t : Bool) :
    checkCircle b.mirror d h w loc.mirror dis t = checkCircle b d w h loc dis t := by
  have e1 : cornerNW b.mirror d = (cornerNW b d).mirror := rfl
  have e2 : cornerNE b.mirror d w = (cornerSW b d w).mirror := rfl
  have e3 : cornerSW b.mirror d h = (cornerNE b d h).mirror := rfl
  have e4 : cornerSE b.mirror d h w = (cornerSE b d w h).mirror := rfl
  have c1 : ∀ P Q R S : Prop, (P ∧ Q ∧ R ∧ S) = (P ∧ R ∧ Q ∧ S) := by intros; apply propext; tauto
  unfold checkCircle
  rw [e1, e2, e3, e4]
  simp only [distSq_mirror]
  refine if_congr (iff_of_eq (c1 _ _ _ _)) rfl (if_congr (iff_of_eq (c1 _ _ _ _)) rfl rfl)

theorem inRange_mirror {w h : Int} {c : Loc} (hc : InRange w h c) : InRange h w c.mirror := ⟨hc.2.2.1, hc.2.2.2, hc.1, hc.2.1⟩

/-- The fields of a program and of the program with the axes exchanged. -/
structure Mirrored (f f' : Field O) (w h d : ℚ) (t : Bool) (hist : List (FieldOp O)) : Prop where
  one : Shows f w h d t (fun c => objsPublished d hist (notDiscretize d c)) (fun c => objsWritten d hist (notDiscretize d c))
  two : Shows f' h w d t (fun c => objsPublished d (hist.map FieldOp.mirror) (notDiscretize d c))
    (fun c => objsWritten d (hist.map FieldOp.mirror) (notDiscretize d c))
  agents : f'.nagents = f.nagents
  check : f'.densityCheck = f.densityCheck
  density : f'.density = f.density

omit [BEq O] in
theorem dims_mirror {f f' : Field O} {w h d : ℚ} {t : Bool} {pub cur pub' cur' : Loc → List O} (h1 : Shows f w h d t pub cur)
    (h2 : Shows f' h w d t pub' cur') : f'.dw = f.dh ∧ f'.dh = f.dw := by
  have a := h1.wf.dw
  have b := h1.wf.dh
  have a' := h2.wf.dw
  have b' := h2.wf.dh
  rw [h1.width, h1.disc] at a
  rw [h1.height, h1.disc] at b
  rw [h2.width, h2.disc] at a'
  rw [h2.height, h2.disc] at b'
  exact ⟨a'.trans b.symm, b'.trans a.symm⟩

theorem mirrored_run {w h d : ℚ} (t : Bool) (hw : 0 < w) (hh : 0 < h) (hd : 0 < d) (hist : List (FieldOp O))
    (hin : ∀ op ∈ hist, op.InField w h) :
    ∃ f f', run (new w h d t) hist = some f ∧ run (new h w d t) (hist.map FieldOp.mirror) = some f' ∧
      Mirrored f f' w h d t hist := by
  have hin' : ∀ hist : List (FieldOp O), (∀ op ∈ hist, op.InField w h) → ∀ op ∈ hist.map FieldOp.mirror, op.InField h w := by
    intro hist hin op hop
    obtain ⟨o, ho, rfl⟩ := List.mem_map.1 hop
    exact op_mirror (hin o ho)
  obtain ⟨f, e1, s1⟩ := shows_run t hw hh hd hist hin
  obtain ⟨f', e2, s2⟩ := shows_run t hh hw hd (hist.map FieldOp.mirror) (hin' hist hin)
  suffices H : f'.nagents = f.nagents ∧ f'.densityCheck = f.densityCheck ∧ f'.density = f.density from
    ⟨f, f', e1, e2, s1, s2, H.1, H.2.1, H.2.2⟩
  clear s1 s2
  induction hist generalizing f f' with
  | nil =>
    cases e1; cases e2
    exact ⟨rfl, rfl, rfl⟩
  | cons op hist ih =>
    have hin0 : ∀ op ∈ hist, op.InField w h := fun o ho => hin o (List.mem_cons_of_mem _ ho)
    obtain ⟨f0, g1, s1⟩ := shows_run t hw hh hd hist hin0
    obtain ⟨f0', g2, s2⟩ := shows_run t hh hw hd (hist.map FieldOp.mirror) (hin' hist hin0)
    obtain ⟨i1, i2, i3⟩ := ih hin0 f0 g1 f0' g2
    rw [run, g1] at e1
    rw [List.map_cons, run, g2] at e2
    have e1 : exec f0 op = some f := e1
    have e2 : exec f0' op.mirror = some f' := e2
    obtain ⟨d1, d2⟩ := dims_mirror s1 s2
    have bags : ∀ l, InField w h l → ∃ b, vecGet f0.bags f0.dh (discretize f0.discretization l) = some b ∧
        vecGet f0'.bags f0'.dh (discretize f0'.discretization l.mirror) = some b := by
      intro l hl
      have r1 : InRange f0.dw f0.dh (discretize d l) := by
        have := inRange_of s1.wf (p := l) (by rw [s1.width, s1.height]; exact hl)
        rw [s1.disc] at this; exact this
      have r2 : InRange f0'.dw f0'.dh (discretize d l.mirror) := by
        rw [d1, d2, discretize_mirror]; exact inRange_mirror r1
      refine ⟨objsWritten d hist (notDiscretize d (discretize d l)), ?_, ?_⟩
      · rw [s1.disc, s1.write _ r1]
      · rw [s2.disc, s2.write _ r2, discretize_mirror, notDiscretize_mirror, objsWritten_mirror]
    cases op with
    | place o l =>
      obtain ⟨b, b1, b2⟩ := bags l (hin _ List.mem_cons_self)
      simp only [exec, FieldOp.mirror, setObjectLocation] at e1 e2
      rw [b1] at e1
      rw [b2] at e2
      obtain ⟨v, _, rfl⟩ := Option.map_eq_some_iff.1 e1
      obtain ⟨v', _, rfl⟩ := Option.map_eq_some_iff.1 e2
      dsimp only
      rw [i1, i2, i3]
      exact ⟨rfl, rfl, rfl⟩
    | remove o l =>
      obtain ⟨b, b1, b2⟩ := bags l (hin _ List.mem_cons_self)
      simp only [exec, FieldOp.mirror, removeObjectLocation] at e1 e2
      rw [b1] at e1
      rw [b2, i1, i2] at e2
      dsimp only at e1 e2
      by_cases hb : b.isEmpty = true
      · rw [if_pos hb, Option.some.injEq] at e1 e2
        subst e1; subst e2
        exact ⟨i1, i2, i3⟩
      · rw [if_neg hb] at e1 e2
        by_cases hc : f0.densityCheck = true
        · rw [if_pos hc] at e1 e2
          obtain ⟨v, _, rfl⟩ := Option.map_eq_some_iff.1 e1
          obtain ⟨v', _, rfl⟩ := Option.map_eq_some_iff.1 e2
          exact ⟨rfl, rfl, i3⟩
        · rw [if_neg hc] at e1 e2
          by_cases hn : f0.nagents < b.length - (b.filter (fun x => x != o)).length
          · rw [if_pos hn] at e1; simp at e1
          · rw [if_neg hn] at e1 e2
            obtain ⟨v, _, rfl⟩ := Option.map_eq_some_iff.1 e1
            obtain ⟨v', _, rfl⟩ := Option.map_eq_some_iff.1 e2
            exact ⟨rfl, rfl, i3⟩
    | update =>
      simp only [exec, FieldOp.mirror, Option.some.injEq] at e1 e2
      subst e1; subst e2
      exact ⟨i1, i2, i3⟩
    | lazyUpdate =>
      simp only [exec, FieldOp.mirror, lazyUpdate] at e1 e2
      rw [i1, i2, d1, d2, Int.mul_comm f0.dh f0.dw] at e2
      by_cases hc : f0.densityCheck = true
      · rw [if_pos hc, Option.some.injEq] at e1 e2
        subst e1; subst e2
        exact ⟨rfl, rfl, i3⟩
      · rw [if_neg hc] at e1 e2
        by_cases hz : (f0.dw * f0.dh).toNat = 0
        · rw [if_pos hz] at e1; simp at e1
        · rw [if_neg hz, Option.some.injEq] at e1 e2
          subst e1; subst e2
          exact ⟨rfl, rfl, rfl⟩

/-- The search with the axes exchanged visits the same cells, exchanged. -/
theorem searchCells_mirror {f f' : Field O} {w h d : ℚ} {t : Bool} {pub cur pub' cur' : Loc → List O}
    (h1 : Shows f w h d t pub cur) (h2 : Shows f' h w d t pub' cur') (loc : Pos) (dist : ℚ) :
    (searchCells f' loc.mirror dist).Perm ((searchCells f loc dist).map Loc.mirror) := by
  have inj : Function.Injective Loc.mirror := by
    rintro ⟨a, b⟩ ⟨c, e⟩ he
    simp only [Loc.mirror, Loc.mk.injEq] at he ⊢
    exact ⟨he.2, he.1⟩
  refine (List.perm_ext_iff_of_nodup (nodup_searchCells _ _ _) ((nodup_searchCells _ _ _).map inj)).2 (fun c => ?_)
  have hm : c ∈ (searchCells f loc dist).map Loc.mirror ↔ c.mirror ∈ searchCells f loc dist := by
    constructor
    · intro hc
      obtain ⟨c', hc', rfl⟩ := List.mem_map.1 hc
      exact hc'
    · intro hc
      exact List.mem_map.2 ⟨_, hc, rfl⟩
  rw [hm, mem_searchCells, mem_searchCells, h1.tor, h2.tor, h1.disc, h2.disc, h1.width, h2.width, h1.height, h2.height]
  exact ⟨fun ⟨a, b⟩ => ⟨b, a⟩, fun ⟨a, b⟩ => ⟨b, a⟩⟩

omit [BEq O] in
theorem wrapped_mirror {f f' : Field O} {w h d : ℚ} {t : Bool} {pub cur pub' cur' : Loc → List O}
    (h1 : Shows f w h d t pub cur) (h2 : Shows f' h w d t pub' cur') (c : Loc) :
    wrapped f' c.mirror = (wrapped f c).mirror := by
  unfold wrapped Loc.mirror
  rw [h1.disc, h2.disc, h1.width, h2.width, h1.height, h2.height]

theorem scan_mirror {f f' : Field O} {w h d : ℚ} {t : Bool} {hist : List (FieldOp O)} (hm : Mirrored f f' w h d t hist)
    (keep keep' : Loc → O → Bool) (hk : ∀ c o, keep' c.mirror o = keep c o) (loc : Pos) (dist : ℚ) :
    ∃ r r', scan f keep (searchCells f loc dist) = some r ∧ scan f' keep' (searchCells f' loc.mirror dist) = some r' ∧
      r.Perm r' := by
  rw [scan_eq hm.one.wf, scan_eq hm.two.wf]
  refine ⟨_, _, rfl, rfl, ?_⟩
  refine List.Perm.trans ?_ ((searchCells_mirror hm.one hm.two loc dist).flatMap_right _).symm
  rw [List.flatMap_map]
  refine List.Perm.of_eq ?_
  rw [List.flatMap_def, List.flatMap_def]
  congr 1
  refine List.map_congr_left (fun c _ => ?_)
  rw [wrapped_mirror hm.one hm.two]
  have r1 := wrapped_inRange hm.one.wf c
  obtain ⟨d1, d2⟩ := dims_mirror hm.one hm.two
  have r2 : InRange f'.dw f'.dh (wrapped f c).mirror := by rw [d1, d2]; exact inRange_mirror r1
  rw [bagOf_shows hm.one r1, bagOf_shows hm.two r2, notDiscretize_mirror, objsPublished_mirror]
  exact List.filter_congr (fun o _ => (hk _ o).symm)

/-- Both answers are there and list the same objects. -/
def BothList (a b : Option (List O)) : Prop := ∃ r r', a = some r ∧ b = some r' ∧ r.Perm r'

/-- The answers with the axes exchanged. -/
structure MirrorAnswers (f f' : Field O) (w h : ℚ) : Prop where
  objects : ∀ p, InField w h p → ∃ b, getObjects f p = some b ∧ getObjects f' p.mirror = some b
  objectsUnbuffered : ∀ p, InField w h p → ∃ b, getObjectsUnbuffered f p = some b ∧ getObjectsUnbuffered f' p.mirror = some b
  number : ∀ p, InField w h p → ∃ n, numObjectsAtLocation f p = some n ∧ numObjectsAtLocation f' p.mirror = some n
  near : ∀ locOf p dist, BothList (getNeighborsWithinDistance f locOf p dist)
    (getNeighborsWithinDistance f' (fun o => (locOf o).mirror) p.mirror dist)
  nearRelaxed : ∀ p dist, BothList (getNeighborsWithinRelaxDistance f p dist) (getNeighborsWithinRelaxDistance f' p.mirror dist)
  empty : ∃ es es', getEmptyBags f = some es ∧ getEmptyBags f' = some es' ∧ es'.Perm (es.map Pos.mirror)
  density : f'.density = f.density

theorem mirrorAnswers {f f' : Field O} {w h d : ℚ} {t : Bool} {hist : List (FieldOp O)} (hd : 0 < d)
    (hm : Mirrored f f' w h d t hist) : MirrorAnswers f f' w h := by
  obtain ⟨d1, d2⟩ := dims_mirror hm.one hm.two
  have range : ∀ p, InField w h p → InRange f.dw f.dh (discretize d p) ∧ InRange f'.dw f'.dh (discretize d p.mirror) := by
    intro p hp
    have r1 : InRange f.dw f.dh (discretize d p) := by
      have := inRange_of hm.one.wf (p := p) (by rw [hm.one.width, hm.one.height]; exact hp)
      rw [hm.one.disc] at this; exact this
    exact ⟨r1, by rw [d1, d2, discretize_mirror]; exact inRange_mirror r1⟩
  have objs : ∀ p, InField w h p → ∃ b, getObjects f p = some b ∧ getObjects f' p.mirror = some b := by
    intro p hp
    obtain ⟨r1, r2⟩ := range p hp
    unfold getObjects
    rw [hm.one.disc, hm.two.disc, hm.one.read _ r1, hm.two.read _ r2, discretize_mirror, notDiscretize_mirror,
      objsPublished_mirror]
    exact ⟨_, rfl, rfl⟩
  refine ⟨objs, ?_, ?_, ?_, ?_, ?_, hm.density⟩
  · intro p hp
    obtain ⟨r1, r2⟩ := range p hp
    unfold getObjectsUnbuffered
    rw [hm.one.disc, hm.two.disc, hm.one.write _ r1, hm.two.write _ r2, discretize_mirror, notDiscretize_mirror,
      objsWritten_mirror]
    exact ⟨_, rfl, rfl⟩
  · intro p hp
    obtain ⟨b, e1, e2⟩ := objs p hp
    rw [C43_num_objects, C43_num_objects, e1, e2]
    exact ⟨_, rfl, rfl⟩
  · intro locOf p dist
    unfold getNeighborsWithinDistance
    by_cases h0 : dist ≤ 0
    · rw [if_pos h0, if_pos h0]; exact ⟨[], [], rfl, rfl, .refl _⟩
    · rw [if_neg h0, if_neg h0]
      refine scan_mirror hm _ _ (fun c o => ?_) p dist
      unfold keepExact
      rw [hm.one.disc, hm.two.disc, hm.one.width, hm.two.width, hm.one.height, hm.two.height, hm.one.tor, hm.two.tor,
        checkCircle_mirror, distSq_mirror]
  · intro p dist
    unfold getNeighborsWithinRelaxDistance
    by_cases h0 : dist ≤ 0
    · rw [if_pos h0, if_pos h0]; exact ⟨[], [], rfl, rfl, .refl _⟩
    · rw [if_neg h0, if_neg h0]
      exact scan_mirror hm (fun _ _ => true) (fun _ _ => true) (fun c o => rfl) p dist
  · obtain ⟨es, a1, a2, a3⟩ := empty_bags hd hm.one
    obtain ⟨es', b1, b2, b3⟩ := empty_bags hd hm.two
    have inj : Function.Injective Pos.mirror := by
      rintro ⟨a, b⟩ ⟨c, e⟩ he
      simp only [Pos.mirror, Pos.mk.injEq] at he ⊢
      exact ⟨he.2, he.1⟩
    refine ⟨es, es', a1, b1, (List.perm_ext_iff_of_nodup b2 (a2.map inj)).2 (fun p => ?_)⟩
    have hmem : p ∈ es.map Pos.mirror ↔ p.mirror ∈ es := by
      constructor
      · intro hp
        obtain ⟨q, hq, rfl⟩ := List.mem_map.1 hp
        exact hq
      · intro hp
        exact List.mem_map.2 ⟨_, hp, rfl⟩
    rw [hmem, a3, b3]
    have e : objsPublished d (hist.map FieldOp.mirror) p = objsPublished d hist p.mirror := objsPublished_mirror d hist p.mirror
    rw [e]
    constructor
    · rintro ⟨i, j, hi, hj, rfl, hp⟩; exact ⟨j, i, hj, hi, rfl, hp⟩
    · rintro ⟨i, j, hi, hj, hpe, hp⟩
      refine ⟨j, i, hj, hi, ?_, hp⟩
      have : p = (corner d i j).mirror := by rw [← hpe]; rfl
      exact this

/-- C250, `Field2D`. -/
theorem C250_field_partial (w h d : ℚ) (t : Bool) (hw : 0 < w) (hh : 0 < h) (hd : 0 < d) (hist : List (FieldOp O))
    (hin : ∀ op ∈ hist, op.InField w h) :
    ∃ f f', run (new w h d t) hist = some f ∧ run (new h w d t) (hist.map FieldOp.mirror) = some f' ∧
      MirrorAnswers f f' w h := by
  obtain ⟨f, f', e1, e2, hm⟩ := mirrored_run t hw hh hd hist hin
  exact ⟨f, f', e1, e2, mirrorAnswers hd hm⟩

/-- A field that is not square. -/
example :
    let hist : List (FieldOp Nat) := [.lazyUpdate, .remove 3 ⟨4, 1⟩, .place 3 ⟨4, 1⟩, .place 2 ⟨3, 0⟩, .place 1 ⟨0, 1⟩]
    (∀ op ∈ hist, op.InField 4 2) ∧
    (run (new 4 2 1 true) hist).bind (fun f => getNeighborsWithinRelaxDistance f ⟨1, 1⟩ 2) = some [1, 2] ∧
    (run (new 2 4 1 true) (hist.map FieldOp.mirror)).bind (fun f => getNeighborsWithinRelaxDistance f ⟨1, 1⟩ 2) = some [2, 1] := by
  refine ⟨?_, ?_, ?_⟩
  · decide +kernel
  · decide +kernel
  · decide +kernel

/-- The limits: outside the field the axes differ, since columns are stored one after the other. An object placed above the field
is found in the next column; with the axes exchanged the program panics. -/
theorem C250_field_negation_partial :
    ∃ (p : Pos) (f : Field Nat), run (new 2 1 1 false) [.lazyUpdate, .place 7 p] = some f ∧ getObjects f ⟨1, 0⟩ = some [7] ∧
      run (new 1 2 1 false) ([.lazyUpdate, .place 7 p.mirror] : List (FieldOp Nat)) = none := by
  refine ⟨⟨0, 2⟩, ⟨[[], [], [7], [], [], []], [[], [], [], [], [], []], 1, 2, 1, 1, false, 2, 3, 0, true⟩, ?_, ?_, ?_⟩
  · decide +kernel
  · decide +kernel
  · decide +kernel

end Verif.Field2D
