import Verif.Spec.MachineMirror
import Verif.Props.ParMirror
import Verif.Props.ParMachine

/-!
With machine floats the two axes are treated alike (C260).
-/

namespace Verif.Machine

open Grid ParGrid
open DenseI32 (Mode fit)

theorem discretizeF_mirror (rnd : Rat → Rat) (d : F) (p : PosF) : discretize rnd d p.mirror = (discretize rnd d p).mirror := rfl

theorem addF_comm (rnd : Rat → Rat) (a b : F) : add rnd a b = add rnd b a := by
  cases a with
  | fin p => cases b <;> simp [add, add_comm]
  | inf s =>
    cases b with
    | fin q => rfl
    | inf t => cases s <;> cases t <;> rfl
    | nan => rfl
  | nan => cases b <;> rfl

theorem mulF_comm (rnd : Rat → Rat) (a b : F) : mul rnd a b = mul rnd b a := by
  cases a with
  | fin p => cases b <;> simp [mul, mul_comm]
  | inf s =>
    cases b with
    | fin q => rfl
    | inf t => cases s <;> cases t <;> rfl
    | nan => rfl
  | nan => cases b <;> rfl

theorem distF_mirror (rnd root : Rat → Rat) (p q : PosF) (w h : F) (t : Bool) : dist rnd root p.mirror q.mirror h w t = dist rnd root p q w h t := by
  unfold dist PosF.mirror
  rw [addF_comm]

theorem checkCircleF_mirror (rnd root : Rat → Rat) (b : Loc) (d w h : F) (loc : PosF) (dis : F) (t : Bool) :
    checkCircle rnd root b.mirror d h w loc.mirror dis t = checkCircle rnd root b d w h loc dis t := by
  have e : ∀ x y, dist rnd root ⟨x, y⟩ loc.mirror h w t = dist rnd root ⟨y, x⟩ loc w h t := fun x y => distF_mirror rnd root ⟨y, x⟩ loc w h t
  unfold checkCircle
  simp only [e]
  unfold Loc.mirror
  dsimp only
  have c : ∀ p q r s : Bool, (p && q && r && s) = (p && r && q && s) := by decide
  rw [c (le _ _), c (lt _ _)]

theorem toI32_bounds (a : F) : -2 ^ 31 ≤ toI32 a ∧ toI32 a ≤ 2 ^ 31 - 1 := by
  cases a with
  | nan => simp [toI32]
  | inf s => cases s <;> simp [toI32]
  | fin q => simp only [toI32]; omega

/-- The pairs are counted in either order. -/
theorem upTo_pairs (a b a' b' : Int) :
    (((upTo a b).flatMap (fun i => (upTo a' b').map (fun j => (⟨i, j⟩ : Loc)))).map Loc.mirror).Perm
      ((upTo a' b').flatMap (fun i => (upTo a b).map (fun j => (⟨i, j⟩ : Loc)))) := by
  rw [List.map_flatMap]
  simp only [List.map_map]
  exact flatMap_swap (fun (i j : Int) => (⟨j, i⟩ : Loc)) _ _

theorem upTo_empty {a b : Int} (h : b ≤ a) : upTo a b = [] := by
  unfold upTo
  rw [Int.toNat_of_nonpos (by omega)]
  rfl

/-- The pairs of the loops with the axes exchanged; an overflow in one of them is not hidden by an empty other one. -/
theorem pairs_mirror (m : Mode) {wx wy : Int × Int} (hx : fit m (wx.2 + 1) = none → wy.1 ≤ wy.2) (hy : fit m (wy.2 + 1) = none → wx.1 ≤ wx.2) :
    Both (fun l l' => (l.map Loc.mirror).Perm l') (pairs m wx wy) (pairs m wy wx) := by
  unfold pairs
  cases m with
  | release =>
    simp only [fit]
    generalize (wx.2 + 1 + 2 ^ 31) % 2 ^ 32 - 2 ^ 31 = ex
    generalize (wy.2 + 1 + 2 ^ 31) % 2 ^ 32 - 2 ^ 31 = ey
    have key := upTo_pairs wx.1 ex wy.1 ey
    by_cases h1 : ex ≤ wx.1
    · rw [if_pos h1]
      by_cases h2 : ey ≤ wy.1
      · rw [if_pos h2]; exact .refl _
      · rw [if_neg h2]; show List.Perm (List.map Loc.mirror []) (List.flatMap _ _); rw [upTo_empty h1]; exact List.Perm.of_eq (by simp)
    · rw [if_neg h1]
      by_cases h2 : ey ≤ wy.1
      · rw [if_pos h2]; show List.Perm (List.map Loc.mirror (List.flatMap _ _)) []; rw [upTo_empty h2]; exact List.Perm.of_eq (by simp)
      · rw [if_neg h2]; exact key
  | debug =>
    simp only [fit] at hx hy ⊢
    have key := upTo_pairs wx.1 (wx.2 + 1) wy.1 (wy.2 + 1)
    by_cases f1 : -2 ^ 31 ≤ wx.2 + 1 ∧ wx.2 + 1 < 2 ^ 31
    · rw [if_pos f1]
      by_cases f2 : -2 ^ 31 ≤ wy.2 + 1 ∧ wy.2 + 1 < 2 ^ 31
      · rw [if_pos f2]
        dsimp only
        by_cases h1 : wx.2 + 1 ≤ wx.1
        · rw [if_pos h1]
          by_cases h2 : wy.2 + 1 ≤ wy.1
          · rw [if_pos h2]; exact .refl _
          · rw [if_neg h2]; show List.Perm (List.map Loc.mirror []) (List.flatMap _ _); rw [upTo_empty h1]; exact List.Perm.of_eq (by simp)
        · rw [if_neg h1]
          by_cases h2 : wy.2 + 1 ≤ wy.1
          · rw [if_pos h2]; show List.Perm (List.map Loc.mirror (List.flatMap _ _)) []; rw [upTo_empty h2]; exact List.Perm.of_eq (by simp)
          · rw [if_neg h2]; exact key
      · rw [if_neg f2]
        have := hy (if_neg f2)
        dsimp only
        rw [if_neg (by omega)]
        trivial
    · rw [if_neg f1]
      have := hx (if_neg f1)
      by_cases f2 : -2 ^ 31 ≤ wy.2 + 1 ∧ wy.2 + 1 < 2 ^ 31
      · rw [if_pos f2]
        dsimp only
        rw [if_neg (by omega)]
        trivial
      · rw [if_neg f2]; trivial

/-- If the end of one loop overflows, the other loop is not empty. -/
theorem window_open (m : Mode) (t : Bool) (c c' a maxC maxC' : F) {wx wy : Int × Int} (h1 : window m t (toI32 c) (toI32 a) (toI32 maxC) = some wx)
    (h2 : window m t (toI32 c') (toI32 a) (toI32 maxC') = some wy) (h3 : fit m (wx.2 + 1) = none) : wy.1 ≤ wy.2 := by
  have b1 := toI32_bounds c
  have b2 := toI32_bounds maxC
  cases m with
  | release => simp [fit] at h3
  | debug =>
    simp only [fit] at h3
    have h3 : ¬ (-2 ^ 31 ≤ wx.2 + 1 ∧ wx.2 + 1 < 2 ^ 31) := by
      intro hc; rw [if_pos hc] at h3; exact absurd h3 (by simp)
    unfold window at h1 h2
    simp only [fit] at h1 h2
    by_cases k1 : -2 ^ 31 ≤ toI32 c - toI32 a ∧ toI32 c - toI32 a < 2 ^ 31
    · by_cases k2 : -2 ^ 31 ≤ toI32 c + toI32 a ∧ toI32 c + toI32 a < 2 ^ 31
      · rw [if_pos k1, if_pos k2] at h1
        by_cases k3 : -2 ^ 31 ≤ toI32 c' - toI32 a ∧ toI32 c' - toI32 a < 2 ^ 31
        · by_cases k4 : -2 ^ 31 ≤ toI32 c' + toI32 a ∧ toI32 c' + toI32 a < 2 ^ 31
          · rw [if_pos k3, if_pos k4] at h2
            dsimp only at h1 h2
            cases t with
            | false =>
              simp only [Bool.false_eq_true, if_false, Option.some.injEq] at h1 h2
              subst h1 h2
              dsimp only at h3 ⊢
              omega
            | true =>
              simp only [if_true] at h1
              by_cases k5 : -2 ^ 31 ≤ toI32 maxC - 1 ∧ toI32 maxC - 1 < 2 ^ 31
              · rw [if_pos k5] at h1
                simp only [Option.map_some, Option.some.injEq] at h1
                subst h1
                dsimp only at h3
                omega
              · rw [if_neg k5] at h1; simp at h1
          · rw [if_pos k3, if_neg k4] at h2; simp at h2
        · rw [if_neg k3] at h2; simp at h2
      · rw [if_pos k1, if_neg k2] at h1; simp at h1
    · rw [if_neg k1] at h1; simp at h1

/-- The cells of the search with the axes exchanged. -/
theorem cells_mirrorF (m : Mode) (t : Bool) (cx cy a maxX maxY : F) :
    Both (fun l l' => (l.map Loc.mirror).Perm l')
      (match window m t (toI32 cx) (toI32 a) (toI32 maxX), window m t (toI32 cy) (toI32 a) (toI32 maxY) with
        | some wx, some wy => pairs m wx wy
        | _, _ => none)
      (match window m t (toI32 cy) (toI32 a) (toI32 maxY), window m t (toI32 cx) (toI32 a) (toI32 maxX) with
        | some wx, some wy => pairs m wx wy
        | _, _ => none) := by
  cases h1 : window m t (toI32 cx) (toI32 a) (toI32 maxX) with
  | none => cases window m t (toI32 cy) (toI32 a) (toI32 maxY) <;> trivial
  | some wx =>
    cases h2 : window m t (toI32 cy) (toI32 a) (toI32 maxY) with
    | none => trivial
    | some wy => exact pairs_mirror m (window_open m t cx cy a maxX maxY h1 h2) (window_open m t cy cx a maxY maxX h2 h1)

end Verif.Machine

namespace Verif.ParMachine

open Grid ParGrid Machine DBDashMap
open DenseI32 (Mode fit)

variable {O I : Type} [DecidableEq I]

/-- The position of an entry exchanged. -/
def swapF (e : O × PosF) : O × PosF := (e.1, e.2.mirror)

/-- What the field with the axes exchanged shows. -/
def MirF (rnd : Rat → Rat) (w h d : F) (t : Bool) (f f' : PFieldF O I) (rl wl : I → Option (O × PosF)) (rb wb : Loc → Option (List O)) : Prop :=
  FShows rnd f w h d t rl wl rb wb ∧
  FShows rnd f' h w d t (fun i => (rl i).map swapF) (fun i => (wl i).map swapF) (fun l => rb l.mirror) (fun l => wb l.mirror)

variable {rnd : Rat → Rat} {ident : O → I} {w h d : F} {t : Bool}

theorem mirF_exec {f f' : PFieldF O I} {rl wl : I → Option (O × PosF)} {rb wb : Loc → Option (List O)} (m : MirF rnd w h d t f f' rl wl rb wb) (op : ROpF O) :
    ∃ k k' rl' wl' rb' wb', exec rnd ident f op = some k ∧ exec rnd ident f' op.mirror = some k' ∧ MirF rnd w h d t k k' rl' wl' rb' wb' := by
  obtain ⟨s, s'⟩ := m
  cases op with
  | place o l =>
    obtain ⟨k, e, a⟩ := fshows_place ident s o l
    obtain ⟨k', e', a'⟩ := fshows_place ident s' o l.mirror
    refine ⟨k, k', _, _, _, _, e, e', a, a'.congr ?_ ?_ ?_ ?_⟩
    · rfl
    · funext i
      by_cases hi : i = ident o
      · rw [if_pos hi, if_pos hi]; rfl
      · rw [if_neg hi, if_neg hi]
    · rfl
    · funext c
      rw [discretizeF_mirror]
      exact if_congr mirror_eq rfl rfl
  | update =>
    refine ⟨_, _, _, _, _, _, rfl, rfl, fshows_update s, (fshows_update s').congr ?_ rfl rfl rfl⟩
    funext i
    cases wl i <;> rfl
  | lazyUpdate => exact ⟨_, _, _, _, _, _, rfl, rfl, fshows_lazy s, fshows_lazy s'⟩

theorem mirF_run {f0 f0' : PFieldF O I} {rl wl : I → Option (O × PosF)} {rb wb : Loc → Option (List O)} (m : MirF rnd w h d t f0 f0' rl wl rb wb)
    (hist : List (ROpF O)) :
    ∃ f f' rl' wl' rb' wb', run rnd ident f0 hist = some f ∧ run rnd ident f0' (hist.map ROpF.mirror) = some f' ∧
      MirF rnd w h d t f f' rl' wl' rb' wb' := by
  induction hist with
  | nil => exact ⟨f0, f0', _, _, _, _, rfl, rfl, m⟩
  | cons op hist ih =>
    obtain ⟨f, f', rl', wl', rb', wb', e, e', s⟩ := ih
    obtain ⟨k, k', rl2, wl2, rb2, wb2, a, a', b⟩ := mirF_exec (ident := ident) s op
    exact ⟨k, k', _, _, _, _, by rw [run, e]; exact a, by rw [List.map_cons, run, e']; exact a', b⟩

section
variable {f f' : PFieldF O I} {rl wl : I → Option (O × PosF)} {rb wb : Loc → Option (List O)}

theorem MirF.readBag (m : MirF rnd w h d t f f' rl wl rb wb) (b : Loc) : (DBDashMap.abs f'.fbag).read b.mirror = (DBDashMap.abs f.fbag).read b := by
  rw [m.1.readL, m.2.readL]; rfl

theorem bagIdF_mirror (m : MirF rnd w h d t f f' rl wl rb wb) (mode : Mode) (c : Loc) : bagId rnd mode f' c.mirror = (bagId rnd mode f c).map Loc.mirror := by
  unfold bagId Loc.mirror
  rw [m.1.width, m.1.height, m.1.disc, m.2.width, m.2.height, m.2.disc]
  dsimp only
  cases tTransform mode c.x (toI32 (ceil (div rnd w d))) <;> cases tTransform mode c.y (toI32 (ceil (div rnd h d))) <;> rfl

/-- The search through the exchanged cells. -/
theorem scanF_mirrored (m : MirF rnd w h d t f f' rl wl rb wb) (mode : Mode) {keep keep' : Loc → O → Bool} (hk : ∀ c o, keep' c.mirror o = keep c o)
    (cs : List Loc) : scan rnd mode f' keep' (cs.map Loc.mirror) = scan rnd mode f keep cs := by
  induction cs with
  | nil => rfl
  | cons c cs ih =>
    rw [List.map_cons, scan, scan, bagIdF_mirror m]
    cases bagId rnd mode f c with
    | none => rfl
    | some b =>
      dsimp only [Option.map_some]
      rw [getRead_abs m.1.invL, getRead_abs m.2.invL, m.readBag, ih]
      have : ∀ bag : List O, bag.filter (keep' b.mirror) = bag.filter (keep b) := fun bag => List.filter_congr (fun o _ => hk b o)
      simp only [this]

/-- One cell of the search. -/
theorem scanF_cons (s : FShows rnd f w h d t rl wl rb wb) (mode : Mode) (keep : Loc → O → Bool) (c : Loc) (cs : List Loc) :
    scan rnd mode f keep (c :: cs) =
      (bagId rnd mode f c).bind (fun b => (scan rnd mode f keep cs).map (fun r => ((rb b).getD []).filter (keep b) ++ r)) := by
  rw [scan]
  cases bagId rnd mode f c with
  | none => rfl
  | some b =>
    dsimp only [Option.bind_some]
    rw [getRead_abs s.invL, s.readL]
    cases rb b with
    | none => cases scan rnd mode f keep cs <;> rfl
    | some x => rfl

/-- The search in another order. -/
theorem scanF_order (s : FShows rnd f w h d t rl wl rb wb) (mode : Mode) (keep : Loc → O → Bool) {cs cs' : List Loc} (hp : cs.Perm cs') :
    Both List.Perm (scan rnd mode f keep cs) (scan rnd mode f keep cs') := by
  have both_self : ∀ x : Option (List O), Both List.Perm x x := by intro x; cases x; exacts [trivial, .refl _]
  induction hp with
  | nil => exact both_self _
  | cons c _ ih =>
    rw [scanF_cons s, scanF_cons s]
    cases bagId rnd mode f c with
    | none => trivial
    | some b =>
      rename_i l l' _
      dsimp only [Option.bind_some]
      revert ih
      cases scan rnd mode f keep l <;> cases scan rnd mode f keep l' <;> intro ih
      · trivial
      · exact ih
      · exact ih
      · exact List.Perm.append_left _ ih
  | swap a b cs =>
    rw [scanF_cons s, scanF_cons s, scanF_cons s, scanF_cons s]
    cases bagId rnd mode f a with
    | none => cases bagId rnd mode f b <;> trivial
    | some x =>
      cases bagId rnd mode f b with
      | none => trivial
      | some y =>
        cases scan rnd mode f keep cs with
        | none => trivial
        | some r =>
          show List.Perm (_ ++ (_ ++ _)) (_ ++ (_ ++ _))
          rw [← List.append_assoc, ← List.append_assoc]
          exact List.Perm.append_right _ List.perm_append_comm
  | trans _ _ ih1 ih2 =>
    rename_i l1 l2 l3 _ _
    revert ih1 ih2
    cases scan rnd mode f keep l1 <;> cases scan rnd mode f keep l2 <;> cases scan rnd mode f keep l3 <;> intro ih1 ih2
    · trivial
    · exact ih2
    · exact ih1.elim
    · exact ih1.elim
    · exact ih1.elim
    · exact ih1.elim
    · exact ih2.elim
    · exact List.Perm.trans ih1 ih2

/-- The whole search. -/
theorem searchF_mirror (m : MirF rnd w h d t f f' rl wl rb wb) (mode : Mode) {keep keep' : Loc → O → Bool} (hk : ∀ c o, keep' c.mirror o = keep c o)
    (p : PosF) (dis : F) : Both List.Perm ((searchCells rnd mode f p dis).bind (scan rnd mode f keep))
      ((searchCells rnd mode f' p.mirror dis).bind (scan rnd mode f' keep')) := by
  have hc := cells_mirrorF mode t (floor (div rnd p.x d)) (floor (div rnd p.y d)) (floor (div rnd dis d)) (ceil (div rnd w d)) (ceil (div rnd h d))
  have e1 : searchCells rnd mode f p dis =
      (match window mode t (toI32 (floor (div rnd p.x d))) (toI32 (floor (div rnd dis d))) (toI32 (ceil (div rnd w d))),
        window mode t (toI32 (floor (div rnd p.y d))) (toI32 (floor (div rnd dis d))) (toI32 (ceil (div rnd h d))) with
        | some wx, some wy => pairs mode wx wy
        | _, _ => none) := by
    unfold searchCells cellOf
    rw [m.1.width, m.1.height, m.1.disc, m.1.tor]
    rfl
  have e2 : searchCells rnd mode f' p.mirror dis =
      (match window mode t (toI32 (floor (div rnd p.y d))) (toI32 (floor (div rnd dis d))) (toI32 (ceil (div rnd h d))),
        window mode t (toI32 (floor (div rnd p.x d))) (toI32 (floor (div rnd dis d))) (toI32 (ceil (div rnd w d))) with
        | some wx, some wy => pairs mode wx wy
        | _, _ => none) := by
    unfold searchCells cellOf
    rw [m.2.width, m.2.height, m.2.disc, m.2.tor]
    rfl
  rw [← e1, ← e2] at hc
  revert hc
  cases searchCells rnd mode f p dis <;> cases searchCells rnd mode f' p.mirror dis <;> intro hc
  · trivial
  · exact False.elim hc
  · exact False.elim hc
  · have := scanF_order m.2 mode keep' hc
    rw [scanF_mirrored m mode hk] at this
    exact this

theorem mirF_answers (m : MirF rnd w h d t f f' rl wl rb wb) (root : Rat → Rat) (mode : Mode) (size : Nat) (ident : O → I) :
    f.MirrorAnswers rnd root mode size ident f' := by
  have hcell : ∀ p : PosF, cellOf rnd f' p.mirror = (cellOf rnd f p).mirror := by
    intro p; rw [cellOf_eq, cellOf_eq, m.1.disc, m.2.disc, discretizeF_mirror]
  have hlen : rLen f'.findex = rLen f.findex := by
    refine (MRel.size (ident := (id : I → I)) (ident' := (id : I → I)) (φ := id) (g := fun e : O × Loc => (e.1, e.2.mirror))
      (fun _ _ => Iff.rfl) ?_ (ParField2D.rLen_hasSize m.1.invI) (ParField2D.rLen_hasSize m.2.invI)).symm
    rw [m.1.readI, m.2.readI]
    refine ⟨fun i => ?_, fun i _ => ⟨i, rfl⟩, fun i _ => ⟨i, rfl⟩⟩
    dsimp only [id]
    cases rl i <;> rfl
  have hcap : ∀ dis, capacity rnd mode f' dis = capacity rnd mode f dis := by
    intro dis
    unfold capacity
    rw [hlen, m.1.width, m.1.height, m.2.width, m.2.height, mulF_comm rnd h w]
  refine ⟨fun o => ?_, fun p => ?_, fun p => ?_, fun locOf p dis => ?_, fun p dis => ?_⟩
  · unfold getLocation
    rw [getRead_abs m.1.invO, getRead_abs m.2.invO, m.1.readO, m.2.readO]
    dsimp only
    cases rl (ident o) <;> rfl
  · unfold getObjects
    rw [hcell, getRead_abs m.1.invL, getRead_abs m.2.invL, m.readBag]
  · unfold numObjectsAtLocation
    rw [hcell, getRead_abs m.1.invL, getRead_abs m.2.invL, m.readBag]
  · unfold getNeighborsWithinDistance
    rw [hcap]
    cases (capacity rnd mode f dis).bind (reserve size) with
    | none => trivial
    | some u =>
      dsimp only [Option.bind_some]
      by_cases h1 : le dis (.fin 0) = true
      · rw [if_pos h1, if_pos h1]; exact .refl _
      · rw [if_neg h1, if_neg h1]
        refine searchF_mirror m mode (fun c o => ?_) p dis
        unfold keepExact
        rw [m.1.width, m.1.height, m.1.disc, m.1.tor, m.2.width, m.2.height, m.2.disc, m.2.tor, checkCircleF_mirror, distF_mirror]
  · unfold getNeighborsWithinRelaxDistance
    rw [hcap]
    cases (capacity rnd mode f dis).bind (reserve size) with
    | none => trivial
    | some u =>
      dsimp only [Option.bind_some]
      by_cases h1 : le dis (.fin 0) = true
      · rw [if_pos h1, if_pos h1]; exact .refl _
      · rw [if_neg h1, if_neg h1]
        exact searchF_mirror m mode (keep := fun _ _ => true) (keep' := fun _ _ => true) (fun c o => rfl) p dis
end

/-- **C260**, continuous fields with the feature and machine floats: all sizes, positions and distances, NaN and infinities included, in
both builds; the searches panic in the same cases. -/
theorem C260_machine_parallel (rnd root : Rat → Rat) (mode : Mode) (size : Nat) {cpus cpus' : Nat} (hc : shardAmount cpus ≤ 2 ^ 64)
    (hc' : shardAmount cpus' ≤ 2 ^ 64) (ident : O → I) (hashO hashO' : I → Nat) (hashL hashL' : Loc → Nat) (w h d : F) (t : Bool) (hist : List (ROpF O)) :
    ∃ f f', run rnd ident (new cpus hashO hashL w h d t) hist = some f ∧
      run rnd ident (new cpus' hashO' hashL' h w d t) (hist.map ROpF.mirror) = some f' ∧ f.MirrorAnswers rnd root mode size ident f' := by
  obtain ⟨f, f', rl, wl, rb, wb, e, e', m⟩ := mirF_run (rnd := rnd) (ident := ident) (w := w) (h := h) (d := d) (t := t) (rl := fun _ => none)
    (wl := fun _ => none) (rb := fun _ => none) (wb := fun _ => none)
    ⟨fshows_new (O := O) rnd hc hashO hashL w h d t, fshows_new (O := O) rnd hc' hashO' hashL' h w d t⟩ hist
  exact ⟨f, f', e, e', mirF_answers m root mode size ident⟩

/-- A field that is not square, with objects at infinity and nowhere. -/
example :
    let hist : List (ROpF Nat) := [.lazyUpdate, .place 4 ⟨.nan, .fin 1⟩, .place 3 ⟨.fin 1, .inf false⟩, .place 2 ⟨.fin 2, .fin 1⟩, .place 1 ⟨.fin 1, .fin 1⟩]
    ((run Single.single id (new 1 id (fun _ => 0) (.fin 4) (.fin 2) (.fin 1) false) hist : Option (PFieldF Nat Nat)).bind
      (fun f => getNeighborsWithinRelaxDistance Single.single .debug 32 f ⟨.fin 1, .fin 1⟩ (.fin 1))) = some [4, 1, 2] ∧
    ((run Single.single id (new 1 id (fun _ => 0) (.fin 2) (.fin 4) (.fin 1) false) (hist.map ROpF.mirror) : Option (PFieldF Nat Nat)).bind
      (fun f => getNeighborsWithinRelaxDistance Single.single .debug 32 f ⟨.fin 1, .fin 1⟩ (.fin 1))) = some [4, 1, 2] := by
  decide +kernel

end Verif.ParMachine

namespace Verif.Machine

open Grid Torus ParGrid
open DenseI32 (Mode)
open Single (Rounding image imageField imageOp)
open Field2D (FieldOp InField)

variable {O : Type} [BEq O]

section
variable {rnd : Rat → Rat} {w h d : Rat} {t : Bool} {g g' : Field2D.Field O} {hist : List (FieldOp O)}

/-- The search with the axes exchanged. -/
theorem seqSearch_mirror (hr : Rounding rnd) (m : Mode) (ho : Ordinary rnd w h d) (b : Sized rnd w h d g) (b' : Sized rnd h w d g')
    (hm : Field2D.Mirrored (imageField rnd g) (imageField rnd g') (rnd (w / d)) (rnd (h / d)) 1 t hist) {keep keep' : Loc → O → Bool}
    (hk : ∀ c o, keep' c.mirror o = keep c o) {p : Pos} (hp : InField w h p) {dis : Rat} (h0 : 0 < dis) (hf : Fits rnd g.toroidal d p dis) :
    ∃ r r', (searchCells rnd m (ofField g) (ofPos p) (.fin dis)).bind (scan rnd m (ofField g) keep) = some r ∧
      (searchCells rnd m (ofField g') (ofPos p).mirror (.fin dis)).bind (scan rnd m (ofField g') keep') = some r' ∧ r.Perm r' := by
  have t1 : g.toroidal = t := hm.one.tor
  have t2 : g'.toroidal = t := hm.two.tor
  have hc := cells_mirrorF m t (floor (div rnd (ofPos p).x (.fin d))) (floor (div rnd (ofPos p).y (.fin d))) (floor (div rnd (.fin dis) (.fin d)))
    (cellsAlong rnd (.fin w) (.fin d)) (cellsAlong rnd (.fin h) (.fin d))
  have e1 : searchCells rnd m (ofField g) (ofPos p) (.fin dis) =
      (match window m t (toI32 (floor (div rnd (ofPos p).x (.fin d)))) (toI32 (floor (div rnd (.fin dis) (.fin d)))) (toI32 (cellsAlong rnd (.fin w) (.fin d))),
        window m t (toI32 (floor (div rnd (ofPos p).y (.fin d)))) (toI32 (floor (div rnd (.fin dis) (.fin d)))) (toI32 (cellsAlong rnd (.fin h) (.fin d))) with
        | some wx, some wy => pairs m wx wy
        | _, _ => none) := by
    unfold searchCells ofField
    rw [b.width, b.height, b.disc, t1]
    rfl
  have e2 : searchCells rnd m (ofField g') (ofPos p).mirror (.fin dis) =
      (match window m t (toI32 (floor (div rnd (ofPos p).y (.fin d)))) (toI32 (floor (div rnd (.fin dis) (.fin d)))) (toI32 (cellsAlong rnd (.fin h) (.fin d))),
        window m t (toI32 (floor (div rnd (ofPos p).x (.fin d)))) (toI32 (floor (div rnd (.fin dis) (.fin d)))) (toI32 (cellsAlong rnd (.fin w) (.fin d))) with
        | some wx, some wy => pairs m wx wy
        | _, _ => none) := by
    unfold searchCells ofField
    rw [b'.width, b'.height, b'.disc, t2]
    rfl
  rw [← e1, ← e2, searchCells_of hr m ho b hp h0 hf] at hc
  rw [searchCells_of hr m ho b hp h0 hf]
  revert hc
  cases searchCells rnd m (ofField g') (ofPos p).mirror (.fin dis) with
  | none => intro hc; exact False.elim hc
  | some cs' =>
    intro hc
    have hc : List.Perm (List.map Loc.mirror (Single.searchCells rnd g p dis)) cs' := hc
    simp only [Option.bind_some]
    rw [ParMachine.seqScan_of hr m ho b hm.one, ParMachine.seqScan_of hr m ho.flip b' hm.two]
    refine ⟨_, _, rfl, rfl, ?_⟩
    refine List.Perm.trans ?_ (hc.flatMap_right _)
    rw [List.flatMap_map]
    refine List.Perm.of_eq ?_
    congr 1
    funext c
    have e : ParMachine.wrap rnd h w d c.mirror = (ParMachine.wrap rnd w h d c).mirror := rfl
    rw [e, Field2D.notDiscretize_mirror, Field2D.objsPublished_mirror]
    exact List.filter_congr (fun o _ => (hk _ o).symm)

end

/-- **C260**, continuous fields without the feature, machine floats: fields of at most 2^24 cells, positions in the field. -/
theorem C260_machine (rnd : Rat → Rat) (hr : Rounding rnd) (root : Rat → Rat) (m : Mode) (w h d : Rat) (t : Bool) (ho : Ordinary rnd w h d)
    (hist : List (FieldOp O)) (hin : ∀ op ∈ hist, op.InField w h) :
    ∃ f f', session rnd m (.fin w) (.fin h) (.fin d) t (hist.map ofOp) = some f ∧
      session rnd m (.fin h) (.fin w) (.fin d) t ((hist.map ofOp).map OpF.mirror) = some f' ∧
      f.MirrorAnswers rnd root m (fun p => ∃ q, InField w h q ∧ p = ofPos q) (fun x => ∃ dis : Rat, dis / d ≤ 2 ^ 31 - 2 ^ 25 ∧ x = .fin dis) f' := by
  have hw := lt_of_lt_of_le ho.pos ho.dw
  have hh := lt_of_lt_of_le ho.pos ho.dh
  have hin2 : ∀ op ∈ hist.map (imageOp rnd d), op.InField (rnd (w / d)) (rnd (h / d)) := by
    intro op hop
    obtain ⟨o, hoo, rfl⟩ := List.mem_map.1 hop
    have := hin o hoo
    cases o with
    | place o l => exact Single.image_inField hr ho.pos this
    | remove o l => exact Single.image_inField hr ho.pos this
    | update => trivial
    | lazyUpdate => trivial
  obtain ⟨F1, F2, e1, e2, hm⟩ := Field2D.mirrored_run (d := 1) t (Single.width_pos hr ho.pos ho.dw) (Single.width_pos hr ho.pos ho.dh) (by norm_num)
    (hist.map (imageOp rnd d)) hin2
  have r1 := Single.run_image rnd (Single.new rnd w h d t) hist
  have r2 := Single.run_image rnd (Single.new rnd h w d t) (hist.map FieldOp.mirror)
  rw [Single.image_new hr t hw hh ho.pos ho.cells] at r1
  rw [Single.image_new hr t hh hw ho.pos ho.flip.cells] at r2
  have em : (hist.map FieldOp.mirror).map (imageOp rnd d) = (hist.map (imageOp rnd d)).map FieldOp.mirror := by
    rw [List.map_map, List.map_map]
    refine List.map_congr_left (fun o _ => ?_)
    cases o <;> rfl
  have r1 := r1.trans e1
  have r2 := r2.trans ((congrArg (Field2D.run _) em).trans e2)
  obtain ⟨g, h1, rfl⟩ := Option.map_eq_some_iff.1 r1
  obtain ⟨g', h2, rfl⟩ := Option.map_eq_some_iff.1 r2
  obtain ⟨s1, b⟩ := session_of hr m ho t hin h1
  obtain ⟨s2, b'⟩ := session_of hr m ho.flip t (fun op hop => by
    obtain ⟨o, hoo, rfl⟩ := List.mem_map.1 hop
    exact Field2D.op_mirror (hin o hoo)) h2
  have eo : (hist.map FieldOp.mirror).map ofOp = (hist.map ofOp).map OpF.mirror := by
    rw [List.map_map, List.map_map]
    refine List.map_congr_left (fun o _ => ?_)
    cases o <;> rfl
  rw [eo] at s2
  have A := Field2D.mirrorAnswers (by norm_num) hm
  have get : ∀ (v : List (List O)) q, InField w h q → DenseI32.vecGet m v (ofField g).dh (discretize rnd (ofField g).discretization (ofPos q)) =
      Grid.vecGet v (imageField rnd g).dh (Field2D.discretize (imageField rnd g).discretization (image rnd d q)) := by
    intro v q hq
    show DenseI32.vecGet m v g.dh (discretize rnd (.fin g.discretization) (ofPos q)) = Grid.vecGet v g.dh (Field2D.discretize 1 (image rnd d q))
    rw [b.dh, b.disc, ← Single.discretize_image]
    exact vecGet_of hr m ho v hq
  have get' : ∀ (v : List (List O)) q, InField w h q → DenseI32.vecGet m v (ofField g').dh (discretize rnd (ofField g').discretization (ofPos q).mirror) =
      Grid.vecGet v (imageField rnd g').dh (Field2D.discretize (imageField rnd g').discretization (image rnd d q).mirror) := by
    intro v q hq
    show DenseI32.vecGet m v g'.dh (discretize rnd (.fin g'.discretization) (ofPos q.mirror)) = Grid.vecGet v g'.dh (Field2D.discretize 1 (image rnd d q.mirror))
    rw [b'.dh, b'.disc, ← Single.discretize_image]
    exact vecGet_of hr m ho.flip v (Field2D.inField_mirror hq)
  refine ⟨ofField g, ofField g', s1, s2, ?_, ?_, ?_, ?_, ?_, A.density⟩
  · rintro p ⟨q, hq, rfl⟩
    unfold getObjects
    rw [get _ q hq, get' _ q hq]
    exact A.objects _ (Single.image_inField hr ho.pos hq)
  · rintro p ⟨q, hq, rfl⟩
    unfold getObjectsUnbuffered
    rw [get _ q hq, get' _ q hq]
    exact A.objectsUnbuffered _ (Single.image_inField hr ho.pos hq)
  · rintro p ⟨q, hq, rfl⟩
    obtain ⟨x, k1, k2⟩ := A.objects _ (Single.image_inField hr ho.pos hq)
    unfold numObjectsAtLocation
    rw [get _ q hq, get' _ q hq]
    exact ⟨x.length, congrArg (Option.map List.length) k1, congrArg (Option.map List.length) k2⟩
  · rintro locOf p x ⟨q, hq, rfl⟩ ⟨dis, hdis, rfl⟩
    unfold getNeighborsWithinDistance
    by_cases h0 : le (.fin dis) (.fin 0) = true
    · rw [if_pos h0, if_pos h0]; exact ⟨[], [], rfl, rfl, .refl _⟩
    · rw [if_neg h0, if_neg h0]
      have h0 : 0 < dis := by
        simp only [le, decide_eq_true_eq] at h0
        exact lt_of_not_ge h0
      refine seqSearch_mirror hr m ho b b' hm (fun c o => ?_) hq h0 (fits_of hr ho _ hq hdis)
      have t1 : g.toroidal = t := hm.one.tor
      have t2 : g'.toroidal = t := hm.two.tor
      unfold keepExact ofField
      dsimp only
      rw [b.width, b.height, b.disc, t1, b'.width, b'.height, b'.disc, t2, checkCircleF_mirror, distF_mirror]
  · rintro p x ⟨q, hq, rfl⟩ ⟨dis, hdis, rfl⟩
    unfold getNeighborsWithinRelaxDistance
    by_cases h0 : le (.fin dis) (.fin 0) = true
    · rw [if_pos h0, if_pos h0]; exact ⟨[], [], rfl, rfl, .refl _⟩
    · rw [if_neg h0, if_neg h0]
      have h0 : 0 < dis := by
        simp only [le, decide_eq_true_eq] at h0
        exact lt_of_not_ge h0
      exact seqSearch_mirror hr m ho b b' hm (keep := fun _ _ => true) (keep' := fun _ _ => true) (fun c o => rfl) hq h0 (fits_of hr ho _ hq hdis)

/-- A field that is not square, with a removal. -/
example :
    let hist : List (FieldOp Nat) := [.lazyUpdate, .remove 3 ⟨4, 1⟩, .place 3 ⟨4, 1⟩, .place 2 ⟨3, 0⟩, .place 1 ⟨0, 1⟩]
    Ordinary Single.single 4 2 1 ∧ (∀ op ∈ hist, op.InField 4 2) ∧
    (session Single.single .debug (.fin 4) (.fin 2) (.fin 1) true (hist.map ofOp)).bind
      (fun f => getNeighborsWithinRelaxDistance Single.single .debug f ⟨.fin 1, .fin 1⟩ (.fin 2)) = some [1, 2] ∧
    (session Single.single .debug (.fin 2) (.fin 4) (.fin 1) true ((hist.map ofOp).map OpF.mirror)).bind
      (fun f => getNeighborsWithinRelaxDistance Single.single .debug f ⟨.fin 1, .fin 1⟩ (.fin 2)) = some [2, 1] := by
  refine ⟨⟨by decide +kernel, by decide +kernel, by decide +kernel, by norm_num, by norm_num, by decide +kernel⟩, ?_, ?_, ?_⟩
  · decide +kernel
  · decide +kernel
  · decide +kernel

end Verif.Machine
