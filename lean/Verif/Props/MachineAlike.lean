import Verif.Spec.MachineAlike
import Verif.Props.ReorderField
import Verif.Props.RenameGrid

/-!
C256 "Machine floats: names, other objects and the order of calls do not matter in a continuous field".
-/

namespace Verif.Machine

open Grid
open DenseI32 (Mode fit index)
open Field2D (total total_vecSet length_le_total vecSet_self total_perm)

variable {O P : Type} [BEq O] [BEq P]

/-! ### The cell of a position -/

/-- The place of a cell in the vector, as a cell of a single column. -/
def slot (m : Mode) (h : Int) (l : Loc) : Option Loc := (index m h l).map (fun i => ⟨0, i⟩)

theorem vecGet_slot {α : Type} (m : Mode) (v : List α) (h : Int) (l : Loc) :
    DenseI32.vecGet m v h l = (slot m h l).bind (Grid.vecGet v 0) := by
  unfold DenseI32.vecGet slot
  cases index m h l with
  | none => rfl
  | some i =>
    show _ = Grid.vecGet v 0 ⟨0, i⟩
    unfold Grid.vecGet
    simp

theorem vecSet_slot {α : Type} (m : Mode) (v : List α) (h : Int) (l : Loc) (a : α) :
    DenseI32.vecSet m v h l a = (slot m h l).bind (fun s => Grid.vecSet v 0 s a) := by
  unfold DenseI32.vecSet slot
  cases index m h l with
  | none => rfl
  | some i =>
    show _ = Grid.vecSet v 0 ⟨0, i⟩ a
    unfold Grid.vecSet
    simp

/-- The field with other written bags; the objects are counted until the first update. -/
def withBags (f : FieldF O) (v : List (List O)) : FieldF O :=
  ⟨f.rbags, v, if f.densityCheck then f.nagents else total v, f.width, f.height, f.discretization, f.toroidal, f.dh, f.dw,
    f.density, f.densityCheck⟩

/-- The count of objects is right. -/
def Counted (f : FieldF O) : Prop := f.densityCheck = false → f.nagents = total f.bags

omit [BEq O] in
theorem counted_withBags (f : FieldF O) (v : List (List O)) : Counted (withBags f v) := by
  intro h
  have h : f.densityCheck = false := h
  show (if f.densityCheck then f.nagents else total v) = total v
  rw [h]; rfl

omit [BEq O] in
theorem withBags_self {f : FieldF O} (hc : Counted f) : withBags f f.bags = f := by
  have : (if f.densityCheck then f.nagents else total f.bags) = f.nagents := by
    cases hd : f.densityCheck with
    | true => rfl
    | false => exact (hc hd).symm
  unfold withBags
  rw [this]

theorem usub_ok (m : Mode) {a b : Nat} (h : b ≤ a) : usub m a b = some (a - b) := by
  cases m with
  | debug => exact if_neg (by omega)
  | release => exact congrArg some (if_neg (by omega))

theorem place_modify (rnd : Rat → Rat) (m : Mode) {f : FieldF O} (hc : Counted f) (o : O) (l : PosF) :
    setObjectLocation rnd m f o l = (slot m f.dh (discretize rnd f.discretization l)).bind (fun s =>
      (modifyBag f.bags 0 s (bagChange false o true)).map (withBags f)) := by
  unfold setObjectLocation
  rw [vecGet_slot]
  simp only [vecSet_slot]
  cases slot m f.dh (discretize rnd f.discretization l) with
  | none => rfl
  | some s =>
    simp only [Option.bind_some]
    unfold modifyBag
    cases hb : vecGet f.bags 0 s with
    | none => rfl
    | some b =>
      dsimp only
      show _ = (vecSet f.bags 0 s (b ++ [o])).map (withBags f)
      cases hv : vecSet f.bags 0 s (b ++ [o]) with
      | none => rfl
      | some v =>
        have ht := total_vecSet hb hv
        simp only [Option.map_some, Option.some.injEq, withBags, FieldF.mk.injEq, true_and, and_true]
        cases hd : f.densityCheck with
        | true => rfl
        | false =>
          have := hc hd
          simp only [List.length_append, List.length_singleton] at ht
          simp only [Bool.false_eq_true, if_false]
          omega

theorem remove_modify (rnd : Rat → Rat) (m : Mode) {f : FieldF O} (hc : Counted f) (o : O) (l : PosF) :
    removeObjectLocation rnd m f o l = (slot m f.dh (discretize rnd f.discretization l)).bind (fun s =>
      (modifyBag f.bags 0 s (bagChange false o false)).map (withBags f)) := by
  unfold removeObjectLocation
  rw [vecGet_slot]
  simp only [vecSet_slot]
  cases slot m f.dh (discretize rnd f.discretization l) with
  | none => rfl
  | some s =>
    simp only [Option.bind_some]
    unfold modifyBag
    cases hb : vecGet f.bags 0 s with
    | none => rfl
    | some b =>
      dsimp only
      have hbc : bagChange false o false b = b.filter (fun x => x != o) := by unfold bagChange; simp
      rw [hbc]
      by_cases he : b.isEmpty = true
      · rw [if_pos he]
        have h0 := List.isEmpty_iff.1 he
        subst h0
        rw [List.filter_nil, vecSet_self hb, Option.map_some, withBags_self hc]
      · rw [if_neg he]
        by_cases hd : f.densityCheck = true
        · rw [if_pos hd]
          congr 1
          funext v
          unfold withBags
          rw [if_pos hd]
        · rw [if_neg hd]
          have hd : f.densityCheck = false := by simpa using hd
          have hn := hc hd
          have hle := length_le_total hb
          rw [usub_ok m (by omega)]
          dsimp only
          cases hv : vecSet f.bags 0 s (b.filter (fun x => x != o)) with
          | none => rfl
          | some v =>
            have ht := total_vecSet hb hv
            have hfl := List.length_filter_le (fun x => x != o) b
            simp only [Option.map_some, Option.some.injEq, withBags, FieldF.mk.injEq, true_and, and_true, hd, Bool.false_eq_true,
              if_false]
            omega

/-- Whether the call places its object. -/
def OpF.puts : OpF O → Bool
  | .place _ _ => true
  | _ => false

/-- The position of a call. -/
def OpF.pos : OpF O → PosF
  | .place _ l => l
  | .remove _ l => l
  | _ => ⟨.nan, .nan⟩

theorem object_modify (rnd : Rat → Rat) (m : Mode) {op : OpF O} {x : O} (h : op.object = some x) {f : FieldF O} (hc : Counted f) :
    exec rnd m f op = (slot m f.dh (discretize rnd f.discretization op.pos)).bind (fun s =>
      (modifyBag f.bags 0 s (bagChange false x op.puts)).map (withBags f)) := by
  cases op with
  | place o l =>
    simp only [OpF.object, Option.some.injEq] at h
    subst h
    exact place_modify rnd m hc o l
  | remove o l =>
    simp only [OpF.object, Option.some.injEq] at h
    subst h
    exact remove_modify rnd m hc o l
  | update => simp [OpF.object] at h
  | lazyUpdate => simp [OpF.object] at h

theorem exec_counted {rnd : Rat → Rat} {m : Mode} {f f2 : FieldF O} (hc : Counted f) {op : OpF O}
    (he : exec rnd m f op = some f2) : Counted f2 := by
  cases ho : op.object with
  | some x =>
    rw [object_modify rnd m ho hc] at he
    cases hs : slot m f.dh (discretize rnd f.discretization op.pos) with
    | none => rw [hs] at he; simp at he
    | some s =>
      rw [hs] at he
      obtain ⟨v, _, rfl⟩ := Option.map_eq_some_iff.1 he
      exact counted_withBags f v
  | none =>
    cases op with
    | place o l => simp [OpF.object] at ho
    | remove o l => simp [OpF.object] at ho
    | update => simp only [exec, Option.some.injEq] at he; subst he; exact hc
    | lazyUpdate =>
      simp only [exec, lazyUpdate] at he
      by_cases hd : f.densityCheck = true
      · rw [if_pos hd, Option.some.injEq] at he
        subst he
        intro h
        have h : f.densityCheck = false := h
        rw [hd] at h; simp at h
      · rw [if_neg hd] at he
        cases ha : area m f with
        | none => rw [ha] at he; simp at he
        | some a =>
          rw [ha] at he
          dsimp only at he
          by_cases hz : a = 0
          · rw [if_pos hz] at he; simp at he
          · rw [if_neg hz] at he
            obtain ⟨v, _, rfl⟩ := Option.map_eq_some_iff.1 he
            intro h
            simp at h

omit [BEq O] in
theorem total_replicate (n : Nat) : total (List.replicate n ([] : List O)) = 0 := by
  unfold total
  simp

omit [BEq O] in
theorem new_some {rnd : Rat → Rat} {m : Mode} {w h d : F} {t : Bool} {f : FieldF O} (hf : new rnd m w h d t = some f) :
    ∃ n dh dw, f = ⟨List.replicate n [], List.replicate n [], 0, w, h, d, t, dh, dw, 0, false⟩ := by
  unfold new emptyBags at hf
  by_cases hb : 24 * bagsMade rnd w h d < 2 ^ 63
  · rw [if_pos hb] at hf
    cases h1 : fit m (toI32 (cellsAlong rnd h d) + 1) with
    | none => rw [h1] at hf; simp at hf
    | some dh =>
      cases h2 : fit m (toI32 (cellsAlong rnd w d) + 1) with
      | none => rw [h1, h2] at hf; simp at hf
      | some dw =>
        rw [h1, h2] at hf
        simp only [Option.some.injEq] at hf
        exact ⟨_, dh, dw, hf.symm⟩
  · rw [if_neg hb] at hf; simp at hf

omit [BEq O] in
theorem new_counted {rnd : Rat → Rat} {m : Mode} {w h d : F} {t : Bool} {f : FieldF O} (hf : new rnd m w h d t = some f) :
    Counted f := by
  obtain ⟨n, dh, dw, rfl⟩ := new_some hf
  intro _
  exact (total_replicate n).symm

/-! ### Names -/

/-- The field with all objects under their new names. -/
def FieldF.rename (φ : O → P) (f : FieldF O) : FieldF P :=
  ⟨f.rbags.map (List.map φ), f.bags.map (List.map φ), f.nagents, f.width, f.height, f.discretization, f.toroidal, f.dh, f.dw,
    f.density, f.densityCheck⟩

omit [BEq O] [BEq P] in
theorem total_rename (φ : O → P) (v : List (List O)) : total (v.map (List.map φ)) = total v := by
  unfold total
  rw [List.map_map]
  congr 1
  apply List.map_congr_left
  intro b _
  exact List.length_map _

theorem bagChange_rename {φ : O → P} (hφ : Faithful φ) (x : O) (p : Bool) (b : List O) :
    bagChange false (φ x) p (b.map φ) = (bagChange false x p b).map φ := by
  unfold bagChange
  rw [filter_ne_map hφ]
  cases p <;> simp

theorem modifyBag_rename {φ : O → P} (hφ : Faithful φ) (v : List (List O)) (s : Loc) (x : O) (p : Bool) :
    modifyBag (v.map (List.map φ)) 0 s (bagChange false (φ x) p) =
      (modifyBag v 0 s (bagChange false x p)).map (List.map (List.map φ)) := by
  unfold modifyBag
  rw [vecGet_map]
  cases vecGet v 0 s with
  | none => rfl
  | some b =>
    dsimp only [Option.map_some]
    rw [bagChange_rename hφ, vecSet_map]

theorem exec_rename {φ : O → P} (hφ : Faithful φ) (rnd : Rat → Rat) (m : Mode) {f : FieldF O} (hc : Counted f) (op : OpF O) :
    exec rnd m (f.rename φ) (op.rename φ) = (exec rnd m f op).map (FieldF.rename φ) := by
  have hc' : Counted (f.rename φ) := by
    intro h
    show f.nagents = total (f.bags.map (List.map φ))
    rw [total_rename]
    exact hc h
  cases ho : op.object with
  | some x =>
    have ho' : (op.rename φ).object = some (φ x) := by
      cases op <;> simp_all [OpF.object, OpF.rename]
    have hp : (op.rename φ).pos = op.pos := by cases op <;> rfl
    have hq : (op.rename φ).puts = op.puts := by cases op <;> rfl
    rw [object_modify rnd m ho hc, object_modify rnd m ho' hc', hp, hq]
    show (slot m f.dh (discretize rnd f.discretization op.pos)).bind _ = _
    cases slot m f.dh (discretize rnd f.discretization op.pos) with
    | none => rfl
    | some s =>
      show (modifyBag (f.bags.map (List.map φ)) 0 s (bagChange false (φ x) op.puts)).map (withBags (f.rename φ)) =
        ((modifyBag f.bags 0 s (bagChange false x op.puts)).map (withBags f)).map (FieldF.rename φ)
      rw [modifyBag_rename hφ, Option.map_map, Option.map_map]
      congr 1
      funext v
      show withBags (f.rename φ) (v.map (List.map φ)) = (withBags f v).rename φ
      unfold withBags
      rw [total_rename]
      rfl
  | none =>
    cases op with
    | place o l => simp [OpF.object] at ho
    | remove o l => simp [OpF.object] at ho
    | update => rfl
    | lazyUpdate =>
      show lazyUpdate m (f.rename φ) = (lazyUpdate m f).map _
      unfold lazyUpdate
      show (if f.densityCheck then some { f.rename φ with rbags := f.bags.map (List.map φ), bags := (f.rbags.map (List.map φ)).map (fun _ => []) }
        else match area m f with
          | none => none
          | some a =>
            if a = 0 then none
            else (emptyBags P a).map (fun v =>
              { f.rename φ with rbags := f.bags.map (List.map φ), bags := v, density := f.nagents / a, densityCheck := true })) = _
      by_cases h1 : f.densityCheck = true
      · rw [if_pos h1, if_pos h1, Option.map_some]
        unfold FieldF.rename
        simp only [List.map_map]
        rfl
      · rw [if_neg h1, if_neg h1]
        cases area m f with
        | none => rfl
        | some a =>
          dsimp only
          by_cases h2 : a = 0
          · rw [if_pos h2, if_pos h2]; rfl
          · rw [if_neg h2, if_neg h2]
            unfold emptyBags
            by_cases h3 : 24 * a < 2 ^ 63
            · rw [if_pos h3, if_pos h3]
              simp only [Option.map_some, FieldF.rename, List.map_replicate, List.map_nil]
            · rw [if_neg h3, if_neg h3]; rfl

theorem run_rename {φ : O → P} (hφ : Faithful φ) (rnd : Rat → Rat) (m : Mode) {f : FieldF O} (hc : Counted f) :
    ∀ hist : List (OpF O), run rnd m (f.rename φ) (hist.map (OpF.rename φ)) = (run rnd m f hist).map (FieldF.rename φ) ∧
      ∀ f1, run rnd m f hist = some f1 → Counted f1
  | [] => ⟨rfl, fun f1 h1 => by cases h1; exact hc⟩
  | op :: hist => by
    obtain ⟨e, hcs⟩ := run_rename hφ rnd m hc hist
    rw [List.map_cons, run, run, e]
    cases h : run rnd m f hist with
    | none => exact ⟨rfl, fun f1 h1 => by simp at h1⟩
    | some f1 =>
      refine ⟨exec_rename hφ rnd m (hcs f1 h) op, fun f2 h2 => ?_⟩
      exact exec_counted (hcs f1 h) h2

omit [BEq O] in
theorem made_some [BEq O] {rnd : Rat → Rat} {m : Mode} {w h d : F} {t : Bool} {hist : List (OpF O)} {f : FieldF O}
    (hf : made rnd m w h d t hist = some f) : ∃ f0, new rnd m w h d t = some f0 ∧ run rnd m f0 hist = some f := by
  unfold made at hf
  cases h0 : (new rnd m w h d t : Option (FieldF O)) with
  | none => rw [h0] at hf; simp at hf
  | some f0 => rw [h0] at hf; exact ⟨f0, rfl, hf⟩

omit [BEq O] [BEq P] in
theorem new_rename (φ : O → P) (rnd : Rat → Rat) (m : Mode) (w h d : F) (t : Bool) :
    (new rnd m w h d t : Option (FieldF P)) = (new rnd m w h d t : Option (FieldF O)).map (FieldF.rename φ) := by
  unfold new emptyBags
  by_cases hb : 24 * bagsMade rnd w h d < 2 ^ 63
  · rw [if_pos hb, if_pos hb]
    cases h1 : fit m (toI32 (cellsAlong rnd h d) + 1) with
    | none => simp
    | some dh =>
      cases h2 : fit m (toI32 (cellsAlong rnd w d) + 1) with
      | none => simp
      | some dw => simp [FieldF.rename]
  · rw [if_neg hb, if_neg hb]; rfl

theorem made_rename {φ : O → P} (hφ : Faithful φ) (rnd : Rat → Rat) (m : Mode) (w h d : F) (t : Bool) (hist : List (OpF O)) :
    made rnd m w h d t (hist.map (OpF.rename φ)) = (made rnd m w h d t hist).map (FieldF.rename φ) := by
  unfold made
  rw [new_rename φ]
  cases h0 : (new rnd m w h d t : Option (FieldF O)) with
  | none => rfl
  | some f0 => exact (run_rename hφ rnd m (new_counted h0) hist).1

omit [BEq O] [BEq P] in
theorem scan_rename (φ : O → P) (rnd : Rat → Rat) (m : Mode) (f : FieldF O) (keep : Loc → O → Bool) (keep' : Loc → P → Bool)
    (h : ∀ b o, keep' b (φ o) = keep b o) : ∀ cs, scan rnd m (f.rename φ) keep' cs = (scan rnd m f keep cs).map (List.map φ)
  | [] => rfl
  | c :: cs => by
    rw [scan, scan, scan_rename φ rnd m f keep keep' h cs]
    show (match bagId rnd m f c with
      | none => none
      | some b => match DenseI32.vecGet m (f.rbags.map (List.map φ)) f.dh b with
        | none => none
        | some bag => Option.map (fun r => bag.filter (keep' b) ++ r) ((scan rnd m f keep cs).map (List.map φ))) = _
    cases bagId rnd m f c with
    | none => rfl
    | some b =>
      dsimp only
      rw [vecGet_slot, vecGet_slot]
      cases slot m f.dh b with
      | none => rfl
      | some s =>
        simp only [Option.bind_some]
        rw [vecGet_map]
        cases vecGet f.rbags 0 s with
        | none => rfl
        | some bag =>
          dsimp only [Option.map_some]
          rw [Option.map_map, Option.map_map]
          congr 1
          funext r
          show (bag.map φ).filter (keep' b) ++ r.map φ = (bag.filter (keep b) ++ r).map φ
          rw [List.filter_map, List.map_append]
          congr 2
          exact List.filter_congr (fun o _ => h b o)

omit [BEq O] [BEq P] in
theorem vecGet_mapM {α β : Type} (g : α → β) (m : Mode) (v : List α) (h : Int) (l : Loc) :
    DenseI32.vecGet m (v.map g) h l = (DenseI32.vecGet m v h l).map g := by
  rw [vecGet_slot, vecGet_slot]
  cases slot m h l with
  | none => rfl
  | some s => exact vecGet_map _ _ _ _

/-- C256, names: the program under other names panics exactly when the program does, and its answers are the renamed ones. -/
theorem C256_names {φ : O → P} (hφ : Faithful φ) (rnd root : Rat → Rat) (m : Mode) (w h d : F) (t : Bool) (hist : List (OpF O)) :
    (made rnd m w h d t hist = none → made rnd m w h d t (hist.map (OpF.rename φ)) = none) ∧
    ∀ f, made rnd m w h d t hist = some f → ∃ f', made rnd m w h d t (hist.map (OpF.rename φ)) = some f' ∧
      AnswersBy rnd root m (fun a a' => a' = a.map (List.map φ)) (fun locOf locOf' => ∀ o, locOf' (φ o) = locOf o) f f' := by
  have key := made_rename hφ rnd m w h d t hist
  refine ⟨fun h0 => by rw [key, h0]; rfl, fun f hf => ⟨f.rename φ, by rw [key, hf]; rfl, ?_, ?_, ?_, ?_⟩⟩
  · intro p; exact vecGet_mapM _ _ _ _ _
  · intro p; exact vecGet_mapM _ _ _ _ _
  · intro locOf locOf' hl p dis
    unfold getNeighborsWithinDistance
    by_cases hd : le dis (.fin 0) = true
    · rw [if_pos hd, if_pos hd]; rfl
    · rw [if_neg hd, if_neg hd]
      show (searchCells rnd m f p dis).bind _ = _
      cases searchCells rnd m f p dis with
      | none => rfl
      | some cs =>
        refine scan_rename φ rnd m f _ _ (fun b o => ?_) cs
        unfold keepExact
        rw [hl]
        rfl
  · intro p dis
    unfold getNeighborsWithinRelaxDistance
    by_cases hd : le dis (.fin 0) = true
    · rw [if_pos hd, if_pos hd]; rfl
    · rw [if_neg hd, if_neg hd]
      show (searchCells rnd m f p dis).bind _ = _
      cases searchCells rnd m f p dis with
      | none => rfl
      | some cs => exact scan_rename φ rnd m f _ _ (fun b o => rfl) cs

/-! ### Other objects -/

/-- The field with the objects of the set only. -/
structure Cut (S : O → Bool) (f f' : FieldF O) : Prop where
  eq : f' = ⟨f.rbags.map (List.filter S), f.bags.map (List.filter S), f'.nagents, f.width, f.height, f.discretization,
    f.toroidal, f.dh, f.dw, f'.density, f.densityCheck⟩
  counted : Counted f
  counted' : Counted f'

theorem bagChange_in {S : O → Bool} {x : O} (p : Bool) (hx : S x = true) (b : List O) :
    (bagChange false x p b).filter S = bagChange false x p (b.filter S) := by
  unfold bagChange
  cases p
  · simp only [Bool.false_and, Bool.false_eq_true, if_false, List.append_nil]
    exact DenseObject.filter_ne_comm S b x
  · simp [List.filter_append, hx]

theorem bagChange_out {S : O → Bool} (hr : Respects S) {x : O} (p : Bool) (hx : S x = false) (b : List O) :
    (bagChange false x p b).filter S = b.filter S := by
  unfold bagChange
  cases p
  · simp only [Bool.false_and, Bool.false_eq_true, if_false, List.append_nil]
    exact DenseObject.filter_ne_out hr b hx
  · simp [List.filter_append, hx]

theorem modifyBag_in {S : O → Bool} {x : O} (p : Bool) (hx : S x = true) (v : List (List O)) (s : Loc) :
    modifyBag (v.map (List.filter S)) 0 s (bagChange false x p) =
      (modifyBag v 0 s (bagChange false x p)).map (List.map (List.filter S)) := by
  unfold modifyBag
  rw [vecGet_map]
  cases vecGet v 0 s with
  | none => rfl
  | some b =>
    dsimp only [Option.map_some]
    rw [← bagChange_in p hx, vecSet_map]

theorem modifyBag_out {S : O → Bool} (hr : Respects S) {x : O} (p : Bool) (hx : S x = false) {v u : List (List O)} {s : Loc}
    (h : modifyBag v 0 s (bagChange false x p) = some u) : u.map (List.filter S) = v.map (List.filter S) := by
  unfold modifyBag at h
  cases hb : vecGet v 0 s with
  | none => rw [hb] at h; simp at h
  | some b =>
    rw [hb] at h
    exact DenseObject.vecSet_same' (List.filter S) hb h (bagChange_out hr p hx b)

theorem exec_cut {S : O → Bool} (hr : Respects S) {rnd : Rat → Rat} {m : Mode} {f f' f2 : FieldF O} (hc : Cut S f f') {op : OpF O}
    (he : exec rnd m f op = some f2) :
    (op.about S = true → ∃ f2', exec rnd m f' op = some f2' ∧ Cut S f2 f2') ∧ (op.about S = false → Cut S f2 f') := by
  have hc2 := exec_counted hc.counted he
  have e := hc.eq
  have hdh : f'.dh = f.dh := by rw [e]
  have hdi : f'.discretization = f.discretization := by rw [e]
  have hbg : f'.bags = f.bags.map (List.filter S) := by rw [e]
  have hck : f'.densityCheck = f.densityCheck := by rw [e]
  cases ho : op.object with
  | some x =>
    have hab : op.about S = S x := by
      clear he e hc hc2
      cases op <;> simp_all [OpF.object, OpF.about]
    rw [object_modify rnd m ho hc.counted] at he
    cases hs : slot m f.dh (discretize rnd f.discretization op.pos) with
    | none => rw [hs] at he; simp at he
    | some s =>
      rw [hs] at he
      obtain ⟨u, hu, rfl⟩ := Option.map_eq_some_iff.1 he
      rw [hab]
      constructor
      · intro hx
        rw [object_modify rnd m ho hc.counted', hdh, hdi, hs]
        show ∃ f2', (modifyBag f'.bags 0 s (bagChange false x op.puts)).map (withBags f') = some f2' ∧ _
        rw [hbg, modifyBag_in _ hx, hu]
        refine ⟨_, rfl, ?_, hc2, counted_withBags _ _⟩
        rw [e]
        rfl
      · intro hx
        refine ⟨?_, hc2, hc.counted'⟩
        show f' = ⟨f.rbags.map (List.filter S), u.map (List.filter S), f'.nagents, f.width, f.height, f.discretization,
          f.toroidal, f.dh, f.dw, f'.density, f.densityCheck⟩
        rw [modifyBag_out hr _ hx hu]
        exact e
  | none =>
    have hab : op.about S = true := by
      clear he e hc hc2
      cases op <;> simp_all [OpF.object, OpF.about]
    rw [hab]
    refine ⟨fun _ => ?_, fun h => by simp at h⟩
    cases op with
    | place o l => simp [OpF.object] at ho
    | remove o l => simp [OpF.object] at ho
    | update =>
      simp only [exec, Option.some.injEq] at he ⊢
      subst he
      exact ⟨f', rfl, hc⟩
    | lazyUpdate =>
      have har : area m f' = area m f := by rw [e]; rfl
      have hex : ∀ f2', lazyUpdate m f' = some f2' → Counted f2' := fun f2' h => exec_counted (op := .lazyUpdate) (rnd := rnd) hc.counted' h
      suffices H : ∃ f2', lazyUpdate m f' = some f2' ∧ f2' = ⟨f2.rbags.map (List.filter S), f2.bags.map (List.filter S), f2'.nagents,
          f2.width, f2.height, f2.discretization, f2.toroidal, f2.dh, f2.dw, f2'.density, f2.densityCheck⟩ by
        obtain ⟨f2', h1, h2⟩ := H
        exact ⟨f2', h1, h2, hc2, hex f2' h1⟩
      simp only [exec, lazyUpdate] at he ⊢
      rw [har, hck]
      by_cases hd : f.densityCheck = true
      · rw [if_pos hd] at he ⊢
        simp only [Option.some.injEq] at he
        subst he
        refine ⟨_, rfl, ?_⟩
        rw [e]
        simp [Function.comp_def]
      · rw [if_neg hd] at he ⊢
        cases ha : area m f with
        | none => rw [ha] at he; simp at he
        | some a =>
          rw [ha] at he
          dsimp only at he ⊢
          by_cases hz : a = 0
          · rw [if_pos hz] at he; simp at he
          · rw [if_neg hz] at he ⊢
            unfold emptyBags at he ⊢
            by_cases h3 : 24 * a < 2 ^ 63
            · rw [if_pos h3, Option.map_some, Option.some.injEq] at he
              rw [if_pos h3, Option.map_some]
              subst he
              refine ⟨_, rfl, ?_⟩
              rw [e]
              simp
            · rw [if_neg h3] at he; simp at he

theorem run_cut {S : O → Bool} (hr : Respects S) {rnd : Rat → Rat} {m : Mode} {f0 : FieldF O} (h0 : Cut S f0 f0) :
    ∀ (hist : List (OpF O)) (f : FieldF O), run rnd m f0 hist = some f →
      ∃ f', run rnd m f0 (hist.filter (fun op => op.about S)) = some f' ∧ Cut S f f' := by
  intro hist
  induction hist with
  | nil =>
    intro f hf
    simp only [run, Option.some.injEq] at hf
    subst hf
    exact ⟨f0, rfl, h0⟩
  | cons op hist ih =>
    intro f hf
    simp only [run] at hf
    cases hb : run rnd m f0 hist with
    | none => rw [hb] at hf; simp at hf
    | some f1 =>
      rw [hb] at hf
      have hf : exec rnd m f1 op = some f := hf
      obtain ⟨f1', hi, hcut⟩ := ih f1 hb
      obtain ⟨ha, hn⟩ := exec_cut hr hcut hf
      cases hab : op.about S with
      | true =>
        rw [List.filter_cons_of_pos hab]
        simp only [run]
        rw [hi]
        exact ha hab
      | false =>
        rw [List.filter_cons_of_neg (by rw [hab]; simp)]
        exact ⟨f1', hi, hn hab⟩

omit [BEq O] in
theorem scan_cut (S : O → Bool) (rnd : Rat → Rat) (m : Mode) (f f' : FieldF O) (hr : f'.rbags = f.rbags.map (List.filter S))
    (hh : f'.dh = f.dh) (hb : bagId rnd m f' = bagId rnd m f) (keep : Loc → O → Bool) : ∀ cs : List Loc,
    scan rnd m f' keep cs = (scan rnd m f keep cs).map (List.filter S) := by
  intro cs
  induction cs with
  | nil => rfl
  | cons c cs ih =>
    rw [scan, scan, hb]
    cases bagId rnd m f c with
    | none => rfl
    | some b =>
      dsimp only
      rw [hr, hh, vecGet_mapM]
      cases DenseI32.vecGet m f.rbags f.dh b with
      | none => rfl
      | some bag =>
        dsimp only [Option.map_some]
        rw [ih, Option.map_map, Option.map_map]
        apply Option.map_congr
        intro t _
        show _ ++ _ = List.filter S (_ ++ _)
        rw [List.filter_append]
        congr 1
        rw [List.filter_filter, List.filter_filter]
        apply List.filter_congr
        intro x _
        exact Bool.and_comm _ _

/-- C256, other objects: leave out all calls about objects outside a set, and the objects of the set are answered as before. -/
theorem C256_others {S : O → Bool} (hr : Respects S) (rnd root : Rat → Rat) (m : Mode) (w h d : F) (t : Bool) (hist : List (OpF O))
    (f : FieldF O) (hf : made rnd m w h d t hist = some f) :
    ∃ f', made rnd m w h d t (hist.filter (fun op => op.about S)) = some f' ∧
      AnswersBy rnd root m (fun a a' => a' = a.map (List.filter S)) (fun locOf locOf' => locOf' = locOf) f f' := by
  obtain ⟨f0, e0, hf⟩ := made_some hf
  have h0 : Cut S f0 f0 := by
    refine ⟨?_, new_counted e0, new_counted e0⟩
    obtain ⟨n, dh, dw, rfl⟩ := new_some e0
    simp
  obtain ⟨f', h1, hc⟩ := run_cut hr h0 hist f hf
  have e := hc.eq
  have hrb : f'.rbags = f.rbags.map (List.filter S) := by rw [e]
  have hw : f'.bags = f.bags.map (List.filter S) := by rw [e]
  have hh : f'.dh = f.dh := by rw [e]
  have hdi : f'.discretization = f.discretization := by rw [e]
  have hb : bagId rnd m f' = bagId rnd m f := by rw [e]; rfl
  have hs : ∀ loc dis, searchCells rnd m f' loc dis = searchCells rnd m f loc dis := fun loc dis => by rw [e]; rfl
  have hk : ∀ locOf loc dis, keepExact rnd root f' locOf loc dis = keepExact rnd root f locOf loc dis :=
    fun locOf loc dis => by rw [e]; rfl
  refine ⟨f', by unfold made; rw [e0]; exact h1, ?_, ?_, ?_, ?_⟩
  · intro p; unfold getObjects; rw [hrb, hh, hdi]; exact vecGet_mapM _ _ _ _ _
  · intro p; unfold getObjectsUnbuffered; rw [hw, hh, hdi]; exact vecGet_mapM _ _ _ _ _
  · intro locOf locOf' hl p dis
    subst hl
    unfold getNeighborsWithinDistance
    by_cases hd : le dis (.fin 0) = true
    · rw [if_pos hd, if_pos hd]; rfl
    · rw [if_neg hd, if_neg hd, hs, hk]
      cases searchCells rnd m f p dis with
      | none => rfl
      | some cs => exact scan_cut S rnd m f f' hrb hh hb _ cs
  · intro p dis
    unfold getNeighborsWithinRelaxDistance
    by_cases hd : le dis (.fin 0) = true
    · rw [if_pos hd, if_pos hd]; rfl
    · rw [if_neg hd, if_neg hd, hs]
      cases searchCells rnd m f p dis with
      | none => rfl
      | some cs => exact scan_cut S rnd m f f' hrb hh hb _ cs

/-! ### The order of the calls -/

/-- The two fields are equal up to the order within the bags, and count rightly. -/
structure Alike (f f' : FieldF O) : Prop where
  eq : f' = ⟨f'.rbags, f'.bags, f.nagents, f.width, f.height, f.discretization, f.toroidal, f.dh, f.dw, f.density, f.densityCheck⟩
  r : PermBags f.rbags f'.rbags
  w : PermBags f.bags f'.bags
  counted : Counted f

omit [BEq O] in
theorem alike_counted {f f' : FieldF O} (h : Alike f f') : Counted f' := by
  have e := h.eq
  intro hd
  have h1 : f'.densityCheck = f.densityCheck := by rw [e]
  have h2 : f'.nagents = f.nagents := by rw [e]
  rw [h2, total_perm h.w]
  exact h.counted (h1 ▸ hd)

omit [BEq O] in
theorem alike_refl {f : FieldF O} (h : Counted f) : Alike f f := ⟨rfl, permBags_refl _, permBags_refl _, h⟩

omit [BEq O] in
theorem alike_trans {f f' f'' : FieldF O} (h : Alike f f') (h' : Alike f' f'') : Alike f f'' := by
  refine ⟨?_, permBags_trans h.r h'.r, permBags_trans h.w h'.w, h.counted⟩
  have e := h.eq
  have e' := h'.eq
  rw [e] at e'
  exact e'

omit [BEq O] in
theorem alike_withBags {f f' : FieldF O} (h : Alike f f') {v v' : List (List O)} (hv : PermBags v v') :
    Alike (withBags f v) (withBags f' v') := by
  refine ⟨?_, h.r, hv, counted_withBags _ _⟩
  have e := h.eq
  rw [e]
  unfold withBags
  simp only [total_perm hv]

theorem exec_alike {rnd : Rat → Rat} {m : Mode} {f f' f2 : FieldF O} (ha : Alike f f') {op : OpF O}
    (he : exec rnd m f op = some f2) : ∃ f2', exec rnd m f' op = some f2' ∧ Alike f2 f2' := by
  have e := ha.eq
  have hdh : f'.dh = f.dh := by rw [e]
  have hdi : f'.discretization = f.discretization := by rw [e]
  have hc2 := exec_counted ha.counted he
  cases ho : op.object with
  | some x =>
    rw [object_modify rnd m ho ha.counted] at he
    rw [object_modify rnd m ho (alike_counted ha), hdh, hdi]
    cases hs : slot m f.dh (discretize rnd f.discretization op.pos) with
    | none => rw [hs] at he; simp at he
    | some s =>
      rw [hs] at he
      obtain ⟨v, hv, rfl⟩ := Option.map_eq_some_iff.1 he
      obtain ⟨v', hv', hp⟩ := modifyBag_perm (bagChange_perm false x op.puts) ha.w hv
      refine ⟨withBags f' v', ?_, alike_withBags ha hp⟩
      show (modifyBag f'.bags 0 s (bagChange false x op.puts)).map (withBags f') = _
      rw [hv']
      rfl
  | none =>
    cases op with
    | place o l => simp [OpF.object] at ho
    | remove o l => simp [OpF.object] at ho
    | update =>
      simp only [exec, Option.some.injEq] at he ⊢
      subst he
      exact ⟨f', rfl, ha⟩
    | lazyUpdate =>
      simp only [exec, lazyUpdate] at he ⊢
      have hck : f'.densityCheck = f.densityCheck := by rw [e]
      have hna : f'.nagents = f.nagents := by rw [e]
      have har : area m f' = area m f := by rw [e]; rfl
      rw [hck, har, hna]
      by_cases hd : f.densityCheck = true
      · rw [if_pos hd] at he ⊢
        simp only [Option.some.injEq] at he
        subst he
        refine ⟨_, rfl, ?_, ha.w, ?_, hc2⟩
        · have := ha.eq
          simp only [FieldF.mk.injEq, true_and]
          rw [this]
          simp
        · show PermBags (f.rbags.map _) (f'.rbags.map _)
          rw [List.map_const', List.map_const', ha.r.length_eq]
          exact permBags_refl _
      · rw [if_neg hd] at he ⊢
        cases hg : area m f with
        | none => rw [hg] at he; simp at he
        | some a =>
          rw [hg] at he
          dsimp only at he ⊢
          by_cases hz : a = 0
          · rw [if_pos hz] at he; simp at he
          · rw [if_neg hz] at he ⊢
            obtain ⟨v, hv, rfl⟩ := Option.map_eq_some_iff.1 he
            rw [hv]
            refine ⟨_, rfl, ?_, ha.w, permBags_refl _, hc2⟩
            have := ha.eq
            simp only [FieldF.mk.injEq, true_and]
            rw [this]
            simp

theorem swap_alike {rnd : Rat → Rat} {m : Mode} {a b : OpF O} (hi : a.Independent b) {f f2 : FieldF O} (hc : Counted f)
    (he : (exec rnd m f b).bind (fun f => exec rnd m f a) = some f2) :
    ∃ f2', (exec rnd m f a).bind (fun f => exec rnd m f b) = some f2' ∧ Alike f2 f2' := by
  obtain ⟨x, y, hx, hy, h1, h2⟩ := hi
  have two : ∀ (c d : OpF O) (u v : O), c.object = some u → d.object = some v →
      (exec rnd m f c).bind (fun f => exec rnd m f d) = (slot m f.dh (discretize rnd f.discretization c.pos)).bind (fun s =>
        (slot m f.dh (discretize rnd f.discretization d.pos)).bind (fun s' =>
          ((modifyBag f.bags 0 s (bagChange false u c.puts)).bind (fun w => modifyBag w 0 s' (bagChange false v d.puts))).map
            (withBags f))) := by
    intro c d u v hcu hdv
    rw [object_modify rnd m hcu hc]
    cases slot m f.dh (discretize rnd f.discretization c.pos) with
    | none => rfl
    | some s =>
      simp only [Option.bind_some]
      cases hm : modifyBag f.bags 0 s (bagChange false u c.puts) with
      | none =>
        cases slot m f.dh (discretize rnd f.discretization d.pos) <;> simp
      | some w =>
        simp only [Option.map_some, Option.bind_some]
        rw [object_modify rnd m hdv (counted_withBags f w)]
        show (slot m f.dh (discretize rnd f.discretization d.pos)).bind (fun s =>
          (modifyBag w 0 s (bagChange false v d.puts)).map (withBags (withBags f w))) = _
        have : withBags (withBags f w) = withBags f := by
          funext z
          unfold withBags
          cases f.densityCheck <;> simp
        rw [this]
  rw [two b a y x hy hx] at he
  rw [two a b x y hx hy]
  cases hs : slot m f.dh (discretize rnd f.discretization b.pos) with
  | none => rw [hs] at he; simp at he
  | some s =>
    cases hs' : slot m f.dh (discretize rnd f.discretization a.pos) with
    | none => rw [hs, hs'] at he; simp at he
    | some s' =>
      rw [hs, hs'] at he
      simp only [Option.bind_some] at he ⊢
      rcases modifyBag_comm (bagChange_comm false h2 h1 b.puts a.puts) f.bags 0 s s' with ⟨u, u', e1, e2, hp⟩ | ⟨e1, _⟩
      · rw [e1] at he
        rw [e2]
        simp only [Option.map_some, Option.some.injEq] at he ⊢
        subst he
        exact ⟨_, rfl, alike_withBags (alike_refl hc) hp⟩
      · rw [e1] at he; simp at he

theorem run_counted {rnd : Rat → Rat} {m : Mode} : ∀ (l : List (OpF O)) {f0 f : FieldF O}, Counted f0 → run rnd m f0 l = some f → Counted f
  | [], f0, f, h0, hf => by cases hf; exact h0
  | a :: l, f0, f, h0, hf => by
    simp only [run] at hf
    cases hb : run rnd m f0 l with
    | none => rw [hb] at hf; simp at hf
    | some f1 =>
      rw [hb] at hf
      exact exec_counted (run_counted l h0 hb) hf

theorem run_alike {rnd : Rat → Rat} {m : Mode} {hist hist' : List (OpF O)} (hr : Reorder OpF.Independent hist hist') :
    ∀ {f0 f : FieldF O}, Counted f0 → run rnd m f0 hist = some f → ∃ f', run rnd m f0 hist' = some f' ∧ Alike f f' := by
  induction hr with
  | refl l => intro f0 f h0 hf; exact ⟨f, hf, alike_refl (run_counted l h0 hf)⟩
  | @cons a l l' _ ih =>
    intro f0 f h0 hf
    simp only [run] at hf ⊢
    cases hb : run rnd m f0 l with
    | none => rw [hb] at hf; simp at hf
    | some f1 =>
      rw [hb] at hf
      have hf : exec rnd m f1 a = some f := hf
      obtain ⟨f1', e1, h1⟩ := ih h0 hb
      obtain ⟨f', e, h⟩ := exec_alike h1 hf
      exact ⟨f', by rw [e1]; exact e, h⟩
  | @swap a b l hi =>
    intro f0 f h0 hf
    simp only [run] at hf ⊢
    cases hb : run rnd m f0 l with
    | none => rw [hb] at hf; simp at hf
    | some f1 =>
      rw [hb] at hf
      exact swap_alike hi (run_counted l h0 hb) hf
  | trans _ _ ih1 ih2 =>
    intro f0 f h0 hf
    obtain ⟨f1, e1, h1⟩ := ih1 h0 hf
    obtain ⟨f2, e2, h2⟩ := ih2 h0 e1
    exact ⟨f2, e2, alike_trans h1 h2⟩

omit [BEq O] in
theorem permBags_vecGetM {v v' : List (List O)} (h : PermBags v v') (m : Mode) (k : Int) (l : Loc) :
    SameBag (DenseI32.vecGet m v k l) (DenseI32.vecGet m v' k l) := by
  rw [vecGet_slot, vecGet_slot]
  cases slot m k l with
  | none => trivial
  | some s => exact permBags_vecGet h 0 s

omit [BEq O] in
theorem scan_same (rnd : Rat → Rat) (m : Mode) {f f' : FieldF O} (ha : Alike f f') (keep : Loc → O → Bool) (cs : List Loc) :
    SameBag (scan rnd m f keep cs) (scan rnd m f' keep cs) := by
  have e := ha.eq
  have hdh : f'.dh = f.dh := by rw [e]
  have hid : ∀ c, bagId rnd m f' c = bagId rnd m f c := by intro c; rw [e]; rfl
  induction cs with
  | nil => exact .refl _
  | cons c cs ih =>
    rw [scan, scan, hid, hdh]
    cases bagId rnd m f c with
    | none => trivial
    | some b =>
      dsimp only
      have := permBags_vecGetM ha.r m f.dh b
      cases h1 : DenseI32.vecGet m f.rbags f.dh b with
      | none =>
        cases h2 : DenseI32.vecGet m f'.rbags f.dh b with
        | none => trivial
        | some b' => rw [h1, h2] at this; exact absurd this (by simp [SameBag])
      | some b1 =>
        cases h2 : DenseI32.vecGet m f'.rbags f.dh b with
        | none => rw [h1, h2] at this; exact absurd this (by simp [SameBag])
        | some b2 =>
          rw [h1, h2] at this
          have this : b1.Perm b2 := this
          dsimp only
          cases h3 : scan rnd m f keep cs with
          | none =>
            cases h4 : scan rnd m f' keep cs with
            | none => trivial
            | some r' => rw [h3, h4] at ih; exact absurd ih (by simp [SameBag])
          | some r =>
            cases h4 : scan rnd m f' keep cs with
            | none => rw [h3, h4] at ih; exact absurd ih (by simp [SameBag])
            | some r' =>
              rw [h3, h4] at ih
              exact (this.filter _).append ih

/-- C256, the order of the calls: calls about different objects may be made in any order between two updates. -/
theorem C256_order (rnd root : Rat → Rat) (m : Mode) (w h d : F) (t : Bool) {hist hist' : List (OpF O)}
    (hr : Reorder OpF.Independent hist hist') (f : FieldF O) (hf : made rnd m w h d t hist = some f) :
    ∃ f', made rnd m w h d t hist' = some f' ∧ AnswersBy rnd root m SameBag (fun locOf locOf' => locOf' = locOf) f f' ∧
      f'.density = f.density := by
  obtain ⟨f0, e0, hf⟩ := made_some hf
  obtain ⟨f', e', ha⟩ := run_alike hr (new_counted e0) hf
  have e := ha.eq
  have hdh : f'.dh = f.dh := by rw [e]
  have hdi : f'.discretization = f.discretization := by rw [e]
  have hsc : ∀ l dis, searchCells rnd m f' l dis = searchCells rnd m f l dis := by intro l dis; rw [e]; rfl
  have hk : ∀ locOf l dis, keepExact rnd root f' locOf l dis = keepExact rnd root f locOf l dis := by intro locOf l dis; rw [e]; rfl
  refine ⟨f', by unfold made; rw [e0]; exact e', ⟨?_, ?_, ?_, ?_⟩, by rw [e]⟩
  · intro p; unfold getObjects; rw [hdh, hdi]; exact permBags_vecGetM ha.r _ _ _
  · intro p; unfold getObjectsUnbuffered; rw [hdh, hdi]; exact permBags_vecGetM ha.w _ _ _
  · intro locOf locOf' hl p dis
    subst hl
    unfold getNeighborsWithinDistance
    rw [hsc, hk]
    by_cases hd : le dis (.fin 0) = true
    · rw [if_pos hd, if_pos hd]; exact .refl _
    · rw [if_neg hd, if_neg hd]
      cases searchCells rnd m f p dis with
      | none => trivial
      | some cs => exact scan_same rnd m ha _ cs
  · intro p dis
    unfold getNeighborsWithinRelaxDistance
    rw [hsc]
    by_cases hd : le dis (.fin 0) = true
    · rw [if_pos hd, if_pos hd]; exact .refl _
    · rw [if_neg hd, if_neg hd]
      cases searchCells rnd m f p dis with
      | none => trivial
      | some cs => exact scan_same rnd m ha _ cs

/-- Names. -/
example :
    ((made id .debug (.fin 10) (.fin 10) (.fin 5) true ([.place 1 ⟨.inf true, .fin 1⟩] : List (OpF Nat))).map
      (fun f => f.bags)) = none ∧
    ((made id .release (.fin 10) (.fin 10) (.fin 5) false [.place 2 ⟨.fin 1, .fin 2⟩, .place 1 ⟨.nan, .fin 1⟩]).bind
      (fun f => getObjectsUnbuffered id .release f ⟨.fin 0, .fin 0⟩)) = some [1, 2] ∧
    ((made id .release (.fin 10) (.fin 10) (.fin 5) false
      (([.place 2 ⟨.fin 1, .fin 2⟩, .place 1 ⟨.nan, .fin 1⟩] : List (OpF Nat)).map (OpF.rename (fun n => (n, n))))).bind
      (fun f => getObjectsUnbuffered id .release f ⟨.fin 0, .fin 0⟩)) = some [(1, 1), (2, 2)] := by decide +kernel

/-- Other objects. -/
example :
    ((made id .release (.fin 10) (.fin 10) (.fin 5) false
      [.lazyUpdate, .remove 2 ⟨.fin 1, .fin 2⟩, .place 3 ⟨.nan, .fin 1⟩, .place 2 ⟨.fin 1, .fin 2⟩, .place 1 ⟨.nan, .fin 1⟩]).bind
      (fun f => getObjects id .release f ⟨.fin 0, .fin 0⟩)) = some [1, 3] ∧
    ((made id .release (.fin 10) (.fin 10) (.fin 5) false
      (([.lazyUpdate, .remove 2 ⟨.fin 1, .fin 2⟩, .place 3 ⟨.nan, .fin 1⟩, .place 2 ⟨.fin 1, .fin 2⟩, .place 1 ⟨.nan, .fin 1⟩] :
        List (OpF Nat)).filter (fun op => op.about (fun n => n == 3)))).bind
      (fun f => getObjects id .release f ⟨.fin 0, .fin 0⟩)) = some [3] := by decide +kernel

/-- The order: the calls about 1 and 2 change places. -/
example : Reorder OpF.Independent ([.lazyUpdate, .place 2 ⟨.fin 1, .fin 2⟩, .place 1 ⟨.nan, .fin 1⟩] : List (OpF Nat))
    [.lazyUpdate, .place 1 ⟨.nan, .fin 1⟩, .place 2 ⟨.fin 1, .fin 2⟩] :=
  .cons _ (.swap _ ⟨2, 1, rfl, rfl, by decide, by decide⟩)

example :
    ((made id .release (.fin 10) (.fin 10) (.fin 5) false
      ([.lazyUpdate, .place 2 ⟨.fin 1, .fin 2⟩, .place 1 ⟨.nan, .fin 1⟩] : List (OpF Nat))).bind
      (fun f => getObjects id .release f ⟨.fin 0, .fin 0⟩)) = some [1, 2] ∧
    ((made id .release (.fin 10) (.fin 10) (.fin 5) false
      ([.lazyUpdate, .place 1 ⟨.nan, .fin 1⟩, .place 2 ⟨.fin 1, .fin 2⟩] : List (OpF Nat))).bind
      (fun f => getObjects id .release f ⟨.fin 0, .fin 0⟩)) = some [2, 1] := by decide +kernel

/-- C256: the order of calls about the same object matters. -/
theorem C256_same : ∃ (a b : OpF Nat) (p : PosF),
    ((made id .debug (.fin 10) (.fin 10) (.fin 5) false [a, b]).bind (fun f => getObjectsUnbuffered id .debug f p)) = some [] ∧
    ((made id .debug (.fin 10) (.fin 10) (.fin 5) false [b, a]).bind (fun f => getObjectsUnbuffered id .debug f p)) = some [1] :=
  ⟨.remove 1 ⟨.fin 0, .fin 0⟩, .place 1 ⟨.nan, .fin 1⟩, ⟨.fin 2, .fin 2⟩, by decide +kernel⟩

end Verif.Machine
