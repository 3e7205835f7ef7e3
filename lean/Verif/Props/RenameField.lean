import Verif.Props.RenameGrid
import Verif.Model.Field2D

/-!
C251 "Names do not matter", the continuous field.
-/

namespace Verif.Field2D

open Grid Torus

variable {O P : Type} [BEq O] [BEq P]

/-- The field with all objects under their new names. -/
def Field.rename (φ : O → P) (f : Field O) : Field P :=
  { rbags := f.rbags.map (List.map φ), bags := f.bags.map (List.map φ), nagents := f.nagents, width := f.width, height := f.height,
    discretization := f.discretization, toroidal := f.toroidal, dh := f.dh, dw := f.dw, density := f.density,
    densityCheck := f.densityCheck }

/-- The answers of the second field are those of the first one under the new names; `locOf o` is the location that `o` carries. -/
structure RenamedAnswers (φ : O → P) (f : Field O) (f' : Field P) : Prop where
  objects : ∀ p, getObjects f' p = (getObjects f p).map (List.map φ)
  unbuffered : ∀ p, getObjectsUnbuffered f' p = (getObjectsUnbuffered f p).map (List.map φ)
  number : ∀ p, numObjectsAtLocation f' p = numObjectsAtLocation f p
  neighbors : ∀ (locOf : O → Pos) (locOf' : P → Pos), (∀ o, locOf' (φ o) = locOf o) → ∀ p dist,
    getNeighborsWithinDistance f' locOf' p dist = (getNeighborsWithinDistance f locOf p dist).map (List.map φ)
  relaxed : ∀ p dist, getNeighborsWithinRelaxDistance f' p dist = (getNeighborsWithinRelaxDistance f p dist).map (List.map φ)
  empty : getEmptyBags f' = getEmptyBags f
  iter : iterObjects f' = (iterObjects f).map (List.map (fun e => (e.1, φ e.2)))
  iterUnbuffered : iterObjectsUnbuffered f' = (iterObjectsUnbuffered f).map (List.map (fun e => (e.1, φ e.2)))

omit [BEq O] [BEq P] in
theorem scan_rename (φ : O → P) (f : Field O) (keep : Loc → O → Bool) (keep' : Loc → P → Bool)
    (h : ∀ b o, keep' b (φ o) = keep b o) : ∀ cs, scan (f.rename φ) keep' cs = (scan f keep cs).map (List.map φ)
  | [] => rfl
  | c :: cs => by
    rw [scan, scan, scan_rename φ f keep keep' h cs]
    show (match bagId f c with
      | none => none
      | some b => match vecGet (f.rbags.map (List.map φ)) f.dh b with
        | none => none
        | some bag => Option.map (fun r => bag.filter (keep' b) ++ r) ((scan f keep cs).map (List.map φ))) = _
    cases bagId f c with
    | none => rfl
    | some b =>
      show (match vecGet (f.rbags.map (List.map φ)) f.dh b with
        | none => none
        | some bag => Option.map (fun r => bag.filter (keep' b) ++ r) ((scan f keep cs).map (List.map φ))) = _
      rw [vecGet_map]
      cases hv : vecGet f.rbags f.dh b with
      | none => simp only [hv]; rfl
      | some bag =>
        simp only [hv]
        show Option.map (fun r => (bag.map φ).filter (keep' b) ++ r) ((scan f keep cs).map (List.map φ)) =
          ((scan f keep cs).map (fun r => bag.filter (keep b) ++ r)).map (List.map φ)
        rw [Option.map_map, Option.map_map]
        congr 1
        funext r
        show (bag.map φ).filter (keep' b) ++ r.map φ = (bag.filter (keep b) ++ r).map φ
        rw [List.filter_map, List.map_append]
        congr 2
        exact List.filter_congr (fun o _ => h b o)

omit [BEq O] [BEq P] in
theorem rename_answers (φ : O → P) (f : Field O) : RenamedAnswers φ f (f.rename φ) where
  objects p := vecGet_map _ _ _ _
  unbuffered p := vecGet_map _ _ _ _
  number p := by
    show (vecGet (f.rbags.map (List.map φ)) f.dh _).map List.length = (vecGet f.rbags f.dh _).map List.length
    rw [vecGet_map, Option.map_map]
    congr 1
    funext b
    exact List.length_map _
  neighbors locOf locOf' h p dist := by
    unfold getNeighborsWithinDistance
    by_cases hd : dist ≤ 0
    · rw [if_pos hd, if_pos hd]; rfl
    · rw [if_neg hd, if_neg hd]
      refine scan_rename φ f _ _ (fun b o => ?_) _
      show decide ((_ ∧ distSq p (locOf' (φ o)) _ _ _ ≤ _) ∨ _) = decide ((_ ∧ distSq p (locOf o) _ _ _ ≤ _) ∨ _)
      rw [h]
      rfl
  relaxed p dist := by
    unfold getNeighborsWithinRelaxDistance
    by_cases hd : dist ≤ 0
    · rw [if_pos hd, if_pos hd]; rfl
    · rw [if_neg hd, if_neg hd]
      exact scan_rename φ f _ _ (fun b o => rfl) _
  empty := by
    have h := collect_map (List.map φ) id f.rbags f.dh (fun c e => if e.isEmpty then [notDiscretize f.discretization c] else [])
      (fun c e => if e.isEmpty then [notDiscretize f.discretization c] else []) (fun l a => by cases a <;> rfl) (cells f.dw f.dh)
    rw [List.map_id_fun, Option.map_id] at h
    exact h
  iter := collect_map (List.map φ) (fun e : Pos × O => (e.1, φ e.2)) _ _ _ _ (fun l a => by rw [List.map_map, List.map_map]; rfl) _
  iterUnbuffered := collect_map (List.map φ) (fun e : Pos × O => (e.1, φ e.2)) _ _ _ _ (fun l a => by rw [List.map_map, List.map_map]; rfl) _

theorem exec_rename {φ : O → P} (hφ : Faithful φ) (f : Field O) (op : FieldOp O) :
    exec (f.rename φ) (op.rename φ) = (exec f op).map (Field.rename φ) := by
  cases op with
  | place o l =>
    show setObjectLocation (f.rename φ) (φ o) l = (setObjectLocation f o l).map _
    unfold setObjectLocation
    show (match vecGet (f.bags.map (List.map φ)) f.dh (discretize f.discretization l) with
      | none => none
      | some b => (vecSet (f.bags.map (List.map φ)) f.dh (discretize f.discretization l) (b ++ [φ o])).map _) = _
    rw [vecGet_map]
    cases vecGet f.bags f.dh (discretize f.discretization l) with
    | none => rfl
    | some b =>
      have e : b.map φ ++ [φ o] = (b ++ [o]).map φ := by rw [List.map_append]; rfl
      show (vecSet (f.bags.map (List.map φ)) f.dh (discretize f.discretization l) (b.map φ ++ [φ o])).map _ =
        Option.map _ (Option.map _ (vecSet f.bags f.dh (discretize f.discretization l) (b ++ [o])))
      rw [e, vecSet_map, Option.map_map, Option.map_map]
      rfl
  | remove o l =>
    show removeObjectLocation (f.rename φ) (φ o) l = (removeObjectLocation f o l).map _
    unfold removeObjectLocation
    show (match vecGet (f.bags.map (List.map φ)) f.dh (discretize f.discretization l) with
      | none => none
      | some b =>
        if b.isEmpty then some (f.rename φ)
        else if f.densityCheck then
          (vecSet (f.bags.map (List.map φ)) f.dh (discretize f.discretization l) (b.filter (fun x => x != φ o))).map (fun v =>
            { f.rename φ with bags := v })
        else if f.nagents < b.length - (b.filter (fun x => x != φ o)).length then none
        else
          (vecSet (f.bags.map (List.map φ)) f.dh (discretize f.discretization l) (b.filter (fun x => x != φ o))).map (fun v =>
            { f.rename φ with bags := v, nagents := f.nagents - (b.length - (b.filter (fun x => x != φ o)).length) })) = _
    rw [vecGet_map]
    cases vecGet f.bags f.dh (discretize f.discretization l) with
    | none => rfl
    | some b =>
      show (if (b.map φ).isEmpty then some (f.rename φ)
        else if f.densityCheck then
          (vecSet (f.bags.map (List.map φ)) f.dh (discretize f.discretization l) ((b.map φ).filter (fun x => x != φ o))).map (fun v =>
            { f.rename φ with bags := v })
        else if f.nagents < (b.map φ).length - ((b.map φ).filter (fun x => x != φ o)).length then none
        else
          (vecSet (f.bags.map (List.map φ)) f.dh (discretize f.discretization l) ((b.map φ).filter (fun x => x != φ o))).map (fun v =>
            { f.rename φ with
              bags := v, nagents := f.nagents - ((b.map φ).length - ((b.map φ).filter (fun x => x != φ o)).length) })) =
        Option.map (Field.rename φ) (if b.isEmpty then some f
        else if f.densityCheck then
          (vecSet f.bags f.dh (discretize f.discretization l) (b.filter (fun x => x != o))).map (fun v => { f with bags := v })
        else if f.nagents < b.length - (b.filter (fun x => x != o)).length then none
        else
          (vecSet f.bags f.dh (discretize f.discretization l) (b.filter (fun x => x != o))).map (fun v =>
            { f with bags := v, nagents := f.nagents - (b.length - (b.filter (fun x => x != o)).length) }))
      rw [filter_ne_map hφ, List.isEmpty_map, List.length_map, List.length_map, vecSet_map]
      by_cases h1 : b.isEmpty = true
      · rw [if_pos h1, if_pos h1]; rfl
      · rw [if_neg h1, if_neg h1]
        by_cases h2 : f.densityCheck = true
        · rw [if_pos h2, if_pos h2, Option.map_map, Option.map_map]; rfl
        · rw [if_neg h2, if_neg h2]
          by_cases h3 : f.nagents < b.length - (b.filter (fun x => x != o)).length
          · rw [if_pos h3, if_pos h3]; rfl
          · rw [if_neg h3, if_neg h3, Option.map_map, Option.map_map]; rfl
  | update => rfl
  | lazyUpdate =>
    show lazyUpdate (f.rename φ) = (lazyUpdate f).map _
    unfold lazyUpdate
    show (if f.densityCheck then some { f.rename φ with rbags := f.bags.map (List.map φ), bags := (f.rbags.map (List.map φ)).map (fun _ => []) }
      else if (f.dw * f.dh).toNat = 0 then none
      else some { f.rename φ with
        rbags := f.bags.map (List.map φ)
        bags := List.replicate (f.dw * f.dh).toNat []
        density := f.nagents / (f.dw * f.dh).toNat
        densityCheck := true }) = _
    by_cases h1 : f.densityCheck = true
    · rw [if_pos h1, if_pos h1, Option.map_some]
      unfold Field.rename
      simp only [List.map_map]
      rfl
    · rw [if_neg h1, if_neg h1]
      by_cases h2 : (f.dw * f.dh).toNat = 0
      · rw [if_pos h2, if_pos h2]; rfl
      · rw [if_neg h2, if_neg h2, Option.map_some]
        unfold Field.rename
        simp only [List.map_replicate, List.map_nil]

theorem run_rename {φ : O → P} (hφ : Faithful φ) (f : Field O) : ∀ hist : List (FieldOp O),
    run (f.rename φ) (hist.map (FieldOp.rename φ)) = (run f hist).map (Field.rename φ)
  | [] => rfl
  | op :: hist => by
    rw [List.map_cons, run, run, run_rename hφ f hist]
    cases run f hist with
    | none => rfl
    | some f1 => exact exec_rename hφ f1 op

/-- C251, `Field2D`. -/
theorem C251_field {φ : O → P} (hφ : Faithful φ) (w h d : Rat) (t : Bool) (hist : List (FieldOp O)) :
    (run (new w h d t) hist = none → run (new w h d t) (hist.map (FieldOp.rename φ)) = none) ∧
    ∀ f, run (new w h d t) hist = some f →
      ∃ f', run (new w h d t) (hist.map (FieldOp.rename φ)) = some f' ∧ RenamedAnswers φ f f' := by
  have e : (new w h d t : Field P) = (new w h d t : Field O).rename φ := by
    unfold new Field.rename
    simp only [List.map_replicate, List.map_nil]
  have key : run (new w h d t) (hist.map (FieldOp.rename φ)) = (run (new w h d t) hist).map (Field.rename φ) := by
    rw [e]; exact run_rename hφ _ hist
  exact ⟨fun h0 => by rw [key, h0]; rfl, fun f hf => ⟨f.rename φ, by rw [key, hf]; rfl, rename_answers φ f⟩⟩

example :
    let φ : Nat → Nat × Bool := fun n => (n, true)
    let hist : List (FieldOp Nat) := [.lazyUpdate, .remove 3 ⟨1, 1⟩, .place 3 ⟨1, 1⟩, .place 2 ⟨1, 0⟩, .place 1 ⟨0, 1⟩]
    Faithful φ ∧
    (run (new 2 2 1 false) hist).bind (fun f => getNeighborsWithinRelaxDistance f ⟨1, 1⟩ 1) = some [1, 2, 2, 1] ∧
    (run (new 2 2 1 false) (hist.map (FieldOp.rename φ))).bind (fun f => getNeighborsWithinRelaxDistance f ⟨1, 1⟩ 1) =
      some [(1, true), (2, true), (2, true), (1, true)] := by
  refine ⟨fun a b => by simp [BEq.beq], ?_, ?_⟩
  · decide +kernel
  · decide +kernel

end Verif.Field2D
