import Verif.Lemmas.Field2D
import Verif.Props.OthersDense

/-!
C248 on `Field2D`.
-/

namespace Verif.Field2D

open Grid Torus DenseObject

variable {O : Type} [BEq O]

/-- The call is about an object of the set, or about no particular object. -/
def FieldOp.about (P : O → Bool) : FieldOp O → Bool
  | .place o _ => P o
  | .remove o _ => P o
  | _ => true

/-- The calls of a program that are about the objects of the set. -/
def aboutOnly (P : O → Bool) (hist : List (FieldOp O)) : List (FieldOp O) := hist.filter (fun op => op.about P)

/-- The field with the objects of the set only; the count of objects is right as long as it is kept. -/
def CutField (P : O → Bool) (f f' : Field O) : Prop :=
  ∃ n e : Nat, f' = ⟨f.rbags.map (List.filter P), f.bags.map (List.filter P), n, f.width, f.height, f.discretization,
    f.toroidal, f.dh, f.dw, e, f.densityCheck⟩ ∧ (f.densityCheck = false → n = total (f.bags.map (List.filter P)))

theorem length_le_total {v : List (List O)} {h : Int} {l : Loc} {b : List O} (hb : vecGet v h l = some b) :
    b.length ≤ total v := by
  unfold vecGet at hb
  by_cases hc : 0 ≤ l.x * h + l.y
  · rw [if_pos hc] at hb
    have := total_set (b := ([] : List O)) hb
    simp at this
    omega
  · rw [if_neg hc] at hb; simp at hb

theorem total_vecSet {v v2 : List (List O)} {h : Int} {l : Loc} {a b : List O} (hb : vecGet v h l = some b)
    (hs : vecSet v h l a = some v2) : total v2 + b.length = total v + a.length := by
  unfold vecGet at hb
  unfold vecSet at hs
  by_cases hc : 0 ≤ l.x * h + l.y ∧ (l.x * h + l.y).toNat < v.length
  · rw [if_pos hc] at hs
    rw [if_pos hc.1] at hb
    simp only [Option.some.injEq] at hs
    subst hs
    exact total_set hb
  · rw [if_neg hc] at hs; simp at hs

theorem exec_cutField {P : O → Bool} (hr : Respects P) {f f' f2 : Field O} (hc : CutField P f f') {op : FieldOp O}
    (he : exec f op = some f2) :
    (op.about P = true → ∃ f2', exec f' op = some f2' ∧ CutField P f2 f2') ∧
      (op.about P = false → CutField P f2 f') := by
  obtain ⟨n, e, rfl, hn⟩ := hc
  cases op with
  | place o l =>
    simp only [exec, setObjectLocation] at he ⊢
    rw [vecGet_map]
    cases hb : vecGet f.bags f.dh (discretize f.discretization l) with
    | none => rw [hb] at he; simp at he
    | some b =>
      rw [hb] at he
      dsimp only [Option.map_some] at he ⊢
      obtain ⟨v, hv, rfl⟩ := Option.map_eq_some_iff.1 he
      have hb' : vecGet (f.bags.map (List.filter P)) f.dh (discretize f.discretization l) = some (b.filter P) := by
        rw [vecGet_map, hb]; rfl
      constructor
      · intro ha
        have ha : P o = true := ha
        have h1 := vecSet_map' (List.filter P) f.bags f.dh (discretize f.discretization l) (b ++ [o])
        rw [List.filter_append, List.filter_cons_of_pos ha, List.filter_nil, hv] at h1
        rw [h1]
        refine ⟨_, rfl, (if f.densityCheck then n else n + 1), e, rfl, fun hd => ?_⟩
        have hd : f.densityCheck = false := hd
        have h2 := total_vecSet hb' h1
        rw [hd, if_neg (by simp), hn hd]
        simp only [List.length_append, List.length_singleton] at h2
        show _ = total (v.map (List.filter P))
        omega
      · intro ha
        have ha : P o = false := ha
        have h1 := vecSet_same' (List.filter P) hb hv
          (by rw [List.filter_append, List.filter_cons_of_neg (by rw [ha]; simp)]; simp)
        refine ⟨n, e, ?_, ?_⟩
        · dsimp only; rw [h1]
        · dsimp only; rw [h1]; exact hn
  | remove o l =>
    simp only [exec, removeObjectLocation] at he ⊢
    rw [vecGet_map]
    cases hb : vecGet f.bags f.dh (discretize f.discretization l) with
    | none => rw [hb] at he; simp at he
    | some b =>
      rw [hb] at he
      dsimp only [Option.map_some] at he ⊢
      have hb' : vecGet (f.bags.map (List.filter P)) f.dh (discretize f.discretization l) = some (b.filter P) := by
        rw [vecGet_map, hb]; rfl
      by_cases hbe : b.isEmpty = true
      · rw [if_pos hbe] at he
        simp only [Option.some.injEq] at he
        subst he
        have : (b.filter P).isEmpty = true := by rw [List.isEmpty_iff.1 hbe]; rfl
        rw [if_pos this]
        exact ⟨fun _ => ⟨_, rfl, n, e, rfl, hn⟩, fun _ => ⟨n, e, rfl, hn⟩⟩
      · rw [if_neg hbe] at he
        -- the new bags, whatever the count
        have hv : ∃ v m, vecSet f.bags f.dh (discretize f.discretization l) (b.filter (fun x => x != o)) = some v ∧
            f2 = ⟨f.rbags, v, m, f.width, f.height, f.discretization, f.toroidal, f.dh, f.dw, f.density, f.densityCheck⟩ := by
          by_cases hd : f.densityCheck = true
          · rw [if_pos hd] at he
            obtain ⟨v, hv, rfl⟩ := Option.map_eq_some_iff.1 he
            exact ⟨v, _, hv, rfl⟩
          · rw [if_neg hd] at he
            by_cases hlt : f.nagents < b.length - (b.filter (fun x => x != o)).length
            · rw [if_pos hlt] at he; simp at he
            · rw [if_neg hlt] at he
              obtain ⟨v, hv, rfl⟩ := Option.map_eq_some_iff.1 he
              exact ⟨v, _, hv, rfl⟩
        obtain ⟨v, m, hv, rfl⟩ := hv
        have h1 := vecSet_map' (List.filter P) f.bags f.dh (discretize f.discretization l) (b.filter (fun x => x != o))
        rw [filter_ne_comm, hv, Option.map_some] at h1
        have h2 := total_vecSet hb' h1
        have hle := List.length_filter_le (fun x => x != o) (b.filter P)
        have hlt := length_le_total hb'
        constructor
        · intro _
          by_cases hpe : (b.filter P).isEmpty = true
          · rw [if_pos hpe]
            have h3 := vecSet_same' (List.filter P) hb hv (by rw [filter_ne_comm, List.isEmpty_iff.1 hpe]; rfl)
            refine ⟨_, rfl, n, e, ?_, ?_⟩
            · dsimp only; rw [h3]
            · dsimp only; rw [h3]; exact hn
          · rw [if_neg hpe]
            by_cases hd : f.densityCheck = true
            · rw [if_pos hd, h1]
              refine ⟨_, rfl, n, e, rfl, fun h => ?_⟩
              have h : f.densityCheck = false := h
              rw [hd] at h; simp at h
            · have hd' : f.densityCheck = false := by simpa using hd
              rw [if_neg hd, if_neg (by rw [hn hd']; omega), h1]
              refine ⟨_, rfl, _, e, rfl, fun _ => ?_⟩
              show _ = total (v.map (List.filter P))
              rw [hn hd']
              omega
        · intro ha
          have ha : P o = false := ha
          have h3 := vecSet_same' (List.filter P) hb hv (filter_ne_out hr b ha)
          refine ⟨n, e, ?_, ?_⟩
          · dsimp only; rw [h3]
          · dsimp only; rw [h3]; exact hn
  | update =>
    refine ⟨fun _ => ?_, fun ha => by simp [FieldOp.about] at ha⟩
    simp only [exec, Option.some.injEq] at he
    subst he
    exact ⟨_, rfl, n, e, rfl, hn⟩
  | lazyUpdate =>
    refine ⟨fun _ => ?_, fun ha => by simp [FieldOp.about] at ha⟩
    simp only [exec, lazyUpdate] at he ⊢
    by_cases hd : f.densityCheck = true
    · rw [if_pos hd] at he ⊢
      simp only [Option.some.injEq] at he
      subst he
      refine ⟨_, rfl, n, e, ?_, fun h => ?_⟩
      · simp [Function.comp_def]
      · have h : f.densityCheck = false := h
        rw [hd] at h; simp at h
    · rw [if_neg hd] at he ⊢
      by_cases hz : (f.dw * f.dh).toNat = 0
      · rw [if_pos hz] at he; simp at he
      · rw [if_neg hz] at he ⊢
        simp only [Option.some.injEq] at he
        subst he
        refine ⟨_, rfl, n, n / (f.dw * f.dh).toNat, ?_, fun h => by simp at h⟩
        simp

theorem run_cutField {P : O → Bool} (hr : Respects P) {f0 : Field O} (h0 : CutField P f0 f0) :
    ∀ (hist : List (FieldOp O)) (f : Field O), run f0 hist = some f →
    ∃ f', run f0 (aboutOnly P hist) = some f' ∧ CutField P f f' := by
  intro hist
  induction hist with
  | nil =>
    intro f hf
    simp only [run, Option.some.injEq] at hf
    subst hf
    exact ⟨f0, rfl, h0⟩
  | cons op hist ih =>
    intro f hf
    simp only [run] at hf
    cases hb : run f0 hist with
    | none => rw [hb] at hf; simp at hf
    | some f1 =>
      rw [hb] at hf
      have hf : exec f1 op = some f := hf
      obtain ⟨f1', hi, hcut⟩ := ih f1 hb
      obtain ⟨ha, hn⟩ := exec_cutField hr hcut hf
      unfold aboutOnly at hi ⊢
      cases hab : op.about P with
      | true =>
        rw [List.filter_cons_of_pos hab]
        simp only [run]
        rw [hi]
        exact ha hab
      | false =>
        rw [List.filter_cons_of_neg (by rw [hab]; simp)]
        exact ⟨f1', hi, hn hab⟩

omit [BEq O] in
theorem scan_cut (P : O → Bool) (f f' : Field O) (hr : f'.rbags = f.rbags.map (List.filter P)) (hh : f'.dh = f.dh)
    (hb : bagId f' = bagId f) (keep : Loc → O → Bool) : ∀ cs : List Loc,
    scan f' keep cs = (scan f keep cs).map (List.filter P) := by
  intro cs
  induction cs with
  | nil => rfl
  | cons c cs ih =>
    rw [scan, scan, hb]
    cases bagId f c with
    | none => rfl
    | some b =>
      dsimp only
      rw [hr, hh, vecGet_map]
      cases vecGet f.rbags f.dh b with
      | none => rfl
      | some bag =>
        dsimp only [Option.map_some]
        rw [ih, Option.map_map, Option.map_map]
        apply Option.map_congr
        intro t _
        show _ ++ _ = List.filter P (_ ++ _)
        rw [List.filter_append]
        congr 1
        rw [List.filter_filter, List.filter_filter]
        apply List.filter_congr
        intro x _
        exact Bool.and_comm _ _

omit [BEq O] in
theorem collect_cut (P : O → Bool) (v : List (List O)) (h : Int) (k : Loc → Pos) : ∀ cs : List Loc,
    collect (v.map (List.filter P)) h (fun c e => e.map (fun o => (k c, o))) cs =
      (collect v h (fun c e => e.map (fun o => (k c, o))) cs).map (List.filter (fun e => P e.2)) := by
  intro cs
  induction cs with
  | nil => rfl
  | cons c cs ih =>
    rw [collect, collect, vecGet_map]
    cases vecGet v h c with
    | none => rfl
    | some b =>
      dsimp only [Option.map_some]
      rw [ih, Option.map_map, Option.map_map]
      apply Option.map_congr
      intro t _
      show _ ++ _ = List.filter _ (_ ++ _)
      rw [List.filter_append, List.filter_map]
      rfl

/-- What the program without the calls about other objects answers, in terms of the whole program's answers. -/
structure SameFor (P : O → Bool) (f f' : Field O) : Prop where
  neighbors : ∀ locOf loc dist,
    getNeighborsWithinDistance f' locOf loc dist = (getNeighborsWithinDistance f locOf loc dist).map (List.filter P)
  relax : ∀ loc dist,
    getNeighborsWithinRelaxDistance f' loc dist = (getNeighborsWithinRelaxDistance f loc dist).map (List.filter P)
  objects : ∀ loc, getObjects f' loc = (getObjects f loc).map (List.filter P)
  objectsUnbuffered : ∀ loc, getObjectsUnbuffered f' loc = (getObjectsUnbuffered f loc).map (List.filter P)
  calls : iterObjects f' = (iterObjects f).map (List.filter (fun e => P e.2))
  callsUnbuffered : iterObjectsUnbuffered f' = (iterObjectsUnbuffered f).map (List.filter (fun e => P e.2))

omit [BEq O] in
theorem sameFor_cut {P : O → Bool} {f f' : Field O} (hc : CutField P f f') : SameFor P f f' := by
  obtain ⟨n, e, he, _⟩ := hc
  have hr : f'.rbags = f.rbags.map (List.filter P) := by rw [he]
  have hw : f'.bags = f.bags.map (List.filter P) := by rw [he]
  have hh : f'.dh = f.dh := by rw [he]
  have hw2 : f'.dw = f.dw := by rw [he]
  have hd : f'.discretization = f.discretization := by rw [he]
  have hb : bagId f' = bagId f := by rw [he]; rfl
  have hs : ∀ loc dist, searchCells f' loc dist = searchCells f loc dist := fun loc dist => by rw [he]; rfl
  have hk : ∀ locOf loc dist, keepExact f' locOf loc dist = keepExact f locOf loc dist := fun locOf loc dist => by rw [he]; rfl
  refine ⟨fun locOf loc dist => ?_, fun loc dist => ?_, fun loc => ?_, fun loc => ?_, ?_, ?_⟩
  · unfold getNeighborsWithinDistance
    by_cases hd : dist ≤ 0
    · rw [if_pos hd, if_pos hd]; rfl
    · rw [if_neg hd, if_neg hd, hs, hk]
      exact scan_cut P f f' hr hh hb _ _
  · unfold getNeighborsWithinRelaxDistance
    by_cases hd : dist ≤ 0
    · rw [if_pos hd, if_pos hd]; rfl
    · rw [if_neg hd, if_neg hd, hs]
      exact scan_cut P f f' hr hh hb _ _
  · unfold getObjects; rw [hr, hh, hd]; exact vecGet_map _ _ _ _
  · unfold getObjectsUnbuffered; rw [hw, hh, hd]; exact vecGet_map _ _ _ _
  · unfold iterObjects; rw [hr, hh, hw2, hd]; exact collect_cut P _ _ _ _
  · unfold iterObjectsUnbuffered; rw [hw, hh, hw2, hd]; exact collect_cut P _ _ _ _

/-- C248, `Field2D`: leave out all calls about objects outside a set, and the objects of the set are answered as before. -/
theorem C248_field_partial {P : O → Bool} (hr : Respects P) {w h d : Rat} {t : Bool} {f : Field O} {hist : List (FieldOp O)}
    (hf : run (new w h d t) hist = some f) :
    ∃ f', run (new w h d t) (aboutOnly P hist) = some f' ∧ SameFor P f f' := by
  obtain ⟨f', h1, h2⟩ := run_cutField hr (f0 := new w h d t) ⟨0, 0, by simp [new], fun _ => by simp [new, total]⟩ hist f hf
  exact ⟨f', h1, sameFor_cut h2⟩

/-- The even numbers are the set; an odd one is placed among them, another one removed. -/
example :
    let hist : List (FieldOp Nat) := [.remove 7 ⟨1, 1⟩, .place 7 ⟨1, 1⟩, .lazyUpdate, .remove 9 ⟨1, 1⟩, .place 4 ⟨1, 1⟩,
      .place 3 ⟨1, 1⟩, .place 2 ⟨1, 1⟩]
    let P : Nat → Bool := fun n => n % 2 == 0
    (run (new 4 4 2 true) hist).map (fun f => getNeighborsWithinDistance f (fun _ => ⟨1, 1⟩) ⟨1, 2⟩ 2) = some (some [2, 3, 4]) ∧
    (run (new 4 4 2 true) (aboutOnly P hist)).map (fun f => getNeighborsWithinDistance f (fun _ => ⟨1, 1⟩) ⟨1, 2⟩ 2) =
      some (some [2, 4]) := by
  refine ⟨?_, ?_⟩ <;> decide +kernel

/-- The limits: the empty bags of a field are what the other objects leave, and the density estimate counts all of them. -/
theorem C248_field_negation_partial :
    ∃ (P : Nat → Bool) (hist : List (FieldOp Nat)) (f f' : Field Nat), Respects P ∧
      run (new 1 1 1 false) hist = some f ∧ run (new 1 1 1 false) (aboutOnly P hist) = some f' ∧
      (getEmptyBags f).map List.length = some 3 ∧ (getEmptyBags f').map List.length = some 4 ∧
      f.density = 1 ∧ f'.density = 0 := by
  refine ⟨fun n => n == 1, [.lazyUpdate, .place 2 ⟨0, 0⟩, .place 3 ⟨0, 0⟩, .place 4 ⟨0, 0⟩, .place 5 ⟨0, 0⟩],
    ⟨[[5, 4, 3, 2], [], [], []], [[], [], [], []], 4, 1, 1, 1, false, 2, 2, 1, true⟩,
    ⟨[[], [], [], []], [[], [], [], []], 0, 1, 1, 1, false, 2, 2, 0, true⟩, ?_, ?_, ?_, ?_, ?_, ?_, ?_⟩
  · intro a b h
    have : a = b := by simpa using h
    rw [this]
  all_goals decide +kernel

end Verif.Field2D
