import Verif.Props.Turned
import Verif.Props.SyncCells

/-! C275 for cellular automata: a turned, mirrored or shifted automaton goes through the turned, mirrored or shifted steps. -/

set_option linter.unusedSectionVars false

namespace Verif.Sync

open Schedule Grid Torus
open Flockers (ParSteps)
open ParGrid (NGrid)

variable {T D B B' N N' F F' : Type} [LinearOrder T] {loc : B → Loc} {loc' : B' → Loc} {val : B → N} {val' : B' → N'} {nbh : B → List Loc} {nbh' : B' → List Loc}
  {act : D → B → List (Option N) → B × Bool} {act' : D → B' → List (Option N') → B' × Bool} {rnd : Nat → D} {ord : Nat → Int} {φ : B → B'} {g : N → N'} {τ : Loc → Loc} {w h w' h' : Int}

theorem valueAt_image (M : MovesCells w h τ φ loc loc' nbh nbh') (hv : ∀ b, val' (φ b) = g (val b)) {pop : List B} (hpop : ∀ x ∈ pop, InRange w h (loc x)) {l : Loc} (hl : InRange w h l) :
    valueAt loc' val' (pop.map φ) (τ l) = (valueAt loc val pop l).map g := by
  have ef : (pop.map φ).filter (fun x => decide (loc' x = τ l)) = (pop.filter (fun x => decide (loc x = l))).map φ := by
    rw [List.filter_map]
    refine congrArg _ (List.filter_congr (fun x hx => ?_))
    simp only [Function.comp, decide_eq_decide]
    rw [M.place]
    exact ⟨M.apart _ _ (hpop x hx) hl, fun e => by rw [e]⟩
  unfold valueAt
  rw [ef]
  cases pop.filter (fun x => decide (loc x = l)) with
  | nil => rfl
  | cons a t =>
    cases t with
    | nil => exact congrArg some (hv a)
    | cons b t => rfl

theorem cellView_image (M : MovesCells w h τ φ loc loc' nbh nbh') (hv : ∀ b, val' (φ b) = g (val b)) (pop : List B) (b : B) (hpop : ∀ x ∈ pop, GridOk loc nbh w h x) (hb : GridOk loc nbh w h b) :
    cellView loc' val' nbh' (pop.map φ) (φ b) = (cellView loc val nbh pop b).map (Option.map g) := by
  unfold cellView
  rw [M.looks, List.map_map, List.map_map]
  exact List.map_congr_left (fun l hl => valueAt_image M hv (fun x hx => (hpop x hx).1) (hb.2 l hl))

theorem follows_cells {get : F → Loc → Option (Option N)} {get' : F' → Loc → Option (Option N')} {ins ins' : Loc → Prop} (hi : ∀ l, InRange w h l → ins l) (hi' : ∀ l, InRange w h l → ins' (τ l))
    (M : MovesCells w h τ φ loc loc' nbh nbh') (hv : ∀ b, val' (φ b) = g (val b)) {time : T} {n : Nat} (hn : 0 < n) {pop : List (Nat × B)} (hpop : ∀ x ∈ pop, GridOk loc nbh w h x.2)
    {a : World T (B × Bool) (State F)} {a' : World T (B' × Bool) (State F')} (h1 : Follows (CellsShow get loc val ins) ord time n pop a)
    (h2 : Follows (CellsShow get' loc' val' ins') ord time n (pop.map (fun x => (x.1, φ x.2))) a') : MovedCells get get' w h τ φ g a a' := by
  refine ⟨follows_image h1 h2, ?_⟩
  obtain ⟨f, e1, s1⟩ := h1.field
  obtain ⟨f', e2, s2⟩ := h2.field
  refine ⟨f, f', e1, e2, fun l hl => ?_⟩
  rw [s1 hn l (hi l hl), s2 hn (τ l) (hi' l hl)]
  have e : (pop.map (fun x => (x.1, φ x.2))).map Prod.snd = (pop.map Prod.snd).map φ := by rw [List.map_map, List.map_map]; rfl
  rw [e, valueAt_image M hv (fun x hx => by obtain ⟨y, hy, rfl⟩ := List.mem_map.1 hx; exact (hpop y hy).1) hl]
  rfl

/-- The rule of an automaton leaves an agent where it is, looking at the same cells. -/
theorem cells_lawful_grid (R : ∀ x b v, loc (act x b v).1 = loc b) (hn : ∀ x b v, nbh (act x b v).1 = nbh b) : Lawful act (fun b => cellNo (loc b)) (GridOk loc nbh w h) Eq :=
  cells_lawful R (fun x b v ho => by unfold GridOk at ho ⊢; rw [R, hn]; exact ho)

theorem numbered_ok {ok : B → Prop} {agents : List B} (hok : ∀ b ∈ agents, ok b) : ∀ x ∈ numbered agents, ok x.2 := by
  intro x hx
  refine hok x.2 ?_
  rw [← numbered_snd agents]
  exact List.mem_map.2 ⟨x, hx, rfl⟩

/-- **C275, cellular automata on a dense number grid**, published with `update` or with `lazy_update`; the values may be translated as well. -/
theorem C275_dense_cells_partial (hw : 0 ≤ w) (hh : 0 ≤ h) (hw' : 0 ≤ w') (hh' : 0 ≤ h') (fast fast' : Bool) (M : MovesCells w h τ φ loc loc' nbh nbh')
    (hτ : ∀ l, InRange w h l → InRange w' h' (τ l)) (hv : ∀ b, val' (φ b) = g (val b)) (R : ∀ x b v, loc (act x b v).1 = loc b) (hn : ∀ x b v, nbh (act x b v).1 = nbh b)
    (R' : ∀ x b v, loc' (act' x b v).1 = loc' b) (hn' : ∀ x b v, nbh' (act' x b v).1 = nbh' b) (he : Equivariant φ (List.map (Option.map g)) act act') (h0 : ∀ x x' b v, act x b v = act x' b v)
    (zero : T) (adv : T → T) (tb : TieBreak T (B × Bool)) (tb' : TieBreak T (B' × Bool)) {agents : List B} (hok : ∀ b ∈ agents, GridOk loc nbh w h b)
    (hok' : ∀ b ∈ agents.map φ, GridOk loc' nbh' w' h' b) (hid : (agents.map loc).Nodup) (hid' : ((agents.map φ).map loc').Nodup) {n : Nat} (hpos : 0 < n) :
    MovedCells DenseNumber.getValue DenseNumber.getValue w h τ φ g
      (steps (model adv tb (denseCellOps fast loc val nbh) act rnd) n (Driver.start (sim zero adv tb (denseCellOps fast loc val nbh) act rnd agents ord) ⟨DenseNumber.new w h, 0⟩))
      (steps (model adv tb' (denseCellOps fast' loc' val' nbh') act' rnd) n
        (Driver.start (sim zero adv tb' (denseCellOps fast' loc' val' nbh') act' rnd (agents.map φ) ord) ⟨DenseNumber.new w' h', 0⟩)) := by
  obtain ⟨σ, _, h1⟩ := C217_dense_cells (rnd := rnd) (ord := ord) (val := val) hw hh fast R hn zero adv tb agents hok hid n
  obtain ⟨σ', _, h2⟩ := C217_dense_cells (rnd := rnd) (ord := ord) (val := val') hw' hh' fast' R' hn' zero adv tb' (agents.map φ) hok' hid' n
  have h1 := h1 n (le_refl _)
  have h2 := h2 n (le_refl _)
  rw [popAt_sure h0 _ (fun m i => rnd (σ' m i))] at h1
  have L := cells_lawful_grid (w := w) (h := h) R hn
  have L' := cells_lawful_grid (w := w') (h := h') R' hn'
  rw [popAt_image L L' he (cellView_image M hv) _ hok] at h2
  exact follows_cells (fun _ hl => hl) hτ M hv hpos (popAt_stays_ok L (numbered_ok hok) n) h1 h2

/-- **C275, cellular automata on a sparse number grid.** -/
theorem C275_sparse_cells_partial (fast fast' : Bool) (M : MovesCells w h τ φ loc loc' nbh nbh') (hv : ∀ b, val' (φ b) = g (val b)) (R : ∀ x b v, loc (act x b v).1 = loc b)
    (hn : ∀ x b v, nbh (act x b v).1 = nbh b) (R' : ∀ x b v, loc' (act' x b v).1 = loc' b) (he : Equivariant φ (List.map (Option.map g)) act act')
    (h0 : ∀ x x' b v, act x b v = act x' b v) (zero : T) (adv : T → T) (tb : TieBreak T (B × Bool)) (tb' : TieBreak T (B' × Bool)) {agents : List B} (hok : ∀ b ∈ agents, GridOk loc nbh w h b)
    (hid : (agents.map loc).Nodup) (hid' : ((agents.map φ).map loc').Nodup) {n : Nat} (hpos : 0 < n) :
    MovedCells (fun f l => some (SparseNumber.getValue f l)) (fun f l => some (SparseNumber.getValue f l)) w h τ φ g
      (steps (model adv tb (sparseCellOps fast loc val nbh) act rnd) n (Driver.start (sim zero adv tb (sparseCellOps fast loc val nbh) act rnd agents ord) ⟨some (SparseNumber.new w h), 0⟩))
      (steps (model adv tb' (sparseCellOps fast' loc' val' nbh') act' rnd) n
        (Driver.start (sim zero adv tb' (sparseCellOps fast' loc' val' nbh') act' rnd (agents.map φ) ord) ⟨some (SparseNumber.new w' h'), 0⟩)) := by
  obtain ⟨σ, _, h1⟩ := C217_sparse_cells (rnd := rnd) (ord := ord) (val := val) (nbh := nbh) w h fast R zero adv tb agents hid n
  obtain ⟨σ', _, h2⟩ := C217_sparse_cells (rnd := rnd) (ord := ord) (val := val') (nbh := nbh') w' h' fast' R' zero adv tb' (agents.map φ) hid' n
  have h1 := h1 n (le_refl _)
  have h2 := h2 n (le_refl _)
  rw [popAt_sure h0 _ (fun m i => rnd (σ' m i))] at h1
  have L := cells_lawful_grid (w := w) (h := h) R hn
  have L' : Lawful act' (fun b => cellNo (loc' b)) (fun _ => True) Eq := cells_lawful R' (fun _ _ _ _ => trivial)
  rw [popAt_image L L' he (cellView_image M hv) _ hok] at h2
  exact follows_cells (fun _ _ => trivial) (fun _ _ => trivial) M hv hpos (popAt_stays_ok L (numbered_ok hok) n) h1 h2

/-- **C275, cellular automata under the feature `parallel`**, published with `lazy_update`, on either grid. -/
theorem C275_parallel_cells_partial (M : MovesCells w h τ φ loc loc' nbh nbh') (hv : ∀ b, val' (φ b) = g (val b)) (R : ∀ x b v, loc (act x b v).1 = loc b)
    (hn : ∀ x b v, nbh (act x b v).1 = nbh b) (R' : ∀ x b v, loc' (act' x b v).1 = loc' b) (he : Equivariant φ (List.map (Option.map g)) act act')
    (h0 : ∀ x x' b v, act x b v = act x' b v) {cpus cpus' : Nat} (hc : DBDashMap.shardAmount cpus ≤ 2 ^ 64) (hc' : DBDashMap.shardAmount cpus' ≤ 2 ^ 64) (hash hash' : Loc → Nat)
    {f : NGrid N} {f' : NGrid N'} (hf : f = NGrid.newDense cpus hash w h ∨ f = NGrid.newSparse cpus hash w h) (hf' : f' = NGrid.newDense cpus' hash' w' h' ∨ f' = NGrid.newSparse cpus' hash' w' h')
    (zero : T) (adv : T → T) (tb : TieBreak T (B × Bool)) (tb' : TieBreak T (B' × Bool)) {agents : List B} (hok : ∀ b ∈ agents, GridOk loc nbh w h b)
    (hid : (agents.map loc).Nodup) (hid' : ((agents.map φ).map loc').Nodup) (threads threads' : Nat) {n : Nat} (hpos : 0 < n) (wd : World T (B × Bool) (State (NGrid N)))
    (wd' : World T (B' × Bool) (State (NGrid N')))
    (hs : ParSteps (model adv tb (parCellOps true loc val nbh) act rnd) threads n (Driver.start (sim zero adv tb (parCellOps true loc val nbh) act rnd agents ord) ⟨some f, 0⟩) wd)
    (hs' : ParSteps (model adv tb' (parCellOps true loc' val' nbh') act' rnd) threads' n
      (Driver.start (sim zero adv tb' (parCellOps true loc' val' nbh') act' rnd (agents.map φ) ord) ⟨some f', 0⟩) wd') :
    MovedCells NGrid.getValue NGrid.getValue w h τ φ g wd wd' := by
  obtain ⟨σ, _, h1⟩ := C217_parallel_cells (rnd := rnd) (ord := ord) hc hash w h hf R zero adv tb agents hid threads n wd hs
  obtain ⟨σ', _, h2⟩ := C217_parallel_cells (rnd := rnd) (ord := ord) hc' hash' w' h' hf' R' zero adv tb' (agents.map φ) hid' threads' n wd' hs'
  rw [popAt_sure h0 _ (fun m i => rnd (σ' m i))] at h1
  have L := cells_lawful_grid (w := w) (h := h) R hn
  have L' : Lawful act' (fun b => cellNo (loc' b)) (fun _ => True) Eq := cells_lawful R' (fun _ _ _ _ => trivial)
  rw [popAt_image L L' he (cellView_image M hv) _ hok] at h2
  exact follows_cells (fun _ _ => trivial) (fun _ _ => trivial) M hv hpos (popAt_stays_ok L (numbered_ok hok) n) h1 h2

/-! ### A concrete automaton -/

namespace TurnCells

/-- A cell of a row of three and its value. -/
abbrev Cell := Int × Int

/-- A cell looks at the cell to its left. -/
def leftOf (c : Cell) : List Loc := if c.1 = 0 then [] else [⟨c.1 - 1, 0⟩]

def across (c : Cell) : Loc := ⟨c.1, 0⟩

/-- The cells of a column of three, and the cell below. -/
def down (c : Cell) : Loc := ⟨0, 2 - c.1⟩

def below (c : Cell) : List Loc := (leftOf c).map (fun l => ⟨0, 2 - l.x⟩)

/-- A cell takes the value it sees and adds one. -/
def copy (_ : Unit) (c : Cell) (v : List (Option Int)) : Cell × Bool := ((c.1, 1 + ((v.head?.join).getD 0)), true)

/-- The row turned by a quarter. -/
def quarter (l : Loc) : Loc := ⟨0, 2 - l.x⟩

example : MovesCells 3 1 quarter (fun c : Cell => c) across down leftOf below ∧ (∀ l, InRange 3 1 l → InRange 1 3 (quarter l)) ∧
    Equivariant (fun c : Cell => c) (List.map (Option.map (fun x : Int => x))) copy copy := by
  refine ⟨⟨?_, fun _ => rfl, fun _ => rfl⟩, ?_, ?_⟩
  · rintro ⟨x, y⟩ ⟨x', y'⟩ ⟨h1, h2, h3, h4⟩ ⟨h5, h6, h7, h8⟩ he
    unfold quarter at he
    rw [Loc.mk.injEq] at he ⊢
    dsimp only at *
    omega
  · rintro ⟨x, y⟩ ⟨h1, h2, h3, h4⟩
    unfold quarter InRange
    dsimp only at *
    omega
  · intro x b v
    have : List.map (Option.map (fun x : Int => x)) v = v := by simp
    rw [this]

/-- After two steps the row and the column. -/
example : ((steps (model (· + 1) (fun _ _ => 0) (denseCellOps false across Prod.snd leftOf) copy (fun _ => ())) 2
      (Driver.start (sim (0 : Nat) (· + 1) (fun _ _ => 0) (denseCellOps false across Prod.snd leftOf) copy (fun _ => ()) [(0, 5), (1, 6), (2, 7)] (fun _ => 0))
        ⟨DenseNumber.new 3 1, 0⟩)).state.field.bind (fun f => some (List.map (DenseNumber.getValue f) [⟨0, 0⟩, ⟨1, 0⟩, ⟨2, 0⟩]))) =
    ((steps (model (· + 1) (fun _ _ => 0) (denseCellOps true down Prod.snd below) copy (fun _ => ())) 2
      (Driver.start (sim (0 : Nat) (· + 1) (fun _ _ => 0) (denseCellOps true down Prod.snd below) copy (fun _ => ()) [(0, 5), (1, 6), (2, 7)] (fun _ => 0))
        ⟨DenseNumber.new 1 3, 0⟩)).state.field.bind (fun f => some (List.map (DenseNumber.getValue f) [⟨0, 2⟩, ⟨0, 1⟩, ⟨0, 0⟩]))) := by
  decide +kernel

end TurnCells

end Verif.Sync
