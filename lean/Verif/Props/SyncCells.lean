import Verif.Lemmas.SyncCells
import Verif.Props.SyncNodes

/-!
Cellular automata on number grids change all cells at once (C217), and what the choice between `update` and `lazy_update` means for
them (C218). `tb`, `adv` and `ord` are as in `Verif.Props.Synchronous`.
-/

namespace Verif.Sync

open Schedule
open Grid (Loc InRange)
open Flockers (ParSteps)
open ParGrid (NGrid)

variable {T F B D N : Type} [LinearOrder T] {loc : B → Loc} {val : B → N} {nbh : B → List Loc} {act : D → B → List (Option N) → B × Bool}
  {rnd : Nat → D} {ord : Nat → Int}

/-! ### C217 -/

/-- What a `DenseNumberGrid2D` shows of an automaton. -/
abbrev DenseCellsShow (loc : B → Loc) (val : B → N) (w h : Int) : DenseNumber.DGrid N → List B → Prop :=
  CellsShow DenseNumber.getValue loc val (InRange w h)

/-- What a `SparseNumberGrid2D` shows of an automaton. -/
abbrev SparseCellsShow (loc : B → Loc) (val : B → N) : SparseNumber.SGrid N → List B → Prop :=
  CellsShow (fun g l => some (SparseNumber.getValue g l)) loc val (fun _ => True)

/-- What either grid with the feature `parallel` shows of an automaton. -/
abbrev ParCellsShow (loc : B → Loc) (val : B → N) : NGrid N → List B → Prop :=
  CellsShow NGrid.getValue loc val (fun _ => True)

omit [LinearOrder T] in
theorem cells_lawful {ok : B → Prop} (R : ∀ x b v, loc (act x b v).1 = loc b) (hok : ∀ x b v, ok b → ok (act x b v).1) :
    Lawful act (fun b => cellNo (loc b)) ok Eq where
  ident x b v := by rw [R]
  ok x b v h _ := hok x b v h
  same x b {v v'} h := by rw [h]

omit [LinearOrder T] in
theorem cells_nodup {agents : List B} (h : (agents.map loc).Nodup) : (agents.map (fun b => cellNo (loc b))).Nodup := by
  have : agents.map (fun b => cellNo (loc b)) = (agents.map loc).map cellNo := by rw [List.map_map]; rfl
  rw [this]
  exact h.map (fun _ _ => cellNo_inj)

/-- **C217.** A cellular automaton on a `DenseNumberGrid2D`, whose agents have different cells inside and look at cells inside,
published with `update` or with `lazy_update`: after every number of steps the scheduled agents and the published values are those of
the rounds in which all cells change at once, each agent with a random value of its own, whatever the order within a step. The cell of
an agent that died is empty. -/
theorem C217_dense_cells {w h : Int} (hw : 0 ≤ w) (hh : 0 ≤ h) (fast : Bool) (R : ∀ x b v, loc (act x b v).1 = loc b)
    (hn : ∀ x b v, nbh (act x b v).1 = nbh b) (zero : T) (adv : T → T) (tb : TieBreak T (B × Bool)) (agents : List B)
    (hok : ∀ b ∈ agents, GridOk loc nbh w h b) (hid : (agents.map loc).Nodup) (n : Nat) :
    ∃ σ : Nat → Nat → Nat, Fresh (popAt act (cellView loc val nbh) (fun m i => rnd (σ m i)) (numbered agents)) 0 n σ ∧ ∀ m ≤ n,
      Follows (DenseCellsShow loc val w h) ord (adv^[m] zero) m
        (popAt act (cellView loc val nbh) (fun m i => rnd (σ m i)) (numbered agents) m)
        (steps (model adv tb (denseCellOps fast loc val nbh) act rnd) m
          (Driver.start (sim zero adv tb (denseCellOps fast loc val nbh) act rnd agents ord) ⟨DenseNumber.new w h, 0⟩)) := by
  have hnew : ∃ g, (DenseNumber.new w h : Option (DenseNumber.DGrid N)) = some g := by
    unfold DenseNumber.new
    rw [if_neg (by have := mul_nonneg hw hh; omega)]
    exact ⟨_, rfl⟩
  obtain ⟨g, hg⟩ := hnew
  have hs := DenseNumber.shows_new hg
  rw [show ((w.natAbs : Int)) = w by omega, show ((h.natAbs : Int)) = h by omega] at hs
  exact C141_synchronous (denseCellLaws fast loc val nbh w h)
    (cells_lawful R (fun x b v ho => by unfold GridOk at ho ⊢; rw [R, hn]; exact ho)) zero adv tb agents hok
    (cells_nodup hid) (s := ⟨DenseNumber.new w h, 0⟩) (r := []) hg ⟨hs, by simp⟩ n

/-- **C217**, on a `SparseNumberGrid2D`, with any cells. -/
theorem C217_sparse_cells (w h : Int) (fast : Bool) (R : ∀ x b v, loc (act x b v).1 = loc b) (zero : T) (adv : T → T)
    (tb : TieBreak T (B × Bool)) (agents : List B) (hid : (agents.map loc).Nodup) (n : Nat) :
    ∃ σ : Nat → Nat → Nat, Fresh (popAt act (cellView loc val nbh) (fun m i => rnd (σ m i)) (numbered agents)) 0 n σ ∧ ∀ m ≤ n,
      Follows (SparseCellsShow loc val) ord (adv^[m] zero) m
        (popAt act (cellView loc val nbh) (fun m i => rnd (σ m i)) (numbered agents) m)
        (steps (model adv tb (sparseCellOps fast loc val nbh) act rnd) m
          (Driver.start (sim zero adv tb (sparseCellOps fast loc val nbh) act rnd agents ord) ⟨some (SparseNumber.new w h), 0⟩)) :=
  C141_synchronous (sparseCellLaws fast loc val nbh) (cells_lawful R (fun _ _ _ _ => trivial)) zero adv tb agents
    (fun _ _ => trivial) (cells_nodup hid) (s := ⟨some (SparseNumber.new w h), 0⟩) (r := []) rfl
    ⟨SparseNumber.wf_new w h, rfl, rfl, by simp⟩ n

/-- **C217**, with the feature `parallel`, published with `lazy_update`: for every number of threads and every interleaving. `g` is
either grid, just made. -/
theorem C217_parallel_cells {cpus : Nat} (hc : DBDashMap.shardAmount cpus ≤ 2 ^ 64) (hash : Loc → Nat) (w h : Int) {g : NGrid N}
    (hg : g = NGrid.newDense cpus hash w h ∨ g = NGrid.newSparse cpus hash w h) (R : ∀ x b v, loc (act x b v).1 = loc b) (zero : T)
    (adv : T → T) (tb : TieBreak T (B × Bool)) (agents : List B) (hid : (agents.map loc).Nodup) (threads n : Nat)
    (wd : World T (B × Bool) (State (NGrid N)))
    (hs : ParSteps (model adv tb (parCellOps true loc val nbh) act rnd) threads n
      (Driver.start (sim zero adv tb (parCellOps true loc val nbh) act rnd agents ord) ⟨some g, 0⟩) wd) :
    ∃ σ : Nat → Nat → Nat, Fresh (popAt act (cellView loc val nbh) (fun m i => rnd (σ m i)) (numbered agents)) 0 n σ ∧
      Follows (ParCellsShow loc val) ord (adv^[n] zero) n
        (popAt act (cellView loc val nbh) (fun m i => rnd (σ m i)) (numbered agents) n) wd := by
  have hg' : ParGrid.NShows g (fun _ => none) (fun _ => none) := by
    rcases hg with rfl | rfl
    · exact (ParGrid.nshows_new hc hash w h).1
    · exact (ParGrid.nshows_new hc hash w h).2
  exact C141_parallel_synchronous (parCellLaws loc val nbh) (cells_lawful R (fun _ _ _ _ => trivial)) zero adv tb agents
    (fun _ _ => trivial) (cells_nodup hid) (s := ⟨some g, 0⟩) (r := []) rfl ⟨hg', by simp⟩ threads n wd hs

/-- **C217**, an automaton without randomness has the same agents and the same published values after every number of steps on both
grids, published either way, and with the feature `parallel` published with `lazy_update`. -/
theorem C217_agree {w h : Int} (hw : 0 ≤ w) (hh : 0 ≤ h) (fast fast' : Bool) (R : ∀ x b v, loc (act x b v).1 = loc b)
    (hn : ∀ x b v, nbh (act x b v).1 = nbh b) (h0 : ∀ x x' b v, act x b v = act x' b v) {cpus : Nat}
    (hc : DBDashMap.shardAmount cpus ≤ 2 ^ 64) (hash : Loc → Nat) {g : NGrid N}
    (hg : g = NGrid.newDense cpus hash w h ∨ g = NGrid.newSparse cpus hash w h) (zero : T)
    (adv : T → T) (tb tb' tb'' : TieBreak T (B × Bool)) (agents : List B) (hok : ∀ b ∈ agents, GridOk loc nbh w h b)
    (hid : (agents.map loc).Nodup) (threads n : Nat) (hpos : 0 < n) (wd : World T (B × Bool) (State (NGrid N)))
    (hs : ParSteps (model adv tb (parCellOps true loc val nbh) act rnd) threads n
      (Driver.start (sim zero adv tb (parCellOps true loc val nbh) act rnd agents ord) ⟨some g, 0⟩) wd) :
    ∃ (gd : DenseNumber.DGrid N) (gs : SparseNumber.SGrid N) (gp : NGrid N),
      (steps (model adv tb' (denseCellOps fast loc val nbh) act rnd) n
        (Driver.start (sim zero adv tb' (denseCellOps fast loc val nbh) act rnd agents ord) ⟨DenseNumber.new w h, 0⟩)).state.field =
          some gd ∧
      (steps (model adv tb'' (sparseCellOps fast' loc val nbh) act rnd) n
        (Driver.start (sim zero adv tb'' (sparseCellOps fast' loc val nbh) act rnd agents ord)
          ⟨some (SparseNumber.new w h), 0⟩)).state.field = some gs ∧
      wd.state.field = some gp ∧
      (∀ l, InRange w h l → DenseNumber.getValue gd l = gp.getValue l ∧ some (SparseNumber.getValue gs l) = gp.getValue l) ∧
      (steps (model adv tb' (denseCellOps fast loc val nbh) act rnd) n
        (Driver.start (sim zero adv tb' (denseCellOps fast loc val nbh) act rnd agents ord)
          ⟨DenseNumber.new w h, 0⟩)).sched.events.Perm wd.sched.events ∧
      (steps (model adv tb'' (sparseCellOps fast' loc val nbh) act rnd) n
        (Driver.start (sim zero adv tb'' (sparseCellOps fast' loc val nbh) act rnd agents ord)
          ⟨some (SparseNumber.new w h), 0⟩)).sched.events.Perm wd.sched.events := by
  obtain ⟨σ, _, h1⟩ := C217_parallel_cells hc hash w h hg R zero adv tb agents hid threads n wd hs
  obtain ⟨σ', _, h2⟩ := C217_dense_cells (val := val) (rnd := rnd) (ord := ord) hw hh fast R hn zero adv tb' agents hok hid n
  obtain ⟨σ'', _, h3⟩ := C217_sparse_cells (val := val) (nbh := nbh) (rnd := rnd) (ord := ord) w h fast' R zero adv tb'' agents hid n
  have h2 := h2 n (le_refl _)
  have h3 := h3 n (le_refl _)
  rw [popAt_sure h0 _ (fun m i => rnd (σ m i))] at h2 h3
  obtain ⟨gp, p1, p2⟩ := h1.field
  obtain ⟨gd, d1, d2⟩ := h2.field
  obtain ⟨gs, s1, s2⟩ := h3.field
  refine ⟨gd, gs, gp, d1, s1, p1, ?_, h2.agents.trans h1.agents.symm, h3.agents.trans h1.agents.symm⟩
  intro l hl
  rw [d2 hpos l hl, p2 hpos l trivial]
  exact ⟨rfl, s2 hpos l trivial⟩

/-! ### C218 -/

/-- **C218.** With the feature `parallel`, published with `update`: the cell of an agent that died keeps its last value for good, and
the other agents see it. Apart from that all cells change at once. -/
theorem C218_parallel_update_partial {cpus : Nat} (hc : DBDashMap.shardAmount cpus ≤ 2 ^ 64) (hash : Loc → Nat) (w h : Int) {g : NGrid N}
    (hg : g = NGrid.newDense cpus hash w h ∨ g = NGrid.newSparse cpus hash w h) (R : ∀ x b v, loc (act x b v).1 = loc b) (zero : T)
    (adv : T → T) (tb : TieBreak T (B × Bool)) (agents : List B) (hne : agents ≠ []) (hid : (agents.map loc).Nodup) (threads n : Nat)
    (wd : World T (B × Bool) (State (NGrid N)))
    (hs : ParSteps (model adv tb (parCellOps false loc val nbh) act rnd) threads n
      (Driver.start (sim zero adv tb (parCellOps false loc val nbh) act rnd agents ord) ⟨some g, 0⟩) wd) :
    ∃ σ : Nat → Nat → Nat,
      Fresh (fun m => living (nodesAt act (cellView loc val nbh) (fun m i => rnd (σ m i)) (allAlive agents) m)) 0 n σ ∧
      FollowsNodes (ParCellsShow loc val) ord (adv^[n] zero) n
        (nodesAt act (cellView loc val nbh) (fun m i => rnd (σ m i)) (allAlive agents) n) wd := by
  have hg' : ParGrid.NShows g (fun _ => none) (fun _ => none) := by
    rcases hg with rfl | rfl
    · exact (ParGrid.nshows_new hc hash w h).1
    · exact (ParGrid.nshows_new hc hash w h).2
  obtain ⟨f, h1, h2⟩ := parKept_build (val := val) (nbh := nbh) false hg' agents hid
  exact nodes_par (parKeptLaws loc val nbh) R zero adv tb hne hid h1 h2 ⟨some g, 0⟩ threads n wd hs

omit [LinearOrder T] in
theorem nodesAt_alive {V : Type} {act : D → B → V → B × Bool} {view : List B → B → V} (h : ∀ x b v, (act x b v).2 = true)
    (r : Nat → Nat → D) (agents : List B) (n : Nat) :
    nodesAt act view r (allAlive agents) n = (popAt act view r (numbered agents) n).map (fun p => (p.1, p.2, true)) := by
  induction n with
  | zero =>
    show allAlive agents = (numbered agents).map _
    unfold allAlive numbered
    apply List.ext_getElem?
    intro i
    simp [List.getElem?_mapIdx, Function.comp_def]
  | succ n ih =>
    rw [nodesAt, popAt, ih]
    unfold nextNodes nextPop
    rw [List.map_map, List.map_filterMap]
    simp only [h, if_true, List.map_map, Function.comp_def, and_self, Option.map_some]
    rw [List.filterMap_eq_map']

/-- **C218**, as long as nobody dies `update` does with the feature `parallel` what `lazy_update` does (C217). -/
theorem C218_nobody_dies_partial {cpus : Nat} (hc : DBDashMap.shardAmount cpus ≤ 2 ^ 64) (hash : Loc → Nat) (w h : Int) {g : NGrid N}
    (hg : g = NGrid.newDense cpus hash w h ∨ g = NGrid.newSparse cpus hash w h) (R : ∀ x b v, loc (act x b v).1 = loc b)
    (hlive : ∀ x b v, (act x b v).2 = true) (zero : T)
    (adv : T → T) (tb : TieBreak T (B × Bool)) (agents : List B) (hne : agents ≠ []) (hid : (agents.map loc).Nodup) (threads n : Nat)
    (wd : World T (B × Bool) (State (NGrid N)))
    (hs : ParSteps (model adv tb (parCellOps false loc val nbh) act rnd) threads n
      (Driver.start (sim zero adv tb (parCellOps false loc val nbh) act rnd agents ord) ⟨some g, 0⟩) wd) :
    ∃ σ : Nat → Nat → Nat, Fresh (popAt act (cellView loc val nbh) (fun m i => rnd (σ m i)) (numbered agents)) 0 n σ ∧
      Follows (ParCellsShow loc val) ord (adv^[n] zero) n
        (popAt act (cellView loc val nbh) (fun m i => rnd (σ m i)) (numbered agents) n) wd := by
  obtain ⟨σ, h1, h2⟩ := C218_parallel_update_partial hc hash w h hg R zero adv tb agents hne hid threads n wd hs
  have hl : ∀ m, living (nodesAt act (cellView loc val nbh) (fun m i => rnd (σ m i)) (allAlive agents) m) =
      popAt act (cellView loc val nbh) (fun m i => rnd (σ m i)) (numbered agents) m := by
    intro m
    rw [nodesAt_alive hlive]
    unfold living
    rw [List.filter_eq_self.2 (by intro p hp; obtain ⟨q, _, rfl⟩ := List.mem_map.1 hp; rfl), List.map_map]
    exact List.map_id _
  refine ⟨σ, by simpa only [hl] using h1, ?_⟩
  have hm : (nodesAt act (cellView loc val nbh) (fun m i => rnd (σ m i)) (allAlive agents) n).map (fun p => p.2.1) =
      (popAt act (cellView loc val nbh) (fun m i => rnd (σ m i)) (numbered agents) n).map Prod.snd := by
    rw [nodesAt_alive hlive, List.map_map]
    rfl
  obtain ⟨a1, a2, a3⟩ := h2
  rw [hl] at a1
  rw [hm] at a3
  exact ⟨a1, a2, a3⟩

/-! ### Concrete automata -/

namespace CellDemo

/-- Cells of a row with a number: where, and the number. -/
abbrev Cell := Int × Int

/-- Where a cell is. -/
def spot (c : Cell) : Loc := ⟨c.1, 0⟩

/-- The neighbours of a cell on a ring of three. -/
def ring (c : Cell) : List Loc := [⟨(c.1 + 2) % 3, 0⟩, ⟨(c.1 + 1) % 3, 0⟩]

/-- A cell takes the difference of its right and its left neighbour; an empty cell counts as 100. -/
def turn (_ : Unit) (c : Cell) (v : List (Option Int)) : Cell × Bool :=
  ((c.1, (v.map (fun o => o.getD 100)).foldl (fun a x => x - a) 0), true)

def row : List Cell := [(0, 1), (1, 2), (2, 4)]

example : (∀ c ∈ row, GridOk spot ring 3 1 c) ∧ (row.map spot).Nodup ∧ (∀ x b v, spot (turn x b v).1 = spot b) ∧
    (∀ x b v, ring (turn x b v).1 = ring b) ∧ (∀ x b v, (turn x b v).2 = true) := by
  refine ⟨?_, by decide, fun _ _ _ => rfl, fun _ _ _ => rfl, fun _ _ _ => rfl⟩
  intro c hc
  unfold row at hc
  simp only [List.mem_cons, List.not_mem_nil, or_false] at hc
  unfold GridOk InRange spot ring
  rcases hc with rfl | rfl | rfl <;> simp

/-- The run on the dense grid: all three cells use the old numbers of the others. -/
example : ((steps (model (· + 1) (fun _ _ => 0) (denseCellOps true spot Prod.snd ring) turn (fun _ => ())) 2
    (Driver.start (sim (0 : Nat) (· + 1) (fun _ _ => 0) (denseCellOps true spot Prod.snd ring) turn (fun _ => ()) row (fun _ => 0))
      ⟨DenseNumber.new 3 1, 0⟩)).state.field.map (fun g => [⟨0, 0⟩, ⟨1, 0⟩, ⟨2, 0⟩].map (DenseNumber.getValue g))) =
    some [some (some 4), some (some 1), some (some (-5))] ∧
    popAt turn (cellView spot Prod.snd ring) (fun _ _ => ()) (numbered row) 2 = [(0, (0, 4)), (1, (1, 1)), (2, (2, -5))] := by
  decide +kernel

/-- A cell adds up all numbers it sees; cell 0 dies at once. -/
def add (_ : Unit) (c : Cell) (v : List (Option Int)) : Cell × Bool :=
  ((c.1, (v.map (fun o => o.getD 0)).sum), decide (c.1 ≠ 0))

/-- Everybody sees cells 0 and 1. -/
def both (_ : Cell) : List Loc := [⟨0, 0⟩, ⟨1, 0⟩]

def pair : List Cell := [(0, 5), (1, 7)]

end CellDemo

open CellDemo in
/-- **C218**, where the two differ: cell 0 holds 5 and dies in the first step, cell 1 adds up the cells. After two steps the sequential
grids, published with `update`, hold 12 in cell 1 and nothing in cell 0; with the feature `parallel` and the same `update` cell 0
still shows 5, and cell 1 has counted it again: 17. -/
theorem C218_dead_cell_partial {cpus : Nat} (hc : DBDashMap.shardAmount cpus ≤ 2 ^ 64) (hash : Loc → Nat) (threads : Nat)
    (ht : 0 < threads) :
    (∃ wd, ParSteps (model (· + 1) (fun _ _ => 0) (parCellOps false spot Prod.snd both) add (fun _ => ())) threads 2
      (Driver.start (sim (0 : Nat) (· + 1) (fun _ _ => 0) (parCellOps false spot Prod.snd both) add (fun _ => ()) pair (fun _ => 0))
        ⟨some (NGrid.newDense cpus hash 2 1), 0⟩) wd) ∧
    (∀ wd, ParSteps (model (· + 1) (fun _ _ => 0) (parCellOps false spot Prod.snd both) add (fun _ => ())) threads 2
      (Driver.start (sim (0 : Nat) (· + 1) (fun _ _ => 0) (parCellOps false spot Prod.snd both) add (fun _ => ()) pair (fun _ => 0))
        ⟨some (NGrid.newDense cpus hash 2 1), 0⟩) wd →
      wd.sched.events.map (fun e => e.1.agent) = [((1, 17), true)] ∧
      ∃ g, wd.state.field = some g ∧ g.getValue ⟨0, 0⟩ = some (some 5) ∧ g.getValue ⟨1, 0⟩ = some (some 17)) ∧
    (steps (model (· + 1) (fun _ _ => 0) (denseCellOps false spot Prod.snd both) add (fun _ => ())) 2
      (Driver.start (sim (0 : Nat) (· + 1) (fun _ _ => 0) (denseCellOps false spot Prod.snd both) add (fun _ => ()) pair (fun _ => 0))
        ⟨DenseNumber.new 2 1, 0⟩)).sched.events.map (fun e => e.1.agent) = [((1, 12), true)] ∧
    (steps (model (· + 1) (fun _ _ => 0) (denseCellOps false spot Prod.snd both) add (fun _ => ())) 2
      (Driver.start (sim (0 : Nat) (· + 1) (fun _ _ => 0) (denseCellOps false spot Prod.snd both) add (fun _ => ()) pair (fun _ => 0))
        ⟨DenseNumber.new 2 1, 0⟩)).state.field.map (fun g => [⟨0, 0⟩, ⟨1, 0⟩].map (DenseNumber.getValue g)) =
      some [some none, some (some 12)] := by
  have hsim : ∀ n wd, ParSteps (model (· + 1) (fun _ _ => 0) (parCellOps false spot Prod.snd both) add (fun _ => ())) threads n
      (Driver.start (sim (0 : Nat) (· + 1) (fun _ _ => 0) (parCellOps false spot Prod.snd both) add (fun _ => ()) pair (fun _ => 0))
        ⟨some (NGrid.newDense cpus hash 2 1), 0⟩) wd →
      ∃ σ : Nat → Nat → Nat, FollowsNodes (ParCellsShow spot Prod.snd) (fun _ => 0) ((· + 1)^[n] 0) n
        (nodesAt add (cellView spot Prod.snd both) (fun m i => (fun _ => ()) (σ m i)) (allAlive pair) n) wd := by
    intro n wd h
    obtain ⟨σ, _, h2⟩ := C218_parallel_update_partial (val := Prod.snd) (nbh := both) hc hash 2 1 (.inl rfl) (fun _ _ _ => rfl)
      (0 : Nat) (· + 1) (fun _ _ => 0) pair (by decide) (by decide) threads n wd h
    exact ⟨σ, h2⟩
  refine ⟨?_, ?_, by decide +kernel, by decide +kernel⟩
  · have go : ∀ n wd, n < 2 → ParSteps (model (· + 1) (fun _ _ => 0) (parCellOps false spot Prod.snd both) add (fun _ => ())) threads n
        (Driver.start (sim (0 : Nat) (· + 1) (fun _ _ => 0) (parCellOps false spot Prod.snd both) add (fun _ => ()) pair (fun _ => 0))
          ⟨some (NGrid.newDense cpus hash 2 1), 0⟩) wd →
        ∃ w', ParStep (model (· + 1) (fun _ _ => 0) (parCellOps false spot Prod.snd both) add (fun _ => ())) threads wd (.ok w') := by
      intro n wd hn h
      obtain ⟨σ, h2⟩ := hsim n wd h
      refine parStep_exists _ threads ht wd ?_
      rw [(preStep_model _ _ _).1]
      intro he
      have h1 := h2.agents
      rw [he] at h1
      have h3 := h1.symm.eq_nil
      rw [List.map_eq_nil_iff] at h3
      rcases (show n = 0 ∨ n = 1 by omega) with rfl | rfl
      · cases h3
      · have : living (nodesAt add (cellView spot Prod.snd both) (fun m i => (fun _ => ()) (σ m i)) (allAlive pair) 1) = [(1, (1, 12))] := rfl
        rw [this] at h3
        cases h3
    obtain ⟨w1, h1⟩ := go 0 _ (by omega) (.zero _)
    have s1 := Flockers.ParSteps.succ (.zero _) h1
    obtain ⟨w2, h2⟩ := go 1 _ (by omega) s1
    exact ⟨w2, .succ s1 h2⟩
  · intro wd h
    obtain ⟨σ, h1, _, g, h2, h3⟩ := hsim 2 wd h
    have hl : living (nodesAt add (cellView spot Prod.snd both) (fun m i => (fun _ => ()) (σ m i)) (allAlive pair) 2) =
        [(1, (1, 17))] := rfl
    rw [hl] at h1
    refine ⟨?_, g, h2, (h3 (by omega) ⟨0, 0⟩ trivial).trans rfl, (h3 (by omega) ⟨1, 0⟩ trivial).trans rfl⟩
    rw [List.perm_singleton.1 h1]
    rfl

end Verif.Sync
