import Verif.Props.Reach
import Verif.Props.SyncCells

/-! C273 for cellular automata: the value of a cell depends only on the cells that can be reached by looking once in every step. -/

set_option linter.unusedSectionVars false

namespace Verif.Sync

open Schedule Grid Torus
open Flockers (ParSteps)
open ParGrid (NGrid)

variable {T D B N : Type} [LinearOrder T] [DecidableEq B] {loc : B → Loc} {val : B → N} {nbh : B → List Loc} {act : D → B → List (Option N) → B × Bool} {rnd : Nat → D} {ord : Nat → Int}

open Classical in
/-- In an automaton: populations. -/
theorem cells_near (hstay : ∀ x b v, loc (act x b v).1 = loc b) {R : ℚ} (hR : 0 ≤ R) (hreach : ∀ b, ∀ l ∈ nbh b, Nearby (loc b) l R) (p : Loc) {r : Nat → Nat → D}
    {agents agents' : List B} (hid : (agents.map loc).Nodup) (hid' : (agents'.map loc).Nodup) (n : Nat) {ρ : ℚ} (hρ : 0 ≤ ρ)
    (hsame : SameThere (fun b => Nearby p (loc b) (ρ + n * R)) (numbered agents) (numbered agents')) :
    SameThere (fun b => Nearby p (loc b) ρ) (popAt act (cellView loc val nbh) r (numbered agents) n) (popAt act (cellView loc val nbh) r (numbered agents') n) := by
  have idn : ∀ {as : List B}, (as.map loc).Nodup → ((numbered as).map (fun x => cellNo (loc x.2))).Nodup := by
    intro as h
    have e : (numbered as).map (fun x => cellNo (loc x.2)) = ((numbered as).map Prod.snd).map (fun b => cellNo (loc b)) := by rw [List.map_map]; rfl
    rw [e, numbered_snd]
    exact cells_nodup h
  refine popAt_near (near := fun ρ b => Nearby p (loc b) ρ) (s := 0) (R := R) (ok := fun _ => True) (cells_lawful hstay (fun _ _ _ _ => trivial)) ?_ hR (le_refl _) ?_ ?_ ?_
    (fun _ _ => trivial) (fun _ _ => trivial) (idn hid) (idn hid') n hρ ?_
  · intro r r' b h1 h2 h3
    exact (sparseCellLaws true loc val nbh).perm b h1 h2 h3
  · intro ρ ρ' b _ hle hb
    exact ⟨le_trans hb.1 hle, le_trans hb.2 hle⟩
  · intro ρ x b v _ _ hb
    rw [hstay] at hb
    rw [add_zero]
    exact hb
  · intro ρ pop b _ _ _ hb
    unfold cellView
    refine List.map_congr_left (fun l hl => ?_)
    have e : (pop.filter (fun x => decide (Nearby p (loc x) (ρ + R)))).filter (fun x => decide (loc x = l)) = pop.filter (fun x => decide (loc x = l)) := by
      rw [List.filter_filter]
      refine List.filter_congr (fun x _ => ?_)
      by_cases hx : loc x = l
      · have := nearby_triangle hb (hreach b l hl)
        rw [← hx] at this
        simp [hx]
        rw [← hx]
        exact this
      · simp [hx]
    unfold valueAt
    rw [e]
  · rw [zero_add]
    exact hsame

/-- **C273, cellular automata on a dense number grid**, published with `update` or with `lazy_update`. -/
theorem C273_dense_cells_partial {w h : Int} (hw : 0 ≤ w) (hh : 0 ≤ h) (fast fast' : Bool) (hstay : ∀ x b v, loc (act x b v).1 = loc b)
    (hn : ∀ x b v, nbh (act x b v).1 = nbh b) (h0 : ∀ x x' b v, act x b v = act x' b v) {R : ℚ} (hR : 0 ≤ R) (hreach : ∀ b, ∀ l ∈ nbh b, Nearby (loc b) l R) (p : Loc)
    (zero : T) (adv : T → T) (tb tb' : TieBreak T (B × Bool)) {agents agents' : List B} (hok : ∀ b ∈ agents, GridOk loc nbh w h b) (hok' : ∀ b ∈ agents', GridOk loc nbh w h b)
    (hid : (agents.map loc).Nodup) (hid' : (agents'.map loc).Nodup) (n : Nat) {ρ : ℚ} (hρ : 0 ≤ ρ)
    (hsame : SameThere (fun b => Nearby p (loc b) (ρ + n * R)) (numbered agents) (numbered agents')) :
    SameEvents (fun b => Nearby p (loc b) ρ)
      (steps (model adv tb (denseCellOps fast loc val nbh) act rnd) n (Driver.start (sim zero adv tb (denseCellOps fast loc val nbh) act rnd agents ord) ⟨DenseNumber.new w h, 0⟩)).sched.events
      (steps (model adv tb' (denseCellOps fast' loc val nbh) act rnd) n (Driver.start (sim zero adv tb' (denseCellOps fast' loc val nbh) act rnd agents' ord) ⟨DenseNumber.new w h, 0⟩)).sched.events := by
  obtain ⟨σ, _, h1⟩ := C217_dense_cells (rnd := rnd) (ord := ord) (val := val) hw hh fast hstay hn zero adv tb agents hok hid n
  obtain ⟨σ', _, h2⟩ := C217_dense_cells (rnd := rnd) (ord := ord) (val := val) hw hh fast' hstay hn zero adv tb' agents' hok' hid' n
  have h1 := h1 n (le_refl _)
  have h2 := h2 n (le_refl _)
  rw [popAt_sure h0 _ (fun m i => rnd (σ m i))] at h2
  exact follows_near h1 h2 (cells_near hstay hR hreach p hid hid' n hρ hsame)

/-- **C273, cellular automata on a sparse number grid.** -/
theorem C273_sparse_cells_partial (w h : Int) (fast fast' : Bool) (hstay : ∀ x b v, loc (act x b v).1 = loc b) (h0 : ∀ x x' b v, act x b v = act x' b v)
    {R : ℚ} (hR : 0 ≤ R) (hreach : ∀ b, ∀ l ∈ nbh b, Nearby (loc b) l R) (p : Loc)
    (zero : T) (adv : T → T) (tb tb' : TieBreak T (B × Bool)) {agents agents' : List B}
    (hid : (agents.map loc).Nodup) (hid' : (agents'.map loc).Nodup) (n : Nat) {ρ : ℚ} (hρ : 0 ≤ ρ)
    (hsame : SameThere (fun b => Nearby p (loc b) (ρ + n * R)) (numbered agents) (numbered agents')) :
    SameEvents (fun b => Nearby p (loc b) ρ)
      (steps (model adv tb (sparseCellOps fast loc val nbh) act rnd) n (Driver.start (sim zero adv tb (sparseCellOps fast loc val nbh) act rnd agents ord) ⟨some (SparseNumber.new w h), 0⟩)).sched.events
      (steps (model adv tb' (sparseCellOps fast' loc val nbh) act rnd) n
        (Driver.start (sim zero adv tb' (sparseCellOps fast' loc val nbh) act rnd agents' ord) ⟨some (SparseNumber.new w h), 0⟩)).sched.events := by
  obtain ⟨σ, _, h1⟩ := C217_sparse_cells (rnd := rnd) (ord := ord) (val := val) (nbh := nbh) w h fast hstay zero adv tb agents hid n
  obtain ⟨σ', _, h2⟩ := C217_sparse_cells (rnd := rnd) (ord := ord) (val := val) (nbh := nbh) w h fast' hstay zero adv tb' agents' hid' n
  have h1 := h1 n (le_refl _)
  have h2 := h2 n (le_refl _)
  rw [popAt_sure h0 _ (fun m i => rnd (σ m i))] at h2
  exact follows_near h1 h2 (cells_near hstay hR hreach p hid hid' n hρ hsame)

/-- **C273, cellular automata under the feature `parallel`**, on either grid. -/
theorem C273_parallel_cells_partial {cpus : Nat} (hc : DBDashMap.shardAmount cpus ≤ 2 ^ 64) (hash : Loc → Nat) (w h : Int) {g : NGrid N}
    (hg : g = NGrid.newDense cpus hash w h ∨ g = NGrid.newSparse cpus hash w h) (hstay : ∀ x b v, loc (act x b v).1 = loc b) (h0 : ∀ x x' b v, act x b v = act x' b v)
    {R : ℚ} (hR : 0 ≤ R) (hreach : ∀ b, ∀ l ∈ nbh b, Nearby (loc b) l R) (p : Loc)
    (zero : T) (adv : T → T) (tb tb' : TieBreak T (B × Bool)) {agents agents' : List B}
    (hid : (agents.map loc).Nodup) (hid' : (agents'.map loc).Nodup) (threads threads' n : Nat) {ρ : ℚ} (hρ : 0 ≤ ρ)
    (hsame : SameThere (fun b => Nearby p (loc b) (ρ + n * R)) (numbered agents) (numbered agents'))
    (wd wd' : World T (B × Bool) (State (NGrid N)))
    (hs : ParSteps (model adv tb (parCellOps true loc val nbh) act rnd) threads n
      (Driver.start (sim zero adv tb (parCellOps true loc val nbh) act rnd agents ord) ⟨some g, 0⟩) wd)
    (hs' : ParSteps (model adv tb' (parCellOps true loc val nbh) act rnd) threads' n
      (Driver.start (sim zero adv tb' (parCellOps true loc val nbh) act rnd agents' ord) ⟨some g, 0⟩) wd') :
    SameEvents (fun b => Nearby p (loc b) ρ) wd.sched.events wd'.sched.events := by
  obtain ⟨σ, _, h1⟩ := C217_parallel_cells (rnd := rnd) (ord := ord) hc hash w h hg hstay zero adv tb agents hid threads n wd hs
  obtain ⟨σ', _, h2⟩ := C217_parallel_cells (rnd := rnd) (ord := ord) hc hash w h hg hstay zero adv tb' agents' hid' threads' n wd' hs'
  rw [popAt_sure h0 _ (fun m i => rnd (σ m i))] at h2
  exact follows_near h1 h2 (cells_near hstay hR hreach p hid hid' n hρ hsame)

/-! ### A concrete automaton -/

namespace Cone

/-- A cell of a row of five: where it is and its value. -/
abbrev Cell := Nat × Nat

/-- Where a cell is. -/
def cellAt (b : Cell) : Loc := ⟨b.1, 0⟩

/-- A cell looks at the cell before it, the first at itself. -/
def before (b : Cell) : List Loc := [⟨((b.1 - 1 : Nat) : Int), 0⟩]

/-- A cell takes the value it sees. -/
def take (_ : Unit) (b : Cell) (v : List (Option Nat)) : Cell × Bool := ((b.1, ((v.head?.join).getD 0)), true)

example : (∀ x b v, cellAt (take x b v).1 = cellAt b) ∧ (∀ x b v, before (take x b v).1 = before b) ∧ ∀ b, ∀ l ∈ before b, Nearby (cellAt b) l 1 := by
  refine ⟨fun _ _ _ => rfl, fun _ _ _ => rfl, ?_⟩
  intro b l hl
  rw [List.mem_singleton.1 hl]
  unfold Nearby cellAt
  dsimp only
  have h : ((((b.1 - 1 : Nat) : Int) - (b.1 : Int)).natAbs) ≤ 1 := by omega
  exact ⟨by exact_mod_cast h, by norm_num⟩

/-- A row of five. -/
def row (first : Nat) : List Cell := [(0, first), (1, 0), (2, 0), (3, 0), (4, 0)]

/-- Two rows that differ in the first cell: the difference moves by one cell in every step. -/
example : ∀ a ∈ [7, 8], ((steps (model (· + 1) (fun _ _ => 0) (denseCellOps false cellAt Prod.snd before) take (fun _ => ())) 2
      (Driver.start (sim (0 : Nat) (· + 1) (fun _ _ => 0) (denseCellOps false cellAt Prod.snd before) take (fun _ => ()) (row a) (fun i => i)) ⟨DenseNumber.new 5 1, 0⟩)).sched.events.map
        (fun e => e.1.agent.1)).Perm [(0, a), (1, a), (2, a), (3, 0), (4, 0)] := by
  decide +kernel

end Cone

end Verif.Sync
