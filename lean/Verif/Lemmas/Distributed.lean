import Verif.Spec.Distributed
import Verif.Props.KdTree
import Mathlib.Data.List.Perm.Lattice
import Mathlib.Data.List.Perm.Subperm

/-!
The invariant of a model on the distributed field.
-/

namespace Verif.KdTree

open Torus Field2D Grid

variable {O : Type} [BEq O]

/-! ### lists -/

theorem allOf_range {α β : Type} (f : α → Option β) {n : Nat} (hn : 0 < n) (p : Nat → α) (Q : Nat → β → Prop)
    (h : ∀ r < n, ∃ b, f (p r) = some b ∧ Q r b) :
    ∃ q, allOf f ((List.range n).map p) = some ((List.range n).map q) ∧ ∀ r < n, Q r (q r) := by
  classical
  have hex : ∀ r, ∃ b : β, r < n → f (p r) = some b ∧ Q r b := by
    intro r
    by_cases hr : r < n
    · obtain ⟨b, hb⟩ := h r hr
      exact ⟨b, fun _ => hb⟩
    · obtain ⟨b, _⟩ := h 0 hn
      exact ⟨b, fun hr' => absurd hr' hr⟩
  choose q hq using hex
  refine ⟨q, ?_, fun r hr => (hq r hr).2⟩
  have : ∀ l : List Nat, (∀ r ∈ l, r < n) → allOf f (l.map p) = some (l.map q) := by
    intro l
    induction l with
    | nil => intro _; rfl
    | cons r l ih =>
      intro hl
      rw [List.map_cons, allOf, (hq r (hl r List.mem_cons_self)).1, ih (fun s hs => hl s (List.mem_cons_of_mem _ hs))]
      rfl
  exact this _ (fun r hr => List.mem_range.1 hr)

/-- Splitting a list by a function with known values. -/
theorem split_by {α : Type} (g : α → Option Nat) (l : List α) (ks : List Nat) (hn : ks.Nodup) :
    (ks.flatMap (fun k => l.filter (fun a => g a == some k))).Perm
      (l.filter (fun a => ks.any (fun k => g a == some k))) := by
  induction ks with
  | nil => simp
  | cons k ks ih =>
    rw [List.nodup_cons] at hn
    rw [List.flatMap_cons]
    refine (List.Perm.append_left _ (ih hn.2)).trans ?_
    clear ih
    induction l with
    | nil => simp
    | cons a l ihl =>
      by_cases hk : g a = some k
      · have hno : ks.any (fun k => g a == some k) = false := by
          rw [List.any_eq_false]
          intro j hj hje
          rw [hk] at hje
          simp only [beq_iff_eq, Option.some.injEq] at hje
          exact hn.1 (hje ▸ hj)
        rw [List.filter_cons_of_pos (by simp [hk]), List.filter_cons_of_neg (by rw [hno]; simp),
          List.filter_cons_of_pos (by rw [List.any_cons, hk]; simp), List.cons_append]
        exact ihl.cons a
      · have hk' : (g a == some k) = false := by simpa using hk
        by_cases hks : ks.any (fun k => g a == some k) = true
        · rw [List.filter_cons_of_neg (by rw [hk']; simp), List.filter_cons_of_pos (p := fun a => ks.any (fun k => g a == some k)) hks,
            List.filter_cons_of_pos (by rw [List.any_cons, hks]; simp)]
          exact (List.perm_middle).trans (ihl.cons a)
        · rw [List.filter_cons_of_neg (by rw [hk']; simp), List.filter_cons_of_neg (p := fun a => ks.any (fun k => g a == some k)) hks,
            List.filter_cons_of_neg (by rw [List.any_cons, hk']; simpa using hks)]
          exact ihl

/-- The parts by owner together. -/
theorem parts_perm {α : Type} (g : α → Nat) (n : Nat) (l : List α) (h : ∀ a ∈ l, g a < n) :
    ((List.range n).flatMap (fun r => l.filter (fun a => g a == r))).Perm l := by
  have := split_by (fun a => some (g a)) l (List.range n) List.nodup_range
  simp only [Option.some_beq_some] at this
  refine this.trans (List.Perm.of_eq ?_)
  rw [List.filter_eq_self]
  intro a ha
  rw [List.any_eq_true]
  exact ⟨g a, List.mem_range.2 (h a ha), by simp⟩

theorem getD_replicate {α : Type} (n k : Nat) : (List.replicate n ([] : List α)).getD k [] = [] := by
  rw [List.getD_eq_getElem?_getD]
  by_cases hk : k < n
  · rw [List.getElem?_replicate_of_lt hk]
    rfl
  · rw [List.getElem?_eq_none (by simpa using hk)]
    rfl

/-! ### what an agent sees -/

/-- The test of the search. -/
def keeps (m : Rule O) (w h disc : Rat) (loc : Pos) (b : Loc) (e : O) : Bool :=
  keepExact (new w h disc true : Field2D.Field O) m.locOf loc m.sight b e && decide (m.locOf e ≠ loc)

/-- The agents found around `loc` if the bags are `pub`. -/
def found (m : Rule O) (w h disc : Rat) (pub : Loc → List O) (loc : Pos) : List O :=
  if m.sight ≤ 0 then []
  else (searchCells (new w h disc true : Field2D.Field O) loc m.sight).flatMap (fun c =>
    (pub (wrapped (new w h disc true : Field2D.Field O) c)).filter (keeps m w h disc loc (wrapped (new w h disc true : Field2D.Field O) c)))

/-- The agents of a list in a cell. -/
def inCell (m : Rule O) (disc : Rat) (l : List O) (c : Loc) : List O :=
  l.filter (fun e => discretize disc (m.locOf e) == c)

theorem search_found (m : Rule O) {t : Tree O} {w h disc : Rat} {pub cur : Loc → List O}
    (hs : Shows t.bags w h disc true pub cur) (loc : Pos) :
    getNeighborsWithinDistance t m.locOf loc m.sight = some (found m w h disc pub loc) := by
  unfold getNeighborsWithinDistance found
  by_cases hd : m.sight ≤ 0
  · rw [if_pos hd, if_pos hd]
  · rw [if_neg hd, if_neg hd, scan_eq hs.wf]
    have hw := hs.width
    have hh := hs.height
    have hdi := hs.disc
    have ht := hs.tor
    have hc : searchCells t.bags loc m.sight = searchCells (new w h disc true : Field2D.Field O) loc m.sight := by
      unfold searchCells
      rw [hw, hh, hdi, ht]
      rfl
    have hwr : ∀ c, wrapped t.bags c = wrapped (new w h disc true : Field2D.Field O) c := by
      intro c
      unfold wrapped
      rw [hw, hh, hdi]
      rfl
    have hk : ∀ b e, keepExact t.bags m.locOf loc m.sight b e =
        keepExact (new w h disc true : Field2D.Field O) m.locOf loc m.sight b e := by
      intro b e
      unfold keepExact
      rw [hw, hh, hdi, ht]
      rfl
    rw [hc]
    congr 1
    refine List.flatMap_congr (fun c _ => ?_)
    have hr := wrapped_inRange hs.wf c
    have hb : bagOf t.bags (wrapped t.bags c) = pub (wrapped t.bags c) := by
      unfold bagOf
      rw [hs.read _ hr]
      rfl
    rw [hb, hwr]
    refine List.filter_congr (fun e _ => ?_)
    unfold keeps
    rw [hk]

omit [BEq O] in
/-- What is found lies within sight. -/
theorem keeps_near (m : Rule O) {w h disc : Rat} (hd : 0 < disc) (hw : 0 < w) (hh : 0 < h) (hsight : 0 < m.sight)
    (hsmall : 2 * m.sight < w - disc ∧ 2 * m.sight < h - disc) {loc : Pos} {e : O} (he : InField w h (m.locOf e))
    (hk : keeps m w h disc loc (discretize disc (m.locOf e)) e = true) :
    Step w h m.sight (m.locOf e) loc := by
  unfold keeps keepExact at hk
  rw [Bool.and_eq_true, decide_eq_true_eq] at hk
  have hle : distSq (m.locOf e) loc w h true ≤ m.sight * m.sight := by
    rcases hk.1 with ⟨_, hk⟩ | hk
    · rw [distSq_symm _ _ _ hw hh]
      exact hk
    · exact full_cell_sound hd hw hh he loc m.sight hsight true (fun _ => hsmall) hk
  rw [within_iff _ _ _ hw hh] at hle
  obtain ⟨k, j, hle⟩ := hle
  obtain ⟨hx, hy⟩ := abs_of_sq (le_of_lt hsight) hle
  refine ⟨-k, -j, ?_, ?_⟩
  · push_cast
    exact ⟨by linarith [hx.1], by linarith [hx.2]⟩
  · push_cast
    exact ⟨by linarith [hy.1], by linarith [hy.2]⟩

omit [BEq O] in
/-- Two lists of agents look the same from `loc` if they have the same agents within sight. -/
theorem found_perm (m : Rule O) {w h disc : Rat} (hd : 0 < disc) (hw : 0 < w) (hh : 0 < h)
    (hsmall : 2 * m.sight < w - disc ∧ 2 * m.sight < h - disc) {loc : Pos} {X Y : List O}
    (hXY : ∀ K : O → Bool, (∀ e, InField w h (m.locOf e) → K e = true → Step w h m.sight (m.locOf e) loc) →
      (X.filter K).Perm (Y.filter K)) :
    (found m w h disc (inCell m disc X) loc).Perm (found m w h disc (inCell m disc Y) loc) := by
  unfold found
  by_cases hs : m.sight ≤ 0
  · rw [if_pos hs, if_pos hs]
  · rw [if_neg hs, if_neg hs]
    refine List.Perm.flatMap_left _ (fun c _ => ?_)
    unfold inCell
    rw [List.filter_filter, List.filter_filter]
    refine hXY _ (fun e he hk => ?_)
    rw [Bool.and_eq_true, beq_iff_eq] at hk
    refine keeps_near m hd hw hh (lt_of_not_ge hs) hsmall he ?_
    rw [hk.2]
    exact hk.1

omit [BEq O] in
theorem found_congr (m : Rule O) (w h disc : Rat) {X Y : List O} (hXY : X.Perm Y) (loc : Pos) :
    (found m w h disc (inCell m disc X) loc).Perm (found m w h disc (inCell m disc Y) loc) := by
  unfold found
  by_cases hs : m.sight ≤ 0
  · rw [if_pos hs, if_pos hs]
  · rw [if_neg hs, if_neg hs]
    exact List.Perm.flatMap_left _ (fun c _ => (hXY.filter _).filter _)

/-! ### the processes -/

/-- What the proof needs of the layouts of the processes; `B` are their boxes, `owner` is the process of a position. -/
structure Net (size : Nat) (w h d δ : Rat) (L : Nat → Layout) (B : Nat → Tile) (owner : Pos → Nat) : Prop where
  pos : 0 < size
  rank : ∀ r < size, (L r).rank = r
  count : ∀ r < size, (L r).size = size
  regs : ∀ r < size, (L r).haloRegions = regions (B r).x (B r).y (B r).w (B r).h d
  block : ∀ r < size, ∀ p, InField w h p → getBlockByLocation (L r) p = some (owner p)
  lt : ∀ p, InField w h p → owner p < size
  has : ∀ p, InField w h p → (B (owner p)).Has p
  send : ∀ r < size, ∀ s < size, ∀ t src : Tree O, t.layout = L r → src.layout = L s → src.agentsToSend.length = size →
    ∀ a, receivedFrom t src a false = some (if r ∈ (L s).neighborTrees then src.agentsToSend.getD r [] else [])
  self : ∀ r < size, r ∉ (L r).neighborTrees
  reach : ∀ p q, InField w h p → InField w h q → Step w h δ p q → owner q ≠ owner p → owner q ∈ (L (owner p)).neighborTrees
  halo : ∀ r < size, ∀ s < size, ∃ ks : List Nat, ks.Nodup ∧ (∀ k ∈ ks, k < 4) ∧ (r = s → ks = []) ∧
    (∀ t src : Tree O, t.layout = L r → src.layout = L s → ∀ a : List (List O), a.length = 4 →
      receivedFrom t src a true = some (ks.flatMap (fun k => a.getD k []))) ∧
    (r ≠ s → ∀ p, (B s).Has p → Near w h d p (B r) → ∃ k ∈ ks, haloOf (B s) d p = some k)

/-- A process that has inserted its agents. -/
structure Held (m : Rule O) (w h disc d : Rat) (L : Nat → Layout) (B : Nat → Tile) (owner : Pos → Nat) (r : Nat)
    (pub : Loc → List O) (s : Proc O) : Prop where
  layout : s.tree.layout = L r
  bags : Shows s.tree.bags w h disc true pub (inCell m disc s.own)
  four : s.tree.neighbors.length = 4
  halos : ∀ k < 4, s.tree.neighbors.getD k [] = s.own.filter (fun a => haloOf (B r) d (m.locOf a) == some k)
  mine : ∀ a ∈ s.own, InField w h (m.locOf a) ∧ owner (m.locOf a) = r

section

variable {size : Nat} {w h disc d δ : Rat} {L : Nat → Layout} {B : Nat → Tile} {owner : Pos → Nat} {m : Rule O}

theorem insert_held (hnet : Net (O := O) size w h d δ L B owner) {r : Nat} (hr : r < size) {pub : Loc → List O} {s : Proc O}
    (hh : Held m w h disc d L B owner r pub s) (a : O) (ha : InField w h (m.locOf a)) (hown : owner (m.locOf a) = r) :
    ∃ t, insert s.tree a (m.locOf a) = some t ∧ Held m w h disc d L B owner r pub ⟨t, s.own ++ [a]⟩ ∧
      t.agentsToSend = s.tree.agentsToSend := by
  obtain ⟨f, hf, _, _, hshow⟩ := shows_place hh.bags a (m.locOf a) ha
  have hin : (B r).Has (m.locOf a) := by
    have := hnet.has _ ha
    rwa [hown] at this
  have hreg : s.tree.layout.haloRegions = regions (B r).x (B r).y (B r).w (B r).h d := by
    rw [hh.layout]
    exact hnet.regs r hr
  have hp := pushHalo_eq hin a s.tree.neighbors hh.four (d := d)
  have hi : insert s.tree a (m.locOf a) = some { s.tree with bags := f, neighbors := (match haloOf (B r) d (m.locOf a) with
      | none => s.tree.neighbors
      | some k => s.tree.neighbors.modify k (fun l => l ++ [a])) } := by
    unfold insert
    rw [hf]
    dsimp only
    rw [hreg, hp]
    rfl
  refine ⟨_, hi, ⟨hh.layout, ?_, ?_, ?_, ?_⟩, rfl⟩
  · have hc : (fun c => if c = discretize disc (m.locOf a) then inCell m disc s.own c ++ [a] else inCell m disc s.own c) =
        inCell m disc (s.own ++ [a]) := by
      funext c
      unfold inCell
      rw [List.filter_append]
      by_cases hc : c = discretize disc (m.locOf a)
      · rw [if_pos hc, List.filter_cons_of_pos (by simp [hc])]
        rfl
      · rw [if_neg hc, List.filter_cons_of_neg (by simp [Ne.symm hc])]
        simp
    rw [← hc]
    exact hshow
  · dsimp only
    cases haloOf (B r) d (m.locOf a) with
    | none => exact hh.four
    | some k => dsimp only; rw [List.length_modify]; exact hh.four
  · intro k hk
    have h1 := hh.halos k hk
    have hk' : k < s.tree.neighbors.length := by rw [hh.four]; exact hk
    rw [List.getD_eq_getElem?_getD, List.getElem?_eq_getElem hk', Option.getD_some] at h1
    dsimp only
    rw [List.filter_append, ← h1]
    cases hj : haloOf (B r) d (m.locOf a) with
    | none =>
      dsimp only
      rw [List.filter_cons_of_neg (by rw [hj]; simp), List.getD_eq_getElem?_getD, List.getElem?_eq_getElem hk']
      simp
    | some j =>
      dsimp only
      rw [List.getD_eq_getElem?_getD, List.getElem?_modify, List.getElem?_eq_getElem hk']
      by_cases hjk : j = k
      · rw [List.filter_cons_of_pos (by rw [hj, hjk]; simp)]
        simp [hjk]
      · rw [List.filter_cons_of_neg (by rw [hj]; simp [hjk])]
        simp [hjk]
  · intro b hb
    rcases List.mem_append.1 hb with hb | hb
    · exact hh.mine b hb
    · rw [List.mem_singleton] at hb
      rw [hb]
      exact ⟨ha, hown⟩

theorem welcome_held (hnet : Net (O := O) size w h d δ L B owner) {r : Nat} (hr : r < size) {pub : Loc → List O} (l : List O) :
    ∀ s : Proc O, Held m w h disc d L B owner r pub s → (∀ a ∈ l, InField w h (m.locOf a) ∧ owner (m.locOf a) = r) →
    ∃ s', welcome m s l = some s' ∧ Held m w h disc d L B owner r pub s' ∧ s'.own = s.own ++ l := by
  induction l with
  | nil => intro s hs _; exact ⟨s, rfl, hs, by simp⟩
  | cons a l ih =>
    intro s hs hl
    obtain ⟨ha, hown⟩ := hl a List.mem_cons_self
    obtain ⟨t, h1, h2, _⟩ := insert_held hnet hr hs a ha hown
    obtain ⟨s', h3, h4, h5⟩ := ih ⟨t, s.own ++ [a]⟩ h2 (fun b hb => hl b (List.mem_cons_of_mem _ hb))
    refine ⟨s', by rw [welcome, h1]; exact h3, h4, ?_⟩
    rw [h5]
    simp

/-- The turns of a process: its agents act on what they saw at the beginning of the step. -/
theorem turns_held (hnet : Net (O := O) size w h d δ L B owner) {r : Nat} (hr : r < size) {pub : Loc → List O}
    (next : O → O) (l : List O) (hnext : ∀ a ∈ l, m.act a (found m w h disc pub (m.locOf a)) = next a)
    (hin : ∀ a ∈ l, InField w h (m.locOf (next a))) :
    ∀ s : Proc O, Held m w h disc d L B owner r pub s → s.tree.agentsToSend.length = size →
    ∃ s', turns m s l = some s' ∧ Held m w h disc d L B owner r pub s' ∧ s'.tree.agentsToSend.length = size ∧
      s'.own = s.own ++ (l.map next).filter (fun a => owner (m.locOf a) == r) ∧
      ∀ q < size, q ≠ r → s'.tree.agentsToSend.getD q [] =
        s.tree.agentsToSend.getD q [] ++ (l.map next).filter (fun a => owner (m.locOf a) == q) := by
  induction l with
  | nil => intro s hs hlen; exact ⟨s, rfl, hs, hlen, by simp, by simp⟩
  | cons a l ih =>
    intro s hs hlen
    have ha := hin a List.mem_cons_self
    have hpl : ∃ s1, place m s (next a) = some s1 ∧ Held m w h disc d L B owner r pub s1 ∧
        s1.tree.agentsToSend.length = size ∧
        s1.own = s.own ++ [next a].filter (fun a => owner (m.locOf a) == r) ∧
        ∀ q < size, q ≠ r → s1.tree.agentsToSend.getD q [] =
          s.tree.agentsToSend.getD q [] ++ [next a].filter (fun a => owner (m.locOf a) == q) := by
      unfold place
      rw [hs.layout, hnet.block r hr _ ha, Option.bind_some, hnet.rank r hr]
      by_cases ho : owner (m.locOf (next a)) = r
      · rw [if_pos ho]
        obtain ⟨t, h1, h2, h3⟩ := insert_held hnet hr hs (next a) ha ho
        rw [h1, Option.map_some]
        refine ⟨_, rfl, h2, by dsimp only; rw [h3]; exact hlen, ?_, ?_⟩
        · rw [List.filter_cons_of_pos (by simp [ho])]
          rfl
        · intro q _ hq
          dsimp only
          rw [h3, List.filter_cons_of_neg (by rw [ho]; simp [Ne.symm hq])]
          simp
      · rw [if_neg ho]
        have hlt : owner (m.locOf (next a)) < s.tree.agentsToSend.length := by rw [hlen]; exact hnet.lt _ ha
        rw [List.getElem?_eq_getElem hlt, Option.map_some]
        refine ⟨_, rfl, ⟨hs.layout, hs.bags, hs.four, hs.halos, hs.mine⟩, by simp [hlen], ?_, ?_⟩
        · rw [List.filter_cons_of_neg (by simp [ho])]
          simp
        · intro q hq _
          dsimp only
          have hq' : q < s.tree.agentsToSend.length := by rw [hlen]; exact hq
          rw [List.getD_eq_getElem?_getD, List.getD_eq_getElem?_getD, List.getElem?_set, List.getElem?_eq_getElem hq']
          by_cases hoq : owner (m.locOf (next a)) = q
          · subst hoq
            rw [if_pos rfl, if_pos hlt, List.filter_cons_of_pos (by simp)]
            simp
          · rw [if_neg hoq, List.filter_cons_of_neg (by simp [hoq])]
            simp
    obtain ⟨s1, p1, p2, p3, p4, p5⟩ := hpl
    obtain ⟨s', q1, q2, q3, q4, q5⟩ := ih (fun b hb => hnext b (List.mem_cons_of_mem _ hb))
      (fun b hb => hin b (List.mem_cons_of_mem _ hb)) s1 p2 p3
    refine ⟨s', ?_, q2, q3, ?_, ?_⟩
    · rw [turns, search_found m hs.bags, Option.bind_some, hnext a List.mem_cons_self, p1, Option.bind_some]
      exact q1
    · rw [q4, p4, List.append_assoc, ← List.filter_append]
      rfl
    · intro q hq hqr
      rw [q5 q hq hqr, p5 q hq hqr, List.append_assoc, ← List.filter_append]
      rfl

/-- A process at the beginning of a step; it also shows the agents `recv` of others. -/
structure Published (m : Rule O) (w h disc : Rat) (L : Nat → Layout) (owner : Pos → Nat) (size r : Nat)
    (recv : List O) (s : Proc O) : Prop where
  layout : s.tree.layout = L r
  bags : Shows s.tree.bags w h disc true (inCell m disc (s.own ++ recv)) (fun _ => [])
  halos : s.tree.neighbors = List.replicate 4 []
  sent : s.tree.agentsToSend = List.replicate size []
  mine : ∀ a ∈ s.own, InField w h (m.locOf a) ∧ owner (m.locOf a) = r

/-- Copies added for reading. -/
theorem showAll_shows (l : List O) : ∀ (t : Tree O) (X : List O),
    Shows t.bags w h disc true (inCell m disc X) (fun _ => []) → t.bags.densityCheck = true →
    (∀ a ∈ l, InField w h (m.locOf a)) →
    ∃ t', showAll m t l = some t' ∧ Shows t'.bags w h disc true (inCell m disc (X ++ l)) (fun _ => []) ∧
      t'.layout = t.layout ∧ t'.neighbors = t.neighbors ∧ t'.agentsToSend = t.agentsToSend := by
  induction l with
  | nil => intro t X ht _ _; exact ⟨t, rfl, by rw [List.append_nil]; exact ht, rfl, rfl, rfl⟩
  | cons a l ih =>
    intro t X ht hc hl
    have ha := hl a List.mem_cons_self
    obtain ⟨rfl, rfl, rfl⟩ : t.bags.width = w ∧ t.bags.height = h ∧ t.bags.discretization = disc :=
      ⟨ht.width, ht.height, ht.disc⟩
    have hr := inRange_of ht.wf ha
    obtain ⟨v, hv, hg⟩ := Grid.vecSet_some ht.wf.r.big hr (inCell m t.bags.discretization X (discretize t.bags.discretization (m.locOf a)) ++ [a])
    have hi : insertRead t a (m.locOf a) = some { t with bags := { t.bags with
        rbags := v, nagents := if t.bags.densityCheck then t.bags.nagents else t.bags.nagents + 1 } } := by
      unfold insertRead
      rw [ht.read _ hr]
      dsimp only
      rw [hv]
      rfl
    have hsh : Shows { t.bags with
        rbags := v, nagents := if t.bags.densityCheck then t.bags.nagents else t.bags.nagents + 1 }
        t.bags.width t.bags.height t.bags.discretization true (inCell m t.bags.discretization (X ++ [a])) (fun _ => []) := by
      refine ⟨⟨ht.wf.d, ht.wf.w, ht.wf.h, ht.wf.dw, ht.wf.dh, ?_, ht.wf.b, ?_⟩, rfl, rfl, rfl, ht.tor, ?_, ht.write⟩
      · exact hg.1.trans ht.wf.r
      · intro hf
        rw [show t.bags.densityCheck = true from hc] at hf
        cases hf
      · intro c hcr
        show vecGet v t.bags.dh c = _
        rw [hg.2 c hcr]
        unfold inCell
        rw [List.filter_append]
        by_cases hcc : c = discretize t.bags.discretization (m.locOf a)
        · rw [if_pos hcc, List.filter_cons_of_pos (by simp [hcc]), hcc]
          rfl
        · rw [if_neg hcc, List.filter_cons_of_neg (by simp [Ne.symm hcc]), ht.read c hcr]
          simp [inCell]
    obtain ⟨t', h1, h2, h3, h4, h5⟩ := ih { t with bags := { t.bags with
        rbags := v, nagents := if t.bags.densityCheck then t.bags.nagents else t.bags.nagents + 1 } } (X ++ [a]) hsh hc
      (fun b hb => hl b (List.mem_cons_of_mem _ hb))
    refine ⟨t', ?_, ?_, h3, h4, h5⟩
    · rw [showAll, hi]
      exact h1
    · rw [List.append_assoc] at h2
      exact h2

omit [BEq O] in
/-- The part of one process and what it gets from the others. -/
theorem own_and_rest (f g : Nat → List O) {l : List Nat} (hn : l.Nodup) {r : Nat} (hr : r ∈ l) (hfr : f r = [])
    (hfg : ∀ s ∈ l, s ≠ r → (f s).Perm (g s)) : (g r ++ l.flatMap f).Perm (l.flatMap g) := by
  have rest : ∀ l : List Nat, (∀ s ∈ l, s ≠ r) → (∀ s ∈ l, s ≠ r → (f s).Perm (g s)) → (l.flatMap f).Perm (l.flatMap g) :=
    fun l hl h => List.Perm.flatMap_left _ (fun s hs => h s hs (hl s hs))
  induction l with
  | nil => cases hr
  | cons s l ih =>
    rw [List.nodup_cons] at hn
    rw [List.flatMap_cons, List.flatMap_cons]
    by_cases hsr : s = r
    · subst hsr
      rw [hfr, List.nil_append]
      exact List.Perm.append_left _ (rest l (fun t ht => fun e => hn.1 (e ▸ ht))
        (fun t ht => hfg t (List.mem_cons_of_mem _ ht)))
    · have hr' : r ∈ l := by
        rcases List.mem_cons.1 hr with h | h
        · exact absurd h.symm hsr
        · exact h
      have := ih hn.2 hr' (fun t ht => hfg t (List.mem_cons_of_mem _ ht))
      have hs := hfg s List.mem_cons_self hsr
      rw [← List.append_assoc]
      refine ((List.perm_append_comm).append_right _).trans ?_
      rw [List.append_assoc]
      exact hs.append this

/-- A process after the end of a step. -/
structure Settled (m : Rule O) (w h disc : Rat) (L : Nat → Layout) (B : Nat → Tile) (owner : Pos → Nat) (size : Nat)
    (all : List O) (r : Nat) (s : Proc O) : Prop where
  pub : ∃ recv, Published m w h disc L owner size r recv s ∧
    ∀ loc, (B r).Has loc → (found m w h disc (inCell m disc (s.own ++ recv)) loc).Perm (found m w h disc (inCell m disc all) loc)
  part : s.own.Perm (all.filter (fun a => owner (m.locOf a) == r))

omit [BEq O] in
theorem fetch_eq {β : Nat → List O} {withRegions : Bool} {p : Nat → Proc O} {t : Proc O} (hpos : 0 < size)
    (hf : ∀ s < size, receivedFrom t.tree (p s).tree (p s).tree.precNeighbors withRegions = some (β s)) :
    fetch withRegions ((List.range size).map p) t = some ((List.range size).flatMap β) := by
  obtain ⟨q, h1, h2⟩ := allOf_range (fun src : Proc O => receivedFrom t.tree src.tree src.tree.precNeighbors withRegions)
    hpos p (fun s l => l = β s) (fun s hs => ⟨_, hf s hs, rfl⟩)
  unfold fetch
  rw [h1, Option.map_some, ← List.flatMap_def]
  congr 1
  exact List.flatMap_congr (fun s hs => h2 s (List.mem_range.1 hs))

theorem publish_settled (hnet : Net (O := O) size w h d δ L B owner) (hdisc : 0 < disc) (hw : 0 < w) (hh : 0 < h)
    (hsight : m.sight ≤ d) (hsmall : 2 * m.sight < w - disc ∧ 2 * m.sight < h - disc)
    (pub : Nat → Loc → List O) (p : Nat → Proc O) (hp : ∀ r < size, Held m w h disc d L B owner r (pub r) (p r))
    (all : List O) (hall : ∀ r < size, (p r).own.Perm (all.filter (fun a => owner (m.locOf a) == r)))
    (hin : ∀ a ∈ all, InField w h (m.locOf a)) :
    ∃ q, publish m ((List.range size).map p) = some ((List.range size).map q) ∧
      ∀ r < size, Settled m w h disc L B owner size all r (q r) := by
  classical
  obtain ⟨q, hq, hQ⟩ := allOf_range (fun s : Proc O => (lazyUpdate s.tree).map (fun t => (⟨t, s.own⟩ : Proc O))) hnet.pos p
    (fun r s => s.own = (p r).own ∧ s.tree.layout = L r ∧ Shows s.tree.bags w h disc true (inCell m disc (p r).own) (fun _ => []) ∧
      s.tree.bags.densityCheck = true ∧ s.tree.precNeighbors = (p r).tree.neighbors ∧
      s.tree.neighbors = List.replicate 4 [] ∧ s.tree.agentsToSend = List.replicate size []) (by
    intro r hr
    obtain ⟨f, h1, h2, _, h3⟩ := shows_lazy (hp r hr).bags
    refine ⟨(⟨⟨(p r).tree.layout, f, List.replicate 4 [], (p r).tree.neighbors,
        List.replicate (p r).tree.layout.size [], []⟩, (p r).own⟩ : Proc O),
      by unfold lazyUpdate; rw [h1]; rfl, rfl, (hp r hr).layout, h3, h2, rfl, rfl, ?_⟩
    dsimp only
    rw [(hp r hr).layout, hnet.count r hr])
  have hks : ∀ r s, ∃ ks : List Nat, r < size → s < size → ks.Nodup ∧ (∀ k ∈ ks, k < 4) ∧ (r = s → ks = []) ∧
    (∀ t src : Tree O, t.layout = L r → src.layout = L s → ∀ a : List (List O), a.length = 4 →
      receivedFrom t src a true = some (ks.flatMap (fun k => a.getD k []))) ∧
    (r ≠ s → ∀ p, (B s).Has p → Near w h d p (B r) → ∃ k ∈ ks, haloOf (B s) d p = some k) := by
    intro r s
    by_cases hrs : r < size ∧ s < size
    · obtain ⟨ks, hks⟩ := hnet.halo r hrs.1 s hrs.2
      exact ⟨ks, fun _ _ => hks⟩
    · exact ⟨[], fun h1 h2 => absurd ⟨h1, h2⟩ hrs⟩
  choose ks hks using hks
  have hperm : all.Perm ((List.range size).flatMap (fun s => (p s).own)) := by
    refine (parts_perm (fun a => owner (m.locOf a)) size all (fun a ha => hnet.lt _ (hin a ha))).symm.trans ?_
    exact List.Perm.flatMap_left _ (fun s hs => (hall s (List.mem_range.1 hs)).symm)
  have hβ : ∀ r < size, ∀ s < size, receivedFrom (q r).tree (q s).tree (q s).tree.precNeighbors true =
      some ((ks r s).flatMap (fun k => (p s).own.filter (fun a => haloOf (B s) d (m.locOf a) == some k))) := by
    intro r hr s hs
    obtain ⟨_, h2, _, h4, _⟩ := hks r s hr hs
    rw [h4 _ _ (hQ r hr).2.1 (hQ s hs).2.1 _ (by rw [(hQ s hs).2.2.2.2.1]; exact (hp s hs).four)]
    congr 1
    refine List.flatMap_congr (fun k hk => ?_)
    rw [(hQ s hs).2.2.2.2.1]
    exact (hp s hs).halos k (h2 k hk)
  obtain ⟨u, hu, hU⟩ := allOf_range (fun s : Proc O => (fetch true ((List.range size).map q) s).bind (fun l =>
      (showAll m s.tree l).map (fun t => (⟨t, s.own⟩ : Proc O)))) hnet.pos q
    (fun r s => Settled m w h disc L B owner size all r s) (by
    intro r hr
    obtain ⟨a1, a2, a3, a4, _, a6, a7⟩ := hQ r hr
    have hinr : ∀ a ∈ (List.range size).flatMap (fun s => (ks r s).flatMap (fun k => (p s).own.filter
        (fun a => haloOf (B s) d (m.locOf a) == some k))), InField w h (m.locOf a) := by
      intro a ha
      obtain ⟨s, hs, ha⟩ := List.mem_flatMap.1 ha
      obtain ⟨k, _, ha⟩ := List.mem_flatMap.1 ha
      exact ((hp s (List.mem_range.1 hs)).mine a (List.mem_filter.1 ha).1).1
    obtain ⟨t, b1, b2, b3, b4, b5⟩ := showAll_shows _ (q r).tree (p r).own a3 a4 hinr
    refine ⟨⟨t, (q r).own⟩, by rw [fetch_eq hnet.pos (hβ r hr), Option.bind_some, b1]; rfl, ?_, ?_⟩
    · refine ⟨_, ⟨b3.trans a2, by dsimp only; rw [a1]; exact b2, b4.trans a6, b5.trans a7, ?_⟩, ?_⟩
      · dsimp only
        rw [a1]
        exact (hp r hr).mine
      · intro loc hloc
        dsimp only
        rw [a1]
        refine found_perm m hdisc hw hh hsmall (fun K hK => ?_)
        refine List.Perm.trans ?_ (hperm.symm.filter K)
        rw [List.filter_append, List.filter_flatMap, List.filter_flatMap]
        refine own_and_rest _ (fun s => (p s).own.filter K) List.nodup_range (List.mem_range.2 hr) ?_ ?_
        · rw [(hks r r hr hr).2.2.1 rfl]
          rfl
        · intro s hs hsr
          have hs' := List.mem_range.1 hs
          refine ((split_by (fun a => haloOf (B s) d (m.locOf a)) (p s).own _ (hks r s hr hs').1).filter K).trans
            (List.Perm.of_eq ?_)
          rw [List.filter_filter]
          refine List.filter_congr (fun e he => ?_)
          cases hKe : K e with
          | false => rfl
          | true =>
            rw [Bool.true_and, List.any_eq_true]
            obtain ⟨h1, h2⟩ := (hp s hs').mine e he
            obtain ⟨j, n, hx, hy⟩ := hK e h1 hKe
            obtain ⟨k, hk, hk'⟩ := (hks r s hr hs').2.2.2.2 (Ne.symm hsr) (m.locOf e)
              (by have := hnet.has _ h1; rwa [h2] at this)
              ⟨loc, hloc, j, n, ⟨by linarith [hx.1], by linarith [hx.2]⟩, by linarith [hy.1], by linarith [hy.2]⟩
            exact ⟨k, hk, by rw [hk']; simp⟩
    · dsimp only
      rw [a1]
      exact hall r hr)
  refine ⟨u, ?_, hU⟩
  unfold publish
  rw [hq, Option.bind_some, hu]

/-- What the proof needs of the rule: what an agent does does not depend on the order of what it sees, it stays in the
field, and it moves at most `δ`. -/
structure Fits (m : Rule O) (w h δ : Rat) : Prop where
  order : ∀ a l l', l.Perm l' → m.act a l = m.act a l'
  stays : ∀ a l, InField w h (m.locOf a) → InField w h (m.locOf (m.act a l))
  near : ∀ a l, InField w h (m.locOf a) → Step w h δ (m.locOf a) (m.locOf (m.act a l))

/-- All agents act at once. -/
def together (m : Rule O) (w h disc : Rat) (all : List O) : List O :=
  all.map (fun a => m.act a (found m w h disc (inCell m disc all) (m.locOf a)))

omit [BEq O] in
theorem together_in (hfit : Fits m w h δ) {all : List O} (hin : ∀ a ∈ all, InField w h (m.locOf a)) :
    ∀ a ∈ together m w h disc all, InField w h (m.locOf a) := by
  intro a ha
  obtain ⟨b, hb, rfl⟩ := List.mem_map.1 ha
  exact hfit.stays b _ (hin b hb)

theorem step_settled (hnet : Net (O := O) size w h d δ L B owner) (hdisc : 0 < disc) (hw : 0 < w) (hh : 0 < h)
    (hsight : m.sight ≤ d) (hsmall : 2 * m.sight < w - disc ∧ 2 * m.sight < h - disc) (hfit : Fits m w h δ)
    (p : Nat → Proc O) (all : List O) (hp : ∀ r < size, Settled m w h disc L B owner size all r (p r))
    (hin : ∀ a ∈ all, InField w h (m.locOf a)) :
    ∃ q, distStep m ((List.range size).map p) = some ((List.range size).map q) ∧
      ∀ r < size, Settled m w h disc L B owner size (together m w h disc all) r (q r) := by
  let next : O → O := fun a => m.act a (found m w h disc (inCell m disc all) (m.locOf a))
  have hperm : all.Perm ((List.range size).flatMap (fun s => (p s).own)) := by
    refine (parts_perm (fun a => owner (m.locOf a)) size all (fun a ha => hnet.lt _ (hin a ha))).symm.trans ?_
    exact List.Perm.flatMap_left _ (fun s hs => (hp s (List.mem_range.1 hs)).part.symm)
  -- the turns
  obtain ⟨q, hq, hQ⟩ := allOf_range (fun s : Proc O => turns m ⟨s.tree, []⟩ s.own) hnet.pos p
    (fun r s => (∃ pub, Held m w h disc d L B owner r pub s) ∧ s.tree.agentsToSend.length = size ∧
      s.own = ((p r).own.map next).filter (fun a => owner (m.locOf a) == r) ∧
      ∀ t < size, t ≠ r → s.tree.agentsToSend.getD t [] = ((p r).own.map next).filter (fun a => owner (m.locOf a) == t)) (by
    intro r hr
    obtain ⟨recv, hpub, hsee⟩ := (hp r hr).pub
    obtain ⟨s', h1, h2, h3, h4, h5⟩ := turns_held hnet hr (pub := inCell m disc ((p r).own ++ recv)) next (p r).own
      (by
        intro a ha
        obtain ⟨i1, i2⟩ := hpub.mine a ha
        refine hfit.order _ _ _ (hsee _ ?_)
        have := hnet.has _ i1
        rwa [i2] at this)
      (fun a ha => hfit.stays a _ (hpub.mine a ha).1)
      ⟨(p r).tree, []⟩
      ⟨hpub.layout, hpub.bags, by dsimp only; rw [hpub.halos]; rfl, by
        intro k hk
        dsimp only
        rw [hpub.halos, getD_replicate]
        rfl, by simp⟩
      (by dsimp only; rw [hpub.sent, List.length_replicate])
    refine ⟨s', h1, ⟨_, h2⟩, h3, h4, ?_⟩
    intro t ht htr
    rw [h5 t ht htr]
    dsimp only
    rw [hpub.sent, getD_replicate]
    rfl)
  -- the agents that change the process
  have hβ : ∀ r < size, ∀ s < size, receivedFrom (q r).tree (q s).tree (q s).tree.precNeighbors false =
      some (if s = r then [] else ((p s).own.map next).filter (fun a => owner (m.locOf a) == r)) := by
    intro r hr s hs
    obtain ⟨⟨_, g1⟩, g2, _, g4⟩ := hQ s hs
    obtain ⟨⟨_, g1'⟩, _⟩ := hQ r hr
    rw [hnet.send r hr s hs _ _ g1'.layout g1.layout g2]
    congr 1
    by_cases hsr : s = r
    · subst hsr
      rw [if_pos rfl, if_neg (hnet.self s hs)]
    · rw [if_neg hsr]
      by_cases hrs : r ∈ (L s).neighborTrees
      · rw [if_pos hrs]
        exact g4 r hr (Ne.symm hsr)
      · rw [if_neg hrs]
        symm
        rw [List.filter_eq_nil_iff]
        intro a ha hown
        obtain ⟨b, hb, rfl⟩ := List.mem_map.1 ha
        rw [beq_iff_eq] at hown
        obtain ⟨_, hpub, _⟩ := (hp s hs).pub
        obtain ⟨i1, i2⟩ := hpub.mine b hb
        have := hnet.reach _ _ i1 (hfit.stays b _ i1) (hfit.near b (found m w h disc (inCell m disc all) (m.locOf b)) i1)
          (by rw [i2]; exact fun e => hsr (e.symm.trans hown))
        rw [i2] at this
        exact hrs (hown ▸ this)
  obtain ⟨u, hu, hU⟩ := allOf_range (fun s : Proc O => (fetch false ((List.range size).map q) s).bind (welcome m s)) hnet.pos q
    (fun r s => (∃ pub, Held m w h disc d L B owner r pub s) ∧
      s.own.Perm ((together m w h disc all).filter (fun a => owner (m.locOf a) == r))) (by
    intro r hr
    obtain ⟨⟨pub, g1⟩, _, g3, _⟩ := hQ r hr
    obtain ⟨s', h1, h2, h3⟩ := welcome_held hnet hr ((List.range size).flatMap (fun s => if s = r then [] else
        ((p s).own.map next).filter (fun a => owner (m.locOf a) == r))) (q r) g1 (by
      intro a ha
      obtain ⟨s, hs, ha⟩ := List.mem_flatMap.1 ha
      by_cases hsr : s = r
      · rw [if_pos hsr] at ha
        cases ha
      · rw [if_neg hsr] at ha
        obtain ⟨ha, hown⟩ := List.mem_filter.1 ha
        obtain ⟨b, hb, rfl⟩ := List.mem_map.1 ha
        obtain ⟨_, hpub, _⟩ := (hp s (List.mem_range.1 hs)).pub
        exact ⟨hfit.stays b _ (hpub.mine b hb).1, beq_iff_eq.1 hown⟩)
    refine ⟨s', by rw [fetch_eq hnet.pos (hβ r hr), Option.bind_some]; exact h1, ⟨pub, h2⟩, ?_⟩
    rw [h3, g3]
    refine (own_and_rest _ (fun s => ((p s).own.map next).filter (fun a => owner (m.locOf a) == r)) List.nodup_range
      (List.mem_range.2 hr) (if_pos rfl) (fun s _ hsr => ?_)).trans ?_
    · rw [if_neg hsr]
    · rw [← List.filter_flatMap, ← List.map_flatMap]
      exact (hperm.symm.map next).filter _)
  have hpub : ∀ r, ∃ pub, r < size → Held m w h disc d L B owner r pub (u r) := by
    intro r
    by_cases hr : r < size
    · obtain ⟨pub, h1⟩ := (hU r hr).1
      exact ⟨pub, fun _ => h1⟩
    · exact ⟨fun _ => [], fun h => absurd h hr⟩
  choose pub hpub using hpub
  obtain ⟨v, hv, hV⟩ := publish_settled hnet hdisc hw hh hsight hsmall pub u hpub (together m w h disc all)
    (fun r hr => (hU r hr).2) (together_in hfit hin)
  refine ⟨v, ?_, hV⟩
  unfold distStep
  rw [hq, Option.bind_some, hu, Option.bind_some, hv]

/-- The agents after a number of rounds in which all act at once. -/
def rounds (m : Rule O) (w h disc : Rat) (as : List O) : Nat → List O
  | 0 => as
  | n + 1 => together m w h disc (rounds m w h disc as n)

theorem run_settled (hnet : Net (O := O) size w h d δ L B owner)
    (hmade : ∀ r < size, createTree r size 0 ⟨0, 0, w, h⟩ d = some (L r)) (hdisc : 0 < disc) (hw : 0 < w) (hh : 0 < h)
    (hsight : m.sight ≤ d) (hsmall : 2 * m.sight < w - disc ∧ 2 * m.sight < h - disc) (hfit : Fits m w h δ)
    (as : List O) (hin : ∀ a ∈ as, InField w h (m.locOf a)) (n : Nat) :
    (∃ q, distRun m size ⟨0, 0, w, h⟩ disc d as n = some ((List.range size).map q) ∧
      ∀ r < size, Settled m w h disc L B owner size (rounds m w h disc as n) r (q r)) ∧
    ∀ a ∈ rounds m w h disc as n, InField w h (m.locOf a) := by
  induction n with
  | zero =>
    refine ⟨?_, hin⟩
    obtain ⟨q, hq, hQ⟩ := allOf_range (fun rank => (Tree.create rank size 0 ⟨0, 0, w, h⟩ disc d).bind (fun t : Tree O =>
        welcome m ⟨t, []⟩ (as.filter (fun a => getBlockByLocation t.layout (m.locOf a) == some rank)))) hnet.pos id
      (fun r s => Held m w h disc d L B owner r (fun _ => []) s ∧ s.own = as.filter (fun a => owner (m.locOf a) == r)) (by
      intro r hr
      have hfil : as.filter (fun a => getBlockByLocation (L r) (m.locOf a) == some r) =
          as.filter (fun a => owner (m.locOf a) == r) := by
        refine List.filter_congr (fun a ha => ?_)
        rw [hnet.block r hr _ (hin a ha), Option.some_beq_some]
      obtain ⟨s', h1, h2, h3⟩ := welcome_held hnet hr (pub := fun _ => []) (as.filter (fun a => owner (m.locOf a) == r))
        ⟨⟨L r, Field2D.new w h disc true, List.replicate 4 [], [], if size = 1 then [] else List.replicate size [], []⟩, []⟩
        ⟨rfl, shows_new true hw hh hdisc, rfl, fun k _ => getD_replicate 4 k, by simp⟩
        (fun a ha => ⟨hin a (List.mem_filter.1 ha).1, beq_iff_eq.1 (List.mem_filter.1 ha).2⟩)
      refine ⟨s', ?_, h2, by rw [h3]; rfl⟩
      unfold Tree.create
      rw [id, hmade r hr, Option.map_some, Option.bind_some]
      dsimp only
      rw [hfil]
      exact h1)
    rw [List.map_id] at hq
    obtain ⟨u, hu, hU⟩ := publish_settled hnet hdisc hw hh hsight hsmall (fun _ _ => []) q (fun r hr => (hQ r hr).1) as
      (fun r hr => by rw [(hQ r hr).2]) hin
    refine ⟨u, ?_, hU⟩
    rw [distRun, distInit, hq, Option.bind_some, hu]
  | succ n ih =>
    obtain ⟨⟨q, hq, hQ⟩, hin'⟩ := ih
    obtain ⟨u, hu, hU⟩ := step_settled hnet hdisc hw hh hsight hsmall hfit q _ hQ hin'
    refine ⟨⟨u, ?_, hU⟩, together_in hfit hin'⟩
    rw [distRun, hq, Option.bind_some, hu]

omit [BEq O] in
/-- The agents of all processes together. -/
theorem settled_agents (hnet : Net (O := O) size w h d δ L B owner) {all : List O} {q : Nat → Proc O}
    (hq : ∀ r < size, Settled m w h disc L B owner size all r (q r)) (hin : ∀ a ∈ all, InField w h (m.locOf a)) :
    (agents ((List.range size).map q)).Perm all := by
  unfold agents
  rw [List.flatMap_map]
  exact (List.Perm.flatMap_left _ (fun s hs => (hq s (List.mem_range.1 hs)).part)).trans
    (parts_perm (fun a => owner (m.locOf a)) size all (fun a ha => hnet.lt _ (hin a ha)))

end

/-! ### the layouts -/

omit [BEq O] in
/-- One process. -/
theorem net_one (w h d δ : Rat) (hd : InField w h = (⟨0, 0, w, h⟩ : Tile).Has) :
    Net (O := O) 1 w h d δ (fun r => layoutOf r 1 ⟨0, 0, w, h⟩ d [] (⟨0, 0, w, h⟩, [])) (fun _ => ⟨0, 0, w, h⟩) (fun _ => 0) where
  pos := by omega
  rank := fun _ _ => rfl
  count := fun _ _ => rfl
  regs := fun _ _ => rfl
  block := fun _ _ _ _ => rfl
  lt := fun _ _ => by omega
  has := fun p hp => by rw [hd] at hp; exact hp
  send := by
    intro r _ s _ t src ht hs _ a
    unfold receivedFrom
    rw [ht, hs]
    rfl
  self := fun _ _ => by simp [layoutOf]
  reach := fun _ _ _ _ _ h => absurd rfl h
  halo := by
    intro r hr s hs
    refine ⟨[], List.nodup_nil, by simp, fun _ => rfl, ?_, fun hne => absurd (by omega) hne⟩
    intro t src ht hs a _
    unfold receivedFrom
    rw [ht, hs]
    rfl

theorem inField_has (w h : Rat) : InField w h = (⟨0, 0, w, h⟩ : Tile).Has := by
  funext p
  unfold InField Tile.Has
  simp

theorem pairs_nodup (rank : Nat) (ow oh : Rat) (ts : List Tile) (x y w h d : Rat) :
    (neighborRegions rank ow oh (blocksFrom 0 ts) (regions x y w h d)).flatten.Nodup := by
  unfold neighborRegions
  rw [List.nodup_flatten]
  have hids : ((blocksFrom 0 ts).map Block.id).Nodup := by rw [blocksFrom_ids]; exact List.nodup_range'
  constructor
  · intro l hl
    obtain ⟨reg, _, rfl⟩ := List.mem_map.1 (List.mem_filter.1 hl).1
    unfold regionPairs
    have := (List.filter_sublist (p := fun b => b.id != rank && sharePoint (boundaryPoints ow oh reg.x reg.y reg.width reg.height)
      (boundaryPoints ow oh b.x b.y b.width b.height)) (l := blocksFrom 0 ts)).map Block.id |>.nodup hids
    have h2 := this.map (f := fun i => (reg.id, i)) (fun i j e => (Prod.mk.inj e).2)
    rw [List.map_map] at h2
    exact h2
  · refine List.Pairwise.sublist List.filter_sublist ?_
    rw [List.pairwise_map]
    have hdis : ∀ r1 r2 : Block, r1.id ≠ r2.id →
        List.Disjoint (regionPairs rank ow oh (blocksFrom 0 ts) r1) (regionPairs rank ow oh (blocksFrom 0 ts) r2) := by
      intro r1 r2 hne pr h1 h2
      obtain ⟨_, _, rfl⟩ := List.mem_map.1 h1
      obtain ⟨_, _, e⟩ := List.mem_map.1 h2
      exact hne (Prod.mk.inj e).1.symm
    refine List.Pairwise.imp (fun {a b} h => hdis a b h) ?_
    unfold regions
    simp

omit [BEq O] in
theorem flatMap_for (pairs : List (Nat × Nat)) (r : Nat) (f : Nat → List O) :
    pairs.flatMap (fun pr => if pr.2 = r then f pr.1 else []) = ((pairs.filter (fun pr => pr.2 == r)).map Prod.fst).flatMap f := by
  induction pairs with
  | nil => rfl
  | cons pr pairs ih =>
    rw [List.flatMap_cons, ih]
    by_cases h : pr.2 = r
    · rw [if_pos h, List.filter_cons_of_pos (by simp [h])]
      rfl
    · rw [if_neg h, List.filter_cons_of_neg (by simp [h])]
      rfl

/-- A number of processes for which the boxes form a grid. -/
theorem net_grid {size : Nat} (hs : 2 ≤ size) (hg : GridSize size) {w h d δ : Rat} (hw : 0 < w) (hh : 0 < h)
    (hsize : ∀ r l, r < size → createTree r size 0 ⟨0, 0, w, h⟩ d = some l →
      (2 * d < l.width ∧ 2 * d < l.height) ∧ 2 * δ < l.width ∧ 2 * δ < l.height) :
    ∃ L B owner, Net (O := O) size w h d δ L B owner ∧
      ∀ r < size, createTree r size 0 ⟨0, 0, w, h⟩ d = some (L r) := by
  have hpos : (0 : Rat) < (⟨0, 0, w, h⟩ : Tile).w ∧ (0 : Rat) < (⟨0, 0, w, h⟩ : Tile).h := ⟨hw, hh⟩
  have h0 : (0 : Rat) ≤ (⟨0, 0, w, h⟩ : Tile).x ∧ (0 : Rat) ≤ (⟨0, 0, w, h⟩ : Tile).y := ⟨le_refl _, le_refl _⟩
  obtain ⟨ts, h1, hlen, hpart, _⟩ := subtrees_spec hpos hs
  obtain ⟨ts', CX, CY, h1', hun⟩ := product_exists hpos hs hg
  rw [h1] at h1'
  obtain rfl := Option.some.inj h1'
  let T : Nat → Tile := fun r => ts.getD r ⟨0, 0, w, h⟩
  let L : Nat → Layout := fun r => layoutOf r size ⟨0, 0, w, h⟩ d (blocksFrom 0 ts)
    (T r, touching r w h (T r).x (T r).y (T r).w (T r).h (blocksFrom 0 ts))
  have hT : ∀ r < size, ts[r]? = some (T r) := by
    intro r hr
    have hr' : r < ts.length := by rw [hlen]; exact hr
    show ts[r]? = some (ts.getD r _)
    rw [List.getD_eq_getElem?_getD, List.getElem?_eq_getElem hr']
    rfl
  have hmade : ∀ r < size, createTree r size 0 ⟨0, 0, w, h⟩ d = some (L r) := by
    intro r hr
    obtain ⟨ts', t, g1, g2, g3⟩ := createTree_spec (d := d) hpos hs hr
    rw [h1] at g1
    obtain rfl := Option.some.inj g1
    rw [hT r hr] at g2
    obtain rfl := Option.some.inj g2
    exact g3
  have hcov : ∀ p, InField w h p → ∃ b, getBlockByLocation (L 0) p = some b ∧ b < size ∧ (T b).Has p := by
    intro p hp
    rw [inField_has] at hp
    obtain ⟨b, hb, g1, g2⟩ := (C57_location 0 size 0 ⟨0, 0, w, h⟩ d hpos hs (L 0) (hmade 0 (by omega)) p).1 hp
    have hb' := mem_blocks0.1 (show b ∈ blocksFrom 0 ts from hb)
    have hlt : b.id < size := by
      obtain ⟨hlt, _⟩ := List.getElem?_eq_some_iff.1 hb'
      rw [← hlen]
      exact hlt
    refine ⟨b.id, g1, hlt, ?_⟩
    rw [hT _ hlt] at hb'
    rw [Option.some.inj hb']
    exact g2
  have hblocks : ∀ r p, getBlockByLocation (L r) p = getBlockByLocation (L 0) p := fun _ _ => rfl
  have hnb : ∀ r < size, ∀ s < size, r ≠ s → ShareCorner w h (T s) (T r) → r ∈ (L s).neighborTrees := by
    intro r hr s hs' hne hsh
    have : r ∈ allNeighbors size ⟨0, 0, w, h⟩ d s :=
      (mem_allNeighbors d hpos h0 hs h1).2 ⟨hs', hne, _, _, hT s hs', hT r hr, hsh⟩
    unfold allNeighbors at this
    rw [if_pos hs', hmade s hs'] at this
    exact this
  refine ⟨L, T, fun p => (getBlockByLocation (L 0) p).getD 0, ⟨by omega, fun _ _ => rfl, fun _ _ => rfl, fun _ _ => rfl,
    ?_, ?_, ?_, ?_, ?_, ?_, ?_⟩, hmade⟩
  · intro r _ p hp
    obtain ⟨b, g1, _⟩ := hcov p hp
    rw [hblocks, g1]
    rfl
  · intro p hp
    obtain ⟨b, g1, g2, _⟩ := hcov p hp
    rw [g1]
    exact g2
  · intro p hp
    obtain ⟨b, g1, _, g3⟩ := hcov p hp
    rw [g1]
    exact g3
  · intro r hr s hs' t src ht hsrc hl a
    have er : t.layout.rank = r := by rw [ht]; rfl
    have es : src.layout.rank = s := by rw [hsrc]; rfl
    have := C83_delivery size ⟨0, 0, w, h⟩ d hpos h0 hs t src (by rw [er]; exact hr) (by rw [es]; exact hs')
      (by rw [er, ht]; exact hmade r hr) (by rw [es, hsrc]; exact hmade s hs') hl a
    rw [er, hsrc] at this
    exact this
  · intro r hr hmem
    exact (mem_touching.1 (show r ∈ touching r w h (T r).x (T r).y (T r).w (T r).h (blocksFrom 0 ts) from hmem)).1 rfl
  · intro p q hp hq hstep hne
    obtain ⟨b, g1, g2, g3⟩ := hcov p hp
    obtain ⟨c, k1, k2, k3⟩ := hcov q hq
    rw [g1, k1, Option.getD_some, Option.getD_some] at hne
    rw [g1, k1, Option.getD_some, Option.getD_some]
    obtain ⟨i, j, hx, hy⟩ := hstep
    have hb := hsize b _ g2 (hmade b g2)
    exact hnb c k2 b g2 hne (near_share hun (List.mem_of_getElem? (hT b g2)) (List.mem_of_getElem? (hT c k2)) hb.2.1 hb.2.2
      g3 ⟨q, k3, i, j, hx, hy⟩)
  · intro r hr s hs'
    by_cases hmem : r ∈ (L s).neighborTrees
    · have hne : r ≠ s := (mem_touching.1
        (show r ∈ touching s w h (T s).x (T s).y (T s).w (T s).h (blocksFrom 0 ts) from hmem)).1
      have hmut := (C83_mutual size ⟨0, 0, w, h⟩ d hpos h0 hs s r hs' hr _ _ (hmade s hs') (hmade r hr)).1 hmem
      let pairs := (neighborRegions s w h (blocksFrom 0 ts) (regions (T s).x (T s).y (T s).w (T s).h d)).flatten
      have hidx : ∀ pr ∈ pairs, pr.1 < 4 := by
        rintro ⟨a, b⟩ hpr
        obtain ⟨_, reg, hreg', rfl, _⟩ := mem_neighborRegions.1 hpr
        simp only [regions, List.mem_cons, List.not_mem_nil, or_false] at hreg'
        rcases hreg' with rfl | rfl | rfl | rfl <;> norm_num
      refine ⟨(pairs.filter (fun pr => pr.2 == r)).map Prod.fst, ?_, ?_, fun e => absurd e hne, ?_, ?_⟩
      · refine List.Nodup.map_on ?_ ((pairs_nodup s w h ts _ _ _ _ d).filter _)
        intro a ha b hb e
        have := beq_iff_eq.1 (List.mem_filter.1 ha).2
        have := beq_iff_eq.1 (List.mem_filter.1 hb).2
        exact Prod.ext e (by simp_all)
      · intro k hk
        obtain ⟨pr, hpr, rfl⟩ := List.mem_map.1 hk
        exact hidx pr (List.mem_filter.1 hpr).1
      · intro t src ht hsrc a ha
        unfold receivedFrom
        rw [ht, hsrc]
        rw [if_pos (show (L s).rank ∈ (L r).neighborTrees ∧ (L r).rank ∈ (L s).neighborTrees from ⟨hmut, hmem⟩)]
        unfold prepared
        rw [if_pos rfl, hsrc, ← flatMap_for]
        exact sentByRegions_eq pairs a r (by rw [ha]; exact hidx)
      · intro _ p hp hnear
        have hb := hsize s _ hs' (hmade s hs')
        obtain ⟨k, reg, g1, g2, g3, g4⟩ := halo_reaches hpos h0 hpart hun (hT s hs') (hT r hr) (Ne.symm hne) hb.1.1 hb.1.2 hp hnear
        refine ⟨k, List.mem_map.2 ⟨(k, r), List.mem_filter.2 ⟨?_, by simp⟩, rfl⟩, g1⟩
        exact mem_neighborRegions.2 ⟨hne, reg, g2, g3, T r, hT r hr, g4⟩
    · refine ⟨[], List.nodup_nil, by simp, fun _ => rfl, ?_, ?_⟩
      · intro t src ht hsrc a _
        have hmut : ¬ s ∈ (L r).neighborTrees := fun hsr =>
          hmem ((C83_mutual size ⟨0, 0, w, h⟩ d hpos h0 hs s r hs' hr _ _ (hmade s hs') (hmade r hr)).2 hsr)
        unfold receivedFrom
        rw [ht, hsrc, if_neg (show ¬ ((L s).rank ∈ (L r).neighborTrees ∧ (L r).rank ∈ (L s).neighborTrees) from
          fun h => hmem h.2), if_neg (show ¬ ((L s).rank ∈ (L r).neighborTrees ∨ (L r).rank ∈ (L s).neighborTrees) from
          fun h => h.elim hmut hmem)]
        rfl
      · intro hne p hp hnear
        have hb := hsize s _ hs' (hmade s hs')
        exact absurd (hnb r hr s hs' hne (near_share hun (List.mem_of_getElem? (hT s hs')) (List.mem_of_getElem? (hT r hr))
          hb.1.1 hb.1.2 hp hnear)) hmem

end Verif.KdTree
