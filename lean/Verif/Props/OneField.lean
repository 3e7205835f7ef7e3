import Verif.Spec.OneField
import Verif.Props.Distributed

/-!
C231: from a model on a toroidal `Field2D` to the same model on the distributed field.
-/

namespace Verif.KdTree

open Torus Field2D Grid

section

variable {O : Type} [BEq O]

/-! ### The run on one field -/

variable {m : Rule O} {w h disc : Rat}

/-- A tree with given bags, to use what is known of its search. -/
theorem field_found (hb : Blind m) {f : Field2D.Field O} {pub cur : Loc → List O} (hs : Shows f w h disc true pub cur) (a : O) :
    ∃ ns, Field2D.getNeighborsWithinDistance f m.locOf (m.locOf a) m.sight = some ns ∧
      m.act a ns = m.act a (found m w h disc pub (m.locOf a)) := by
  classical
  obtain ⟨t, ht⟩ : ∃ t : Tree O, t.bags = f := by
    obtain ⟨l, hl⟩ : ∃ l : Layout, createTree 0 1 0 ⟨0, 0, 1, 1⟩ 0 = some l := ⟨_, rfl⟩
    exact ⟨{ layout := l, bags := f, neighbors := [], precNeighbors := [], agentsToSend := [], receivedNeighbors := [] }, rfl⟩
  have h1 := search_found m (t := t) (by rw [ht]; exact hs) (m.locOf a)
  rw [C85_search_is_field_search, ht] at h1
  cases hn : Field2D.getNeighborsWithinDistance f m.locOf (m.locOf a) m.sight with
  | none => rw [hn] at h1; cases h1
  | some ns =>
    rw [hn] at h1
    refine ⟨ns, rfl, ?_⟩
    rw [hb a ns]
    exact congrArg _ (Option.some.inj h1)

theorem place_cell {f : Field2D.Field O} {pub : Loc → List O} {X : List O} (hs : Shows f w h disc true pub (inCell m disc X)) (a : O)
    (ha : InField w h (m.locOf a)) :
    ∃ f', setObjectLocation f a (m.locOf a) = some f' ∧ Shows f' w h disc true pub (inCell m disc (X ++ [a])) := by
  obtain ⟨f', h1, _, _, h2⟩ := shows_place hs a (m.locOf a) ha
  refine ⟨f', h1, ?_⟩
  have : (fun c => if c = discretize disc (m.locOf a) then inCell m disc X c ++ [a] else inCell m disc X c) =
      inCell m disc (X ++ [a]) := by
    funext c
    unfold inCell
    rw [List.filter_append]
    by_cases hc : c = discretize disc (m.locOf a)
    · rw [if_pos hc, List.filter_cons_of_pos (by simp [hc])]
      rfl
    · rw [if_neg hc, List.filter_cons_of_neg (by simpa using fun e => hc e.symm)]
      simp
  rw [← this]
  exact h2

theorem placeAll_cell : ∀ (as : List O) {f : Field2D.Field O} {pub : Loc → List O} {X : List O},
    Shows f w h disc true pub (inCell m disc X) → (∀ a ∈ as, InField w h (m.locOf a)) →
    ∃ f', placeAll m f as = some f' ∧ Shows f' w h disc true pub (inCell m disc (X ++ as)) := by
  intro as
  induction as with
  | nil => intro f pub X hs _; exact ⟨f, rfl, by rw [List.append_nil]; exact hs⟩
  | cons a as ih =>
    intro f pub X hs hin
    obtain ⟨f1, h1, h2⟩ := place_cell hs a (hin a List.mem_cons_self)
    obtain ⟨f2, h3, h4⟩ := ih h2 (fun b hb => hin b (List.mem_cons_of_mem _ hb))
    refine ⟨f2, ?_, by rw [List.append_assoc] at h4; exact h4⟩
    rw [placeAll, h1]
    exact h3

theorem fieldTurns_cell (hb : Blind m) (hstay : ∀ a l, InField w h (m.locOf a) → InField w h (m.locOf (m.act a l))) {pub : Loc → List O} :
    ∀ (as : List O) {f : Field2D.Field O} {X : List O}, Shows f w h disc true pub (inCell m disc X) →
    (∀ a ∈ as, InField w h (m.locOf a)) →
    ∃ f', fieldTurns m f as = some (f', as.map (fun a => m.act a (found m w h disc pub (m.locOf a)))) ∧
      Shows f' w h disc true pub (inCell m disc (X ++ as.map (fun a => m.act a (found m w h disc pub (m.locOf a))))) := by
  intro as
  induction as with
  | nil => intro f X hs _; exact ⟨f, rfl, by rw [List.map_nil, List.append_nil]; exact hs⟩
  | cons a as ih =>
    intro f X hs hin
    obtain ⟨ns, n1, n2⟩ := field_found hb hs a
    obtain ⟨f1, h1, h2⟩ := place_cell hs (m.act a ns) (hstay a ns (hin a List.mem_cons_self))
    obtain ⟨f2, h3, h4⟩ := ih h2 (fun b hb => hin b (List.mem_cons_of_mem _ hb))
    rw [n2] at h1 h4
    rw [List.append_assoc] at h4
    refine ⟨f2, ?_, h4⟩
    rw [fieldTurns, n1, Option.bind_some, n2, h1, Option.bind_some, h3]
    rfl

theorem fieldRun_rounds (hb : Blind m) (hstay : ∀ a l, InField w h (m.locOf a) → InField w h (m.locOf (m.act a l)))
    (hw : 0 < w) (hh : 0 < h) (hd : 0 < disc) (as : List O) (has : ∀ a ∈ as, InField w h (m.locOf a)) (n : Nat) :
    ∃ f, fieldRun m w h disc as n = some (f, rounds m w h disc as n) ∧
      Shows f w h disc true (inCell m disc (rounds m w h disc as n)) (fun _ => []) ∧
      ∀ a ∈ rounds m w h disc as n, InField w h (m.locOf a) := by
  have hnil : (fun _ => [] : Loc → List O) = inCell m disc [] := rfl
  induction n with
  | zero =>
    obtain ⟨f, h1, h2⟩ := placeAll_cell (m := m) as (X := []) (by
      have := shows_new (O := O) true hw hh hd
      exact this) has
    obtain ⟨f', h3, _, _, h4⟩ := shows_lazy h2
    refine ⟨f', ?_, h4, has⟩
    rw [fieldRun, h1, Option.bind_some, h3]
    rfl
  | succ n ih =>
    obtain ⟨f, h1, h2, h3⟩ := ih
    obtain ⟨f1, h4, h5⟩ := fieldTurns_cell hb hstay (rounds m w h disc as n) (X := []) h2 h3
    obtain ⟨f2, h6, _, _, h7⟩ := shows_lazy h5
    refine ⟨f2, ?_, h7, ?_⟩
    · rw [fieldRun, h1, Option.bind_some, fieldStep, h4, Option.bind_some, h6]
      rfl
    · intro a ha
      obtain ⟨b, hb', rfl⟩ := List.mem_map.1 ha
      exact hstay b _ (h3 b hb')

/-- **C231, for grids**: after any number of steps the processes together have the agents that the same model has on one toroidal
`Field2D`, if what agents do does not depend on what is exactly where they are. Full statement: without this condition, and for every
number of processes; both false, below and in C225. -/
theorem C231_same_agents_partial (hb : Blind m) (size : Nat) (hs : 2 ≤ size) (hg : GridSize size) (d δ : Rat)
    (hm : Local m size w h disc d δ) (as : List O) (has : ∀ a ∈ as, InField w h (m.locOf a)) (n : Nat) :
    ∃ ps f all, distRun m size ⟨0, 0, w, h⟩ disc d as n = some ps ∧ fieldRun m w h disc as n = some (f, all) ∧
      (agents ps).Perm all := by
  obtain ⟨_, _, _, q, _, _, _, q1, hnet, _, h1, _, _, h2, _, hin⟩ := hm.runs hs hg as has n
  obtain ⟨f, h3, _, _⟩ := fieldRun_rounds hb hm.stays hm.field.1 hm.field.2.1 hm.field.2.2 as has n
  exact ⟨_, f, _, h1, h3, settled_agents hnet h2 hin⟩

/-- **C231, for one process**: with a single process nothing is asked of the size of blocks, of the steps or of the sight but that
rules see no further than the halo distance and than half the field. -/
theorem C231_one_process_partial (hb : Blind m) (d : Rat) (hw : 0 < w) (hh : 0 < h) (hd : 0 < disc)
    (horder : ∀ a l l', l.Perm l' → m.act a l = m.act a l')
    (hstay : ∀ a l, InField w h (m.locOf a) → InField w h (m.locOf (m.act a l)))
    (hsight : m.sight ≤ d) (hsmall : 2 * m.sight < w - disc ∧ 2 * m.sight < h - disc)
    (as : List O) (has : ∀ a ∈ as, InField w h (m.locOf a)) (n : Nat) :
    ∃ s f all, distRun m 1 ⟨0, 0, w, h⟩ disc d as n = some [s] ∧ fieldRun m w h disc as n = some (f, all) ∧ s.own.Perm all := by
  have hfit : Fits m w h (w + h) := by
    refine ⟨horder, hstay, ?_⟩
    intro a l ha
    have hb := hstay a l ha
    refine ⟨0, 0, ?_, ?_⟩ <;> push_cast
    · have h1 := ha.1; have h2 := ha.2.1; have h3 := hb.1; have h4 := hb.2.1
      exact ⟨by linarith, by linarith⟩
    · have h1 := ha.2.2.1; have h2 := ha.2.2.2; have h3 := hb.2.2.1; have h4 := hb.2.2.2
      exact ⟨by linarith, by linarith⟩
  have hnet1 := net_one (O := O) w h d (w + h) (inField_has w h)
  obtain ⟨⟨q1, g1, g2⟩, hin⟩ := run_settled hnet1 (fun _ _ => rfl) hd hw hh hsight hsmall hfit as has n
  obtain ⟨f, h3, _, _⟩ := fieldRun_rounds hb hstay hw hh hd as has n
  refine ⟨q1 0, f, _, g1, h3, ?_⟩
  have := settled_agents (q := q1) hnet1 g2 hin
  simpa [agents] using this

end

namespace Demo

/-- The walkers on one `Field2D`. -/
def outField (m : Rule Walker) (as : List Walker) (n : Nat) : Option (List (Nat × Rat × Nat)) :=
  (fieldRun m 8 8 1 as n).map (fun r => r.2.map (fun a => (a.id, a.pos.x, a.seen)))

/-- Walkers that leave out of the count what is where they are. -/
def walkBlind (sight dx : Rat) : Rule Walker where
  locOf := Walker.pos
  sight := sight
  act a l := { a with
    pos := ⟨fmod (a.pos.x + dx) 8, a.pos.y⟩, seen := a.seen + (l.filter (fun e => decide (e.pos ≠ a.pos))).length }

theorem walkBlind_blind (sight dx : Rat) : Blind (walkBlind sight dx) := by
  intro a l
  unfold walkBlind
  dsimp only
  rw [List.filter_filter]
  simp

/-- Walkers that leave themselves out of the count. -/
def others : Rule Walker where
  locOf := Walker.pos
  sight := 1
  act a l := { a with
    pos := ⟨fmod (a.pos.x + 1/2) 8, a.pos.y⟩, seen := a.seen + (l.filter (fun e => e.id != a.id)).length }

def twins : List Walker := [⟨0, ⟨1, 1⟩, 0⟩, ⟨1, ⟨1, 1⟩, 0⟩]

end Demo

/-- **C231 is false as stated**: walkers that count what they see count themselves on a `Field2D` and not on the distributed field. -/
theorem C231_self_negation_partial :
    Demo.outField (Demo.walk 1 (1/2)) Demo.crowd 1 = some [(0, 4, 2), (1, 19/4, 2), (2, 1, 1), (3, 1/4, 1)] ∧
    (Demo.out 4 1 (1/2) 1 1).map List.flatten = some [(0, 4, 1), (3, 1/4, 0), (2, 1, 0), (1, 19/4, 1)] := by
  refine ⟨?_, ?_⟩ <;> decide +kernel

/-- **C231 is false also for agents that leave themselves out of what they see**: two agents at the same point see each other on a
`Field2D` and not on the distributed field. -/
theorem C231_same_point_negation_partial :
    Demo.outField Demo.others Demo.twins 1 = some [(0, 3/2, 1), (1, 3/2, 1)] ∧
    ((distRun Demo.others 1 ⟨0, 0, 8, 8⟩ 1 1 Demo.twins 1).map (fun ps => (agents ps).map (fun a => (a.id, a.pos.x, a.seen)))) =
      some [(0, 3/2, 0), (1, 3/2, 0)] := by
  refine ⟨?_, ?_⟩ <;> decide +kernel

/-- The walkers that leave out what is where they are meet the conditions; five steps on one field and on four processes. -/
example (n : Nat) : ∃ ps f all, distRun (Demo.walkBlind 1 (1/2)) 4 ⟨0, 0, 8, 8⟩ 1 1 Demo.crowd n = some ps ∧
    fieldRun (Demo.walkBlind 1 (1/2)) 8 8 1 Demo.crowd n = some (f, all) ∧ (agents ps).Perm all := by
  refine C231_same_agents_partial (Demo.walkBlind_blind _ _) 4 (by omega) (Or.inl ⟨2, rfl⟩) 1 (1/2) ?_ Demo.crowd
    (Demo.crowd_in 1) n
  have hw := Demo.walk_local (size := 4) (sight := 1) (le_refl _) (by
    intro r l hr hl
    have : ∀ r < 4, (createTree r 4 0 ⟨0, 0, 8, 8⟩ 1).map (fun l => (l.width, l.height)) = some (4, 4) := by decide +kernel
    have h4 := this r hr
    rw [hl, Option.map_some, Option.some.injEq, Prod.mk.injEq] at h4
    rw [h4.1, h4.2]
    norm_num)
  exact ⟨fun a l l' hl => by
      unfold Demo.walkBlind
      dsimp only
      rw [(hl.filter _).length_eq], fun a l => hw.stays a l, fun a l => hw.near a l, hw.field, hw.sight, hw.small, hw.blocks⟩

example : Demo.outField (Demo.walkBlind 1 (1/2)) Demo.crowd 2 = some [(0, 9/2, 2), (1, 21/4, 2), (2, 3/2, 0), (3, 3/4, 0)] := by
  decide +kernel

end Verif.KdTree
