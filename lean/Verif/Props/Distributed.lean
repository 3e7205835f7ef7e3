import Verif.Lemmas.Distributed

/-!
C225, C226: a model on the distributed field goes through the same agents as on one process if the boxes of the processes
form a grid, that is for 2, 4, 8, … and 6, 24, 96, … processes.
-/

namespace Verif.KdTree

open Torus Field2D Grid

section

variable {O : Type} [BEq O]

/-- The conditions under which the number of processes makes no difference: what an agent does does not depend on the
order of what it sees, it stays in the field and moves at most `δ` along each axis; it sees no further than the halo
distance `d`; and both `d` and `δ` are less than half the size of the blocks. -/
structure Local (m : Rule O) (size : Nat) (w h disc d δ : Rat) : Prop where
  order : ∀ a l l', l.Perm l' → m.act a l = m.act a l'
  stays : ∀ a l, InField w h (m.locOf a) → InField w h (m.locOf (m.act a l))
  near : ∀ a l, InField w h (m.locOf a) → Step w h δ (m.locOf a) (m.locOf (m.act a l))
  field : 0 < w ∧ 0 < h ∧ 0 < disc
  sight : m.sight ≤ d
  small : 2 * m.sight < w - disc ∧ 2 * m.sight < h - disc
  blocks : ∀ r l, r < size → createTree r size 0 ⟨0, 0, w, h⟩ d = some l →
    (2 * d < l.width ∧ 2 * d < l.height) ∧ 2 * δ < l.width ∧ 2 * δ < l.height

theorem Local.runs {m : Rule O} {size : Nat} {w h disc d δ : Rat} (hs : 2 ≤ size) (hg : GridSize size) (hm : Local m size w h disc d δ) (as : List O)
    (has : ∀ a ∈ as, InField w h (m.locOf a)) (n : Nat) :
    ∃ L B owner, ∃ q : Nat → Proc O, ∃ L1 B1 owner1, ∃ q1 : Nat → Proc O, Net (O := O) size w h d δ L B owner ∧ Net (O := O) 1 w h d δ L1 B1 owner1 ∧
      distRun m size ⟨0, 0, w, h⟩ disc d as n = some ((List.range size).map q) ∧
      distRun m 1 ⟨0, 0, w, h⟩ disc d as n = some [q1 0] ∧ B1 0 = ⟨0, 0, w, h⟩ ∧
      (∀ r < size, Settled m w h disc L B owner size (rounds m w h disc as n) r (q r)) ∧
      (∀ r < 1, Settled m w h disc L1 B1 owner1 1 (rounds m w h disc as n) r (q1 r)) ∧
      ∀ a ∈ rounds m w h disc as n, InField w h (m.locOf a) := by
  obtain ⟨hw, hh, hdisc⟩ := hm.field
  have hfit : Fits m w h δ := ⟨hm.order, hm.stays, hm.near⟩
  obtain ⟨L, B, owner, hnet, hmade⟩ := net_grid (O := O) hs hg hw hh hm.blocks
  have hnet1 := net_one (O := O) w h d δ (inField_has w h)
  obtain ⟨⟨q, h1, h2⟩, hin⟩ := run_settled hnet hmade hdisc hw hh hm.sight hm.small hfit as has n
  obtain ⟨⟨q1, g1, g2⟩, _⟩ := run_settled hnet1 (fun _ _ => rfl) hdisc hw hh hm.sight hm.small hfit as has n
  exact ⟨L, B, owner, q, _, _, _, q1, hnet, hnet1, h1, g1, rfl, h2, g2, hin⟩

/-- **C225, for grids**: after any number of steps, the processes together have the agents that one process
has. Full statement: every number of processes, false for 3 below (and C84 is false for all others). -/
theorem C225_same_agents_partial (m : Rule O) (size : Nat) (hs : 2 ≤ size) (hg : GridSize size) (w h disc d δ : Rat) (hm : Local m size w h disc d δ)
    (as : List O) (has : ∀ a ∈ as, InField w h (m.locOf a)) (n : Nat) :
    ∃ ps ps1, distRun m size ⟨0, 0, w, h⟩ disc d as n = some ps ∧ distRun m 1 ⟨0, 0, w, h⟩ disc d as n = some ps1 ∧
      (agents ps).Perm (agents ps1) := by
  obtain ⟨_, _, _, q, _, _, _, q1, hnet, hnet1, h1, g1, _, h2, g2, hin⟩ := hm.runs hs hg as has n
  exact ⟨_, _, h1, g1, (settled_agents hnet h2 hin).trans (settled_agents (q := q1) hnet1 g2 hin).symm⟩

/-- **C225, for grids**: no agent is lost or doubled, and every agent is with the process of its block. -/
theorem C225_owners_partial (m : Rule O) (size : Nat) (hs : 2 ≤ size) (hg : GridSize size) (w h disc d δ : Rat) (hm : Local m size w h disc d δ)
    (as : List O) (has : ∀ a ∈ as, InField w h (m.locOf a)) (n : Nat) (ps : List (Proc O))
    (hps : distRun m size ⟨0, 0, w, h⟩ disc d as n = some ps) :
    ps.length = size ∧ (agents ps).length = as.length ∧
    ∀ r s, ps[r]? = some s → s.tree.layout.rank = r ∧
      ∀ a ∈ s.own, getBlockByLocation s.tree.layout (m.locOf a) = some r := by
  obtain ⟨_, _, _, q, _, _, _, q1, hnet, hnet1, h1, g1, _, h2, g2, hin⟩ := hm.runs hs hg as has n
  rw [hps] at h1
  obtain rfl := Option.some.inj h1
  refine ⟨by simp, ?_, ?_⟩
  · rw [(settled_agents hnet h2 hin).length_eq]
    clear * -
    induction n with
    | zero => rfl
    | succ n ih => rw [rounds, together, List.length_map, ih]
  · intro r s hrs
    obtain ⟨hr, hs'⟩ := List.getElem?_eq_some_iff.1 hrs
    rw [List.length_map, List.length_range] at hr
    rw [List.getElem_map, List.getElem_range] at hs'
    subst hs'
    obtain ⟨recv, hpub, _⟩ := (h2 r hr).pub
    refine ⟨by rw [hpub.layout]; exact hnet.rank r hr, fun a ha => ?_⟩
    obtain ⟨i1, i2⟩ := hpub.mine a ha
    rw [hpub.layout, hnet.block r hr _ i1, i2]

/-- **C226, for grids**: after any number of steps every agent sees, from its process, the agents that it would
see from a single process. Full statement: every number of processes, false for 3 below (and C84 is false for all others). -/
theorem C226_same_sight_partial (m : Rule O) (size : Nat) (hs : 2 ≤ size) (hg : GridSize size) (w h disc d δ : Rat) (hm : Local m size w h disc d δ)
    (as : List O) (has : ∀ a ∈ as, InField w h (m.locOf a)) (n : Nat) (ps : List (Proc O)) (s1 : Proc O)
    (hps : distRun m size ⟨0, 0, w, h⟩ disc d as n = some ps)
    (hps1 : distRun m 1 ⟨0, 0, w, h⟩ disc d as n = some [s1]) (s : Proc O) (hsp : s ∈ ps) (a : O) (ha : a ∈ s.own) :
    ∃ l l1, getNeighborsWithinDistance s.tree m.locOf (m.locOf a) m.sight = some l ∧
      getNeighborsWithinDistance s1.tree m.locOf (m.locOf a) m.sight = some l1 ∧ l.Perm l1 := by
  obtain ⟨_, B, _, q, _, B1, _, q1, hnet, hnet1, h1, g1, hB1, h2, g2, hin⟩ := hm.runs hs hg as has n
  rw [hps] at h1
  rw [hps1] at g1
  obtain rfl := Option.some.inj h1
  have e1 : s1 = q1 0 := by
    have := Option.some.inj g1
    exact (List.cons.inj this).1
  subst e1
  obtain ⟨r, hr, rfl⟩ := List.mem_map.1 hsp
  rw [List.mem_range] at hr
  obtain ⟨recv, hpub, hsee⟩ := (h2 r hr).pub
  obtain ⟨recv1, hpub1, hsee1⟩ := (g2 0 (by omega)).pub
  obtain ⟨i1, i2⟩ := hpub.mine a ha
  refine ⟨_, _, search_found m hpub.bags _, search_found m hpub1.bags _, ?_⟩
  refine (hsee _ ?_).trans (hsee1 _ ?_).symm
  · have := hnet.has _ i1
    rwa [i2] at this
  · rw [hB1, ← inField_has]
    exact i1

end

namespace Demo

/-- An agent that walks and counts the others it sees. -/
structure Walker where
  id : Nat
  pos : Pos
  seen : Nat
  deriving DecidableEq

/-- Walk `dx` to the right around a torus of width 8. -/
def walk (sight dx : Rat) : Rule Walker where
  locOf := Walker.pos
  sight := sight
  act a l := { a with pos := ⟨fmod (a.pos.x + dx) 8, a.pos.y⟩, seen := a.seen + l.length }

def crowd : List Walker := [⟨0, ⟨7/2, 7/2⟩, 0⟩, ⟨1, ⟨17/4, 15/4⟩, 0⟩, ⟨2, ⟨1/2, 31/4⟩, 0⟩, ⟨3, ⟨31/4, 1/4⟩, 0⟩]

def out (size : Nat) (sight dx d : Rat) (n : Nat) : Option (List (List (Nat × Rat × Nat))) :=
  (distRun (walk sight dx) size ⟨0, 0, 8, 8⟩ 1 d crowd n).map (fun ps => ps.map (fun s => s.own.map (fun a => (a.id, a.pos.x, a.seen))))

/-- Remember the first other agent that is seen. -/
def follow : Rule Walker where
  locOf := Walker.pos
  sight := 1
  act a l := { a with pos := ⟨fmod (a.pos.x + 1/2) 8, a.pos.y⟩, seen := (l.head?.map Walker.id).getD 9 }

def three : List Walker := [⟨0, ⟨15/4, 7/2⟩, 9⟩, ⟨1, ⟨33/8, 7/2⟩, 9⟩, ⟨2, ⟨35/8, 7/2⟩, 9⟩]

end Demo

/-- **C225, false as stated**: with three processes the agents come to other results; walker 1 counts 1 instead of 3. -/
theorem C225_three_processes_negation_partial :
    Demo.out 1 1 (1/2) 1 3 = some [[(0, 5, 3), (1, 23/4, 3), (2, 2, 0), (3, 5/4, 0)]] ∧
    Demo.out 4 1 (1/2) 1 3 = some [[(3, 5/4, 0)], [(2, 2, 0)], [(1, 23/4, 3), (0, 5, 3)], []] ∧
    Demo.out 3 1 (1/2) 1 3 = some [[(3, 5/4, 0)], [(2, 2, 0)], [(1, 23/4, 1), (0, 5, 3)]] := by
  refine ⟨?_, ?_, ?_⟩ <;> decide +kernel

/-- **C225, false without the bound on the steps**: with eight processes agents that walk over a whole block are lost. -/
theorem C225_long_steps_negation_partial :
    Demo.out 1 1 3 (1/2) 1 = some [[(0, 13/2, 1), (1, 29/4, 1), (2, 7/2, 0), (3, 11/4, 0)]] ∧
    Demo.out 8 1 3 (1/2) 1 = some [[], [], [], [(2, 7/2, 0)], [], [(1, 29/4, 1)], [], []] := by
  refine ⟨?_, ?_⟩ <;> decide +kernel

/-- **C225, false for rules that depend on the order**: with four processes the agents come to a process in another order,
and walker 2 sees another one first. -/
theorem C225_order_negation_partial :
    ((distRun Demo.follow 1 ⟨0, 0, 8, 8⟩ 1 1 Demo.three 2).map (fun ps => (agents ps).map (fun a => (a.id, a.seen)))) =
      some [(0, 1), (1, 0), (2, 0)] ∧
    ((distRun Demo.follow 4 ⟨0, 0, 8, 8⟩ 1 1 Demo.three 2).map (fun ps => (agents ps).map (fun a => (a.id, a.seen)))) =
      some [(1, 2), (2, 1), (0, 1)] := by
  refine ⟨?_, ?_⟩ <;> decide +kernel

/-- **C226, false as stated**: with three processes walker 1 does not see walker 0, which a single process shows it; with
four processes it does. -/
theorem C226_three_processes_negation_partial :
    (([1, 3, 4].map (fun size => (distRun (Demo.walk 1 0) size ⟨0, 0, 8, 8⟩ 1 1 Demo.crowd 0).bind (fun ps =>
      (ps.find? (fun s => s.own.any (fun a => a.id == 1))).bind (fun s =>
        (getNeighborsWithinDistance s.tree Demo.Walker.pos ⟨17/4, 15/4⟩ 1).map (fun l => l.map Demo.Walker.id)))))) =
      [some [0], some [], some [0]] := by
  decide +kernel

/-- **C226, false without the bound on the sight**: agents that look further than the halo distance miss others. -/
theorem C226_short_halo_negation_partial :
    (([1, 4].map (fun size => (distRun (Demo.walk 1 0) size ⟨0, 0, 8, 8⟩ 1 (1/8) Demo.crowd 0).bind (fun ps =>
      (ps.find? (fun s => s.own.any (fun a => a.id == 1))).bind (fun s =>
        (getNeighborsWithinDistance s.tree Demo.Walker.pos ⟨17/4, 15/4⟩ 1).map (fun l => l.map Demo.Walker.id)))))) =
      [some [0], some []] := by
  decide +kernel

/-- The walkers meet the conditions if the blocks are large enough. -/
theorem Demo.walk_local {size : Nat} {sight : Rat} (hsight : sight ≤ 1)
    (hb : ∀ r l, r < size → createTree r size 0 ⟨0, 0, 8, 8⟩ sight = some l →
      (2 * sight < l.width ∧ 2 * sight < l.height) ∧ 2 * (1/2) < l.width ∧ 2 * (1/2) < l.height) :
    Local (Demo.walk sight (1/2)) size 8 8 1 sight (1/2) where
  order := by
    intro a l l' hl
    show ({ a with pos := _, seen := a.seen + l.length } : Demo.Walker) = { a with pos := _, seen := a.seen + l'.length }
    rw [hl.length_eq]
  stays := by
    intro a l ha
    have hx : 0 ≤ a.pos.x := ha.1
    obtain ⟨_, _, h3, h4⟩ := fmod_spec (val := a.pos.x + 1/2) (by norm_num : (0 : Rat) < 8)
    exact ⟨h4 (by linarith), le_of_lt h3, ha.2.2⟩
  near := by
    intro a l ha
    obtain ⟨⟨k, hk⟩, _⟩ := fmod_spec (val := a.pos.x + 1/2) (by norm_num : (0 : Rat) < 8)
    refine ⟨-k, 0, ?_, ?_⟩
    · show -(1/2 : Rat) ≤ a.pos.x - (fmod (a.pos.x + 1/2) 8 + _) ∧ a.pos.x - (fmod (a.pos.x + 1/2) 8 + _) ≤ 1/2
      rw [hk]
      push_cast
      constructor <;> linarith
    · show -(1/2 : Rat) ≤ a.pos.y - (a.pos.y + _) ∧ a.pos.y - (a.pos.y + _) ≤ 1/2
      push_cast
      constructor <;> linarith
  field := by norm_num
  sight := le_refl _
  small := by
    show 2 * sight < 8 - 1 ∧ 2 * sight < 8 - 1
    constructor <;> linarith
  blocks := hb

theorem Demo.crowd_in (sight : Rat) : ∀ a ∈ Demo.crowd, InField 8 8 ((Demo.walk sight (1/2)).locOf a) := by
  intro a ha
  simp only [Demo.crowd, List.mem_cons, List.not_mem_nil, or_false] at ha
  rcases ha with rfl | rfl | rfl | rfl <;> norm_num [InField, Demo.walk]

example (n : Nat) : ∃ ps ps1, distRun (Demo.walk 1 (1/2)) 4 ⟨0, 0, 8, 8⟩ 1 1 Demo.crowd n = some ps ∧
    distRun (Demo.walk 1 (1/2)) 1 ⟨0, 0, 8, 8⟩ 1 1 Demo.crowd n = some ps1 ∧ (agents ps).Perm (agents ps1) := by
  refine C225_same_agents_partial _ 4 (by omega) (Or.inl ⟨2, rfl⟩) 8 8 1 1 (1/2) (Demo.walk_local (le_refl _) ?_) Demo.crowd
    (Demo.crowd_in 1) n
  intro r l hr hl
  have : ∀ r < 4, (createTree r 4 0 ⟨0, 0, 8, 8⟩ 1).map (fun l => (l.width, l.height)) = some (4, 4) := by decide +kernel
  have h4 := this r hr
  rw [hl, Option.map_some, Option.some.injEq, Prod.mk.injEq] at h4
  rw [h4.1, h4.2]
  norm_num

/-- Six processes: the columns on the left are half as wide as those on the right. -/
example (n : Nat) : ∃ ps ps1, distRun (Demo.walk (3/4) (1/2)) 6 ⟨0, 0, 8, 8⟩ 1 (3/4) Demo.crowd n = some ps ∧
    distRun (Demo.walk (3/4) (1/2)) 1 ⟨0, 0, 8, 8⟩ 1 (3/4) Demo.crowd n = some ps1 ∧ (agents ps).Perm (agents ps1) := by
  refine C225_same_agents_partial _ 6 (by omega) (Or.inr ⟨0, rfl⟩) 8 8 1 (3/4) (1/2) (Demo.walk_local (by norm_num) ?_) Demo.crowd
    (Demo.crowd_in (3/4)) n
  intro r l hr hl
  have : ∀ r < 6, (createTree r 6 0 ⟨0, 0, 8, 8⟩ (3/4)).map (fun l => (decide (2 ≤ l.width), decide (4 ≤ l.height))) =
      some (true, true) := by decide +kernel
  have h4 := this r hr
  rw [hl, Option.map_some, Option.some.injEq, Prod.mk.injEq, decide_eq_true_eq, decide_eq_true_eq] at h4
  obtain ⟨h5, h6⟩ := h4
  exact ⟨⟨by linarith, by linarith⟩, by linarith, by linarith⟩

end Verif.KdTree
