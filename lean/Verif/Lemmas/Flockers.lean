import Verif.Spec.Flockers
import Verif.Lemmas.Field2D
import Verif.Props.ParField2D
import Verif.Props.ParallelSchedule
import Verif.Props.Driver
import Mathlib.Data.List.Induction
import Mathlib.Logic.Function.Iterate
import Mathlib.Data.List.Perm.Basic
import Mathlib.Tactic.Ring

/-!
Lemmas about the flockers simulation.
-/

namespace Verif.Flockers

open Grid Torus Schedule Field2D

/-! ### What a search sees -/

/-- The birds of a list that are in this cell. -/
def inCell (r : List Bird) (q : Loc) : List Bird := r.filter (fun o => decide (q = discretize (1 / 2) o.pos))

/-- An empty field of the size of the world. -/
def blank (c : Config) : Field2D.Field Bird := Field2D.new c.width c.height (1 / 2) true

/-- The answer of the search, from the list of the published birds. -/
def seenF (c : Config) (r : List Bird) (loc : Pos) : List Bird :=
  (searchCells (blank c) loc 10).flatMap (fun q =>
    (inCell r (wrapped (blank c) q)).filter (keepExact (blank c) Bird.pos loc 10 (wrapped (blank c) q)))

theorem neighbors_eq {c : Config} {f : Field2D.Field Bird} {r : List Bird} {cur : Loc → List Bird}
    (hs : Shows f c.width c.height (1 / 2) true (inCell r) cur) (loc : Pos) :
    getNeighborsWithinDistance f Bird.pos loc 10 = some (seenF c r loc) := by
  have hc : searchCells f loc 10 = searchCells (blank c) loc 10 := by
    unfold searchCells blank
    rw [hs.disc, hs.width, hs.height, hs.tor]
    rfl
  have hk : keepExact f Bird.pos loc 10 = keepExact (blank c) Bird.pos loc 10 := by
    unfold keepExact blank
    rw [hs.disc, hs.width, hs.height, hs.tor]
    rfl
  have hwr : ∀ q, wrapped f q = wrapped (blank c) q := by
    intro q
    unfold wrapped blank
    rw [hs.disc, hs.width, hs.height]
    rfl
  unfold getNeighborsWithinDistance seenF
  rw [if_neg (by decide +kernel), Field2D.scan_eq hs.wf, hc, hk]
  congr 2
  funext q
  have hb : bagOf f (wrapped f q) = inCell r (wrapped f q) := by
    unfold bagOf
    rw [hs.read _ (wrapped_inRange hs.wf q)]
    rfl
  rw [hb, hwr]

theorem seenF_perm {c : Config} {r r' : List Bird} (h : r.Perm r') (loc : Pos) : (seenF c r loc).Perm (seenF c r' loc) := by
  unfold seenF
  exact List.Perm.flatMap_left _ (fun q _ => (h.filter _).filter _)

theorem filter_snoc {α : Type} (P : α → Bool) (l : List α) (a : α) :
    (l ++ [a]).filter P = if P a = true then l.filter P ++ [a] else l.filter P := by
  rw [List.filter_append]
  cases h : P a <;> simp [h]

theorem inCell_snoc (w : List Bird) (b : Bird) (q : Loc) :
    inCell (w ++ [b]) q = if q = discretize (1 / 2) b.pos then inCell w q ++ [b] else inCell w q := by
  unfold inCell
  rw [filter_snoc]
  by_cases hq : q = discretize (1 / 2) b.pos
  · rw [if_pos hq, if_pos (decide_eq_true hq)]
  · rw [if_neg hq, if_neg (by rw [decide_eq_true_iff]; exact hq)]

theorem shows_places {c : Config} {f : Field2D.Field Bird} {pub : Loc → List Bird} {wr : List Bird}
    (hs : Shows f c.width c.height (1 / 2) true pub (inCell wr)) (b : Bird) (hb : InField c.width c.height b.pos) :
    ∃ f', setObjectLocation f b b.pos = some f' ∧ Shows f' c.width c.height (1 / 2) true pub (inCell (wr ++ [b])) := by
  obtain ⟨f', h1, _, _, h2⟩ := shows_place hs b b.pos hb
  refine ⟨f', h1, ?_⟩
  have : (fun q => if q = discretize (1 / 2) b.pos then inCell wr q ++ [b] else inCell wr q) = inCell (wr ++ [b]) := by
    funext q
    rw [inCell_snoc]
  rwa [this] at h2

theorem fieldOf_shows {c : Config} (hw : 0 < c.width) (hh : 0 < c.height) (r : List Bird)
    (hr : ∀ b ∈ r, InField c.width c.height b.pos) :
    ∃ g, fieldOf c r = some g ∧ Shows g c.width c.height (1 / 2) true (inCell r) (fun _ => []) := by
  have key : ∀ r : List Bird, (∀ b ∈ r, InField c.width c.height b.pos) →
      ∃ g, Field2D.run (Field2D.new c.width c.height (1 / 2) true) ((r.map (fun b => FieldOp.place b b.pos)).reverse) = some g ∧
        Shows g c.width c.height (1 / 2) true (fun _ => []) (inCell r) := by
    intro r
    induction r using List.reverseRecOn with
    | nil => intro _; exact ⟨_, rfl, shows_new true hw hh (by decide +kernel)⟩
    | append_singleton r b ih =>
      intro hr
      obtain ⟨g, h1, h2⟩ := ih (fun b hb => hr b (List.mem_append_left _ hb))
      obtain ⟨g', h3, h4⟩ := shows_places h2 b (hr b (by simp))
      refine ⟨g', ?_, h4⟩
      rw [List.map_append, List.reverse_append]
      show (Field2D.run _ ((r.map (fun b => FieldOp.place b b.pos)).reverse)).bind _ = _
      rw [h1]
      exact h3
  obtain ⟨g, h1, h2⟩ := key r hr
  obtain ⟨g', h3, _, _, h4⟩ := shows_lazy h2
  refine ⟨g', ?_, h4⟩
  show (Field2D.run _ _).bind _ = _
  rw [h1]
  exact h3

theorem sees_eq {c : Config} (hw : 0 < c.width) (hh : 0 < c.height) {r : List Bird}
    (hr : ∀ b ∈ r, InField c.width c.height b.pos) (p : Pos) : sees c r p = seenF c r p := by
  obtain ⟨g, h1, h2⟩ := fieldOf_shows hw hh r hr
  unfold sees
  rw [h1, Option.bind_some, neighbors_eq h2]
  rfl

/-! ### The move -/

theorem addNeighbor_comm (w h : ℚ) (self : Bird) (a : Acc) (x y : Bird) :
    addNeighbor w h self (addNeighbor w h self a x) y = addNeighbor w h self (addNeighbor w h self a y) x := by
  unfold addNeighbor
  by_cases hx : self.id = x.id <;> by_cases hy : self.id = y.id
  · simp [hx]
  · simp [hx]
  · simp [hy]
  · simp only [ne_eq, hx, hy, not_false_eq_true, if_true, Acc.mk.injEq]
    refine ⟨?_, ?_, ?_, ?_, ?_, ?_, trivial⟩ <;> exact add_right_comm _ _ _

theorem move_perm (c : Config) (r : ℚ × ℚ) (b : Bird) {l l' : List Bird} (h : l.Perm l') : move c r b l = move c r b l' := by
  have hf : l.foldl (addNeighbor c.width c.height b) Acc.zero = l'.foldl (addNeighbor c.width c.height b) Acc.zero :=
    h.foldl_eq' (fun x _ y _ z => addNeighbor_comm _ _ _ _ _ _) _
  have he : l.isEmpty = l'.isEmpty := by
    rw [Bool.eq_iff_iff, List.isEmpty_iff, List.isEmpty_iff]
    exact ⟨fun hl => (hl ▸ h).symm.eq_nil, fun hl => (hl ▸ h).eq_nil⟩
  have hd : direction c r b l = direction c r b l' := by
    unfold direction
    rw [hf, he]
  unfold move
  rw [hd]

theorem move_inside (c : Config) (hw : 0 < c.width) (hle : c.width ≤ c.height) (r : ℚ × ℚ) (b : Bird) (l : List Bird) :
    InField c.width c.height (move c r b l).pos := by
  unfold move InField
  dsimp only
  refine ⟨(toroidalTransform_range hw).1, (toroidalTransform_range hw).2.le, (toroidalTransform_range hw).1,
    (toroidalTransform_range hw).2.le.trans hle⟩

/-! ### The fields -/

/-- What the simulation needs of a field. `Holds f r w`: the birds `r` are published and the birds `w` written. -/
structure Laws {F : Type} (ops : FieldOps F) (c : Config) (get : F → Pos → Option (List Bird))
    (Holds : F → List Bird → List Bird → Prop) : Prop where
  place : ∀ {f r w} (b : Bird), Holds f r w → InField c.width c.height b.pos →
    ∃ f', ops.place f b b.pos = some f' ∧ Holds f' r (w ++ [b])
  lazy : ∀ {f r w}, Holds f r w → ∃ f', ops.lazyUpdate f = some f' ∧ Holds f' w []
  see : ∀ {f r w} (p : Pos), Holds f r w → r ≠ [] → ops.neighbors f p 10 = some (seenF c r p)
  get : ∀ {f r w} (p : Pos), Holds f r w → InField c.width c.height p →
    get f p = some (r.filter (fun b => sameSquare (1 / 2) b.pos p))

/-- `Holds` of the sequential field. -/
def SeqHolds (c : Config) (f : Field2D.Field Bird) (r w : List Bird) : Prop :=
  Shows f c.width c.height (1 / 2) true (inCell r) (inCell w)

theorem inCell_square (r : List Bird) (p : Pos) :
    inCell r (discretize (1 / 2) p) = r.filter (fun b => sameSquare (1 / 2) b.pos p) := by
  unfold inCell
  apply List.filter_congr
  intro b _
  rw [Bool.eq_iff_iff, decide_eq_true_iff, sameSquare_discretize]

theorem seqLaws (c : Config) : Laws seqOps c Field2D.getObjects (SeqHolds c) where
  place b hs hb := shows_places hs b hb
  lazy hs := by
    obtain ⟨f', h1, _, _, h2⟩ := shows_lazy hs
    exact ⟨f', h1, h2⟩
  see p hs _ := neighbors_eq hs p
  get {f r w} p hs hp := by
    have hr : InRange f.dw f.dh (discretize (1 / 2) p) := by
      have := inRange_of hs.wf (p := p) (by rw [hs.width, hs.height]; exact hp)
      rwa [hs.disc] at this
    unfold getObjects
    rw [hs.disc, hs.read _ hr, inCell_square]

/-- `Holds` of the field of the feature `parallel`. -/
def ParHolds (c : Config) (f : ParField2D.PField Bird Nat) (r w : List Bird) : Prop :=
  (∀ b ∈ w, InField c.width c.height b.pos) ∧ (∀ b ∈ r, InField c.width c.height b.pos) ∧
  ParField2D.FShows f c.width c.height (1 / 2) true
    (ParField2DSpec.latest Bird.id (r.map (fun b => (b, b.pos)))) (ParField2DSpec.latest Bird.id (w.map (fun b => (b, b.pos))))
    (fun q => ParField2D.held (inCell r q)) (fun q => ParField2D.held (inCell w q))

theorem parLaws (c : Config) (hw : 0 < c.width) (hh : 0 < c.height) :
    Laws parOps c ParField2D.PField.getObjects (ParHolds c) where
  place {f r w} b hs hb := by
    obtain ⟨h0, h0', hs⟩ := hs
    obtain ⟨f', h1, h2⟩ := ParField2D.fshows_place Bird.id hs b b.pos
    refine ⟨f', h1, ?_, h0', h2.congr rfl ?_ rfl ?_⟩
    · intro x hx
      rcases List.mem_append.1 hx with hx | hx
      · exact h0 x hx
      · rw [List.mem_singleton] at hx; subst hx; exact hb
    · funext i
      rw [List.map_append, List.map_singleton, ParField2D.flatest_snoc]
    · funext q
      rw [ParField2D.held_getD, inCell_snoc]
      by_cases hq : q = discretize (1 / 2) b.pos
      · rw [if_pos hq, if_pos hq, ParField2D.held, if_neg (by simp)]
      · rw [if_neg hq, if_neg hq]
  lazy {f r w} hs := by
    obtain ⟨h0, h0', hs⟩ := hs
    exact ⟨_, rfl, by simp, h0, (ParField2D.fshows_lazy hs).congr rfl rfl rfl rfl⟩
  see {f r w} p hs hr := by
    obtain ⟨h0, h0', hs⟩ := hs
    obtain ⟨g, _, hg⟩ := fieldOf_shows hw hh r h0'
    have hlen : ¬ DBDashMap.rLen f.findex = 0 := by
      rw [ParField2D.rLen_zero hs.invI, hs.readI]
      intro hz
      obtain ⟨b, r', rfl⟩ := List.exists_cons_of_ne_nil hr
      have := hz b.id
      rw [Option.map_eq_none_iff] at this
      unfold ParField2DSpec.latest at this
      rw [List.find?_eq_none] at this
      exact this (b, b.pos) (by simp) (by simp)
    have hk : f.keepExact Bird.pos p 10 = Field2D.keepExact g Bird.pos p 10 := by
      unfold ParField2D.PField.keepExact Field2D.keepExact
      rw [hs.disc, hs.width, hs.height, hs.tor, hg.disc, hg.width, hg.height, hg.tor]
    have := neighbors_eq hg p
    unfold Field2D.getNeighborsWithinDistance at this
    rw [if_neg (by decide +kernel)] at this
    show f.getNeighborsWithinDistance Bird.pos p 10 = _
    unfold ParField2D.PField.getNeighborsWithinDistance
    rw [if_neg hlen, if_neg (by decide +kernel), hk, ParField2D.searches_eq hw hh (by decide +kernel) hs hg, this]
  get {f r w} p hs hp := by
    obtain ⟨h0, h0', hs⟩ := hs
    unfold ParField2D.PField.getObjects
    rw [ParGrid.getRead_abs hs.invL, hs.readL, ParField2D.cellOf_eq, hs.disc, Option.map_some, ParField2D.held_getD, inCell_square]

/-! ### The steps -/

variable {F T : Type} {ops : FieldOps F} {c : Config} {get : F → Pos → Option (List Bird)}
  {Holds : F → List Bird → List Bird → Prop}

theorem turns_birds (L : Laws ops c get Holds) (hw : 0 < c.width) (hle : c.width ≤ c.height) {adv : T → T} {tb : TieBreak T Bird}
    {s s' : State F} {l k : List (Entry T Bird)} (ht : Turns (model adv tb ops c) s l s' k) :
    ∀ {f : F} {r w : List Bird}, (∀ e ∈ l, e.1.repeating = true) → s.field = some f → Holds f r w → (l ≠ [] → r ≠ []) →
      ∃ f', s'.field = some f' ∧ Holds f' r (w ++ k.map (fun e => e.1.agent)) ∧ s'.draws = s.draws + l.length ∧
        k = l.mapIdx (fun j e => (⟨e.1.id, move c (c.rnd (s.draws + j)) e.1.agent (seenF c r e.1.agent.pos), true⟩,
          ⟨adv e.2.time, e.2.ordering⟩)) := by
  induction ht with
  | nil s => intro f r w _ hf hh _; exact ⟨f, hf, by simpa using hh, rfl, rfl⟩
  | oneShot h ht ih => intro f r w hr; exact absurd (hr _ List.mem_cons_self) (by simp)
  | stopped h hs ht ih => cases hs
  | goesOn h hs ht ih =>
    rename_i s s1 s2 s' i a a1 a2 p l k
    intro f r w hr hf hh hne
    obtain ⟨a', v1, a'', v2, e1, e2, e3⟩ := h
    cases e1
    cases e3
    cases hs
    change birdStep ops c a s = _ at e2
    unfold birdStep at e2
    rw [hf] at e2
    dsimp only at e2
    rw [L.see a.pos hh (hne (by simp))] at e2
    dsimp only at e2
    obtain ⟨f', h1, h2⟩ := L.place (move c (c.rnd s.draws) a (seenF c r a.pos)) hh (move_inside c hw hle _ _ _)
    rw [h1] at e2
    cases e2
    obtain ⟨f'', k1, k2, k3, k4⟩ := ih (fun e he => hr e (List.mem_cons_of_mem _ he)) rfl h2 (fun _ => hne (by simp))
    refine ⟨f'', k1, ?_, ?_, ?_⟩
    · simpa using k2
    · rw [k3]; simp; omega
    · rw [List.mapIdx_cons, k4]
      congr 1
      apply List.ext_getElem?
      intro j
      simp only [List.getElem?_mapIdx]
      rw [show s.draws + 1 + j = s.draws + (j + 1) by omega]

/-- What a step does, sequential or parallel, when all pending agents run: they take their turns in some order. -/
def StepRel {A S : Type} (m : Model T A S) (w w' : World T A S) : Prop :=
  ∃ ran goOn u, ran.Perm (preStep m w).sched.events ∧ Turns m (preStep m w).state ran u.state goOn ∧
    u.sched.events.Perm goOn ∧ u.sched.step = (preStep m w).sched.step ∧ w' = postStep m u

theorem stepRel_seq {A S : Type} [LinearOrder T] (m : Model T A S) (w : World T A S) (hn : (Schedule.ids w.sched.events).Nodup) (t : T)
    (hsame : ∀ e ∈ (preStep m w).sched.events, e.2.time = t) : StepRel m w (Schedule.step m w) := by
  obtain ⟨t', ran, goOn, he, h0, h1, h2, h3, h4, h5, h6, hs, h7, _⟩ := midStep_spec m w (preStep_nodup m w hn)
  have hall : ∀ e ∈ (preStep m w).sched.events, e.2.time = t' := by
    intro e hem
    obtain ⟨f, hf, hft⟩ := h0 (List.ne_nil_of_mem hem)
    rw [hsame e hem, ← hft, hsame f hf]
  have hf1 : (preStep m w).sched.events.filter (fun e => decide (e.2.time = t')) = (preStep m w).sched.events := by
    rw [List.filter_eq_self]
    intro e hem
    simpa using hall e hem
  have hf2 : (preStep m w).sched.events.filter (fun e => decide (t' < e.2.time)) = [] := by
    rw [List.filter_eq_nil_iff]
    intro e hem
    simp [hall e hem]
  rw [hf1] at h2
  rw [hf2, List.nil_append] at h5
  exact ⟨ran, goOn, midStep m w, h2, h4, by rw [h5], hs.trans (preStep_step m w).1.symm, rfl⟩

theorem foldl_runOne_step {A S : Type} (m : Model T A S) (l : List (Entry T A)) : ∀ w : World T A S,
    (l.foldl (runOne m) w).sched.step = w.sched.step := by
  induction l with
  | nil => intro w; rfl
  | cons e l ih =>
    intro w
    rw [List.foldl_cons, ih]
    unfold runOne
    dsimp only
    split
    · split <;> rfl
    · rfl

theorem stepRel_par {A S : Type} [LinearOrder T] (m : Model T A S) (k : Nat) (w w' : World T A S)
    (hn : (Schedule.ids w.sched.events).Nodup) (h : ParStep m k w (.ok w')) : StepRel m w w' := by
  obtain ⟨seq, hp, _, _, top, goOn, ht, hev, hw'⟩ := parStep_runs_nodup m k w w' hn h
  exact ⟨seq, goOn, _, hp, ht, by rw [hev], foldl_runOne_step m _ _, hw'⟩

theorem preStep_model (adv : T → T) (tb : TieBreak T Bird) (w : World T Bird (State F)) :
    (preStep (model adv tb ops c) w).sched = w.sched ∧
    (preStep (model adv tb ops c) w).state =
      if w.sched.step = 0 then ⟨w.state.field.bind ops.lazyUpdate, w.state.draws⟩ else w.state := by
  unfold preStep
  by_cases h : w.sched.step = 0
  · rw [if_pos h, if_pos h]; exact ⟨rfl, rfl⟩
  · rw [if_neg h, if_neg h]; exact ⟨rfl, rfl⟩

theorem postStep_model (adv : T → T) (tb : TieBreak T Bird) (w : World T Bird (State F)) :
    (postStep (model adv tb ops c) w).sched.events = w.sched.events ∧
    (postStep (model adv tb ops c) w).sched.step = w.sched.step + 1 ∧
    (postStep (model adv tb ops c) w).state = ⟨w.state.field.bind ops.lazyUpdate, w.state.draws⟩ := ⟨rfl, rfl, rfl⟩

/-- The entry of a bird. -/
def entry (time : T) (b : Bird) : Entry T Bird := (⟨b.id, b, true⟩, ⟨time, 0⟩)

/-- The simulation after `n` steps, with `d` pairs of random numbers passed. -/
structure Inv (c : Config) (Holds : F → List Bird → List Bird → Prop) (time : T) (n d : Nat) (flock : List Bird)
    (w : World T Bird (State F)) : Prop where
  ids : flock.map Bird.id = List.range c.birds
  inside : ∀ b ∈ flock, InField c.width c.height b.pos
  agents : w.sched.events.Perm (flock.map (entry time))
  steps : w.sched.step = n
  draws : w.state.draws = d
  field : ∃ f r wr, w.state.field = some f ∧ Holds f r wr ∧ if n = 0 then wr = flock else r.Perm flock ∧ wr = []

theorem inv_nodup {time : T} {n d : Nat} {flock : List Bird} {w : World T Bird (State F)} (hi : Inv c Holds time n d flock w) :
    (Schedule.ids w.sched.events).Nodup := by
  have : (Schedule.ids w.sched.events).Perm (List.range c.birds) := by
    rw [← hi.ids]
    have h := hi.agents.map (fun e => e.1.id)
    rw [List.map_map] at h
    exact h
  exact this.nodup_iff.2 List.nodup_range

/-- The number of the entry with this id in a list. -/
def place (l : List (Entry T Bird)) (i : Nat) : Nat := l.findIdx (fun e => e.1.id == i)

theorem place_getElem {l : List (Entry T Bird)} (hn : (Schedule.ids l).Nodup) (j : Nat) (hj : j < l.length) :
    place l l[j].1.id = j := by
  unfold place
  rw [List.findIdx_eq hj]
  refine ⟨by simp, ?_⟩
  intro i hij
  rw [beq_eq_false_iff_ne]
  intro he
  have hn' := List.nodup_iff_injective_getElem.1 hn
  have := @hn' ⟨i, by simp [Schedule.ids]; omega⟩ ⟨j, by simp [Schedule.ids]; omega⟩ (by simpa [Schedule.ids] using he)
  simp at this
  omega

theorem inv_step (L : Laws ops c get Holds) (hw : 0 < c.width) (hle : c.width ≤ c.height) {adv : T → T} {tb : TieBreak T Bird}
    {time : T} {n d : Nat} {flock : List Bird} {w w' : World T Bird (State F)} (hi : Inv c Holds time n d flock w)
    (hs : StepRel (model adv tb ops c) w w') :
    ∃ τ : Nat → Nat, (∀ i < c.birds, d ≤ τ i ∧ τ i < d + c.birds) ∧
      (∀ i < c.birds, ∀ i' < c.birds, τ i = τ i' → i = i') ∧
      Inv c Holds (adv time) (n + 1) (d + c.birds) (nextFlock c (fun i => c.rnd (τ i)) flock) w' := by
  obtain ⟨ran, goOn, u, hp, ht, hu, hus, rfl⟩ := hs
  obtain ⟨p1, p2⟩ := preStep_model (ops := ops) (c := c) adv tb w
  rw [p1] at hp hus
  have hran : ran.Perm (flock.map (entry time)) := hp.trans hi.agents
  have hnd : (Schedule.ids ran).Nodup := by
    have : (Schedule.ids ran).Perm (Schedule.ids w.sched.events) := hp.map _
    exact this.nodup_iff.2 (inv_nodup hi)
  have hlen : ran.length = c.birds := by
    rw [hran.length_eq, List.length_map, ← List.length_map (f := Bird.id), hi.ids, List.length_range]
  -- the published flock
  obtain ⟨f, r, hf, hh, hr⟩ : ∃ f r, (preStep (model adv tb ops c) w).state.field = some f ∧ Holds f r [] ∧ r.Perm flock := by
    obtain ⟨f, r, wr, h1, h2, h3⟩ := hi.field
    rw [p2, hi.steps]
    by_cases hn : n = 0
    · rw [if_pos hn] at h3
      subst h3
      obtain ⟨f', h4, h5⟩ := L.lazy h2
      rw [if_pos hn]
      exact ⟨f', wr, by simp [h1, h4], h5, List.Perm.refl _⟩
    · rw [if_neg hn] at h3
      obtain ⟨h3, rfl⟩ := h3
      rw [if_neg hn]
      exact ⟨f, r, h1, h2, h3⟩
  have hdr : (preStep (model adv tb ops c) w).state.draws = d := by
    rw [p2, ← hi.draws]; split <;> rfl
  have hne : ran ≠ [] → r ≠ [] := by
    intro h1 h2
    subst h2
    have := hr.symm.eq_nil
    subst this
    exact h1 (by simpa using hran)
  have hrep : ∀ e ∈ ran, e.1.repeating = true := by
    intro e he
    obtain ⟨b, _, rfl⟩ := List.mem_map.1 (hran.mem_iff.1 he)
    rfl
  obtain ⟨f', k1, k2, k3, k4⟩ := turns_birds L hw hle ht hrep hf hh hne
  rw [hdr] at k3 k4
  -- the draws of the birds
  have hmem : ∀ i, i < c.birds → ∃ j, ∃ hj : j < ran.length, ran[j].1.id = i := by
    intro i hii
    have : i ∈ flock.map Bird.id := by rw [hi.ids]; simpa using hii
    obtain ⟨b, hb, rfl⟩ := List.mem_map.1 this
    have : entry time b ∈ ran := hran.mem_iff.2 (List.mem_map.2 ⟨b, hb, rfl⟩)
    obtain ⟨j, hj, he⟩ := List.getElem_of_mem this
    exact ⟨j, hj, by rw [he]; rfl⟩
  have hsee : ∀ b ∈ flock, ∀ x, move c x b (seenF c r b.pos) = move c x b (sees c flock b.pos) := by
    intro b _ x
    rw [sees_eq hw (lt_of_lt_of_le hw hle) hi.inside]
    exact move_perm c x b (seenF_perm hr _)
  have hk : goOn.Perm ((nextFlock c (fun i => c.rnd (d + place ran i)) flock).map (entry (adv time))) := by
    have e1 : goOn = ran.map (fun e => (⟨e.1.id, move c (c.rnd (d + place ran e.1.id)) e.1.agent (seenF c r e.1.agent.pos), true⟩,
        ⟨adv e.2.time, e.2.ordering⟩)) := by
      rw [k4]
      apply List.ext_getElem
      · simp
      · intro j h1 h2
        simp only [List.length_mapIdx] at h1
        simp only [List.getElem_mapIdx, List.getElem_map, place_getElem hnd j h1]
    rw [e1]
    refine (hran.map _).trans ?_
    unfold nextFlock
    rw [List.map_map, List.map_map]
    apply List.Perm.of_eq
    apply List.map_congr_left
    intro b hb
    simp only [Function.comp, entry]
    rw [hsee b hb]
    rfl
  refine ⟨fun i => d + place ran i, ?_, ?_, ?_, ?_, ?_, ?_, ?_, ?_⟩
  · intro i hii
    obtain ⟨j, hj, rfl⟩ := hmem i hii
    simp only [place_getElem hnd j hj]
    omega
  · intro i hii i' hii' he
    obtain ⟨j, hj, rfl⟩ := hmem i hii
    obtain ⟨j', hj', rfl⟩ := hmem i' hii'
    simp only [place_getElem hnd j hj, place_getElem hnd j' hj'] at he
    have : j = j' := by omega
    subst this
    rfl
  · rw [← hi.ids]
    unfold nextFlock
    rw [List.map_map]
    rfl
  · intro b hb
    obtain ⟨b', _, rfl⟩ := List.mem_map.1 hb
    exact move_inside c hw hle _ _ _
  · exact hu.trans hk
  · show u.sched.step + 1 = _
    rw [hus, hi.steps]
  · show u.state.draws = _
    rw [k3, hlen]
  · obtain ⟨f'', m1, m2⟩ := L.lazy k2
    refine ⟨f'', goOn.map (fun e => e.1.agent), [], ?_, by simpa using m2, ?_⟩
    · show u.state.field.bind ops.lazyUpdate = _
      rw [k1]
      exact m1
    · rw [if_neg (by omega)]
      refine ⟨?_, rfl⟩
      have := hk.map (fun e => e.1.agent)
      rw [List.map_map] at this
      refine this.trans (List.Perm.of_eq ?_)
      exact List.map_id _

theorem inv_follows (L : Laws ops c get Holds) {time : T} {n d : Nat} {flock : List Bird} {w : World T Bird (State F)}
    (hi : Inv c Holds time n d flock w) : Follows c get time n flock w := by
  refine ⟨hi.ids, hi.inside, hi.agents, hi.steps, ?_⟩
  obtain ⟨f, r, wr, h1, h2, h3⟩ := hi.field
  refine ⟨f, h1, fun hn p hp => ⟨_, L.get p h2 hp, ?_⟩⟩
  rw [if_neg (by omega)] at h3
  exact h3.1.filter _

theorem flockAt_congr {c : Config} {r r' : Nat → Nat → ℚ × ℚ} {first : List Bird} {n : Nat}
    (hids : ∀ m ≤ n, ∀ b ∈ flockAt c r first m, b.id < c.birds) (h : ∀ m < n, ∀ i < c.birds, r m i = r' m i) :
    flockAt c r first n = flockAt c r' first n := by
  induction n with
  | zero => rfl
  | succ n ih =>
    have ih := ih (fun m hm => hids m (by omega)) (fun m hm => h m (by omega))
    unfold flockAt
    rw [← ih]
    unfold nextFlock
    apply List.map_congr_left
    intro b hb
    rw [h n (by omega) b.id (hids n (by omega) b hb)]

/-! ### The start -/

theorem exec_repeating {S : Type} (zero : T) (bs : List Bird) : ∀ w : World T Bird S, (∀ e ∈ w.sched.events, e.1.id < w.sched.idCount) →
    (World.execAll w (bs.map (fun b => .scheduleRepeating b zero 0))).sched.events =
      w.sched.events ++ bs.mapIdx (fun j b => (⟨w.sched.idCount + j, b, true⟩, ⟨zero, 0⟩)) ∧
    (World.execAll w (bs.map (fun b => .scheduleRepeating b zero 0))).sched.step = w.sched.step ∧
    (World.execAll w (bs.map (fun b => .scheduleRepeating b zero 0))).state = w.state := by
  induction bs with
  | nil => intro w _; simp [World.execAll]
  | cons b bs ih =>
    intro w hw
    have hpush : (w.sched.events.push { AgentImpl.new b w.sched.idCount with repeating := true } ⟨zero, 0⟩).1 =
        w.sched.events ++ [(⟨w.sched.idCount, b, true⟩, ⟨zero, 0⟩)] := by
      have hnone : w.sched.events.find? (fun e => e.1.id == w.sched.idCount) = none := by
        rw [List.find?_eq_none]
        intro e he
        have := hw e he
        simp
        omega
      unfold Queue.push
      simp only [AgentImpl.new]
      rw [hnone]
    obtain ⟨h1, h2, h3⟩ := ih (w.exec (.scheduleRepeating b zero 0)) (by
      intro e he
      change e ∈ (w.sched.events.push { AgentImpl.new b w.sched.idCount with repeating := true } ⟨zero, 0⟩).1 at he
      change e.1.id < w.sched.idCount + 1
      rw [hpush, List.mem_append, List.mem_singleton] at he
      rcases he with he | rfl
      · have := hw e he; omega
      · simp)
    refine ⟨?_, h2, h3⟩
    show (World.execAll (w.exec (.scheduleRepeating b zero 0)) _).sched.events = _
    rw [h1]
    show (w.sched.events.push { AgentImpl.new b w.sched.idCount with repeating := true } ⟨zero, 0⟩).1 ++ _ = _
    rw [hpush, List.mapIdx_cons, List.append_assoc, List.singleton_append]
    congr 2
    apply List.ext_getElem?
    intro j
    simp only [List.getElem?_mapIdx]
    show Option.map (fun b => ((⟨w.sched.idCount + 1 + j, b, true⟩, ⟨zero, 0⟩) : Entry T Bird)) _ = _
    rw [show w.sched.idCount + 1 + j = w.sched.idCount + (j + 1) by omega]

theorem foldlM_place (L : Laws ops c get Holds) (bs : List Bird) : ∀ {f : F} {r w : List Bird}, Holds f r w →
    (∀ b ∈ bs, InField c.width c.height b.pos) →
    ∃ f', bs.foldlM (fun f b => ops.place f b b.pos) f = some f' ∧ Holds f' r (w ++ bs) := by
  induction bs with
  | nil => intro f r w h _; exact ⟨f, rfl, by simpa using h⟩
  | cons b bs ih =>
    intro f r w h hb
    obtain ⟨f', h1, h2⟩ := L.place b h (hb b (by simp))
    obtain ⟨f'', h3, h4⟩ := ih h2 (fun x hx => hb x (List.mem_cons_of_mem _ hx))
    refine ⟨f'', ?_, by simpa using h4⟩
    rw [List.foldlM_cons, h1]
    exact h3

theorem newBirds_ids (c : Config) (k : Nat) : (newBirds c k).map Bird.id = List.range c.birds := by
  unfold newBirds
  rw [List.map_map]
  exact List.map_id _

theorem newBirds_inside (c : Config) (k : Nat) (hw : 0 < c.width) (hh : 0 < c.height) (hr : UnitDraws c) :
    ∀ b ∈ newBirds c k, InField c.width c.height b.pos := by
  intro b hb
  obtain ⟨i, _, rfl⟩ := List.mem_map.1 hb
  obtain ⟨⟨h1, h2⟩, h3, h4⟩ := hr (k + i)
  exact ⟨mul_nonneg hw.le h1, mul_le_of_le_one_right hw.le h2, mul_nonneg hh.le h3, mul_le_of_le_one_right hh.le h4⟩

theorem inv_start (L : Laws ops c get Holds) (hw : 0 < c.width) (hh : 0 < c.height) (hr : UnitDraws c) (zero : T) (adv : T → T)
    (tb : TieBreak T Bird) {s : State F} {f : F} {r : List Bird} (hf : s.field = some f) (hh' : Holds f r []) :
    Inv c Holds zero 0 (s.draws + c.birds) (newBirds c s.draws) (Driver.start (sim zero adv tb ops c) s) := by
  obtain ⟨h1, h2, h3⟩ := exec_repeating zero (newBirds c s.draws)
    ({ state := (init zero ops c s).1, sched := Sched.new zero, trace := [] } : World T Bird (State F)) (by simp [Sched.new])
  obtain ⟨f', k1, k2⟩ := foldlM_place L (newBirds c s.draws) hh' (newBirds_inside c _ hw hh hr)
  refine ⟨newBirds_ids c _, newBirds_inside c _ hw hh hr, ?_, h2, ?_, ?_⟩
  · show (World.execAll _ _).sched.events.Perm _
    change (World.execAll _ _).sched.events = _ at h1
    refine List.Perm.trans (List.Perm.of_eq h1) (List.Perm.of_eq ?_)
    show [] ++ _ = _
    rw [List.nil_append]
    unfold newBirds
    apply List.ext_getElem
    · simp
    · intro j a b
      simp [entry, newBird, Sched.new]
  · exact congrArg State.draws h3
  · refine ⟨f', r, newBirds c s.draws, (congrArg State.field h3).trans ?_, by simpa using k2, by rw [if_pos rfl]⟩
    show s.field.bind _ = _
    rw [hf]
    exact k1

/-- A sequence of steps. -/
theorem inv_steps (L : Laws ops c get Holds) (hw : 0 < c.width) (hle : c.width ≤ c.height) {adv : T → T} {tb : TieBreak T Bird}
    {time : T} {d : Nat} {first : List Bird} (ws : Nat → World T Bird (State F)) (hi : Inv c Holds time 0 d first (ws 0)) (n : Nat)
    (hs : ∀ m < n, ∀ flock, Inv c Holds (adv^[m] time) m (d + m * c.birds) flock (ws m) →
      StepRel (model adv tb ops c) (ws m) (ws (m + 1))) :
    ∃ σ : Nat → Nat → Nat, Fresh c d n σ ∧ ∀ m ≤ n, Inv c Holds (adv^[m] time) m (d + m * c.birds)
      (flockAt c (fun m i => c.rnd (σ m i)) first m) (ws m) := by
  have key : ∃ σ : Nat → Nat → Nat, (∀ m < n, ∀ i < c.birds, d + m * c.birds ≤ σ m i ∧ σ m i < d + (m + 1) * c.birds) ∧
      (∀ m < n, ∀ i < c.birds, ∀ i' < c.birds, σ m i = σ m i' → i = i') ∧
      ∀ m ≤ n, Inv c Holds (adv^[m] time) m (d + m * c.birds) (flockAt c (fun m i => c.rnd (σ m i)) first m) (ws m) := by
    induction n with
    | zero =>
      refine ⟨fun _ _ => 0, by omega, by omega, ?_⟩
      intro m hm
      obtain rfl : m = 0 := by omega
      rw [Nat.zero_mul]
      exact hi
    | succ n ih =>
      obtain ⟨σ, h1, h2, h3⟩ := ih (fun m hm => hs m (by omega))
      obtain ⟨τ, t1, t2, t3⟩ := inv_step L hw hle (h3 n (by omega)) (hs n (by omega) _ (h3 n (by omega)))
      have hagree : ∀ m ≤ n, flockAt c (fun m i => c.rnd (σ m i)) first m =
          flockAt c (fun m i => c.rnd ((if m = n then τ else σ m) i)) first m := by
        intro m hm
        apply flockAt_congr
        · intro m' hm' b hb
          have := (h3 m' (by omega)).ids
          have hb := List.mem_map_of_mem (f := Bird.id) hb
          rw [this] at hb
          simpa using hb
        · intro m' hm' i _
          rw [if_neg (by omega)]
      refine ⟨fun m => if m = n then τ else σ m, ?_, ?_, ?_⟩
      · intro m hm i hii
        by_cases hmn : m = n
        · subst hmn
          simp only [if_true]
          have := t1 i hii
          rw [Nat.succ_mul]
          omega
        · simp only [if_neg hmn]
          exact h1 m (by omega) i hii
      · intro m hm i hii i' hii' he
        by_cases hmn : m = n
        · simp only [if_pos hmn] at he
          exact t2 i hii i' hii' he
        · simp only [if_neg hmn] at he
          exact h2 m (by omega) i hii i' hii' he
      · intro m hm
        by_cases hmn : m = n + 1
        · subst hmn
          have e : d + (n + 1) * c.birds = d + n * c.birds + c.birds := by rw [Nat.succ_mul]; omega
          rw [e, Function.iterate_succ_apply']
          unfold flockAt
          rw [← hagree n (by omega)]
          simp only [if_true]
          exact t3
        · rw [← hagree m (by omega)]
          exact h3 m (by omega)
  obtain ⟨σ, h1, h2, h3⟩ := key
  refine ⟨σ, ⟨?_, ?_⟩, h3⟩
  · intro m m' i i' hm hm' hii hii' he
    have a := h1 m hm i hii
    have b := h1 m' hm' i' hii'
    have : m = m' := by
      rcases lt_trichotomy m m' with h | h | h
      · have : (m + 1) * c.birds ≤ m' * c.birds := Nat.mul_le_mul_right _ h
        omega
      · exact h
      · have : (m' + 1) * c.birds ≤ m * c.birds := Nat.mul_le_mul_right _ h
        omega
    subst this
    exact ⟨rfl, h2 m hm i hii i' hii' he⟩
  · intro m i hm hii
    have := (h1 m hm i hii).1
    omega

end Verif.Flockers
