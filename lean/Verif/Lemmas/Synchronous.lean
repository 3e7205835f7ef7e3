import Verif.Spec.Synchronous
import Verif.Lemmas.Flockers

/-!
The schedule and the driver over an arbitrary lawful field: the steps of a simulation are the rounds of the specification.
-/

namespace Verif.Sync

open Schedule
open Flockers (StepRel stepRel_seq stepRel_par)

variable {T F B V D : Type} {ops : FieldOps F B V} {ident : B → Nat} {ok : B → Prop} {view : List B → B → V}
  {same : V → V → Prop} {shows : F → List B → Prop} {Holds : F → List B → List B → Prop} {act : D → B → V → B × Bool}
  {rnd : Nat → D} {ord : Nat → Int}

/-- What becomes of the entry of an agent that decided `q`. -/
def goes (adv : T → T) (q : B × Bool) (e : Entry T (B × Bool)) : Option (Entry T (B × Bool)) :=
  if q.2 = true then some (⟨e.1.id, (q.1, true), true⟩, ⟨adv e.2.time, e.2.ordering⟩) else none

theorem mapIdx_shift {α β : Type} (g : Nat → α → β) (d : Nat) (l : List α) :
    l.mapIdx (fun j e => g (d + 1 + j) e) = l.mapIdx (fun j e => g (d + (j + 1)) e) := by
  apply List.ext_getElem?
  intro j
  simp only [List.getElem?_mapIdx]
  rw [show d + 1 + j = d + (j + 1) by omega]

theorem turns_agents (L : Laws ops ident ok view same shows Holds) (R : Lawful act ident ok same) {adv : T → T}
    {tb : TieBreak T (B × Bool)} {s s' : State F} {l k : List (Entry T (B × Bool))}
    (ht : Turns (model adv tb ops act rnd) s l s' k) :
    ∀ {f : F} {r w : List B}, (∀ e ∈ l, e.1.repeating = true) → (∀ e ∈ l, ok e.1.agent.1) →
      (l.map (fun e => ident e.1.agent.1)).Nodup → (∀ e ∈ l, ∀ x ∈ w, ident x ≠ ident e.1.agent.1) →
      s.field = some f → Holds f r w → (l ≠ [] → r ≠ []) →
      ∃ f', s'.field = some f' ∧ Holds f' r (w ++ k.map (fun e => e.1.agent.1)) ∧ s'.draws = s.draws + l.length ∧
        k = (l.mapIdx (fun j e => goes adv (act (rnd (s.draws + j)) e.1.agent.1 (view r e.1.agent.1)) e)).filterMap id := by
  have turn : ∀ {s s1 : State F} {a a1 : B × Bool} {f : F} {r w : List B}, Callbacks (model adv tb ops act rnd) a s a1 s1 →
      s.field = some f → Holds f r w → r ≠ [] → ok a.1 →
      a1 = act (rnd s.draws) a.1 (view r a.1) ∧
      s1 = ⟨if (act (rnd s.draws) a.1 (view r a.1)).2 then ops.place f (act (rnd s.draws) a.1 (view r a.1)).1 else some f,
        s.draws + 1⟩ := by
    intro s s1 a a1 f r w h hf hh hne hok
    obtain ⟨a', v1, a'', v2, e1, e2, e3⟩ := h
    cases e1
    cases e3
    change agentStep ops act rnd a s = _ at e2
    obtain ⟨v, hv, hsame⟩ := L.look a.1 hh hne hok
    unfold agentStep at e2
    rw [hf] at e2
    dsimp only at e2
    rw [hv] at e2
    dsimp only at e2
    rw [R.same _ _ hsame] at e2
    cases e2
    exact ⟨rfl, rfl⟩
  induction ht with
  | nil s => intro f r w _ _ _ _ hf hh _; exact ⟨f, hf, by simpa using hh, rfl, rfl⟩
  | oneShot h ht ih => intro f r w hr; exact absurd (hr _ List.mem_cons_self) (by simp)
  | stopped h hs ht ih =>
    rename_i s s1 s2 s' i a a1 a2 p l k
    intro f r w hr hok hnd hfr hf hh hne
    obtain ⟨h1, h2⟩ := turn h hf hh (hne (by simp)) (hok _ List.mem_cons_self)
    change (!a1.2, a1, s1) = _ at hs
    have hdead : (act (rnd s.draws) a.1 (view r a.1)).2 = false := by
      rw [← h1]
      have := congrArg Prod.fst hs
      simpa using this
    have hs2 : s2 = ⟨some f, s.draws + 1⟩ := by
      rw [hdead, if_neg (by decide)] at h2
      rw [← h2]
      exact (congrArg (fun x => x.2.2) hs).symm
    subst hs2
    obtain ⟨f', k1, k2, k3, k4⟩ := ih (fun e he => hr e (List.mem_cons_of_mem _ he)) (fun e he => hok e (List.mem_cons_of_mem _ he))
      (List.nodup_cons.1 hnd).2 (fun e he => hfr e (List.mem_cons_of_mem _ he)) rfl hh (fun _ => hne (by simp))
    refine ⟨f', k1, k2, ?_, ?_⟩
    · rw [k3]; simp only [List.length_cons]; omega
    · have hg : goes adv (act (rnd (s.draws + 0)) a.1 (view r a.1)) ((⟨i, a, true⟩, p) : Entry T (B × Bool)) = none := by
        unfold goes
        rw [Nat.add_zero, hdead]
        exact if_neg (by decide)
      rw [List.mapIdx_cons]
      dsimp only
      rw [hg, List.filterMap_cons, k4]
      rw [mapIdx_shift (fun j e => goes adv (act (rnd j) e.1.agent.1 (view r e.1.agent.1)) e)]
      rfl
  | goesOn h hs ht ih =>
    rename_i s s1 s2 s' i a a1 a2 p l k
    intro f r w hr hok hnd hfr hf hh hne
    obtain ⟨h1, h2⟩ := turn h hf hh (hne (by simp)) (hok _ List.mem_cons_self)
    change (!a1.2, a1, s1) = _ at hs
    have hlives : (act (rnd s.draws) a.1 (view r a.1)).2 = true := by
      rw [← h1]
      have := congrArg Prod.fst hs
      simpa using this
    have ha2 : a2 = ((act (rnd s.draws) a.1 (view r a.1)).1, true) := by
      have h3 : a1 = a2 := congrArg (fun x => x.2.1) hs
      rw [← h3, h1]
      exact Prod.ext rfl hlives
    obtain ⟨f1, p1, p2⟩ := L.place (act (rnd s.draws) a.1 (view r a.1)).1 hh (R.ok _ _ _ (hok _ List.mem_cons_self) hlives) (by
      intro x hx
      rw [R.ident]
      exact hfr _ List.mem_cons_self x hx)
    have hs2 : s2 = ⟨some f1, s.draws + 1⟩ := by
      rw [hlives, if_pos rfl, p1] at h2
      rw [← h2]
      exact (congrArg (fun x => x.2.2) hs).symm
    subst hs2
    subst ha2
    obtain ⟨f', k1, k2, k3, k4⟩ := ih (fun e he => hr e (List.mem_cons_of_mem _ he)) (fun e he => hok e (List.mem_cons_of_mem _ he))
      (List.nodup_cons.1 hnd).2 (by
        intro e he x hx
        rcases List.mem_append.1 hx with hx | hx
        · exact hfr e (List.mem_cons_of_mem _ he) x hx
        · rw [List.mem_singleton] at hx
          subst hx
          rw [R.ident]
          intro heq
          exact (List.nodup_cons.1 hnd).1 (List.mem_map.2 ⟨e, he, heq.symm⟩)) rfl p2 (fun _ => hne (by simp))
    refine ⟨f', k1, by simpa using k2, ?_, ?_⟩
    · rw [k3]; simp only [List.length_cons]; omega
    · have hg : goes adv (act (rnd (s.draws + 0)) a.1 (view r a.1)) ((⟨i, a, true⟩, p) : Entry T (B × Bool)) =
          some (⟨i, ((act (rnd s.draws) a.1 (view r a.1)).1, true), true⟩, ⟨adv p.time, p.ordering⟩) := by
        unfold goes
        rw [Nat.add_zero]
        exact if_pos hlives
      rw [List.mapIdx_cons]
      dsimp only
      rw [hg, List.filterMap_cons, k4]
      rw [mapIdx_shift (fun j e => goes adv (act (rnd j) e.1.agent.1 (view r e.1.agent.1)) e)]
      rfl

theorem preStep_model (adv : T → T) (tb : TieBreak T (B × Bool)) (w : World T (B × Bool) (State F)) :
    (preStep (model adv tb ops act rnd) w).sched = w.sched ∧
    (preStep (model adv tb ops act rnd) w).state =
      if w.sched.step = 0 then ⟨w.state.field.bind ops.publish, w.state.draws⟩ else w.state := by
  unfold preStep
  by_cases h : w.sched.step = 0
  · rw [if_pos h, if_pos h]; exact ⟨rfl, rfl⟩
  · rw [if_neg h, if_neg h]; exact ⟨rfl, rfl⟩

/-- The entry of an agent. -/
def entry (ord : Nat → Int) (time : T) (p : Nat × B) : Entry T (B × Bool) := (⟨p.1, (p.2, true), true⟩, ⟨time, ord p.1⟩)

/-- The simulation after `n` steps, with `d` random values passed. -/
structure Inv (ident : B → Nat) (ok : B → Prop) (Holds : F → List B → List B → Prop) (ord : Nat → Int) (time : T) (n d : Nat)
    (pop : List (Nat × B)) (w : World T (B × Bool) (State F)) : Prop where
  ids : (pop.map Prod.fst).Nodup
  idents : (pop.map (fun p => ident p.2)).Nodup
  inside : ∀ p ∈ pop, ok p.2
  agents : w.sched.events.Perm (pop.map (entry ord time))
  steps : w.sched.step = n
  draws : w.state.draws = d
  field : ∃ f r wr, w.state.field = some f ∧ Holds f r wr ∧ if n = 0 then wr = pop.map Prod.snd else r.Perm (pop.map Prod.snd) ∧ wr = []

theorem inv_nodup {time : T} {n d : Nat} {pop : List (Nat × B)} {w : World T (B × Bool) (State F)}
    (hi : Inv ident ok Holds ord time n d pop w) : (Schedule.ids w.sched.events).Nodup := by
  have : (Schedule.ids w.sched.events).Perm (pop.map Prod.fst) := by
    have h := hi.agents.map (fun e => e.1.id)
    rw [List.map_map] at h
    exact h
  exact this.nodup_iff.2 hi.ids

theorem inv_follows (L : Laws ops ident ok view same shows Holds) {time : T} {n d : Nat} {pop : List (Nat × B)}
    {w : World T (B × Bool) (State F)} (hi : Inv ident ok Holds ord time n d pop w) : Follows shows ord time n pop w := by
  refine ⟨hi.agents, hi.steps, ?_⟩
  obtain ⟨f, r, wr, h1, h2, h3⟩ := hi.field
  refine ⟨f, h1, fun hn => ?_⟩
  rw [if_neg (by omega)] at h3
  exact L.shows h2 h3.1

/-- The number of the entry with this id in a list. -/
def place {A : Type} (l : List (Entry T A)) (i : Nat) : Nat := l.findIdx (fun e => e.1.id == i)

theorem place_getElem {A : Type} {l : List (Entry T A)} (hn : (Schedule.ids l).Nodup) (j : Nat) (hj : j < l.length) :
    place l l[j].1.id = j := by
  unfold place
  rw [List.findIdx_eq hj]
  refine ⟨by simp, ?_⟩
  intro i hij
  rw [beq_eq_false_iff_ne]
  intro he
  have hn' := List.nodup_iff_injective_getElem.1 hn
  have := @hn' ⟨i, by simp [Schedule.ids]; omega⟩ ⟨j, by simp [Schedule.ids]; omega⟩ (by simpa [Schedule.ids] using he)
  simp at this
  omega

theorem nextPop_sublist {r : Nat → D} (pop : List (Nat × B)) :
    ((nextPop act view r pop).map Prod.fst).Sublist (pop.map Prod.fst) := by
  unfold nextPop
  generalize pop.map Prod.snd = all
  induction pop with
  | nil => simp
  | cons p pop ih =>
    by_cases h : (act (r p.1) p.2 (view all p.2)).2 = true
    · rw [List.filterMap_cons]
      simp only [h, if_true, List.map_cons]
      exact ih.cons_cons _
    · rw [List.filterMap_cons]
      simp only [h, List.map_cons]
      exact ih.cons _

theorem nextPop_idents (R : Lawful act ident ok same) {r : Nat → D} (pop : List (Nat × B)) :
    ((nextPop act view r pop).map (fun p => ident p.2)).Sublist (pop.map (fun p => ident p.2)) := by
  unfold nextPop
  generalize pop.map Prod.snd = all
  induction pop with
  | nil => simp
  | cons p pop ih =>
    by_cases h : (act (r p.1) p.2 (view all p.2)).2 = true
    · rw [List.filterMap_cons]
      simp only [h, if_true, List.map_cons, R.ident]
      exact ih.cons_cons _
    · rw [List.filterMap_cons]
      simp only [h, List.map_cons]
      exact ih.cons _

theorem inv_step (L : Laws ops ident ok view same shows Holds) (R : Lawful act ident ok same) {adv : T → T}
    {tb : TieBreak T (B × Bool)} {time : T} {n d : Nat} {pop : List (Nat × B)} {w w' : World T (B × Bool) (State F)}
    (hi : Inv ident ok Holds ord time n d pop w) (hs : StepRel (model adv tb ops act rnd) w w') :
    ∃ τ : Nat → Nat, (∀ i ∈ pop.map Prod.fst, d ≤ τ i ∧ τ i < d + pop.length) ∧
      (∀ i ∈ pop.map Prod.fst, ∀ i' ∈ pop.map Prod.fst, τ i = τ i' → i = i') ∧
      Inv ident ok Holds ord (adv time) (n + 1) (d + pop.length) (nextPop act view (fun i => rnd (τ i)) pop) w' := by
  obtain ⟨ran, goOn, u, hp, ht, hu, hus, rfl⟩ := hs
  obtain ⟨p1, p2⟩ := preStep_model (ops := ops) (act := act) (rnd := rnd) adv tb w
  rw [p1] at hp hus
  have hran : ran.Perm (pop.map (entry ord time)) := hp.trans hi.agents
  have hnd : (Schedule.ids ran).Nodup := by
    have : (Schedule.ids ran).Perm (Schedule.ids w.sched.events) := hp.map _
    exact this.nodup_iff.2 (inv_nodup hi)
  have hlen : ran.length = pop.length := by rw [hran.length_eq, List.length_map]
  -- the published population
  obtain ⟨f, r, hf, hh, hr⟩ : ∃ f r, (preStep (model adv tb ops act rnd) w).state.field = some f ∧ Holds f r [] ∧
      r.Perm (pop.map Prod.snd) := by
    obtain ⟨f, r, wr, h1, h2, h3⟩ := hi.field
    rw [p2, hi.steps]
    by_cases hn : n = 0
    · rw [if_pos hn] at h3
      subst h3
      obtain ⟨f', h4, h5⟩ := L.publish h2
      rw [if_pos hn]
      exact ⟨f', _, by simp [h1, h4], h5, List.Perm.refl _⟩
    · rw [if_neg hn] at h3
      obtain ⟨h3, rfl⟩ := h3
      rw [if_neg hn]
      exact ⟨f, r, h1, h2, h3⟩
  have hdr : (preStep (model adv tb ops act rnd) w).state.draws = d := by
    rw [p2, ← hi.draws]; split <;> rfl
  have hne : ran ≠ [] → r ≠ [] := by
    intro h1 h2
    subst h2
    have := hr.symm.eq_nil
    rw [List.map_eq_nil_iff] at this
    subst this
    exact h1 (by simpa using hran)
  have hrep : ∀ e ∈ ran, e.1.repeating = true := by
    intro e he
    obtain ⟨b, _, rfl⟩ := List.mem_map.1 (hran.mem_iff.1 he)
    rfl
  have hokr : ∀ e ∈ ran, ok e.1.agent.1 := by
    intro e he
    obtain ⟨b, hb, rfl⟩ := List.mem_map.1 (hran.mem_iff.1 he)
    exact hi.inside b hb
  have hokp : ∀ x ∈ r, ok x := by
    intro x hx
    obtain ⟨b, hb, rfl⟩ := List.mem_map.1 (hr.mem_iff.1 hx)
    exact hi.inside b hb
  have hidr : (ran.map (fun e => ident e.1.agent.1)).Nodup := by
    have := hran.map (fun e => ident e.1.agent.1)
    rw [List.map_map] at this
    exact this.nodup_iff.2 hi.idents
  obtain ⟨f', k1, k2, k3, k4⟩ := turns_agents L R ht hrep hokr hidr (by simp) hf hh hne
  rw [hdr] at k3 k4
  have hmem : ∀ i ∈ pop.map Prod.fst, ∃ j, ∃ hj : j < ran.length, ran[j].1.id = i := by
    intro i hii
    obtain ⟨b, hb, rfl⟩ := List.mem_map.1 hii
    have : entry ord time b ∈ ran := hran.mem_iff.2 (List.mem_map.2 ⟨b, hb, rfl⟩)
    obtain ⟨j, hj, he⟩ := List.getElem_of_mem this
    exact ⟨j, hj, by rw [he]; rfl⟩
  have hk : goOn.Perm ((nextPop act view (fun i => rnd (d + place ran i)) pop).map (entry ord (adv time))) := by
    have e1 : goOn = ran.filterMap (fun e =>
        goes adv (act (rnd (d + place ran e.1.id)) e.1.agent.1 (view r e.1.agent.1)) e) := by
      rw [k4, show (fun e => goes adv (act (rnd (d + place ran e.1.id)) e.1.agent.1 (view r e.1.agent.1)) e) =
        id ∘ (fun e => goes adv (act (rnd (d + place ran e.1.id)) e.1.agent.1 (view r e.1.agent.1)) e) from rfl,
        ← List.filterMap_map]
      congr 1
      apply List.ext_getElem
      · simp
      · intro j h1 h2
        simp only [List.length_mapIdx] at h1
        simp only [List.getElem_mapIdx, List.getElem_map, place_getElem hnd j h1]
    rw [e1]
    refine (hran.filterMap _).trans ?_
    unfold nextPop
    rw [List.filterMap_map, List.map_filterMap]
    apply List.Perm.of_eq
    apply List.filterMap_congr
    intro b hb
    simp only [Function.comp, entry]
    rw [R.same _ _ (L.perm b.2 hokp (hi.inside b hb) hr)]
    unfold goes
    split <;> rfl
  refine ⟨fun i => d + place ran i, ?_, ?_, ?_, ?_, ?_, ?_, ?_, ?_, ?_⟩
  · intro i hii
    obtain ⟨j, hj, rfl⟩ := hmem i hii
    simp only [place_getElem hnd j hj]
    omega
  · intro i hii i' hii' he
    obtain ⟨j, hj, rfl⟩ := hmem i hii
    obtain ⟨j', hj', rfl⟩ := hmem i' hii'
    simp only [place_getElem hnd j hj, place_getElem hnd j' hj'] at he
    have : j = j' := by omega
    subst this
    rfl
  · exact hi.ids.sublist (nextPop_sublist pop)
  · exact hi.idents.sublist (nextPop_idents R pop)
  · intro p hp
    unfold nextPop at hp
    obtain ⟨q, hq, he⟩ := List.mem_filterMap.1 hp
    split at he
    · rename_i hl
      cases he
      exact R.ok _ _ _ (hi.inside q hq) hl
    · cases he
  · exact hu.trans hk
  · show u.sched.step + 1 = _
    rw [hus, hi.steps]
  · show u.state.draws = _
    rw [k3, hlen]
  · obtain ⟨f'', m1, m2⟩ := L.publish k2
    refine ⟨f'', goOn.map (fun e => e.1.agent.1), [], ?_, by simpa using m2, ?_⟩
    · show u.state.field.bind ops.publish = _
      rw [k1]
      exact m1
    · rw [if_neg (by omega)]
      refine ⟨?_, rfl⟩
      have := hk.map (fun e => e.1.agent.1)
      rw [List.map_map] at this
      exact this

/-! ### The start -/

theorem exec_repeating {A S : Type} (zero : T) (ord : Nat → Int) (bs : List A) : ∀ (w : World T A S) (k : Nat),
    (∀ e ∈ w.sched.events, e.1.id < w.sched.idCount) →
    (World.execAll w (bs.mapIdx (fun i b => .scheduleRepeating b zero (ord (k + i))))).sched.events =
      w.sched.events ++ bs.mapIdx (fun j b => (⟨w.sched.idCount + j, b, true⟩, ⟨zero, ord (k + j)⟩)) ∧
    (World.execAll w (bs.mapIdx (fun i b => .scheduleRepeating b zero (ord (k + i))))).sched.step = w.sched.step ∧
    (World.execAll w (bs.mapIdx (fun i b => .scheduleRepeating b zero (ord (k + i))))).state = w.state := by
  induction bs with
  | nil => intro w k _; simp [World.execAll]
  | cons b bs ih =>
    intro w k hw
    have hpush : (w.sched.events.push { AgentImpl.new b w.sched.idCount with repeating := true } ⟨zero, ord k⟩).1 =
        w.sched.events ++ [(⟨w.sched.idCount, b, true⟩, ⟨zero, ord k⟩)] := by
      have hnone : w.sched.events.find? (fun e => e.1.id == w.sched.idCount) = none := by
        rw [List.find?_eq_none]
        intro e he
        have := hw e he
        simp
        omega
      unfold Queue.push
      simp only [AgentImpl.new]
      rw [hnone]
    obtain ⟨h1, h2, h3⟩ := ih (w.exec (.scheduleRepeating b zero (ord k))) (k + 1) (by
      intro e he
      change e ∈ (w.sched.events.push { AgentImpl.new b w.sched.idCount with repeating := true } ⟨zero, ord k⟩).1 at he
      change e.1.id < w.sched.idCount + 1
      rw [hpush, List.mem_append, List.mem_singleton] at he
      rcases he with he | rfl
      · have := hw e he; omega
      · simp)
    rw [List.mapIdx_cons, Nat.add_zero, ← mapIdx_shift (fun j b => (.scheduleRepeating b zero (ord j) : Cmd T A)) k bs]
    refine ⟨?_, h2, h3⟩
    show (World.execAll (w.exec (.scheduleRepeating b zero (ord k))) _).sched.events = _
    rw [h1]
    show (w.sched.events.push { AgentImpl.new b w.sched.idCount with repeating := true } ⟨zero, ord k⟩).1 ++ _ = _
    rw [hpush, List.mapIdx_cons, List.append_assoc, List.singleton_append]
    congr 2
    apply List.ext_getElem?
    intro j
    simp only [List.getElem?_mapIdx]
    show Option.map (fun b => ((⟨w.sched.idCount + 1 + j, b, true⟩, ⟨zero, ord (k + 1 + j)⟩) : Entry T A)) _ = _
    rw [show w.sched.idCount + 1 + j = w.sched.idCount + (j + 1) by omega, show k + 1 + j = k + (j + 1) by omega]

theorem foldlM_place (L : Laws ops ident ok view same shows Holds) (bs : List B) : ∀ {f : F} {r w : List B}, Holds f r w →
    (∀ b ∈ bs, ok b) → (bs.map ident).Nodup → (∀ b ∈ bs, ∀ x ∈ w, ident x ≠ ident b) →
    ∃ f', bs.foldlM ops.place f = some f' ∧ Holds f' r (w ++ bs) := by
  induction bs with
  | nil => intro f r w h _ _ _; exact ⟨f, rfl, by simpa using h⟩
  | cons b bs ih =>
    intro f r w h hb hn hfr
    obtain ⟨f', h1, h2⟩ := L.place b h (hb b (by simp)) (hfr b (by simp))
    obtain ⟨f'', h3, h4⟩ := ih h2 (fun x hx => hb x (List.mem_cons_of_mem _ hx)) (List.nodup_cons.1 hn).2 (by
      intro c hc x hx
      rcases List.mem_append.1 hx with hx | hx
      · exact hfr c (List.mem_cons_of_mem _ hc) x hx
      · rw [List.mem_singleton] at hx
        subst hx
        intro he
        exact (List.nodup_cons.1 hn).1 (List.mem_map.2 ⟨c, hc, he.symm⟩))
    refine ⟨f'', ?_, by simpa using h4⟩
    rw [List.foldlM_cons, h1]
    exact h3

theorem numbered_fst (agents : List B) : (numbered agents).map Prod.fst = List.range agents.length := by
  unfold numbered
  apply List.ext_getElem
  · simp
  · intro j h1 h2; simp

theorem numbered_snd (agents : List B) : (numbered agents).map Prod.snd = agents := by
  unfold numbered
  apply List.ext_getElem
  · simp
  · intro j h1 h2; simp

theorem inv_start (L : Laws ops ident ok view same shows Holds) (zero : T) (adv : T → T) (tb : TieBreak T (B × Bool))
    {agents : List B} (hok : ∀ b ∈ agents, ok b) (hid : (agents.map ident).Nodup)
    {s : State F} {f : F} {r : List B} (hf : s.field = some f) (hh : Holds f r []) :
    Inv ident ok Holds ord zero 0 s.draws (numbered agents)
      (Driver.start (sim zero adv tb ops act rnd agents ord) s) := by
  obtain ⟨h1, h2, h3⟩ := exec_repeating zero ord (agents.map (fun b => (b, true)))
    ({ state := (init zero ops agents ord s).1, sched := Sched.new zero, trace := [] } : World T (B × Bool) (State F)) 0
    (by simp [Sched.new])
  have hcmd : (agents.map (fun b => (b, true))).mapIdx (fun i b => (.scheduleRepeating b zero (ord (0 + i)) : Cmd T (B × Bool))) =
      (init zero ops agents ord s).2 := by
    unfold init
    apply List.ext_getElem
    · simp
    · intro j a b; simp
  rw [hcmd] at h1 h2 h3
  obtain ⟨f', k1, k2⟩ := foldlM_place L agents hh hok hid (by simp)
  refine ⟨?_, ?_, ?_, ?_, h2, (congrArg State.draws h3).trans rfl, ?_⟩
  · rw [numbered_fst]; exact List.nodup_range
  · have : (numbered agents).map (fun p => ident p.2) = ((numbered agents).map Prod.snd).map ident := by rw [List.map_map]; rfl
    rw [this, numbered_snd]
    exact hid
  · intro p hp
    have := List.mem_map_of_mem (f := Prod.snd) hp
    rw [numbered_snd] at this
    exact hok _ this
  · refine List.Perm.trans (List.Perm.of_eq h1) (List.Perm.of_eq ?_)
    show [] ++ _ = _
    rw [List.nil_append]
    unfold numbered
    apply List.ext_getElem
    · simp
    · intro j a b
      simp [entry, Sched.new]
  · refine ⟨f', r, agents, (congrArg State.field h3).trans ?_, by simpa using k2, by rw [if_pos rfl, numbered_snd]⟩
    show s.field.bind _ = _
    rw [hf]
    exact k1

theorem popAt_congr {r r' : Nat → Nat → D} {first : List (Nat × B)} {n : Nat}
    (h : ∀ m < n, ∀ i ∈ (popAt act view r first m).map Prod.fst, r m i = r' m i) :
    popAt act view r first n = popAt act view r' first n := by
  induction n with
  | zero => rfl
  | succ n ih =>
    have ih := ih (fun m hm => h m (by omega))
    unfold popAt
    rw [← ih]
    unfold nextPop
    apply List.filterMap_congr
    intro b hb
    rw [h n (by omega) b.1 (List.mem_map_of_mem hb)]

/-- A sequence of steps. -/
theorem inv_steps (L : Laws ops ident ok view same shows Holds) (R : Lawful act ident ok same) {adv : T → T}
    {tb : TieBreak T (B × Bool)} {time : T} {d : Nat} {first : List (Nat × B)} (ws : Nat → World T (B × Bool) (State F))
    (hi : Inv ident ok Holds ord time 0 d first (ws 0)) (n : Nat)
    (hs : ∀ m < n, ∀ d' pop, Inv ident ok Holds ord (adv^[m] time) m d' pop (ws m) →
      StepRel (model adv tb ops act rnd) (ws m) (ws (m + 1))) :
    ∃ σ : Nat → Nat → Nat, Fresh (popAt act view (fun m i => rnd (σ m i)) first) d n σ ∧
      ∀ m ≤ n, ∃ d', Inv ident ok Holds ord (adv^[m] time) m d' (popAt act view (fun m i => rnd (σ m i)) first m) (ws m) := by
  have key : ∃ (σ : Nat → Nat → Nat) (dn : Nat), d ≤ dn ∧
      (∀ m < n, ∀ i ∈ (popAt act view (fun m i => rnd (σ m i)) first m).map Prod.fst, d ≤ σ m i ∧ σ m i < dn) ∧
      (∀ m < n, ∀ m' < n, ∀ i ∈ (popAt act view (fun m i => rnd (σ m i)) first m).map Prod.fst,
        ∀ i' ∈ (popAt act view (fun m i => rnd (σ m i)) first m').map Prod.fst, σ m i = σ m' i' → m = m' ∧ i = i') ∧
      (∀ m ≤ n, ∃ d', Inv ident ok Holds ord (adv^[m] time) m d' (popAt act view (fun m i => rnd (σ m i)) first m) (ws m)) ∧
      Inv ident ok Holds ord (adv^[n] time) n dn (popAt act view (fun m i => rnd (σ m i)) first n) (ws n) := by
    induction n with
    | zero =>
      refine ⟨fun _ _ => 0, d, le_refl _, by omega, by omega, ?_, hi⟩
      intro m hm
      obtain rfl : m = 0 := by omega
      exact ⟨d, hi⟩
    | succ n ih =>
      obtain ⟨σ, dn, h0, h1, h2, h3, h4⟩ := ih (fun m hm => hs m (by omega))
      obtain ⟨τ, t1, t2, t3⟩ := inv_step L R h4 (hs n (by omega) _ _ h4)
      have hagree : ∀ m ≤ n, popAt act view (fun m i => rnd (σ m i)) first m =
          popAt act view (fun m i => rnd ((if m = n then τ else σ m) i)) first m := by
        intro m hm
        apply popAt_congr
        intro m' hm' i _
        rw [if_neg (by omega)]
      have hlast : popAt act view (fun m i => rnd ((if m = n then τ else σ m) i)) first (n + 1) =
          nextPop act view (fun i => rnd (τ i)) (popAt act view (fun m i => rnd (σ m i)) first n) := by
        rw [popAt, ← hagree n (le_refl _)]
        simp only [if_true]
      have hall : ∀ m ≤ n + 1, ∃ d', Inv ident ok Holds ord (adv^[m] time) m d'
          (popAt act view (fun m i => rnd ((if m = n then τ else σ m) i)) first m) (ws m) := by
        intro m hm
        by_cases hmn : m = n + 1
        · subst hmn
          rw [hlast, Function.iterate_succ_apply']
          exact ⟨_, t3⟩
        · rw [← hagree m (by omega)]
          exact h3 m (by omega)
      refine ⟨fun m => if m = n then τ else σ m, dn + (popAt act view (fun m i => rnd (σ m i)) first n).length, by omega, ?_, ?_,
        hall, ?_⟩
      · intro m hm i hii
        dsimp only at hii
        rw [← hagree m (by omega)] at hii
        by_cases hmn : m = n
        · subst hmn
          simp only [if_true]
          have := t1 i hii
          omega
        · simp only [if_neg hmn]
          have := h1 m (by omega) i hii
          omega
      · intro m hm m' hm' i hii i' hii' he
        dsimp only at hii hii'
        rw [← hagree m (by omega)] at hii
        rw [← hagree m' (by omega)] at hii'
        by_cases hmn : m = n
        · by_cases hmn' : m' = n
          · subst hmn
            subst hmn'
            simp only [if_true] at he
            exact ⟨rfl, t2 i hii i' hii' he⟩
          · subst hmn
            simp only [if_true, if_neg hmn'] at he
            have := t1 i hii
            have := h1 m' (by omega) i' hii'
            omega
        · by_cases hmn' : m' = n
          · subst hmn'
            simp only [if_true, if_neg hmn] at he
            have := t1 i' hii'
            have := h1 m (by omega) i hii
            omega
          · simp only [if_neg hmn, if_neg hmn'] at he
            exact h2 m (by omega) m' (by omega) i hii i' hii' he
      · rw [hlast, Function.iterate_succ_apply']
        exact t3
  obtain ⟨σ, dn, h0, h1, h2, h3, _⟩ := key
  exact ⟨σ, ⟨fun m m' i i' hm hm' hii hii' he => h2 m hm m' hm' i hii i' hii' he, fun m i hm hii => (h1 m hm i hii).1⟩, h3⟩

end Verif.Sync
