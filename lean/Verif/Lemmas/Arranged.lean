import Verif.Spec.Arranged
import Verif.Lemmas.Synchronous

/-!
The schedule and the driver over an arbitrary lawful field, with rules that may depend on the arrangement of what an agent sees.
-/

namespace Verif.Sync

open Schedule
open Flockers (StepRel stepRel_seq stepRel_par)

variable {T F B V D : Type} {ops : FieldOps F B V} {ident : B → Nat} {ok : B → Prop} {okD : D → Prop} {view : List B → B → V}
  {same : V → V → Prop} {shows : F → List B → Prop} {Holds : F → List B → List B → Prop} {act : D → B → V → B × Bool}
  {rnd : Nat → D} {ord : Nat → Int}

theorem turns_arranged (L : Laws ops ident ok view same shows Holds) (R : Rule act ident ok okD view same) (hD : ∀ k, okD (rnd k)) {adv : T → T}
    {tb : TieBreak T (B × Bool)} {s s' : State F} {l k : List (Entry T (B × Bool))}
    (ht : Turns (model adv tb ops act rnd) s l s' k) :
    ∀ {f : F} {r w : List B}, (∀ e ∈ l, e.1.repeating = true) → (∀ e ∈ l, ok e.1.agent.1) → (∀ b ∈ r, ok b) →
      (l.map (fun e => ident e.1.agent.1)).Nodup → (∀ e ∈ l, ∀ x ∈ w, ident x ≠ ident e.1.agent.1) →
      s.field = some f → Holds f r w → (l ≠ [] → r ≠ []) →
      ∃ f' vs, s'.field = some f' ∧ Holds f' r (w ++ k.map (fun e => e.1.agent.1)) ∧ s'.draws = s.draws + l.length ∧
        List.Forall₂ (fun v e => same v (view r e.1.agent.1)) vs l ∧
        k = ((vs.zip l).mapIdx (fun j p => goes adv (act (rnd (s.draws + j)) p.2.1.agent.1 p.1) p.2)).filterMap id := by
  have turn : ∀ {s s1 : State F} {a a1 : B × Bool} {f : F} {r w : List B}, Callbacks (model adv tb ops act rnd) a s a1 s1 →
      s.field = some f → Holds f r w → r ≠ [] → ok a.1 →
      ∃ v, same v (view r a.1) ∧ a1 = act (rnd s.draws) a.1 v ∧
      s1 = ⟨if (act (rnd s.draws) a.1 v).2 then ops.place f (act (rnd s.draws) a.1 v).1 else some f, s.draws + 1⟩ := by
    intro s s1 a a1 f r w h hf hh hne hok
    obtain ⟨a', v1, a'', v2, e1, e2, e3⟩ := h
    cases e1
    cases e3
    change agentStep ops act rnd a s = _ at e2
    obtain ⟨v, hv, hsame⟩ := L.look a.1 hh hne hok
    unfold agentStep at e2
    rw [hf] at e2
    dsimp only at e2
    rw [hv] at e2
    cases e2
    exact ⟨v, hsame, rfl, rfl⟩
  induction ht with
  | nil s => intro f r w _ _ _ _ _ hf hh _; exact ⟨f, [], hf, by simpa using hh, rfl, .nil, rfl⟩
  | oneShot h ht ih => intro f r w hr; exact absurd (hr _ List.mem_cons_self) (by simp)
  | stopped h hs ht ih =>
    rename_i s s1 s2 s' i a a1 a2 p l k
    intro f r w hr hok hrok hnd hfr hf hh hne
    obtain ⟨v, hv, h1, h2⟩ := turn h hf hh (hne (by simp)) (hok _ List.mem_cons_self)
    change (!a1.2, a1, s1) = _ at hs
    have hdead : (act (rnd s.draws) a.1 v).2 = false := by
      rw [← h1]
      have := congrArg Prod.fst hs
      simpa using this
    have hs2 : s2 = ⟨some f, s.draws + 1⟩ := by
      rw [hdead, if_neg (by decide)] at h2
      rw [← h2]
      exact (congrArg (fun x => x.2.2) hs).symm
    subst hs2
    obtain ⟨f', vs, k1, k2, k3, k5, k4⟩ := ih (fun e he => hr e (List.mem_cons_of_mem _ he)) (fun e he => hok e (List.mem_cons_of_mem _ he)) hrok
      (List.nodup_cons.1 hnd).2 (fun e he => hfr e (List.mem_cons_of_mem _ he)) rfl hh (fun _ => hne (by simp))
    refine ⟨f', v :: vs, k1, k2, ?_, .cons hv k5, ?_⟩
    · rw [k3]; simp only [List.length_cons]; omega
    · have hg : goes adv (act (rnd (s.draws + 0)) a.1 v) ((⟨i, a, true⟩, p) : Entry T (B × Bool)) = none := by
        unfold goes
        rw [Nat.add_zero, hdead]
        exact if_neg (by decide)
      rw [List.zip_cons_cons, List.mapIdx_cons]
      dsimp only
      rw [hg, List.filterMap_cons, k4]
      rw [mapIdx_shift (fun j (p : V × Entry T (B × Bool)) => goes adv (act (rnd j) p.2.1.agent.1 p.1) p.2)]
      rfl
  | goesOn h hs ht ih =>
    rename_i s s1 s2 s' i a a1 a2 p l k
    intro f r w hr hok hrok hnd hfr hf hh hne
    obtain ⟨v, hv, h1, h2⟩ := turn h hf hh (hne (by simp)) (hok _ List.mem_cons_self)
    change (!a1.2, a1, s1) = _ at hs
    have hlives : (act (rnd s.draws) a.1 v).2 = true := by
      rw [← h1]
      have := congrArg Prod.fst hs
      simpa using this
    have ha2 : a2 = ((act (rnd s.draws) a.1 v).1, true) := by
      have h3 : a1 = a2 := congrArg (fun x => x.2.1) hs
      rw [← h3, h1]
      exact Prod.ext rfl hlives
    obtain ⟨f1, p1, p2⟩ := L.place (act (rnd s.draws) a.1 v).1 hh (R.ok _ _ _ _ (hD _) (hok _ List.mem_cons_self) hrok hv hlives) (by
      intro x hx
      rw [R.ident]
      exact hfr _ List.mem_cons_self x hx)
    have hs2 : s2 = ⟨some f1, s.draws + 1⟩ := by
      rw [hlives, if_pos rfl, p1] at h2
      rw [← h2]
      exact (congrArg (fun x => x.2.2) hs).symm
    subst hs2
    subst ha2
    obtain ⟨f', vs, k1, k2, k3, k5, k4⟩ := ih (fun e he => hr e (List.mem_cons_of_mem _ he)) (fun e he => hok e (List.mem_cons_of_mem _ he)) hrok
      (List.nodup_cons.1 hnd).2 (by
        intro e he x hx
        rcases List.mem_append.1 hx with hx | hx
        · exact hfr e (List.mem_cons_of_mem _ he) x hx
        · rw [List.mem_singleton] at hx
          subst hx
          rw [R.ident]
          intro heq
          exact (List.nodup_cons.1 hnd).1 (List.mem_map.2 ⟨e, he, heq.symm⟩)) rfl p2 (fun _ => hne (by simp))
    refine ⟨f', v :: vs, k1, by simpa using k2, ?_, .cons hv k5, ?_⟩
    · rw [k3]; simp only [List.length_cons]; omega
    · have hg : goes adv (act (rnd (s.draws + 0)) a.1 v) ((⟨i, a, true⟩, p) : Entry T (B × Bool)) =
          some (⟨i, ((act (rnd s.draws) a.1 v).1, true), true⟩, ⟨adv p.time, p.ordering⟩) := by
        unfold goes
        rw [Nat.add_zero]
        exact if_pos hlives
      rw [List.zip_cons_cons, List.mapIdx_cons]
      dsimp only
      rw [hg, List.filterMap_cons, k4]
      rw [mapIdx_shift (fun j (p : V × Entry T (B × Bool)) => goes adv (act (rnd j) p.2.1.agent.1 p.1) p.2)]
      rfl

theorem nextSeen_sublist {r : Nat → D} {v : Nat → V} (pop : List (Nat × B)) :
    ((nextSeen act r v pop).map Prod.fst).Sublist (pop.map Prod.fst) := by
  unfold nextSeen
  induction pop with
  | nil => simp
  | cons p pop ih =>
    by_cases h : (act (r p.1) p.2 (v p.1)).2 = true
    · rw [List.filterMap_cons]
      simp only [h, if_true, List.map_cons]
      exact ih.cons_cons _
    · rw [List.filterMap_cons]
      simp only [h, List.map_cons]
      exact ih.cons _

theorem nextSeen_idents (R : Rule act ident ok okD view same) {r : Nat → D} {v : Nat → V} (pop : List (Nat × B)) :
    ((nextSeen act r v pop).map (fun p => ident p.2)).Sublist (pop.map (fun p => ident p.2)) := by
  unfold nextSeen
  induction pop with
  | nil => simp
  | cons p pop ih =>
    by_cases h : (act (r p.1) p.2 (v p.1)).2 = true
    · rw [List.filterMap_cons]
      simp only [h, if_true, List.map_cons, R.ident]
      exact ih.cons_cons _
    · rw [List.filterMap_cons]
      simp only [h, List.map_cons]
      exact ih.cons _

theorem inv_step_arranged (L : Laws ops ident ok view same shows Holds) (R : Rule act ident ok okD view same) (hD : ∀ k, okD (rnd k))
    (htrans : ∀ {a b c}, same a b → same b c → same a c) [Inhabited V] {adv : T → T}
    {tb : TieBreak T (B × Bool)} {time : T} {n d : Nat} {pop : List (Nat × B)} {w w' : World T (B × Bool) (State F)}
    (hi : Inv ident ok Holds ord time n d pop w) (hs : StepRel (model adv tb ops act rnd) w w') :
    ∃ (τ : Nat → Nat) (pop' : List (Nat × B)), (∀ i ∈ pop.map Prod.fst, d ≤ τ i ∧ τ i < d + pop.length) ∧
      (∀ i ∈ pop.map Prod.fst, ∀ i' ∈ pop.map Prod.fst, τ i = τ i' → i = i') ∧
      Round act view same (fun i => rnd (τ i)) pop pop' ∧
      Inv ident ok Holds ord (adv time) (n + 1) (d + pop.length) pop' w' := by
  obtain ⟨ran, goOn, u, hp, ht, hu, hus, rfl⟩ := hs
  obtain ⟨p1, p2⟩ := preStep_model (ops := ops) (act := act) (rnd := rnd) adv tb w
  rw [p1] at hp hus
  have hran : ran.Perm (pop.map (entry ord time)) := hp.trans hi.agents
  have hnd : (Schedule.ids ran).Nodup := by
    have : (Schedule.ids ran).Perm (Schedule.ids w.sched.events) := hp.map _
    exact this.nodup_iff.2 (inv_nodup hi)
  have hlen : ran.length = pop.length := by rw [hran.length_eq, List.length_map]
  -- the published population
  obtain ⟨f, r, hf, hh, hr⟩ : ∃ f r, (preStep (model adv tb ops act rnd) w).state.field = some f ∧ Holds f r [] ∧
      r.Perm (pop.map Prod.snd) := by
    obtain ⟨f, r, wr, h1, h2, h3⟩ := hi.field
    rw [p2, hi.steps]
    by_cases hn : n = 0
    · rw [if_pos hn] at h3
      subst h3
      obtain ⟨f', h4, h5⟩ := L.publish h2
      rw [if_pos hn]
      exact ⟨f', _, by simp [h1, h4], h5, List.Perm.refl _⟩
    · rw [if_neg hn] at h3
      obtain ⟨h3, rfl⟩ := h3
      rw [if_neg hn]
      exact ⟨f, r, h1, h2, h3⟩
  have hdr : (preStep (model adv tb ops act rnd) w).state.draws = d := by
    rw [p2, ← hi.draws]; split <;> rfl
  have hne : ran ≠ [] → r ≠ [] := by
    intro h1 h2
    subst h2
    have := hr.symm.eq_nil
    rw [List.map_eq_nil_iff] at this
    subst this
    exact h1 (by simpa using hran)
  have hrep : ∀ e ∈ ran, e.1.repeating = true := by
    intro e he
    obtain ⟨b, _, rfl⟩ := List.mem_map.1 (hran.mem_iff.1 he)
    rfl
  have hokr : ∀ e ∈ ran, ok e.1.agent.1 := by
    intro e he
    obtain ⟨b, hb, rfl⟩ := List.mem_map.1 (hran.mem_iff.1 he)
    exact hi.inside b hb
  have hokp : ∀ x ∈ r, ok x := by
    intro x hx
    obtain ⟨b, hb, rfl⟩ := List.mem_map.1 (hr.mem_iff.1 hx)
    exact hi.inside b hb
  have hidr : (ran.map (fun e => ident e.1.agent.1)).Nodup := by
    have := hran.map (fun e => ident e.1.agent.1)
    rw [List.map_map] at this
    exact this.nodup_iff.2 hi.idents
  obtain ⟨f', vs, k1, k2, k3, k5, k4⟩ := turns_arranged L R hD ht hrep hokr hokp hidr (by simp) hf hh hne
  rw [hdr] at k3 k4
  have hvl : vs.length = ran.length := k5.length_eq
  have hmem : ∀ i ∈ pop.map Prod.fst, ∃ j, ∃ hj : j < ran.length, ran[j].1.id = i := by
    intro i hii
    obtain ⟨b, hb, rfl⟩ := List.mem_map.1 hii
    have : entry ord time b ∈ ran := hran.mem_iff.2 (List.mem_map.2 ⟨b, hb, rfl⟩)
    obtain ⟨j, hj, he⟩ := List.getElem_of_mem this
    exact ⟨j, hj, by rw [he]; rfl⟩
  have hround : Round act view same (fun i => rnd (d + place ran i)) pop
      (nextSeen act (fun i => rnd (d + place ran i)) (fun i => vs[place ran i]!) pop) := by
    refine ⟨_, ?_, rfl⟩
    intro b hb
    have : entry ord time b ∈ ran := hran.mem_iff.2 (List.mem_map.2 ⟨b, hb, rfl⟩)
    obtain ⟨j, hj, he⟩ := List.getElem_of_mem this
    have hpl : place ran b.1 = j := by
      have := place_getElem hnd j hj
      rw [he] at this
      exact this
    rw [hpl, getElem!_pos vs j (by omega)]
    refine htrans ?_ (L.perm b.2 hokp (hi.inside b hb) hr)
    have := k5.get (i := j) (by omega) hj
    simp only [List.get_eq_getElem] at this
    rw [he] at this
    exact this
  have hk : goOn.Perm ((nextSeen act (fun i => rnd (d + place ran i)) (fun i => vs[place ran i]!) pop).map (entry ord (adv time))) := by
    have e1 : goOn = ran.filterMap (fun e =>
        goes adv (act (rnd (d + place ran e.1.id)) e.1.agent.1 vs[place ran e.1.id]!) e) := by
      rw [k4, show (fun e => goes adv (act (rnd (d + place ran e.1.id)) e.1.agent.1 vs[place ran e.1.id]!) e) =
        id ∘ (fun e => goes adv (act (rnd (d + place ran e.1.id)) e.1.agent.1 vs[place ran e.1.id]!) e) from rfl,
        ← List.filterMap_map]
      congr 1
      apply List.ext_getElem
      · simp [hvl]
      · intro j h1 h2
        simp only [List.length_map] at h2
        simp only [List.getElem_mapIdx, List.getElem_map, place_getElem hnd j h2, List.getElem_zip]
        rw [getElem!_pos vs j (by omega)]
    rw [e1]
    refine (hran.filterMap _).trans ?_
    unfold nextSeen
    rw [List.filterMap_map, List.map_filterMap]
    apply List.Perm.of_eq
    apply List.filterMap_congr
    intro b hb
    simp only [Function.comp, entry]
    unfold goes
    split <;> rfl
  refine ⟨fun i => d + place ran i, _, ?_, ?_, hround, ?_, ?_, ?_, ?_, ?_, ?_, ?_⟩
  · intro i hii
    obtain ⟨j, hj, rfl⟩ := hmem i hii
    simp only [place_getElem hnd j hj]
    omega
  · intro i hii i' hii' he
    obtain ⟨j, hj, rfl⟩ := hmem i hii
    obtain ⟨j', hj', rfl⟩ := hmem i' hii'
    simp only [place_getElem hnd j hj, place_getElem hnd j' hj'] at he
    have : j = j' := by omega
    subst this
    rfl
  · exact hi.ids.sublist (nextSeen_sublist pop)
  · exact hi.idents.sublist (nextSeen_idents R pop)
  · intro p hp
    unfold nextSeen at hp
    obtain ⟨q, hq, he⟩ := List.mem_filterMap.1 hp
    split at he
    · rename_i hl
      cases he
      have hpok : ∀ c ∈ pop.map Prod.snd, ok c := by
        intro c hc
        obtain ⟨b, hb, rfl⟩ := List.mem_map.1 hc
        exact hi.inside b hb
      obtain ⟨v, hv1, hv2⟩ := hround
      have hq2 : same vs[place ran q.1]! (view (pop.map Prod.snd) q.2) := by
        have : entry ord time q ∈ ran := hran.mem_iff.2 (List.mem_map.2 ⟨q, hq, rfl⟩)
        obtain ⟨j, hj, he⟩ := List.getElem_of_mem this
        have hpl : place ran q.1 = j := by
          have := place_getElem hnd j hj
          rw [he] at this
          exact this
        rw [hpl, getElem!_pos vs j (by omega)]
        refine htrans ?_ (L.perm q.2 hokp (hi.inside q hq) hr)
        have := k5.get (i := j) (by omega) hj
        simp only [List.get_eq_getElem] at this
        rw [he] at this
        exact this
      exact R.ok _ _ _ _ (hD _) (hi.inside q hq) hpok hq2 hl
    · cases he
  · exact hu.trans hk
  · show u.sched.step + 1 = _
    rw [hus, hi.steps]
  · show u.state.draws = _
    rw [k3, hlen]
  · obtain ⟨f'', m1, m2⟩ := L.publish k2
    refine ⟨f'', goOn.map (fun e => e.1.agent.1), [], ?_, by simpa using m2, ?_⟩
    · show u.state.field.bind ops.publish = _
      rw [k1]
      exact m1
    · rw [if_neg (by omega)]
      refine ⟨?_, rfl⟩
      have := hk.map (fun e => e.1.agent.1)
      rw [List.map_map] at this
      exact this

/-- A sequence of steps. -/
theorem inv_steps_arranged (L : Laws ops ident ok view same shows Holds) (R : Rule act ident ok okD view same) (hD : ∀ k, okD (rnd k))
    (htrans : ∀ {a b c}, same a b → same b c → same a c) [Inhabited V] {adv : T → T}
    {tb : TieBreak T (B × Bool)} {time : T} {d : Nat} {first : List (Nat × B)} (ws : Nat → World T (B × Bool) (State F))
    (hi : Inv ident ok Holds ord time 0 d first (ws 0)) (n : Nat)
    (hs : ∀ m < n, ∀ d' pop, Inv ident ok Holds ord (adv^[m] time) m d' pop (ws m) →
      StepRel (model adv tb ops act rnd) (ws m) (ws (m + 1))) :
    ∃ pops : Nat → List (Nat × B), Rounds act view same rnd first d n pops ∧
      ∀ m ≤ n, ∃ d', Inv ident ok Holds ord (adv^[m] time) m d' (pops m) (ws m) := by
  have key : ∃ (σ : Nat → Nat → Nat) (pops : Nat → List (Nat × B)) (dn : Nat), d ≤ dn ∧ pops 0 = first ∧
      (∀ m < n, ∀ i ∈ (pops m).map Prod.fst, d ≤ σ m i ∧ σ m i < dn) ∧
      (∀ m < n, ∀ m' < n, ∀ i ∈ (pops m).map Prod.fst, ∀ i' ∈ (pops m').map Prod.fst, σ m i = σ m' i' → m = m' ∧ i = i') ∧
      (∀ m < n, Round act view same (fun i => rnd (σ m i)) (pops m) (pops (m + 1))) ∧
      (∀ m ≤ n, ∃ d', Inv ident ok Holds ord (adv^[m] time) m d' (pops m) (ws m)) ∧
      Inv ident ok Holds ord (adv^[n] time) n dn (pops n) (ws n) := by
    induction n with
    | zero =>
      refine ⟨fun _ _ => 0, fun _ => first, d, le_refl _, rfl, by omega, by omega, by omega, ?_, hi⟩
      intro m hm
      obtain rfl : m = 0 := by omega
      exact ⟨d, hi⟩
    | succ n ih =>
      obtain ⟨σ, pops, dn, h0, hfirst, h1, h2, hrd, h3, h4⟩ := ih (fun m hm => hs m (by omega))
      obtain ⟨τ, pop', t1, t2, tr, t3⟩ := inv_step_arranged L R hD htrans h4 (hs n (by omega) _ _ h4)
      have hold : ∀ m ≤ n, (if m ≤ n then pops m else pop') = pops m := fun m hm => if_pos hm
      have hnew : (if n + 1 ≤ n then pops (n + 1) else pop') = pop' := if_neg (by omega)
      refine ⟨fun m => if m = n then τ else σ m, fun m => if m ≤ n then pops m else pop', dn + (pops n).length, by omega, ?_, ?_, ?_, ?_, ?_, ?_⟩
      · dsimp only; rw [hold 0 (by omega)]; exact hfirst
      · intro m hm i hii
        dsimp only at hii
        rw [hold m (by omega)] at hii
        by_cases hmn : m = n
        · subst hmn
          simp only [if_true]
          have := t1 i hii
          omega
        · simp only [if_neg hmn]
          have := h1 m (by omega) i hii
          omega
      · intro m hm m' hm' i hii i' hii' he
        dsimp only at hii hii'
        rw [hold m (by omega)] at hii
        rw [hold m' (by omega)] at hii'
        by_cases hmn : m = n
        · by_cases hmn' : m' = n
          · subst hmn
            subst hmn'
            simp only [if_true] at he
            exact ⟨rfl, t2 i hii i' hii' he⟩
          · subst hmn
            simp only [if_true, if_neg hmn'] at he
            have := t1 i hii
            have := h1 m' (by omega) i' hii'
            omega
        · by_cases hmn' : m' = n
          · subst hmn'
            simp only [if_true, if_neg hmn] at he
            have := t1 i' hii'
            have := h1 m (by omega) i hii
            omega
          · simp only [if_neg hmn, if_neg hmn'] at he
            exact h2 m (by omega) m' (by omega) i hii i' hii' he
      · intro m hm
        dsimp only
        rw [hold m (by omega)]
        by_cases hmn : m = n
        · subst hmn
          rw [hnew]
          simp only [if_true]
          exact tr
        · rw [hold (m + 1) (by omega)]
          simp only [if_neg hmn]
          exact hrd m (by omega)
      · intro m hm
        dsimp only
        by_cases hmn : m = n + 1
        · subst hmn
          rw [hnew, Function.iterate_succ_apply']
          exact ⟨_, t3⟩
        · rw [hold m (by omega)]
          exact h3 m (by omega)
      · dsimp only
        rw [hnew, Function.iterate_succ_apply']
        exact t3
  obtain ⟨σ, pops, dn, h0, hfirst, h1, h2, hrd, h3, _⟩ := key
  exact ⟨pops, ⟨hfirst, σ, ⟨fun m m' i i' hm hm' hii hii' he => h2 m hm m' hm' i hii i' hii' he, fun m i hm hii => (h1 m hm i hii).1⟩, hrd⟩, h3⟩

end Verif.Sync
