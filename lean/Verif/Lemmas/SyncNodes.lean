import Verif.Spec.SyncNodes
import Verif.Lemmas.Synchronous

/-!
The schedule and the driver over an arbitrary lawful field whose nodes stay: the steps of a simulation are the rounds of the
specification.
-/

namespace Verif.Sync

open Schedule
open Flockers (StepRel stepRel_seq stepRel_par)

variable {T F B V D K : Type} [DecidableEq K] {ops : FieldOps F B V} {ident : B → K} {view : List B → B → V}
  {shows : F → List B → Prop} {Holds : F → List B → List B → Prop} {act : D → B → V → B × Bool} {rnd : Nat → D} {ord : Nat → Int}

/-- The records after the placements `bs`. -/
def placed (ident : B → K) (w bs : List B) : List B :=
  bs.foldl (fun w b => w.map (fun x => if ident x = ident b then b else x)) w

theorem placed_map (bs : List B) : ∀ w : List B, placed ident w bs =
    w.map (fun x => placed ident [x] bs |>.headD x) := by
  induction bs with
  | nil => intro w; simp [placed]
  | cons b bs ih =>
    intro w
    unfold placed at *
    rw [List.foldl_cons, ih, List.map_map]
    apply List.map_congr_left
    intro x _
    simp only [Function.comp, List.foldl_cons, List.map_cons, List.map_nil]
    rw [ih [if ident x = ident b then b else x]]
    simp only [List.map_cons, List.map_nil, List.headD_cons]

theorem placed_one (bs : List B) (hn : (bs.map ident).Nodup) : ∀ x : B,
    placed ident [x] bs = [(bs.find? (fun b => decide (ident b = ident x))).getD x] := by
  induction bs with
  | nil => intro x; rfl
  | cons b bs ih =>
    intro x
    obtain ⟨h1, h2⟩ := List.nodup_cons.1 hn
    unfold placed at *
    rw [List.foldl_cons, List.map_cons, List.map_nil]
    by_cases hx : ident x = ident b
    · rw [if_pos hx, ih h2, List.find?_cons_of_pos (by simpa using hx.symm), Option.getD_some]
      rw [List.find?_eq_none.2]
      · rfl
      · intro c hc
        simp only [decide_eq_true_eq]
        intro he
        exact h1 (List.mem_map.2 ⟨c, hc, he⟩)
    · rw [if_neg hx, ih h2, List.find?_cons_of_neg (by simpa using fun h => hx h.symm)]

/-- What the placements leave: the record placed by the node itself, or the old one. -/
theorem placed_eq (bs : List B) (hn : (bs.map ident).Nodup) (w : List B) :
    placed ident w bs = w.map (fun x => (bs.find? (fun b => decide (ident b = ident x))).getD x) := by
  rw [placed_map]
  apply List.map_congr_left
  intro x _
  rw [placed_one bs hn]
  rfl

theorem placed_idents (bs : List B) : ∀ w : List B, (placed ident w bs).map ident = w.map ident := by
  induction bs with
  | nil => intro w; rfl
  | cons b bs ih =>
    intro w
    unfold placed at *
    rw [List.foldl_cons, ih, List.map_map]
    apply List.map_congr_left
    intro x _
    simp only [Function.comp]
    split
    · rename_i h; exact h.symm
    · rfl

theorem turns_nodes (L : NodeLaws ops ident view shows Holds) (R : ∀ x b v, ident (act x b v).1 = ident b) {adv : T → T}
    {tb : TieBreak T (B × Bool)} {s s' : State F} {l k : List (Entry T (B × Bool))}
    (ht : Turns (model adv tb ops act rnd) s l s' k) :
    ∀ {f : F} {r w : List B}, (∀ e ∈ l, e.1.repeating = true) → (∀ e ∈ l, e.1.agent.1 ∈ r) →
      (∀ e ∈ l, ∃ x ∈ w, ident x = ident e.1.agent.1) → s.field = some f → Holds f r w →
      ∃ f', s'.field = some f' ∧ Holds f' r (placed ident w (k.map (fun e => e.1.agent.1))) ∧ s'.draws = s.draws + l.length ∧
        k = (l.mapIdx (fun j e => goes adv (act (rnd (s.draws + j)) e.1.agent.1 (view r e.1.agent.1)) e)).filterMap id := by
  have turn : ∀ {s s1 : State F} {a a1 : B × Bool} {f : F} {r w : List B}, Callbacks (model adv tb ops act rnd) a s a1 s1 →
      s.field = some f → Holds f r w → a.1 ∈ r →
      a1 = act (rnd s.draws) a.1 (view r a.1) ∧
      s1 = ⟨if (act (rnd s.draws) a.1 (view r a.1)).2 then ops.place f (act (rnd s.draws) a.1 (view r a.1)).1 else some f,
        s.draws + 1⟩ := by
    intro s s1 a a1 f r w h hf hh hr
    obtain ⟨a', v1, a'', v2, e1, e2, e3⟩ := h
    cases e1
    cases e3
    change agentStep ops act rnd a s = _ at e2
    unfold agentStep at e2
    rw [hf] at e2
    dsimp only at e2
    rw [L.look a.1 hh hr] at e2
    dsimp only at e2
    cases e2
    exact ⟨rfl, rfl⟩
  induction ht with
  | nil s => intro f r w _ _ _ hf hh; exact ⟨f, hf, hh, rfl, rfl⟩
  | oneShot h ht ih => intro f r w hr; exact absurd (hr _ List.mem_cons_self) (by simp)
  | stopped h hs ht ih =>
    rename_i s s1 s2 s' i a a1 a2 p l k
    intro f r w hr hin hw hf hh
    obtain ⟨h1, h2⟩ := turn h hf hh (hin _ List.mem_cons_self)
    change (!a1.2, a1, s1) = _ at hs
    have hdead : (act (rnd s.draws) a.1 (view r a.1)).2 = false := by
      rw [← h1]
      have := congrArg Prod.fst hs
      simpa using this
    have hs2 : s2 = ⟨some f, s.draws + 1⟩ := by
      rw [hdead, if_neg (by decide)] at h2
      rw [← h2]
      exact (congrArg (fun x => x.2.2) hs).symm
    subst hs2
    obtain ⟨f', k1, k2, k3, k4⟩ := ih (fun e he => hr e (List.mem_cons_of_mem _ he)) (fun e he => hin e (List.mem_cons_of_mem _ he))
      (fun e he => hw e (List.mem_cons_of_mem _ he)) rfl hh
    refine ⟨f', k1, k2, ?_, ?_⟩
    · rw [k3]; simp only [List.length_cons]; omega
    · have hg : goes adv (act (rnd (s.draws + 0)) a.1 (view r a.1)) ((⟨i, a, true⟩, p) : Entry T (B × Bool)) = none := by
        unfold goes
        rw [Nat.add_zero, hdead]
        exact if_neg (by decide)
      rw [List.mapIdx_cons]
      dsimp only
      rw [hg, List.filterMap_cons, k4]
      rw [mapIdx_shift (fun j e => goes adv (act (rnd j) e.1.agent.1 (view r e.1.agent.1)) e)]
      rfl
  | goesOn h hs ht ih =>
    rename_i s s1 s2 s' i a a1 a2 p l k
    intro f r w hr hin hw hf hh
    obtain ⟨h1, h2⟩ := turn h hf hh (hin _ List.mem_cons_self)
    change (!a1.2, a1, s1) = _ at hs
    have hlives : (act (rnd s.draws) a.1 (view r a.1)).2 = true := by
      rw [← h1]
      have := congrArg Prod.fst hs
      simpa using this
    have ha2 : a2 = ((act (rnd s.draws) a.1 (view r a.1)).1, true) := by
      have h3 : a1 = a2 := congrArg (fun x => x.2.1) hs
      rw [← h3, h1]
      exact Prod.ext rfl hlives
    obtain ⟨x, hx, hxi⟩ := hw _ List.mem_cons_self
    obtain ⟨f1, p1, p2⟩ := L.place (act (rnd s.draws) a.1 (view r a.1)).1 hh ⟨x, hx, by rw [R]; exact hxi⟩
    have hs2 : s2 = ⟨some f1, s.draws + 1⟩ := by
      rw [hlives, if_pos rfl, p1] at h2
      rw [← h2]
      exact (congrArg (fun x => x.2.2) hs).symm
    subst hs2
    subst ha2
    obtain ⟨f', k1, k2, k3, k4⟩ := ih (fun e he => hr e (List.mem_cons_of_mem _ he)) (fun e he => hin e (List.mem_cons_of_mem _ he))
      (by
        intro e he
        obtain ⟨y, hy, hyi⟩ := hw e (List.mem_cons_of_mem _ he)
        refine ⟨_, List.mem_map.2 ⟨y, hy, rfl⟩, ?_⟩
        split
        · rename_i hc; rw [← hc]; exact hyi
        · exact hyi) rfl p2
    refine ⟨f', k1, k2, ?_, ?_⟩
    · rw [k3]; simp only [List.length_cons]; omega
    · have hg : goes adv (act (rnd (s.draws + 0)) a.1 (view r a.1)) ((⟨i, a, true⟩, p) : Entry T (B × Bool)) =
          some (⟨i, ((act (rnd s.draws) a.1 (view r a.1)).1, true), true⟩, ⟨adv p.time, p.ordering⟩) := by
        unfold goes
        rw [Nat.add_zero]
        exact if_pos hlives
      rw [List.mapIdx_cons]
      dsimp only
      rw [hg, List.filterMap_cons, k4]
      rw [mapIdx_shift (fun j e => goes adv (act (rnd j) e.1.agent.1 (view r e.1.agent.1)) e)]
      rfl

/-- The simulation after `n` steps, with `d` random values passed. -/
structure NInv (ident : B → K) (Holds : F → List B → List B → Prop) (ord : Nat → Int) (time : T) (n d : Nat)
    (nodes : List (Nat × B × Bool)) (w : World T (B × Bool) (State F)) : Prop where
  ids : (nodes.map Prod.fst).Nodup
  idents : (nodes.map (fun p => ident p.2.1)).Nodup
  agents : w.sched.events.Perm ((living nodes).map (entry ord time))
  steps : w.sched.step = n
  draws : w.state.draws = d
  field : ∃ f r, w.state.field = some f ∧ Holds f r (nodes.map (fun p => p.2.1)) ∧ (n ≠ 0 → r = nodes.map (fun p => p.2.1))

theorem living_fst_sublist (nodes : List (Nat × B × Bool)) : ((living nodes).map Prod.fst).Sublist (nodes.map Prod.fst) := by
  unfold living
  rw [List.map_map]
  exact List.filter_sublist.map Prod.fst

omit [DecidableEq K] in
theorem living_ident_sublist (nodes : List (Nat × B × Bool)) :
    ((living nodes).map (fun p => ident p.2)).Sublist (nodes.map (fun p => ident p.2.1)) := by
  unfold living
  rw [List.map_map]
  exact List.filter_sublist.map (fun p : Nat × B × Bool => ident p.2.1)

omit [DecidableEq K] in
theorem ninv_nodup {time : T} {n d : Nat} {nodes : List (Nat × B × Bool)} {w : World T (B × Bool) (State F)}
    (hi : NInv ident Holds ord time n d nodes w) : (Schedule.ids w.sched.events).Nodup := by
  have : (Schedule.ids w.sched.events).Perm ((living nodes).map Prod.fst) := by
    have h := hi.agents.map (fun e => e.1.id)
    rw [List.map_map] at h
    exact h
  exact this.nodup_iff.2 (hi.ids.sublist (living_fst_sublist nodes))

theorem ninv_follows (L : NodeLaws ops ident view shows Holds) {time : T} {n d : Nat} {nodes : List (Nat × B × Bool)}
    (hne : nodes ≠ []) {w : World T (B × Bool) (State F)} (hi : NInv ident Holds ord time n d nodes w) :
    FollowsNodes shows ord time n nodes w := by
  refine ⟨hi.agents, hi.steps, ?_⟩
  obtain ⟨f, r, h1, h2, h3⟩ := hi.field
  refine ⟨f, h1, fun hn => ?_⟩
  have := h3 (by omega)
  subst this
  exact L.shows h2 (by simpa using hne)

theorem mem_living {nodes : List (Nat × B × Bool)} {p : Nat × B} : p ∈ living nodes ↔ (p.1, p.2, true) ∈ nodes := by
  unfold living
  rw [List.mem_map]
  constructor
  · rintro ⟨q, hq, rfl⟩
    obtain ⟨h1, h2⟩ := List.mem_filter.1 hq
    rw [← h2]
    exact h1
  · intro h
    exact ⟨_, List.mem_filter.2 ⟨h, rfl⟩, rfl⟩

/-- The living nodes of the next round. -/
theorem living_next (r : Nat → D) (nodes : List (Nat × B × Bool)) :
    living (nextNodes act view r nodes) = (living nodes).filterMap (fun p =>
      if (act (r p.1) p.2 (view (nodes.map (fun q => q.2.1)) p.2)).2 = true then
        some (p.1, (act (r p.1) p.2 (view (nodes.map (fun q => q.2.1)) p.2)).1) else none) := by
  unfold nextNodes living
  generalize nodes.map (fun q => q.2.1) = all
  induction nodes with
  | nil => rfl
  | cons p nodes ih =>
    rw [List.map_cons, List.filter_cons, List.filter_cons]
    by_cases h1 : p.2.2 = true
    · by_cases h2 : (act (r p.1) p.2.1 (view all p.2.1)).2 = true
      · simp only [h1, h2, and_self, if_true, List.map_cons, List.filterMap_cons]
        rw [ih]
      · simp only [h1, h2, and_false, if_false, List.map_cons, List.filterMap_cons, Bool.false_eq_true, if_true]
        exact ih
    · simp only [h1, false_and, if_false, Bool.false_eq_true]
      exact ih

theorem nextNodes_fst (r : Nat → D) (nodes : List (Nat × B × Bool)) :
    (nextNodes act view r nodes).map Prod.fst = nodes.map Prod.fst := by
  unfold nextNodes
  rw [List.map_map]
  apply List.map_congr_left
  intro p _
  simp only [Function.comp]
  split <;> rfl

omit [DecidableEq K] in
theorem nextNodes_idents (R : ∀ x b v, ident (act x b v).1 = ident b) (r : Nat → D) (nodes : List (Nat × B × Bool)) :
    (nextNodes act view r nodes).map (fun p => ident p.2.1) = nodes.map (fun p => ident p.2.1) := by
  unfold nextNodes
  rw [List.map_map]
  apply List.map_congr_left
  intro p _
  simp only [Function.comp]
  split
  · exact R _ _ _
  · rfl

/-- Among records with different identities, the one found is the one that is there. -/
theorem find_ident {bs : List B} (hn : (bs.map ident).Nodup) {b : B} (hb : b ∈ bs) {k : K} (hk : ident b = k) :
    bs.find? (fun x => decide (ident x = k)) = some b := by
  subst hk
  induction bs with
  | nil => simp at hb
  | cons c bs ih =>
    obtain ⟨h1, h2⟩ := List.nodup_cons.1 hn
    rcases List.mem_cons.1 hb with rfl | hb
    · rw [List.find?_cons_of_pos (by simp)]
    · rw [List.find?_cons_of_neg]
      · exact ih h2 hb
      · simp only [decide_eq_true_eq]
        intro he
        exact h1 (List.mem_map.2 ⟨b, hb, he.symm⟩)

theorem ninv_step (L : NodeLaws ops ident view shows Holds) (R : ∀ x b v, ident (act x b v).1 = ident b) {adv : T → T}
    {tb : TieBreak T (B × Bool)} {time : T} {n d : Nat} {nodes : List (Nat × B × Bool)} {w w' : World T (B × Bool) (State F)}
    (hi : NInv ident Holds ord time n d nodes w) (hs : StepRel (model adv tb ops act rnd) w w') :
    ∃ τ : Nat → Nat, (∀ i ∈ (living nodes).map Prod.fst, d ≤ τ i ∧ τ i < d + (living nodes).length) ∧
      (∀ i ∈ (living nodes).map Prod.fst, ∀ i' ∈ (living nodes).map Prod.fst, τ i = τ i' → i = i') ∧
      NInv ident Holds ord (adv time) (n + 1) (d + (living nodes).length) (nextNodes act view (fun i => rnd (τ i)) nodes) w' := by
  obtain ⟨ran, goOn, u, hp, ht, hu, hus, rfl⟩ := hs
  obtain ⟨p1, p2⟩ := preStep_model (ops := ops) (act := act) (rnd := rnd) adv tb w
  rw [p1] at hp hus
  have hran : ran.Perm ((living nodes).map (entry ord time)) := hp.trans hi.agents
  have hnd : (Schedule.ids ran).Nodup := by
    have : (Schedule.ids ran).Perm (Schedule.ids w.sched.events) := hp.map _
    exact this.nodup_iff.2 (ninv_nodup hi)
  have hlen : ran.length = (living nodes).length := by rw [hran.length_eq, List.length_map]
  -- the published records
  obtain ⟨f, hf, hh⟩ : ∃ f, (preStep (model adv tb ops act rnd) w).state.field = some f ∧
      Holds f (nodes.map (fun p => p.2.1)) (nodes.map (fun p => p.2.1)) := by
    obtain ⟨f, r, h1, h2, h3⟩ := hi.field
    rw [p2, hi.steps]
    by_cases hn : n = 0
    · obtain ⟨f', h4, h5⟩ := L.publish h2
      rw [if_pos hn]
      exact ⟨f', by simp [h1, h4], h5⟩
    · have := h3 hn
      subst this
      rw [if_neg hn]
      exact ⟨f, h1, h2⟩
  have hdr : (preStep (model adv tb ops act rnd) w).state.draws = d := by
    rw [p2, ← hi.draws]; split <;> rfl
  have hrep : ∀ e ∈ ran, e.1.repeating = true := by
    intro e he
    obtain ⟨b, _, rfl⟩ := List.mem_map.1 (hran.mem_iff.1 he)
    rfl
  have hin : ∀ e ∈ ran, e.1.agent.1 ∈ nodes.map (fun p => p.2.1) := by
    intro e he
    obtain ⟨b, hb, rfl⟩ := List.mem_map.1 (hran.mem_iff.1 he)
    exact List.mem_map.2 ⟨_, mem_living.1 hb, rfl⟩
  obtain ⟨f', k1, k2, k3, k4⟩ := turns_nodes L R ht hrep hin (fun e he => ⟨_, hin e he, rfl⟩) hf hh
  rw [hdr] at k3 k4
  have hmem : ∀ i ∈ (living nodes).map Prod.fst, ∃ j, ∃ hj : j < ran.length, ran[j].1.id = i := by
    intro i hii
    obtain ⟨b, hb, rfl⟩ := List.mem_map.1 hii
    have : entry ord time b ∈ ran := hran.mem_iff.2 (List.mem_map.2 ⟨b, hb, rfl⟩)
    obtain ⟨j, hj, he⟩ := List.getElem_of_mem this
    exact ⟨j, hj, by rw [he]; rfl⟩
  have hk : goOn.Perm ((living (nextNodes act view (fun i => rnd (d + place ran i)) nodes)).map (entry ord (adv time))) := by
    have e1 : goOn = ran.filterMap (fun e =>
        goes adv (act (rnd (d + place ran e.1.id)) e.1.agent.1 (view (nodes.map (fun p => p.2.1)) e.1.agent.1)) e) := by
      rw [k4, show (fun e : Entry T (B × Bool) =>
          goes adv (act (rnd (d + place ran e.1.id)) e.1.agent.1 (view (nodes.map (fun p => p.2.1)) e.1.agent.1)) e) =
        id ∘ (fun e => goes adv (act (rnd (d + place ran e.1.id)) e.1.agent.1 (view (nodes.map (fun p => p.2.1)) e.1.agent.1)) e)
        from rfl, ← List.filterMap_map]
      congr 1
      apply List.ext_getElem
      · simp
      · intro j h1 h2
        simp only [List.length_mapIdx] at h1
        simp only [List.getElem_mapIdx, List.getElem_map, place_getElem hnd j h1]
    rw [e1]
    refine (hran.filterMap _).trans ?_
    rw [living_next, List.filterMap_map, List.map_filterMap]
    apply List.Perm.of_eq
    apply List.filterMap_congr
    intro b hb
    simp only [Function.comp, entry]
    unfold goes
    split <;> rfl
  have hkb : (goOn.map (fun e => e.1.agent.1)).Perm
      ((living (nextNodes act view (fun i => rnd (d + place ran i)) nodes)).map Prod.snd) := by
    have := hk.map (fun e => e.1.agent.1)
    rw [List.map_map] at this
    exact this
  have hidn : ((nextNodes act view (fun i => rnd (d + place ran i)) nodes).map (fun p => ident p.2.1)).Nodup := by
    rw [nextNodes_idents R]
    exact hi.idents
  have hgn : ((goOn.map (fun e => e.1.agent.1)).map ident).Nodup := by
    rw [(hkb.map ident).nodup_iff, List.map_map]
    exact hidn.sublist (living_ident_sublist _)
  have hplaced : placed ident (nodes.map (fun p => p.2.1)) (goOn.map (fun e => e.1.agent.1)) =
      (nextNodes act view (fun i => rnd (d + place ran i)) nodes).map (fun p => p.2.1) := by
    rw [placed_eq _ hgn]
    unfold nextNodes
    rw [List.map_map, List.map_map]
    apply List.map_congr_left
    intro p hpm
    simp only [Function.comp]
    have hnext : (if p.2.2 = true ∧ (act (rnd (d + place ran p.1)) p.2.1 (view (nodes.map (fun q => q.2.1)) p.2.1)).2 = true then
        (p.1, (act (rnd (d + place ran p.1)) p.2.1 (view (nodes.map (fun q => q.2.1)) p.2.1)).1, true)
        else (p.1, p.2.1, false)) ∈ nextNodes act view (fun i => rnd (d + place ran i)) nodes :=
      List.mem_map.2 ⟨p, hpm, rfl⟩
    split
    · rename_i hc
      rw [if_pos hc] at hnext
      have hm : (act (rnd (d + place ran p.1)) p.2.1 (view (nodes.map (fun q => q.2.1)) p.2.1)).1 ∈ goOn.map (fun e => e.1.agent.1) :=
        hkb.mem_iff.2 (List.mem_map.2 ⟨(p.1, _), mem_living.2 hnext, rfl⟩)
      rw [find_ident hgn hm (R _ _ _)]
      rfl
    · rename_i hc
      rw [if_neg hc] at hnext
      rw [List.find?_eq_none.2]
      · rfl
      · intro b hb
        simp only [decide_eq_true_eq]
        intro he
        obtain ⟨q, hq, rfl⟩ := List.mem_map.1 (hkb.mem_iff.1 hb)
        have hqn := mem_living.1 hq
        have := List.inj_on_of_nodup_map hidn hqn hnext he
        simp at this
  refine ⟨fun i => d + place ran i, ?_, ?_, ?_, ?_, ?_, ?_, ?_, ?_⟩
  · intro i hii
    obtain ⟨j, hj, rfl⟩ := hmem i hii
    simp only [place_getElem hnd j hj]
    omega
  · intro i hii i' hii' he
    obtain ⟨j, hj, rfl⟩ := hmem i hii
    obtain ⟨j', hj', rfl⟩ := hmem i' hii'
    simp only [place_getElem hnd j hj, place_getElem hnd j' hj'] at he
    have : j = j' := by omega
    subst this
    rfl
  · rw [nextNodes_fst]; exact hi.ids
  · exact hidn
  · exact hu.trans hk
  · show u.sched.step + 1 = _
    rw [hus, hi.steps]
  · show u.state.draws = _
    rw [k3, hlen]
  · rw [hplaced] at k2
    obtain ⟨f'', m1, m2⟩ := L.publish k2
    refine ⟨f'', _, ?_, m2, fun _ => rfl⟩
    show u.state.field.bind ops.publish = _
    rw [k1]
    exact m1

/-! ### The start -/

theorem allAlive_records (agents : List B) : (allAlive agents).map (fun p => p.2.1) = agents := by
  unfold allAlive
  apply List.ext_getElem
  · simp
  · intro j h1 h2; simp

theorem allAlive_fst (agents : List B) : (allAlive agents).map Prod.fst = List.range agents.length := by
  unfold allAlive
  apply List.ext_getElem
  · simp
  · intro j h1 h2; simp

theorem living_allAlive (agents : List B) : living (allAlive agents) = numbered agents := by
  unfold living
  rw [List.filter_eq_self.2]
  · unfold allAlive numbered
    apply List.ext_getElem
    · simp
    · intro j h1 h2; simp
  · intro p hp
    unfold allAlive at hp
    obtain ⟨i, hi, rfl⟩ := List.mem_mapIdx.1 hp
    rfl

omit [DecidableEq K] in
theorem ninv_start (zero : T) (adv : T → T) (tb : TieBreak T (B × Bool)) {build : Option F} {agents : List B}
    (hid : (agents.map ident).Nodup) {f : F} {r : List B} (hf : build = some f) (hh : Holds f r agents) (s : State F) :
    NInv ident Holds ord zero 0 s.draws (allAlive agents)
      (Driver.start (simNodes zero adv tb ops act rnd build agents ord) s) := by
  obtain ⟨h1, h2, h3⟩ := exec_repeating zero ord (agents.map (fun b => (b, true)))
    ({ state := (initNodes zero build agents ord s).1, sched := Sched.new zero, trace := [] } : World T (B × Bool) (State F)) 0
    (by simp [Sched.new])
  have hcmd : (agents.map (fun b => (b, true))).mapIdx (fun i b => (.scheduleRepeating b zero (ord (0 + i)) : Cmd T (B × Bool))) =
      (initNodes zero build agents ord s).2 := by
    unfold initNodes
    apply List.ext_getElem
    · simp
    · intro j a b; simp
  rw [hcmd] at h1 h2 h3
  refine ⟨?_, ?_, ?_, h2, (congrArg State.draws h3).trans rfl, ?_⟩
  · rw [allAlive_fst]; exact List.nodup_range
  · have : (allAlive agents).map (fun p => ident p.2.1) = ((allAlive agents).map (fun p => p.2.1)).map ident := by
      rw [List.map_map]; rfl
    rw [this, allAlive_records]
    exact hid
  · rw [living_allAlive]
    refine List.Perm.trans (List.Perm.of_eq h1) (List.Perm.of_eq ?_)
    show [] ++ _ = _
    rw [List.nil_append]
    unfold numbered
    apply List.ext_getElem
    · simp
    · intro j a b
      simp [entry, Sched.new]
  · refine ⟨f, r, (congrArg State.field h3).trans hf, ?_, fun h => absurd rfl h⟩
    rw [allAlive_records]
    exact hh

theorem nodesAt_congr {r r' : Nat → Nat → D} {first : List (Nat × B × Bool)} {n : Nat}
    (h : ∀ m < n, ∀ i ∈ (living (nodesAt act view r first m)).map Prod.fst, r m i = r' m i) :
    nodesAt act view r first n = nodesAt act view r' first n := by
  induction n with
  | zero => rfl
  | succ n ih =>
    have ih := ih (fun m hm => h m (by omega))
    unfold nodesAt
    rw [← ih]
    unfold nextNodes
    apply List.map_congr_left
    intro b hb
    by_cases hl : b.2.2 = true
    · rw [h n (by omega) b.1 (List.mem_map.2 ⟨(b.1, b.2.1), mem_living.2 (by rw [← hl]; exact hb), rfl⟩)]
    · rw [if_neg (fun hc => hl hc.1), if_neg (fun hc => hl hc.1)]

theorem nodesAt_length (r : Nat → Nat → D) (first : List (Nat × B × Bool)) (n : Nat) :
    (nodesAt act view r first n).length = first.length := by
  induction n with
  | zero => rfl
  | succ n ih => unfold nodesAt nextNodes; rw [List.length_map, ih]

/-- A sequence of steps. -/
theorem ninv_steps (L : NodeLaws ops ident view shows Holds) (R : ∀ x b v, ident (act x b v).1 = ident b) {adv : T → T}
    {tb : TieBreak T (B × Bool)} {time : T} {d : Nat} {first : List (Nat × B × Bool)} (ws : Nat → World T (B × Bool) (State F))
    (hi : NInv ident Holds ord time 0 d first (ws 0)) (n : Nat)
    (hs : ∀ m < n, ∀ d' nodes, NInv ident Holds ord (adv^[m] time) m d' nodes (ws m) →
      StepRel (model adv tb ops act rnd) (ws m) (ws (m + 1))) :
    ∃ σ : Nat → Nat → Nat, Fresh (fun m => living (nodesAt act view (fun m i => rnd (σ m i)) first m)) d n σ ∧
      ∀ m ≤ n, ∃ d', NInv ident Holds ord (adv^[m] time) m d' (nodesAt act view (fun m i => rnd (σ m i)) first m) (ws m) := by
  have key : ∃ (σ : Nat → Nat → Nat) (dn : Nat), d ≤ dn ∧
      (∀ m < n, ∀ i ∈ (living (nodesAt act view (fun m i => rnd (σ m i)) first m)).map Prod.fst, d ≤ σ m i ∧ σ m i < dn) ∧
      (∀ m < n, ∀ m' < n, ∀ i ∈ (living (nodesAt act view (fun m i => rnd (σ m i)) first m)).map Prod.fst,
        ∀ i' ∈ (living (nodesAt act view (fun m i => rnd (σ m i)) first m')).map Prod.fst, σ m i = σ m' i' → m = m' ∧ i = i') ∧
      (∀ m ≤ n, ∃ d', NInv ident Holds ord (adv^[m] time) m d' (nodesAt act view (fun m i => rnd (σ m i)) first m) (ws m)) ∧
      NInv ident Holds ord (adv^[n] time) n dn (nodesAt act view (fun m i => rnd (σ m i)) first n) (ws n) := by
    induction n with
    | zero =>
      refine ⟨fun _ _ => 0, d, le_refl _, by omega, by omega, ?_, hi⟩
      intro m hm
      obtain rfl : m = 0 := by omega
      exact ⟨d, hi⟩
    | succ n ih =>
      obtain ⟨σ, dn, h0, h1, h2, h3, h4⟩ := ih (fun m hm => hs m (by omega))
      obtain ⟨τ, t1, t2, t3⟩ := ninv_step L R h4 (hs n (by omega) _ _ h4)
      have hagree : ∀ m ≤ n, nodesAt act view (fun m i => rnd (σ m i)) first m =
          nodesAt act view (fun m i => rnd ((if m = n then τ else σ m) i)) first m := by
        intro m hm
        apply nodesAt_congr
        intro m' hm' i _
        rw [if_neg (by omega)]
      have hlast : nodesAt act view (fun m i => rnd ((if m = n then τ else σ m) i)) first (n + 1) =
          nextNodes act view (fun i => rnd (τ i)) (nodesAt act view (fun m i => rnd (σ m i)) first n) := by
        rw [nodesAt, ← hagree n (le_refl _)]
        simp only [if_true]
      have hall : ∀ m ≤ n + 1, ∃ d', NInv ident Holds ord (adv^[m] time) m d'
          (nodesAt act view (fun m i => rnd ((if m = n then τ else σ m) i)) first m) (ws m) := by
        intro m hm
        by_cases hmn : m = n + 1
        · subst hmn
          rw [hlast, Function.iterate_succ_apply']
          exact ⟨_, t3⟩
        · rw [← hagree m (by omega)]
          exact h3 m (by omega)
      refine ⟨fun m => if m = n then τ else σ m, dn + (living (nodesAt act view (fun m i => rnd (σ m i)) first n)).length, by omega,
        ?_, ?_, hall, ?_⟩
      · intro m hm i hii
        dsimp only at hii
        rw [← hagree m (by omega)] at hii
        by_cases hmn : m = n
        · subst hmn
          simp only [if_true]
          have := t1 i hii
          omega
        · simp only [if_neg hmn]
          have := h1 m (by omega) i hii
          omega
      · intro m hm m' hm' i hii i' hii' he
        dsimp only at hii hii'
        rw [← hagree m (by omega)] at hii
        rw [← hagree m' (by omega)] at hii'
        by_cases hmn : m = n
        · by_cases hmn' : m' = n
          · subst hmn
            subst hmn'
            simp only [if_true] at he
            exact ⟨rfl, t2 i hii i' hii' he⟩
          · subst hmn
            simp only [if_true, if_neg hmn'] at he
            have := t1 i hii
            have := h1 m' (by omega) i' hii'
            omega
        · by_cases hmn' : m' = n
          · subst hmn'
            simp only [if_true, if_neg hmn] at he
            have := t1 i' hii'
            have := h1 m (by omega) i hii
            omega
          · simp only [if_neg hmn, if_neg hmn'] at he
            exact h2 m (by omega) m' (by omega) i hii i' hii' he
      · rw [hlast, Function.iterate_succ_apply']
        exact t3
  obtain ⟨σ, dn, h0, h1, h2, h3, _⟩ := key
  exact ⟨σ, ⟨fun m m' i i' hm hm' hii hii' he => h2 m hm m' hm' i hii i' hii' he, fun m i hm hii => (h1 m hm i hii).1⟩, h3⟩

end Verif.Sync
