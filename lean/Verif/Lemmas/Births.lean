import Verif.Spec.Births
import Verif.Lemmas.Synchronous
import Mathlib.Data.List.Perm.Basic
import Mathlib.Tactic.ByContra

/-!
The schedule over a lawful field with agents that have offspring: the steps of a simulation are the generations of the specification.
-/

namespace Verif.Births

open Schedule
open Sync (FieldOps Laws)

/-- What a step does, sequential or parallel, when all pending agents are due at time `t`: they take their turns in some order, the
clock is `t`, and no number is given out. -/
def StepRel {T A S : Type} (m : Model T A S) (t : T) (w w' : World T A S) : Prop :=
  ∃ ran goOn u, ran.Perm (preStep m w).sched.events ∧ Turns m (preStep m w).state ran u.state goOn ∧
    u.sched.events.Perm goOn ∧ u.sched.step = (preStep m w).sched.step ∧ u.sched.idCount = (preStep m w).sched.idCount ∧
    (ran ≠ [] → u.sched.time = t) ∧ w' = postStep m u

theorem stepRel_seq {T A S : Type} [LinearOrder T] (m : Model T A S) (w : World T A S) (hn : (Schedule.ids w.sched.events).Nodup) (t : T)
    (hsame : ∀ e ∈ (preStep m w).sched.events, e.2.time = t) : StepRel m t w (Schedule.step m w) := by
  obtain ⟨t', ran, goOn, he, h0, h1, h2, h3, h4, h5, h6, hs, h7, _⟩ := midStep_spec m w (preStep_nodup m w hn)
  have hall : ∀ e ∈ (preStep m w).sched.events, e.2.time = t' := by
    intro e hem
    obtain ⟨f, hf, hft⟩ := h0 (List.ne_nil_of_mem hem)
    rw [hsame e hem, ← hft, hsame f hf]
  have hf1 : (preStep m w).sched.events.filter (fun e => decide (e.2.time = t')) = (preStep m w).sched.events := by
    rw [List.filter_eq_self]
    intro e hem
    simpa using hall e hem
  have hf2 : (preStep m w).sched.events.filter (fun e => decide (t' < e.2.time)) = [] := by
    rw [List.filter_eq_nil_iff]
    intro e hem
    simp [hall e hem]
  rw [hf1] at h2
  rw [hf2, List.nil_append] at h5
  refine ⟨ran, goOn, midStep m w, h2, h4, by rw [h5], hs.trans (preStep_step m w).1.symm, h7, ?_, rfl⟩
  intro hne
  obtain ⟨e, hem⟩ := List.exists_mem_of_ne_nil _ hne
  have hem := h2.mem_iff.1 hem
  rw [h6, ← hsame e hem, hall e hem]

theorem stepRel_par {T A S : Type} [LinearOrder T] (m : Model T A S) (k : Nat) (w w' : World T A S)
    (hn : (Schedule.ids w.sched.events).Nodup) (t : T) (hsame : ∀ e ∈ (preStep m w).sched.events, e.2.time = t)
    (h : ParStep m k w (.ok w')) : StepRel m t w w' := by
  have hn := preStep_nodup m w hn
  cases h with
  | ok hk htop hseq =>
    rename_i top seq
    obtain ⟨_, hflat, _⟩ := C13_batches_partition m.tb (preStep m w).sched.events hn (preStep m w).sched.pops k hk
    have hperm := (interleaves_perm hseq).trans hflat
    have hnd : (ids seq).Nodup := by
      have : (ids seq).Perm (ids (preStep m w).sched.events) := hperm.map _
      exact this.nodup_iff.2 hn
    obtain ⟨goOn, ht, hev⟩ := foldl_runOne_turns m seq
      { (preStep m w) with sched := { (preStep m w).sched with
          time := top.2.time, events := [], pops := (preStep m w).sched.pops + seq.length } } (by simpa using hnd)
    obtain ⟨g1, g2, g3, _⟩ := foldl_runOne_fields m seq
      { (preStep m w) with sched := { (preStep m w).sched with
          time := top.2.time, events := [], pops := (preStep m w).sched.pops + seq.length } }
    refine ⟨seq, goOn, parRun m top seq (preStep m w), hperm, ht, ?_, g1, g3, ?_, rfl⟩
    · rw [show (parRun m top seq (preStep m w)).sched.events = _ from hev]; simp
    · intro _
      exact g2.trans (hsame top (peek_mem htop).1)

variable {T F B V C D : Type} {ops : FieldOps F B V} {ident : B → Nat} {ok : B → Prop} {view : List B → B → V}
  {same : V → V → Prop} {shows : F → List B → Prop} {Holds : F → List B → List B → Prop}
  {act : D → B → V → (B × Bool) × List C} {mk : Nat → C → B} {rnd : Nat → D} {ord : Nat → Int}

/-- The turns of a step: each agent with the number of its random value and the number of its first child. -/
def tally (act : D → B → V → (B × Bool) × List C) (rnd : Nat → D) (view : List B → B → V) (r : List B) :
    Nat → Nat → List (Entry T (B × Bool)) → List (Entry T (B × Bool) × Nat × Nat)
  | _, _, [] => []
  | d, k, e :: l => (e, d, k) ::
      tally act rnd view r (d + 1) (k + (act (rnd d) e.1.agent.1 (view r e.1.agent.1)).2.length) l

/-- What an agent decides in its turn. -/
def decision (act : D → B → V → (B × Bool) × List C) (rnd : Nat → D) (view : List B → B → V) (r : List B)
    (x : Entry T (B × Bool) × Nat × Nat) : (B × Bool) × List C := act (rnd x.2.1) x.1.1.agent.1 (view r x.1.1.agent.1)

/-- Its children. -/
def kidsOf (act : D → B → V → (B × Bool) × List C) (mk : Nat → C → B) (rnd : Nat → D) (view : List B → B → V) (r : List B)
    (x : Entry T (B × Bool) × Nat × Nat) : List B := children mk x.2.2 (decision act rnd view r x).2

/-- Itself, if it survives. -/
def selfOf (act : D → B → V → (B × Bool) × List C) (rnd : Nat → D) (view : List B → B → V) (r : List B)
    (x : Entry T (B × Bool) × Nat × Nat) : List B :=
  if (decision act rnd view r x).1.2 then [(decision act rnd view r x).1.1] else []

theorem children_ident (R : Lawful act mk ident ok same) (k : Nat) (cs : List C) :
    (children mk k cs).map ident = List.range' k cs.length := by
  unfold children
  apply List.ext_getElem
  · simp
  · intro j h1 h2
    simp [R.named]

theorem turns_agents (L : Laws ops ident ok view same shows Holds) (R : Lawful act mk ident ok same) {adv : T → T}
    {tb : TieBreak T (B × Bool)} {s s' : State F B} {l k : List (Entry T (B × Bool))}
    (ht : Turns (model adv tb ops act mk rnd ident ord) s l s' k) :
    ∀ {f : F} {r w : List B}, (∀ e ∈ l, e.1.repeating = true) → (∀ e ∈ l, ok e.1.agent.1) →
      (l.map (fun e => ident e.1.agent.1)).Nodup → (∀ e ∈ l, ident e.1.agent.1 < s.next) → (∀ x ∈ w, ident x < s.next) →
      (∀ e ∈ l, ∀ x ∈ w, ident x ≠ ident e.1.agent.1) →
      s.field = some f → Holds f r w → (l ≠ [] → r ≠ []) →
      ∃ f', s'.field = some f' ∧
        Holds f' r (w ++ (tally act rnd view r s.draws s.next l).flatMap
          (fun x => selfOf act rnd view r x ++ kidsOf act mk rnd view r x)) ∧
        s'.draws = s.draws + l.length ∧
        s'.next = s.next + ((tally act rnd view r s.draws s.next l).flatMap (kidsOf act mk rnd view r)).length ∧
        s'.born = s.born ++ (tally act rnd view r s.draws s.next l).flatMap (kidsOf act mk rnd view r) ∧
        k = (tally act rnd view r s.draws s.next l).flatMap (fun x => (selfOf act rnd view r x).map
          (fun b => (⟨x.1.1.id, (b, true), true⟩, ⟨adv x.1.2.time, x.1.2.ordering⟩))) := by
  have turn : ∀ {s s1 : State F B} {a a1 : B × Bool} {f : F} {r w : List B},
      Callbacks (model adv tb ops act mk rnd ident ord) a s a1 s1 →
      s.field = some f → Holds f r w → r ≠ [] → ok a.1 → ident a.1 < s.next → (∀ x ∈ w, ident x < s.next) →
      (∀ x ∈ w, ident x ≠ ident a.1) →
      a1 = (act (rnd s.draws) a.1 (view r a.1)).1 ∧ ∃ f1,
      s1 = ⟨some f1, s.draws + 1, s.next + (act (rnd s.draws) a.1 (view r a.1)).2.length,
        s.born ++ children mk s.next (act (rnd s.draws) a.1 (view r a.1)).2⟩ ∧
      Holds f1 r (w ++ ((if (act (rnd s.draws) a.1 (view r a.1)).1.2 then [(act (rnd s.draws) a.1 (view r a.1)).1.1] else []) ++
        children mk s.next (act (rnd s.draws) a.1 (view r a.1)).2)) := by
    intro s s1 a a1 f r w h hf hh hne hok hlt hwlt hfr
    obtain ⟨a', v1, a'', v2, e1, e2, e3⟩ := h
    cases e1
    cases e3
    change agentStep ops act mk rnd a s = _ at e2
    obtain ⟨v, hv, hsame⟩ := L.look a.1 hh hne hok
    unfold agentStep at e2
    rw [hf] at e2
    dsimp only at e2
    rw [hv] at e2
    dsimp only at e2
    rw [R.same _ _ hsame] at e2
    have h1 : ∃ f0, (if (act (rnd s.draws) a.1 (view r a.1)).1.2 then ops.place f (act (rnd s.draws) a.1 (view r a.1)).1.1
        else some f) = some f0 ∧ Holds f0 r (w ++ (if (act (rnd s.draws) a.1 (view r a.1)).1.2 then
          [(act (rnd s.draws) a.1 (view r a.1)).1.1] else [])) := by
      by_cases hl : (act (rnd s.draws) a.1 (view r a.1)).1.2 = true
      · rw [if_pos hl, if_pos hl]
        exact L.place _ hh (R.ok _ _ _ hok hl) (by intro x hx; rw [R.ident]; exact hfr x hx)
      · rw [if_neg hl, if_neg hl]
        exact ⟨f, rfl, by simpa using hh⟩
    obtain ⟨f0, p1, p2⟩ := h1
    obtain ⟨f1, q1, q2⟩ := Sync.foldlM_place L (children mk s.next (act (rnd s.draws) a.1 (view r a.1)).2) p2 (by
        intro b hb
        unfold children at hb
        obtain ⟨j, hj, rfl⟩ := List.mem_mapIdx.1 hb
        exact R.kids _ _ _ _ hok _ (List.getElem_mem hj)) (by
        rw [children_ident R]; exact List.nodup_range') (by
        intro b hb x hx
        have hb' : ident b ∈ (children mk s.next (act (rnd s.draws) a.1 (view r a.1)).2).map ident := List.mem_map_of_mem hb
        rw [children_ident R, List.mem_range'_1] at hb'
        rcases List.mem_append.1 hx with hx | hx
        · have := hwlt x hx; omega
        · by_cases hl : (act (rnd s.draws) a.1 (view r a.1)).1.2 = true
          · rw [if_pos hl, List.mem_singleton] at hx
            subst hx
            rw [R.ident]
            omega
          · rw [if_neg hl] at hx
            cases hx)
    rw [p1] at e2
    dsimp only [Option.bind_some] at e2
    rw [q1] at e2
    cases e2
    exact ⟨rfl, f1, rfl, by rw [← List.append_assoc]; exact q2⟩
  induction ht with
  | nil s => intro f r w _ _ _ _ _ _ hf hh _; exact ⟨f, hf, by simpa [tally] using hh, rfl, by simp [tally], by simp [tally], rfl⟩
  | oneShot h ht ih => intro f r w hr; exact absurd (hr _ List.mem_cons_self) (by simp)
  | stopped h hs ht ih =>
    rename_i s s1 s2 s' i a a1 a2 p l k
    intro f r w hr hok hnd hlt hwlt hfr hf hh hne
    obtain ⟨h1, f1, h2, h3⟩ := turn h hf hh (hne (by simp)) (hok _ List.mem_cons_self) (hlt _ List.mem_cons_self) hwlt
      (hfr _ List.mem_cons_self)
    change (!a1.2, a1, s1) = _ at hs
    have hdead : ¬ (act (rnd s.draws) a.1 (view r a.1)).1.2 = true := by
      rw [← h1]
      have := congrArg Prod.fst hs
      simpa using this
    have hs2 : s2 = s1 := (congrArg (fun x => x.2.2) hs).symm
    rw [hs2, h2] at ih
    obtain ⟨f', k1, k2, k3, k4, k5, k6⟩ := ih (fun e he => hr e (List.mem_cons_of_mem _ he))
      (fun e he => hok e (List.mem_cons_of_mem _ he)) (List.nodup_cons.1 hnd).2
      (fun e he => by have := hlt e (List.mem_cons_of_mem _ he); dsimp only; omega)
      (by
        intro x hx
        dsimp only
        rcases List.mem_append.1 hx with hx | hx
        · have := hwlt x hx; omega
        · rw [if_neg hdead, List.nil_append] at hx
          have := List.mem_map_of_mem (f := ident) hx
          rw [children_ident R, List.mem_range'_1] at this
          omega)
      (by
        intro e he x hx
        rcases List.mem_append.1 hx with hx | hx
        · exact hfr e (List.mem_cons_of_mem _ he) x hx
        · rw [if_neg hdead, List.nil_append] at hx
          have := List.mem_map_of_mem (f := ident) hx
          rw [children_ident R, List.mem_range'_1] at this
          have := hlt e (List.mem_cons_of_mem _ he)
          omega) rfl h3 (fun _ => hne (by simp))
    dsimp only at k2 k3 k4 k5 k6
    refine ⟨f', k1, ?_, ?_, ?_, ?_, ?_⟩
    · rw [tally, List.flatMap_cons]
      rw [List.append_assoc] at k2
      exact k2
    · rw [k3]; simp only [List.length_cons]; omega
    · rw [k4]
      simp only [tally, List.flatMap_cons, List.length_append, kidsOf, decision]
      simp [children]
      omega
    · rw [k5]
      simp only [tally, List.flatMap_cons, kidsOf, decision, List.append_assoc]
    · rw [k6]
      simp [tally, selfOf, decision, hdead]
  | goesOn h hs ht ih =>
    rename_i s s1 s2 s' i a a1 a2 p l k
    intro f r w hr hok hnd hlt hwlt hfr hf hh hne
    obtain ⟨h1, f1, h2, h3⟩ := turn h hf hh (hne (by simp)) (hok _ List.mem_cons_self) (hlt _ List.mem_cons_self) hwlt
      (hfr _ List.mem_cons_self)
    change (!a1.2, a1, s1) = _ at hs
    have hlives : (act (rnd s.draws) a.1 (view r a.1)).1.2 = true := by
      rw [← h1]
      have := congrArg Prod.fst hs
      simpa using this
    have ha2 : a2 = ((act (rnd s.draws) a.1 (view r a.1)).1.1, true) := by
      have h4 : a1 = a2 := congrArg (fun x => x.2.1) hs
      rw [← h4, h1]
      exact Prod.ext rfl hlives
    have hs2 : s2 = s1 := (congrArg (fun x => x.2.2) hs).symm
    rw [hs2, h2] at ih
    subst ha2
    have hnew : ∀ x ∈ (if (act (rnd s.draws) a.1 (view r a.1)).1.2 then [(act (rnd s.draws) a.1 (view r a.1)).1.1] else []) ++
        children mk s.next (act (rnd s.draws) a.1 (view r a.1)).2, ident x = ident a.1 ∨
          (s.next ≤ ident x ∧ ident x < s.next + (act (rnd s.draws) a.1 (view r a.1)).2.length) := by
      intro x hx
      rw [if_pos hlives] at hx
      rcases List.mem_append.1 hx with hx | hx
      · rw [List.mem_singleton] at hx
        subst hx
        exact Or.inl (R.ident _ _ _)
      · have := List.mem_map_of_mem (f := ident) hx
        rw [children_ident R, List.mem_range'_1] at this
        exact Or.inr this
    have halt := hlt _ List.mem_cons_self
    dsimp only at halt
    obtain ⟨f', k1, k2, k3, k4, k5, k6⟩ := ih (fun e he => hr e (List.mem_cons_of_mem _ he))
      (fun e he => hok e (List.mem_cons_of_mem _ he)) (List.nodup_cons.1 hnd).2
      (fun e he => by have := hlt e (List.mem_cons_of_mem _ he); dsimp only; omega)
      (by
        intro x hx
        dsimp only
        rcases List.mem_append.1 hx with hx | hx
        · have := hwlt x hx; omega
        · have := hnew x hx; omega)
      (by
        intro e he x hx
        rcases List.mem_append.1 hx with hx | hx
        · exact hfr e (List.mem_cons_of_mem _ he) x hx
        · have h5 := hlt e (List.mem_cons_of_mem _ he)
          rcases hnew x hx with h6 | h6
          · rw [h6]
            intro heq
            exact (List.nodup_cons.1 hnd).1 (List.mem_map.2 ⟨e, he, heq.symm⟩)
          · omega) rfl h3 (fun _ => hne (by simp))
    dsimp only at k2 k3 k4 k5 k6
    refine ⟨f', k1, ?_, ?_, ?_, ?_, ?_⟩
    · rw [tally, List.flatMap_cons]
      rw [List.append_assoc] at k2
      exact k2
    · rw [k3]; simp only [List.length_cons]; omega
    · rw [k4]
      simp only [tally, List.flatMap_cons, List.length_append, kidsOf, decision]
      simp [children]
      omega
    · rw [k5]
      simp only [tally, List.flatMap_cons, kidsOf, decision, List.append_assoc]
    · rw [k6]
      simp [tally, selfOf, decision, hlives]
      rfl

/-! ### The turns of a step -/

theorem tally_fst (r : List B) (l : List (Entry T (B × Bool))) : ∀ d k, (tally act rnd view r d k l).map Prod.fst = l := by
  induction l with
  | nil => intro d k; rfl
  | cons e l ih => intro d k; rw [tally, List.map_cons, ih]

theorem tally_draws (r : List B) (l : List (Entry T (B × Bool))) : ∀ d k,
    (∀ x ∈ tally act rnd view r d k l, d ≤ x.2.1 ∧ x.2.1 < d + l.length) ∧
    (tally act rnd view r d k l).Pairwise (fun x y => x.2.1 < y.2.1) := by
  induction l with
  | nil => intro d k; exact ⟨by simp [tally], by simp [tally]⟩
  | cons e l ih =>
    intro d k
    obtain ⟨h1, h2⟩ := ih (d + 1) (k + (act (rnd d) e.1.agent.1 (view r e.1.agent.1)).2.length)
    rw [tally]
    refine ⟨?_, List.pairwise_cons.2 ⟨?_, h2⟩⟩
    · intro x hx
      rcases List.mem_cons.1 hx with rfl | hx
      · simp only [List.length_cons]; omega
      · have := h1 x hx
        simp only [List.length_cons]
        omega
    · intro x hx
      have := h1 x hx
      dsimp only
      omega

theorem kidsOf_length (r : List B) (x : Entry T (B × Bool) × Nat × Nat) :
    (kidsOf act mk rnd view r x).length = (decision act rnd view r x).2.length := by
  unfold kidsOf children
  rw [List.length_mapIdx]

theorem tally_bases (mk : Nat → C → B) (r : List B) (l : List (Entry T (B × Bool))) : ∀ d k,
    (∀ x ∈ tally act rnd view r d k l, k ≤ x.2.2 ∧ x.2.2 + (decision act rnd view r x).2.length ≤
      k + ((tally act rnd view r d k l).flatMap (kidsOf act mk rnd view r)).length) ∧
    (tally act rnd view r d k l).Pairwise (fun x y => x.2.2 + (decision act rnd view r x).2.length ≤ y.2.2) := by
  induction l with
  | nil => intro d k; exact ⟨by simp [tally], by simp [tally]⟩
  | cons e l ih =>
    intro d k
    obtain ⟨h1, h2⟩ := ih (d + 1) (k + (act (rnd d) e.1.agent.1 (view r e.1.agent.1)).2.length)
    have hd : (decision act rnd view r (e, d, k)).2.length = (act (rnd d) e.1.agent.1 (view r e.1.agent.1)).2.length := rfl
    rw [tally]
    refine ⟨?_, List.pairwise_cons.2 ⟨?_, h2⟩⟩
    · intro x hx
      rw [List.flatMap_cons, List.length_append, kidsOf_length]
      rcases List.mem_cons.1 hx with rfl | hx
      · dsimp only; omega
      · have := h1 x hx
        omega
    · intro x hx
      have := h1 x hx
      dsimp only
      omega

theorem tally_kids (R : Lawful act mk ident ok same) (r : List B) (l : List (Entry T (B × Bool))) : ∀ d k,
    ((tally act rnd view r d k l).flatMap (kidsOf act mk rnd view r)).map ident =
      List.range' k ((tally act rnd view r d k l).flatMap (kidsOf act mk rnd view r)).length := by
  induction l with
  | nil => intro d k; rfl
  | cons e l ih =>
    intro d k
    rw [tally, List.flatMap_cons, List.map_append, List.length_append, ih, ← List.range'_append_1]
    congr 1
    · unfold kidsOf
      rw [children_ident R]
      simp [children]
    · congr 1
      rw [kidsOf_length]
      rfl

/-- The turn of the agent with this identity. -/
def turnOf (ident : B → Nat) (X : List (Entry T (B × Bool) × Nat × Nat)) (i : Nat) : Option (Entry T (B × Bool) × Nat × Nat) :=
  X.find? (fun x => ident x.1.1.agent.1 == i)

theorem turnOf_mem {X : List (Entry T (B × Bool) × Nat × Nat)} (hn : (X.map (fun x => ident x.1.1.agent.1)).Nodup)
    {x : Entry T (B × Bool) × Nat × Nat} (hx : x ∈ X) : turnOf ident X (ident x.1.1.agent.1) = some x := by
  unfold turnOf
  induction X with
  | nil => cases hx
  | cons y X ih =>
    rw [List.map_cons, List.nodup_cons] at hn
    rcases List.mem_cons.1 hx with rfl | hx
    · rw [List.find?_cons_of_pos (by simp)]
    · rw [List.find?_cons_of_neg, ih hn.2 hx]
      simp only [beq_iff_eq]
      intro he
      exact hn.1 (List.mem_map.2 ⟨x, hx, he.symm⟩)

theorem preStep_model (adv : T → T) (tb : TieBreak T (B × Bool)) (w : World T (B × Bool) (State F B)) :
    (preStep (model adv tb ops act mk rnd ident ord) w).sched = w.sched ∧
    (preStep (model adv tb ops act mk rnd ident ord) w).state =
      if w.sched.step = 0 then { w.state with field := w.state.field.bind ops.publish } else w.state := by
  unfold preStep
  by_cases h : w.sched.step = 0
  · rw [if_pos h, if_pos h]; exact ⟨rfl, rfl⟩
  · rw [if_neg h, if_neg h]; exact ⟨rfl, rfl⟩

/-! ### The numbers of the schedule -/

theorem numOf_below {first : List B} {k i : Nat} (h : i < k) (hi : i ∈ first.map ident) : numOf ident first k i < first.length := by
  unfold numOf
  rw [if_pos h, List.findIdx_lt_length]
  obtain ⟨b, hb, rfl⟩ := List.mem_map.1 hi
  exact ⟨b, hb, by simp⟩

theorem numOf_inj {first : List B} {k i i' : Nat} (h : i < k → i ∈ first.map ident) (h' : i' < k → i' ∈ first.map ident)
    (he : numOf ident first k i = numOf ident first k i') : i = i' := by
  by_cases hi : i < k
  · have h1 := numOf_below hi (h hi)
    by_cases hi' : i' < k
    · have h2 := numOf_below hi' (h' hi')
      unfold numOf at h1 h2 he
      rw [if_pos hi] at h1 he
      rw [if_pos hi'] at h2 he
      have e1 := List.findIdx_getElem (w := h1)
      have e2 := List.findIdx_getElem (w := h2)
      rw [beq_iff_eq] at e1 e2
      rw [← e1, ← e2]
      congr 2
    · unfold numOf at he h1
      rw [if_pos hi] at h1 he
      rw [if_neg hi'] at he
      omega
  · by_cases hi' : i' < k
    · have h2 := numOf_below hi' (h' hi')
      unfold numOf at he h2
      rw [if_pos hi'] at h2 he
      rw [if_neg hi] at he
      omega
    · unfold numOf at he
      rw [if_neg hi, if_neg hi'] at he
      omega

theorem exec_count {A S : Type} (zero : T) (g : A → Int) (bs : List A) : ∀ (w : World T A S),
    (World.execAll w (bs.map (fun b => .scheduleRepeating b zero (g b)))).sched.idCount = w.sched.idCount + bs.length := by
  induction bs with
  | nil => intro w; rfl
  | cons b bs ih =>
    intro w
    rw [List.map_cons]
    show (World.execAll (w.exec (.scheduleRepeating b zero (g b))) _).sched.idCount = _
    rw [ih]
    show w.sched.idCount + 1 + _ = _
    rw [List.length_cons]
    omega

theorem exec_born {S : Type} (time : T) (bs : List B) (k : Nat) (hk : bs.map ident = List.range' k bs.length)
    (w : World T (B × Bool) S) (hw : ∀ e ∈ w.sched.events, e.1.id < w.sched.idCount) :
    (World.execAll w (bs.map (fun b => .scheduleRepeating (b, true) time (ord (ident b))))).sched.events =
      w.sched.events ++ bs.map (fun b => (⟨w.sched.idCount + (ident b - k), (b, true), true⟩, ⟨time, ord (ident b)⟩)) ∧
    (World.execAll w (bs.map (fun b => .scheduleRepeating (b, true) time (ord (ident b))))).sched.step = w.sched.step ∧
    (World.execAll w (bs.map (fun b => .scheduleRepeating (b, true) time (ord (ident b))))).state = w.state ∧
    (World.execAll w (bs.map (fun b => .scheduleRepeating (b, true) time (ord (ident b))))).sched.idCount =
      w.sched.idCount + bs.length := by
  have hid : ∀ j (hj : j < bs.length), ident bs[j] = k + j := by
    intro j hj
    have h1 : (bs.map ident)[j]'(by simpa using hj) = (List.range' k bs.length)[j]'(by simpa using hj) := by
      simp only [hk]
    simpa using h1
  obtain ⟨h1, h2, h3⟩ := Sync.exec_repeating time ord (bs.map (fun b => (b, true))) w k hw
  have hcmd : (bs.map (fun b => (b, true))).mapIdx (fun i b => (.scheduleRepeating b time (ord (k + i)) : Cmd T (B × Bool))) =
      bs.map (fun b => .scheduleRepeating (b, true) time (ord (ident b))) := by
    apply List.ext_getElem
    · simp
    · intro j a b
      simp only [List.length_mapIdx, List.length_map] at a
      simp [hid j a]
  rw [hcmd] at h1 h2 h3
  refine ⟨?_, h2, h3, ?_⟩
  · rw [h1]
    congr 1
    apply List.ext_getElem
    · simp
    · intro j a b
      simp only [List.length_mapIdx, List.length_map] at a
      simp [hid j a]
  · have := exec_count time (fun b : B × Bool => ord (ident b.1)) (bs.map (fun b => (b, true))) w
    rw [List.map_map, List.length_map] at this
    exact this

theorem pairwise_or {α : Type} {R : α → α → Prop} {l : List α} (h : l.Pairwise R) {x y : α} (hx : x ∈ l) (hy : y ∈ l) (hne : x ≠ y) :
    R x y ∨ R y x := by
  induction l with
  | nil => cases hx
  | cons a l ih =>
    rw [List.pairwise_cons] at h
    rcases List.mem_cons.1 hx with hxa | hx
    · rcases List.mem_cons.1 hy with hya | hy
      · exact absurd (hxa.trans hya.symm) hne
      · exact Or.inl (hxa ▸ h.1 y hy)
    · rcases List.mem_cons.1 hy with hya | hy
      · exact Or.inr (hya ▸ h.1 x hx)
      · exact ih h.2 hx hy

/-! ### One step -/

/-- The entry of an agent. -/
def entry (ident : B → Nat) (num : Nat → Nat) (ord : Nat → Int) (time : T) (b : B) : Entry T (B × Bool) :=
  (⟨num (ident b), (b, true), true⟩, ⟨time, ord (ident b)⟩)

/-- The simulation after `n` steps, with `d` random values passed. -/
structure Inv (ident : B → Nat) (ok : B → Prop) (Holds : F → List B → List B → Prop) (first : List B) (k : Nat) (ord : Nat → Int)
    (time : T) (n d : Nat) (pop : List B) (w : World T (B × Bool) (State F B)) : Prop where
  idents : (pop.map ident).Nodup
  below : ∀ b ∈ pop, ident b < w.state.next
  known : ∀ b ∈ pop, ident b < k → ident b ∈ first.map ident
  inside : ∀ b ∈ pop, ok b
  agents : w.sched.events.Perm (pop.map (entry ident (numOf ident first k) ord time))
  steps : w.sched.step = n
  draws : w.state.draws = d
  next : k ≤ w.state.next
  count : w.sched.idCount = first.length + (w.state.next - k)
  nobody : w.state.born = []
  field : ∃ f r wr, w.state.field = some f ∧ Holds f r wr ∧ if n = 0 then wr = pop else r.Perm pop ∧ wr = []

section

variable {first : List B} {k n d : Nat} {time : T} {pop : List B} {w : World T (B × Bool) (State F B)}

theorem inv_numbers (hi : Inv ident ok Holds first k ord time n d pop w) :
    (pop.map (fun b => numOf ident first k (ident b))).Nodup := by
  have h := hi.idents
  have hk := hi.known
  clear hi
  induction pop with
  | nil => simp
  | cons b pop ih =>
    rw [List.map_cons, List.nodup_cons] at h ⊢
    refine ⟨?_, ih h.2 (fun x hx => hk x (List.mem_cons_of_mem _ hx))⟩
    intro hm
    obtain ⟨c, hc, he⟩ := List.mem_map.1 hm
    have := numOf_inj (hk c (List.mem_cons_of_mem _ hc)) (hk b List.mem_cons_self) he
    exact h.1 (List.mem_map.2 ⟨c, hc, this⟩)

theorem inv_nodup (hi : Inv ident ok Holds first k ord time n d pop w) : (Schedule.ids w.sched.events).Nodup := by
  have : (Schedule.ids w.sched.events).Perm (pop.map (fun b => numOf ident first k (ident b))) := by
    have h := hi.agents.map (fun e => e.1.id)
    rw [List.map_map] at h
    exact h
  exact this.nodup_iff.2 (inv_numbers hi)

theorem inv_ids (hi : Inv ident ok Holds first k ord time n d pop w) : ∀ b ∈ pop, numOf ident first k (ident b) < w.sched.idCount := by
  intro b hb
  rw [hi.count]
  by_cases h : ident b < k
  · have := numOf_below h (hi.known b hb h)
    omega
  · have := hi.below b hb
    unfold numOf
    rw [if_neg h]
    omega

theorem inv_follows (L : Laws ops ident ok view same shows Holds) (hi : Inv ident ok Holds first k ord time n d pop w) :
    Follows ident shows (numOf ident first k) ord time n pop w := by
  refine ⟨hi.idents, inv_numbers hi, hi.agents, hi.steps, hi.nobody, ?_⟩
  obtain ⟨f, r, wr, h1, h2, h3⟩ := hi.field
  refine ⟨f, h1, fun hn => ?_⟩
  rw [if_neg (by omega)] at h3
  exact L.shows h2 h3.1

theorem inv_step (L : Laws ops ident ok view same shows Holds) (R : Lawful act mk ident ok same) {adv : T → T}
    {tb : TieBreak T (B × Bool)} {w' : World T (B × Bool) (State F B)}
    (hi : Inv ident ok Holds first k ord time n d pop w)
    (hs : StepRel (model adv tb ops act mk rnd ident ord) time w w') :
    ∃ τ ν : Nat → Nat, (∀ b ∈ pop, d ≤ τ (ident b) ∧ τ (ident b) < d + pop.length) ∧
      (∀ b ∈ pop, ∀ b' ∈ pop, τ (ident b) = τ (ident b') → ident b = ident b') ∧
      w.state.next ≤ w'.state.next ∧
      (∀ b ∈ pop, ∀ j < (act (rnd (τ (ident b))) b (view pop b)).2.length,
        w.state.next ≤ ν (ident b) + j ∧ ν (ident b) + j < w'.state.next) ∧
      (∀ b ∈ pop, ∀ b' ∈ pop, ∀ j < (act (rnd (τ (ident b))) b (view pop b)).2.length,
        ∀ j' < (act (rnd (τ (ident b'))) b' (view pop b')).2.length,
        ν (ident b) + j = ν (ident b') + j' → ident b = ident b' ∧ j = j') ∧
      Inv ident ok Holds first k ord (adv time) (n + 1) (d + pop.length)
        (nextGen act mk ident view (fun i => rnd (τ i)) (fun i j => ν i + j) pop) w' := by
  obtain ⟨ran, goOn, u, hp, ht, hu, hus, huc, hut, rfl⟩ := hs
  obtain ⟨p1, p2⟩ := preStep_model (ops := ops) (act := act) (mk := mk) (rnd := rnd) (ident := ident) (ord := ord) adv tb w
  rw [p1] at hp hus huc
  have hran : ran.Perm (pop.map (entry ident (numOf ident first k) ord time)) := hp.trans hi.agents
  have hlen : ran.length = pop.length := by rw [hran.length_eq, List.length_map]
  -- the published population
  obtain ⟨f, r, hf, hh, hr⟩ : ∃ f r, (preStep (model adv tb ops act mk rnd ident ord) w).state.field = some f ∧ Holds f r [] ∧
      r.Perm pop := by
    obtain ⟨f, r, wr, h1, h2, h3⟩ := hi.field
    rw [p2, hi.steps]
    by_cases hn : n = 0
    · rw [if_pos hn] at h3
      subst h3
      obtain ⟨f', h4, h5⟩ := L.publish h2
      rw [if_pos hn]
      exact ⟨f', _, by simp [h1, h4], h5, List.Perm.refl _⟩
    · rw [if_neg hn] at h3
      obtain ⟨h3, rfl⟩ := h3
      rw [if_neg hn]
      exact ⟨f, r, h1, h2, h3⟩
  have hdr : (preStep (model adv tb ops act mk rnd ident ord) w).state.draws = d := by
    rw [p2, ← hi.draws]; split <;> rfl
  have hnx : (preStep (model adv tb ops act mk rnd ident ord) w).state.next = w.state.next := by
    rw [p2]; split <;> rfl
  have hbn : (preStep (model adv tb ops act mk rnd ident ord) w).state.born = [] := by
    rw [p2, ← hi.nobody]; split <;> rfl
  have hne : ran ≠ [] → r ≠ [] := by
    intro h1 h2
    subst h2
    have := hr.symm.eq_nil
    subst this
    exact h1 (by simpa using hran)
  have hrep : ∀ e ∈ ran, e.1.repeating = true := by
    intro e he
    obtain ⟨b, _, rfl⟩ := List.mem_map.1 (hran.mem_iff.1 he)
    rfl
  have hokr : ∀ e ∈ ran, ok e.1.agent.1 := by
    intro e he
    obtain ⟨b, hb, rfl⟩ := List.mem_map.1 (hran.mem_iff.1 he)
    exact hi.inside b hb
  have hltr : ∀ e ∈ ran, ident e.1.agent.1 < w.state.next := by
    intro e he
    obtain ⟨b, hb, rfl⟩ := List.mem_map.1 (hran.mem_iff.1 he)
    exact hi.below b hb
  have hokp : ∀ x ∈ r, ok x := fun x hx => hi.inside x (hr.mem_iff.1 hx)
  have hidr : (ran.map (fun e => ident e.1.agent.1)).Nodup := by
    have := hran.map (fun e => ident e.1.agent.1)
    rw [List.map_map] at this
    exact this.nodup_iff.2 hi.idents
  obtain ⟨f', k1, k2, k3, k4, k5, k6⟩ := turns_agents L R ht hrep hokr hidr (by rw [hnx]; exact hltr) (by simp) (by simp) hf hh hne
  rw [hdr, hnx] at k2 k4 k5 k6
  rw [hdr] at k3
  rw [hbn, List.nil_append] at k5
  rw [List.nil_append] at k2
  have hfst := tally_fst (act := act) (rnd := rnd) (view := view) r ran d w.state.next
  obtain ⟨td1, td2⟩ := tally_draws (act := act) (rnd := rnd) (view := view) r ran d w.state.next
  obtain ⟨tb1, tb2⟩ := tally_bases (act := act) (rnd := rnd) (view := view) mk r ran d w.state.next
  have tk := tally_kids (rnd := rnd) (view := view) R r ran d w.state.next
  generalize hX : tally act rnd view r d w.state.next ran = X at k2 k4 k5 k6 hfst td1 td2 tb1 tb2 tk
  have hXn : (X.map (fun x => ident x.1.1.agent.1)).Nodup := by
    have : X.map (fun x => ident x.1.1.agent.1) = (X.map Prod.fst).map (fun e => ident e.1.agent.1) := by rw [List.map_map]; rfl
    rw [this, hfst]
    exact hidr
  -- the turn of an agent
  have hturn : ∀ b ∈ pop, ∃ x ∈ X, x.1 = entry ident (numOf ident first k) ord time b ∧ turnOf ident X (ident b) = some x := by
    intro b hb
    have h1 : entry ident (numOf ident first k) ord time b ∈ X.map Prod.fst := by
      rw [hfst]
      exact hran.mem_iff.2 (List.mem_map_of_mem hb)
    obtain ⟨x, hx, he⟩ := List.mem_map.1 h1
    refine ⟨x, hx, he, ?_⟩
    have := turnOf_mem (ident := ident) hXn hx
    rw [he] at this
    exact this
  have hview : ∀ b ∈ pop, ∀ q, act q b (view r b) = act q b (view pop b) :=
    fun b hb q => R.same _ _ (L.perm b hokp (hi.inside b hb) hr)
  let τ : Nat → Nat := fun i => ((turnOf ident X i).map (fun x => x.2.1)).getD 0
  let ν : Nat → Nat := fun i => ((turnOf ident X i).map (fun x => x.2.2)).getD 0
  have hτ : ∀ b ∈ pop, ∃ x ∈ X, x.1 = entry ident (numOf ident first k) ord time b ∧ τ (ident b) = x.2.1 ∧ ν (ident b) = x.2.2 ∧
      decision act rnd view r x = act (rnd (τ (ident b))) b (view pop b) := by
    intro b hb
    obtain ⟨x, hx, he, hto⟩ := hturn b hb
    have h1 : τ (ident b) = x.2.1 := by simp only [τ, hto, Option.map_some, Option.getD_some]
    have h2 : ν (ident b) = x.2.2 := by simp only [ν, hto, Option.map_some, Option.getD_some]
    refine ⟨x, hx, he, h1, h2, ?_⟩
    rw [h1, ← hview b hb]
    unfold decision
    rw [he]
    rfl
  have huniq : ∀ x ∈ X, ∀ y ∈ X, ident x.1.1.agent.1 = ident y.1.1.agent.1 → x = y := by
    intro x hx y hy he
    have h1 := turnOf_mem (ident := ident) hXn hx
    have h2 := turnOf_mem (ident := ident) hXn hy
    rw [he, h2] at h1
    exact (Option.some.inj h1).symm
  -- the flat maps over the turns are flat maps over the population
  have hflat : ∀ {γ : Type} (g : Entry T (B × Bool) → (B × Bool) × List C → Nat → List γ),
      (X.flatMap (fun x => g x.1 (decision act rnd view r x) x.2.2)).Perm
        (pop.flatMap (fun b => g (entry ident (numOf ident first k) ord time b) (act (rnd (τ (ident b))) b (view pop b)) (ν (ident b)))) := by
    intro γ g
    have e1 : X.flatMap (fun x => g x.1 (decision act rnd view r x) x.2.2) =
        ran.flatMap (fun e => g e (act (rnd (τ (ident e.1.agent.1))) e.1.agent.1 (view r e.1.agent.1)) (ν (ident e.1.agent.1))) := by
      rw [← hfst, List.flatMap_map]
      apply List.flatMap_congr
      intro x hx
      have h1 : τ (ident x.1.1.agent.1) = x.2.1 := by
        simp only [τ, turnOf_mem (ident := ident) hXn hx, Option.map_some, Option.getD_some]
      have h2 : ν (ident x.1.1.agent.1) = x.2.2 := by
        simp only [ν, turnOf_mem (ident := ident) hXn hx, Option.map_some, Option.getD_some]
      rw [h1, h2]
      rfl
    rw [e1]
    refine (hran.flatMap_right _).trans ?_
    rw [List.flatMap_map]
    apply List.Perm.of_eq
    apply List.flatMap_congr
    intro b hb
    show g _ (act (rnd (τ (ident b))) b (view r b)) _ = _
    rw [hview b hb]
    rfl
  have hgen : (X.flatMap (fun x => selfOf act rnd view r x ++ kidsOf act mk rnd view r x)).Perm
      (nextGen act mk ident view (fun i => rnd (τ i)) (fun i j => ν i + j) pop) :=
    hflat (fun _ q c => (if q.1.2 then [q.1.1] else []) ++ children mk c q.2)
  have hgenmem : ∀ b' ∈ nextGen act mk ident view (fun i => rnd (τ i)) (fun i j => ν i + j) pop,
      (∃ b ∈ pop, ident b' = ident b ∧ ok b') ∨ (w.state.next ≤ ident b' ∧ ident b' < u.state.next ∧ ok b') := by
    intro b' hb'
    unfold nextGen at hb'
    obtain ⟨b, hb, hm⟩ := List.mem_flatMap.1 hb'
    rcases List.mem_append.1 hm with hm | hm
    · by_cases hl : (act (rnd (τ (ident b))) b (view pop b)).1.2 = true
      · rw [if_pos hl, List.mem_singleton] at hm
        subst hm
        exact Or.inl ⟨b, hb, R.ident _ _ _, R.ok _ _ _ (hi.inside b hb) hl⟩
      · rw [if_neg hl] at hm
        cases hm
    · obtain ⟨j, hj, rfl⟩ := List.mem_mapIdx.1 hm
      obtain ⟨x, hx, he, h1, h2, h3⟩ := hτ b hb
      have h4 := tb1 x hx
      rw [h3] at h4
      have hj' : j < (act (rnd (τ (ident b))) b (view pop b)).2.length := hj
      rw [R.named]
      dsimp only
      rw [h2]
      refine Or.inr ⟨by omega, ?_, R.kids _ _ _ _ (hi.inside b hb) _ (List.getElem_mem hj)⟩
      rw [k4]
      omega
  have hbornid : u.state.born.map ident = List.range' w.state.next u.state.born.length := by rw [k5]; exact tk
  have hnext : u.state.next = w.state.next + u.state.born.length := by rw [k5]; exact k4
  have hgoids : ∀ e ∈ u.sched.events, e.1.id < u.sched.idCount := by
    intro e he
    have he := hu.mem_iff.1 he
    rw [k6] at he
    obtain ⟨x, hx, hm⟩ := List.mem_flatMap.1 he
    obtain ⟨_, _, rfl⟩ := List.mem_map.1 hm
    have : x.1 ∈ ran := by rw [← hfst]; exact List.mem_map_of_mem hx
    obtain ⟨b, hb, hbe⟩ := List.mem_map.1 (hran.mem_iff.1 this)
    rw [huc]
    have := inv_ids hi b hb
    show x.1.1.id < _
    rw [← hbe]
    exact this
  obtain ⟨x1, x2, x3, x4⟩ := exec_born (ident := ident) (ord := ord) (adv u.sched.time) u.state.born w.state.next hbornid
    ({ state := { u.state with born := [] }, sched := u.sched, trace := u.trace ++ [.stateAfter] } : World T (B × Bool) (State F B))
    hgoids
  have hafter : (u.doAfter (model adv tb ops act mk rnd ident ord)) = World.execAll
      ({ state := { u.state with born := [] }, sched := u.sched, trace := u.trace ++ [.stateAfter] } : World T (B × Bool) (State F B))
      (u.state.born.map (fun b => .scheduleRepeating (b, true) (adv u.sched.time) (ord (ident b)))) := rfl
  rw [← hafter] at x1 x2 x3 x4
  dsimp only at x1 x2 x4
  have hpst : (postStep (model adv tb ops act mk rnd ident ord) u).state = ⟨u.state.field.bind ops.publish, u.state.draws, u.state.next, []⟩ := by
    unfold postStep World.doUpdate
    dsimp only
    rw [x3]
    rfl
  have hnx' : (postStep (model adv tb ops act mk rnd ident ord) u).state.next = u.state.next := by rw [hpst]
  have hclock : u.state.born ≠ [] → u.sched.time = time := by
    intro hb
    apply hut
    intro hr0
    apply hb
    rw [k5]
    have : X = [] := by rw [hr0] at hfst; simpa using hfst
    rw [this]
    rfl
  refine ⟨τ, ν, ?_, ?_, by rw [hnx', hnext]; omega, ?_, ?_, ?_, ?_, ?_, ?_, ?_, ?_, ?_, ?_, ?_, ?_, ?_⟩
  · intro b hb
    obtain ⟨x, hx, _, h1, _, _⟩ := hτ b hb
    have := td1 x hx
    omega
  · intro b hb b' hb' he
    obtain ⟨x, hx, e1, h1, _, _⟩ := hτ b hb
    obtain ⟨y, hy, e2, h2, _, _⟩ := hτ b' hb'
    rw [h1, h2] at he
    have hxy : x = y := by
      by_contra hne
      rcases pairwise_or td2 hx hy hne with h | h <;> omega
    rw [hxy, e2] at e1
    exact (congrArg (fun e => ident e.1.agent.1) e1).symm
  · intro b hb j hj
    obtain ⟨x, hx, _, _, h2, h3⟩ := hτ b hb
    have := tb1 x hx
    rw [h3] at this
    rw [hnx', k4, h2]
    omega
  · intro b hb b' hb' j hj j' hj' he
    obtain ⟨x, hx, e1, _, h2, h3⟩ := hτ b hb
    obtain ⟨y, hy, e2, _, h2', h3'⟩ := hτ b' hb'
    rw [← h3] at hj
    rw [← h3'] at hj'
    rw [h2, h2'] at he
    have hxy : x = y := by
      by_contra hne
      rcases pairwise_or tb2 hx hy hne with h | h <;> omega
    subst hxy
    rw [e2] at e1
    exact ⟨(congrArg (fun e => ident e.1.agent.1) e1).symm, by omega⟩
  · -- identities
    have h1 : ((X.flatMap (selfOf act rnd view r) ++ X.flatMap (kidsOf act mk rnd view r)).map ident).Perm
        ((nextGen act mk ident view (fun i => rnd (τ i)) (fun i j => ν i + j) pop).map ident) :=
      ((List.flatMap_append_perm X _ _).trans hgen).map _
    rw [← h1.nodup_iff, List.map_append, tk, List.nodup_append]
    have hsub : ((X.flatMap (selfOf act rnd view r)).map ident).Sublist (X.map (fun x => ident x.1.1.agent.1)) := by
      clear * - R
      induction X with
      | nil => simp
      | cons x X ih =>
        rw [List.flatMap_cons, List.map_append, List.map_cons]
        unfold selfOf
        by_cases hl : (decision act rnd view r x).1.2 = true
        · rw [if_pos hl, List.map_singleton, List.singleton_append]
          unfold decision at hl ⊢
          rw [R.ident]
          exact ih.cons_cons _
        · rw [if_neg hl, List.map_nil, List.nil_append]
          exact ih.cons _
    refine ⟨hXn.sublist hsub, List.nodup_range', ?_⟩
    intro i hi1 i' hi2 he
    subst he
    have h2 := hsub.subset hi1
    rw [List.mem_range'_1] at hi2
    obtain ⟨x, hx, rfl⟩ := List.mem_map.1 h2
    have := hltr x.1 (by rw [← hfst]; exact List.mem_map_of_mem hx)
    omega
  · intro b' hb'
    rw [hnx']
    rcases hgenmem b' hb' with ⟨b, hb, he, _⟩ | ⟨_, h, _⟩
    · rw [he]
      have := hi.below b hb
      omega
    · exact h
  · intro b' hb' hlt
    rcases hgenmem b' hb' with ⟨b, hb, he, _⟩ | ⟨h, _, _⟩
    · rw [he] at hlt ⊢
      exact hi.known b hb hlt
    · have := hi.next
      omega
  · intro b' hb'
    rcases hgenmem b' hb' with ⟨b, hb, _, h⟩ | ⟨_, _, h⟩ <;> exact h
  · show (u.doAfter (model adv tb ops act mk rnd ident ord)).sched.events.Perm _
    rw [x1]
    have h1 : u.state.born.map (fun b => ((⟨u.sched.idCount + (ident b - w.state.next), (b, true), true⟩,
        ⟨adv u.sched.time, ord (ident b)⟩) : Entry T (B × Bool))) =
        u.state.born.map (entry ident (numOf ident first k) ord (adv time)) := by
      apply List.map_congr_left
      intro b hb
      have h2 : ident b ∈ u.state.born.map ident := List.mem_map_of_mem hb
      rw [hbornid, List.mem_range'_1] at h2
      unfold entry numOf
      have h3 := hi.next
      rw [if_neg (by omega), hclock (List.ne_nil_of_mem hb), huc, hi.count]
      congr 2
      omega
    rw [h1, k5]
    refine (hu.append_right _).trans ?_
    rw [k6, List.map_flatMap]
    refine (List.flatMap_append_perm X _ _).trans ?_
    have h4 := hflat (fun e q c => (if q.1.2 then [((⟨e.1.id, (q.1.1, true), true⟩, ⟨adv e.2.time, e.2.ordering⟩) : Entry T (B × Bool))] else []) ++
      (children mk c q.2).map (entry ident (numOf ident first k) ord (adv time)))
    refine List.Perm.trans (List.Perm.of_eq ?_) (h4.trans (List.Perm.of_eq ?_))
    · apply List.flatMap_congr
      intro x _
      unfold selfOf kidsOf
      congr 1
      split <;> rfl
    · unfold nextGen
      rw [List.map_flatMap]
      apply List.flatMap_congr
      intro b hb
      rw [List.map_append]
      congr 1
      by_cases hl : (act (rnd (τ (ident b))) b (view pop b)).1.2 = true
      · rw [if_pos hl, if_pos hl]
        unfold entry
        rw [List.map_singleton, R.ident]
      · rw [if_neg hl, if_neg hl]
        rfl
  · show (u.doAfter (model adv tb ops act mk rnd ident ord)).sched.step + 1 = _
    rw [x2, hus, hi.steps]
  · rw [hpst, ← hlen, ← k3]
  · rw [hnx', hnext]
    have := hi.next
    omega
  · show (u.doAfter (model adv tb ops act mk rnd ident ord)).sched.idCount = _
    rw [x4, hnx', huc, hi.count, hnext]
    have := hi.next
    omega
  · rw [hpst]
  · obtain ⟨f'', m1, m2⟩ := L.publish k2
    refine ⟨f'', _, [], ?_, m2, ?_⟩
    · rw [hpst, k1]
      exact m1
    · rw [if_neg (by omega)]
      exact ⟨hgen, rfl⟩

end

/-! ### The start -/

theorem inv_start (L : Laws ops ident ok view same shows Holds) (zero : T) (adv : T → T) (tb : TieBreak T (B × Bool))
    {agents : List B} (hok : ∀ b ∈ agents, ok b) (hid : (agents.map ident).Nodup) {s : State F B}
    (hlt : ∀ b ∈ agents, ident b < s.next) (hb : s.born = []) {f : F} {r : List B} (hf : s.field = some f) (hh : Holds f r []) :
    Inv ident ok Holds agents s.next ord zero 0 s.draws agents
      (Driver.start (sim zero adv tb ops act mk rnd ident ord agents) s) := by
  have hnum : ∀ j (hj : j < agents.length), numOf ident agents s.next (ident agents[j]) = j := by
    intro j hj
    unfold numOf
    rw [if_pos (hlt _ (List.getElem_mem hj)), List.findIdx_eq hj]
    refine ⟨by simp, ?_⟩
    intro i hij
    rw [beq_eq_false_iff_ne]
    intro he
    have hn' := List.nodup_iff_injective_getElem.1 hid
    have := @hn' ⟨i, by simp; omega⟩ ⟨j, by simpa using hj⟩ (by simpa using he)
    simp at this
    omega
  obtain ⟨h1, h2, h3⟩ := Sync.exec_repeating zero (fun i => ord ((agents.map ident).getD i 0)) (agents.map (fun b => (b, true)))
    ({ state := (init zero ops ident ord agents s).1, sched := Sched.new zero, trace := [] } : World T (B × Bool) (State F B)) 0
    (by simp [Sched.new])
  have hcmd : (agents.map (fun b => (b, true))).mapIdx
      (fun i b => (.scheduleRepeating b zero (ord ((agents.map ident).getD (0 + i) 0)) : Cmd T (B × Bool))) =
      (init zero ops ident ord agents s).2 := by
    unfold init
    apply List.ext_getElem
    · simp
    · intro j a b
      simp only [List.length_mapIdx, List.length_map] at a
      simp [a]
  rw [hcmd] at h1 h2 h3
  have h4 := exec_count zero (fun b : B × Bool => ord (ident b.1)) (agents.map (fun b => (b, true)))
    ({ state := (init zero ops ident ord agents s).1, sched := Sched.new zero, trace := [] } : World T (B × Bool) (State F B))
  rw [List.map_map, List.length_map] at h4
  obtain ⟨f', k1, k2⟩ := Sync.foldlM_place L agents hh hok hid (by simp)
  have hnx : (Driver.start (sim zero adv tb ops act mk rnd ident ord agents) s).state.next = s.next :=
    (congrArg State.next h3).trans rfl
  refine ⟨hid, ?_, ?_, hok, ?_, h2, (congrArg State.draws h3).trans rfl, ?_, ?_, ?_, ?_⟩
  · rw [hnx]; exact hlt
  · intro b hb' _
    exact List.mem_map_of_mem hb'
  · refine List.Perm.trans (List.Perm.of_eq h1) (List.Perm.of_eq ?_)
    show [] ++ _ = _
    rw [List.nil_append]
    apply List.ext_getElem
    · simp
    · intro j a b
      simp only [List.length_mapIdx, List.length_map] at a
      simp [entry, Sched.new, hnum j a, a]
  · rw [hnx]
  · rw [hnx, Nat.sub_self, Nat.add_zero]
    refine Eq.trans h4 ?_
    show 0 + _ = _
    rw [Nat.zero_add]
  · exact (congrArg State.born h3).trans hb
  · refine ⟨f', r, agents, (congrArg State.field h3).trans ?_, by simpa using k2, by rw [if_pos rfl]⟩
    show s.field.bind _ = _
    rw [hf]
    exact k1

theorem genAt_congr {r r' : Nat → Nat → D} {nm nm' : Nat → Nat → Nat → Nat} {first : List B} {n : Nat} (h : ∀ m < n, r m = r' m)
    (h' : ∀ m < n, nm m = nm' m) : genAt act mk ident view r nm first n = genAt act mk ident view r' nm' first n := by
  induction n with
  | zero => rfl
  | succ n ih => rw [genAt, genAt, ih (fun m hm => h m (by omega)) (fun m hm => h' m (by omega)), h n (by omega), h' n (by omega)]

/-- A sequence of steps. -/
theorem inv_steps (L : Laws ops ident ok view same shows Holds) (R : Lawful act mk ident ok same) {adv : T → T}
    {tb : TieBreak T (B × Bool)} {time : T} {d k : Nat} {first : List B} (ws : Nat → World T (B × Bool) (State F B))
    (hk : (ws 0).state.next = k) (hi : Inv ident ok Holds first k ord time 0 d first (ws 0)) (n : Nat)
    (hs : ∀ m < n, ∀ d' pop, Inv ident ok Holds first k ord (adv^[m] time) m d' pop (ws m) →
      StepRel (model adv tb ops act mk rnd ident ord) (adv^[m] time) (ws m) (ws (m + 1))) :
    ∃ (σ : Nat → Nat → Nat) (nm : Nat → Nat → Nat → Nat),
      FreshDraws ident (genAt act mk ident view (fun m i => rnd (σ m i)) nm first) d n σ ∧
      FreshNames ident (genAt act mk ident view (fun m i => rnd (σ m i)) nm first)
        (fun m b => (act (rnd (σ m (ident b))) b (view (genAt act mk ident view (fun m i => rnd (σ m i)) nm first m) b)).2.length)
        k n nm ∧
      ∀ m ≤ n, ∃ d', Inv ident ok Holds first k ord (adv^[m] time) m d'
        (genAt act mk ident view (fun m i => rnd (σ m i)) nm first m) (ws m) := by
  suffices key : ∃ (σ : Nat → Nat → Nat) (nm : Nat → Nat → Nat → Nat) (dn : Nat), d ≤ dn ∧ k ≤ (ws n).state.next ∧
      (∀ m < n, ∀ b ∈ genAt act mk ident view (fun m i => rnd (σ m i)) nm first m, d ≤ σ m (ident b) ∧ σ m (ident b) < dn) ∧
      (∀ m < n, ∀ m' < n, ∀ b ∈ genAt act mk ident view (fun m i => rnd (σ m i)) nm first m,
        ∀ b' ∈ genAt act mk ident view (fun m i => rnd (σ m i)) nm first m', σ m (ident b) = σ m' (ident b') →
          m = m' ∧ ident b = ident b') ∧
      (∀ m < n, ∀ b ∈ genAt act mk ident view (fun m i => rnd (σ m i)) nm first m,
        ∀ j < (act (rnd (σ m (ident b))) b (view (genAt act mk ident view (fun m i => rnd (σ m i)) nm first m) b)).2.length,
        k ≤ nm m (ident b) j ∧ nm m (ident b) j < (ws n).state.next) ∧
      (∀ m < n, ∀ m' < n, ∀ b ∈ genAt act mk ident view (fun m i => rnd (σ m i)) nm first m,
        ∀ b' ∈ genAt act mk ident view (fun m i => rnd (σ m i)) nm first m',
        ∀ j < (act (rnd (σ m (ident b))) b (view (genAt act mk ident view (fun m i => rnd (σ m i)) nm first m) b)).2.length,
        ∀ j' < (act (rnd (σ m' (ident b'))) b' (view (genAt act mk ident view (fun m i => rnd (σ m i)) nm first m') b')).2.length,
        nm m (ident b) j = nm m' (ident b') j' → m = m' ∧ ident b = ident b' ∧ j = j') ∧
      (∀ m ≤ n, ∃ d', Inv ident ok Holds first k ord (adv^[m] time) m d'
        (genAt act mk ident view (fun m i => rnd (σ m i)) nm first m) (ws m)) ∧
      Inv ident ok Holds first k ord (adv^[n] time) n dn (genAt act mk ident view (fun m i => rnd (σ m i)) nm first n) (ws n) by
    obtain ⟨σ, nm, dn, _, _, h1, h2, h3, h4, h5, _⟩ := key
    exact ⟨σ, nm, ⟨h2, fun m hm b hb => (h1 m hm b hb).1⟩, ⟨h4, fun m hm b hb j hj => (h3 m hm b hb j hj).1⟩, h5⟩
  induction n with
  | zero =>
    refine ⟨fun _ _ => 0, fun _ _ _ => 0, d, le_refl _, le_of_eq hk.symm, by omega, by omega, by omega, by omega, ?_, hi⟩
    intro m hm
    obtain rfl : m = 0 := by omega
    exact ⟨d, hi⟩
  | succ n ih =>
    obtain ⟨σ, nm, dn, h0, h0', h1, h2, h3, h4, h5, h6⟩ := ih (fun m hm => hs m (by omega))
    obtain ⟨τ, ν, t1, t2, t3, t4, t5, t6⟩ := inv_step L R h6 (hs n (by omega) _ _ h6)
    have hagree : ∀ m ≤ n, genAt act mk ident view (fun m i => rnd (σ m i)) nm first m =
        genAt act mk ident view (fun m i => rnd ((if m = n then τ else σ m) i))
          (fun m i j => if m = n then ν i + j else nm m i j) first m := by
      intro m hm
      apply genAt_congr
      · intro m' hm'
        rw [if_neg (by omega)]
      · intro m' hm'
        funext i j
        rw [if_neg (by omega)]
    have hlast : genAt act mk ident view (fun m i => rnd ((if m = n then τ else σ m) i))
          (fun m i j => if m = n then ν i + j else nm m i j) first (n + 1) =
        nextGen act mk ident view (fun i => rnd (τ i)) (fun i j => ν i + j)
          (genAt act mk ident view (fun m i => rnd (σ m i)) nm first n) := by
      rw [genAt, ← hagree n (le_refl _)]
      simp only [if_true]
    refine ⟨fun m => if m = n then τ else σ m, fun m i j => if m = n then ν i + j else nm m i j,
      dn + (genAt act mk ident view (fun m i => rnd (σ m i)) nm first n).length, by omega, by omega, ?_, ?_, ?_, ?_, ?_, ?_⟩
    · intro m hm b hb
      rw [← hagree m (by omega)] at hb
      by_cases hmn : m = n
      · subst hmn
        simp only [if_true]
        have := t1 b hb
        omega
      · simp only [if_neg hmn]
        have := h1 m (by omega) b hb
        omega
    · intro m hm m' hm' b hb b' hb' he
      rw [← hagree m (by omega)] at hb
      rw [← hagree m' (by omega)] at hb'
      by_cases hmn : m = n
      · by_cases hmn' : m' = n
        · subst hmn
          subst hmn'
          simp only [if_true] at he
          exact ⟨rfl, t2 b hb b' hb' he⟩
        · subst hmn
          simp only [if_true, if_neg hmn'] at he
          have := t1 b hb
          have := h1 m' (by omega) b' hb'
          omega
      · by_cases hmn' : m' = n
        · subst hmn'
          simp only [if_true, if_neg hmn] at he
          have := t1 b' hb'
          have := h1 m (by omega) b hb
          omega
        · simp only [if_neg hmn, if_neg hmn'] at he
          exact h2 m (by omega) m' (by omega) b hb b' hb' he
    · intro m hm b hb j hj
      rw [← hagree m (by omega)] at hb hj
      by_cases hmn : m = n
      · subst hmn
        simp only [if_true] at hj ⊢
        have := t4 b hb j hj
        omega
      · simp only [if_neg hmn] at hj ⊢
        have := h3 m (by omega) b hb j hj
        omega
    · intro m hm m' hm' b hb b' hb' j hj j' hj' he
      rw [← hagree m (by omega)] at hb hj
      rw [← hagree m' (by omega)] at hb' hj'
      by_cases hmn : m = n
      · by_cases hmn' : m' = n
        · subst hmn
          subst hmn'
          simp only [if_true] at he hj hj'
          exact ⟨rfl, t5 b hb b' hb' j hj j' hj' he⟩
        · subst hmn
          simp only [if_true, if_neg hmn'] at he hj hj'
          have := t4 b hb j hj
          have := h3 m' (by omega) b' hb' j' hj'
          omega
      · by_cases hmn' : m' = n
        · subst hmn'
          simp only [if_true, if_neg hmn] at he hj hj'
          have := t4 b' hb' j' hj'
          have := h3 m (by omega) b hb j hj
          omega
        · simp only [if_neg hmn, if_neg hmn'] at he hj hj'
          exact h4 m (by omega) m' (by omega) b hb b' hb' j hj j' hj' he
    · intro m hm
      by_cases hmn : m = n + 1
      · subst hmn
        rw [hlast, Function.iterate_succ_apply']
        exact ⟨_, t6⟩
      · rw [← hagree m (by omega)]
        exact h5 m (by omega)
    · rw [hlast, Function.iterate_succ_apply']
      exact t6

end Verif.Births
