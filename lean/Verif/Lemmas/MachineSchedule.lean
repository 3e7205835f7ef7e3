import Mathlib.Data.Prod.Lex
import Mathlib.Algebra.Order.Round
import Mathlib.Algebra.Order.Ring.Rat
import Mathlib.Tactic.NormNum
import Mathlib.Tactic.ByContra
import Verif.Lemmas.Waiting
import Verif.Lemmas.SingleField
import Verif.Model.MachineSchedule

/-! The schedule on machine floats is the one on a linear order as long as nothing is NaN. -/

namespace Verif.MachineSchedule

open Machine (F add lt le ofRat largest)
open Schedule (Sched Model World Queue Entry Priority TieBreak Cmd Op)

variable {A S : Type}

/-- Where a value lies among the others. NaN gets some place. -/
def key : F → Int ×ₗ Rat
  | .inf true => toLex (-1, 0)
  | .fin q => toLex (0, q)
  | .inf false => toLex (1, 0)
  | .nan => toLex (2, 0)

theorem key_inj : Function.Injective key := by
  intro a b h
  match a, b with
  | .nan, .nan => rfl
  | .inf true, .inf true => rfl
  | .inf false, .inf false => rfl
  | .fin p, .fin q => have := congrArg (fun x => (ofLex x).2) h; simp only [key, ofLex_toLex] at this; rw [this]
  | .nan, .inf true | .nan, .inf false | .inf true, .nan | .inf false, .nan | .inf true, .inf false | .inf false, .inf true | .nan, .fin _ | .fin _, .nan
  | .inf true, .fin _ | .fin _, .inf true | .inf false, .fin _ | .fin _, .inf false =>
    have := congrArg (fun x => (ofLex x).1) h; simp [key] at this

/-- The values of `f32` in their order, NaN at the end. -/
@[reducible] def order : LinearOrder F := LinearOrder.lift' key key_inj

attribute [local instance] order

theorem lt_eq {a b : F} (ha : a ≠ .nan) (hb : b ≠ .nan) : lt a b = decide (a < b) := by
  have hlt : a < b ↔ key a < key b := Iff.rfl
  rw [Bool.eq_iff_iff, decide_eq_true_iff, hlt]
  match a, b with
  | .nan, _ => exact absurd rfl ha
  | .inf _, .nan => exact absurd rfl hb
  | .fin _, .nan => exact absurd rfl hb
  | .inf true, .inf true | .inf false, .inf false | .inf true, .inf false | .inf false, .inf true | .fin _, .fin _
  | .inf true, .fin _ | .fin _, .inf true | .inf false, .fin _ | .fin _, .inf false => simp [key, lt, Prod.Lex.lt_iff]

theorem le_eq {a b : F} (ha : a ≠ .nan) (hb : b ≠ .nan) : le a b = decide (a ≤ b) := by
  have hle : a ≤ b ↔ key a ≤ key b := Iff.rfl
  rw [Bool.eq_iff_iff, decide_eq_true_iff, hle]
  match a, b with
  | .nan, _ => exact absurd rfl ha
  | .inf _, .nan => exact absurd rfl hb
  | .fin _, .nan => exact absurd rfl hb
  | .inf true, .inf true | .inf false, .inf false | .inf true, .inf false | .inf false, .inf true | .fin _, .fin _
  | .inf true, .fin _ | .fin _, .inf true | .inf false, .fin _ | .fin _, .inf false => simp [key, le, Prod.Lex.le_iff]

/-- No entry has the time NaN. -/
def NoNan (q : Queue F A) : Prop := ∀ e ∈ q, e.2.time ≠ .nan

theorem cmp_eq {p q : Priority F} (hp : p.time ≠ .nan) (hq : q.time ≠ .nan) : cmp p q = p.cmp q := by
  unfold cmp Priority.cmp
  rw [lt_eq hp hq, lt_eq hq hp]
  simp only [decide_eq_true_eq]

theorem tops_eq {q : Queue F A} (h : NoNan q) : tops q = q.tops := by
  unfold tops Queue.tops
  apply List.filter_congr
  intro e he
  rw [Bool.eq_iff_iff, List.all_eq_true, List.all_eq_true]
  constructor
  · intro h1 f hf; rw [← cmp_eq (h f hf) (h e he)]; exact h1 f hf
  · intro h1 f hf; rw [cmp_eq (h f hf) (h e he)]; exact h1 f hf

theorem candidates_eq {q : Queue F A} (h : NoNan q) : candidates q = q.tops := by
  have : hasNan q = false := by
    unfold hasNan
    rw [List.any_eq_false]
    intro e he
    simp [h e he]
  unfold candidates
  rw [this, Bool.false_and, if_neg (by simp), tops_eq h]

theorem peek_eq (tb : TieBreak F A) (n : Nat) {q : Queue F A} (h : NoNan q) : peek tb n q = q.peek tb n := by
  unfold peek Queue.peek
  rw [candidates_eq h]

theorem pop_eq (tb : TieBreak F A) (n : Nat) {q : Queue F A} (h : NoNan q) : pop tb n q = q.pop tb n := by
  unfold pop Queue.pop
  rw [peek_eq tb n h]

theorem popDue_eq (tb : TieBreak F A) : ∀ (fuel : Nat) (s : Sched F A), NoNan s.events → s.time ≠ .nan → popDue tb fuel s = Schedule.popDue tb fuel s
  | 0, _, _, _ => rfl
  | fuel + 1, s, h, ht => by
    unfold popDue Schedule.popDue
    rw [peek_eq tb _ h, pop_eq tb _ h]
    cases hp : Queue.peek tb s.pops s.events with
    | none => rfl
    | some top =>
      dsimp only
      rw [lt_eq ht (h top (Schedule.peek_mem hp).1), Schedule.pop_of_peek hp]
      simp only [decide_eq_true_eq]
      rw [popDue_eq tb fuel { s with events := s.events.filter (fun f => f.1.id != top.1.id), pops := s.pops + 1 }
        (fun e he => h e (List.mem_of_mem_filter he)) ht]

theorem runDue_eq (m : Model F A S) (w : World F A S) (h : NoNan w.sched.events) : runDue m w = Schedule.runDue m w := by
  unfold runDue Schedule.runDue
  rw [peek_eq _ _ h]
  cases hp : Queue.peek m.tb w.sched.pops w.sched.events with
  | none => rfl
  | some top =>
    dsimp only
    rw [popDue_eq m.tb _ { w.sched with time := top.2.time } h (h top (Schedule.peek_mem hp).1)]

theorem midStep_eq (m : Model F A S) (w : World F A S) (h : NoNan (Schedule.preStep m w).sched.events) : midStep m w = Schedule.midStep m w := by
  unfold midStep Schedule.midStep
  dsimp only
  rw [runDue_eq m _ h]

theorem step_eq (m : Model F A S) (w : World F A S) (h : NoNan (Schedule.preStep m w).sched.events) : step m w = Schedule.step m w := by
  unfold step Schedule.step
  rw [midStep_eq m w h]

theorem noNan_preStep (m : Model F A S) (hh : Schedule.HooksSatisfy m (fun _ c => c.avoids (· = .nan))) (w : World F A S) (h : NoNan w.sched.events) :
    NoNan (Schedule.preStep m w).sched.events := fun e he hb =>
  (Schedule.preStep_weight m (fun _ => 0) (· = .nan) (fun _ => False) (fun _ _ => rfl) w hh (fun e he hb => h e he hb)).2 e he hb

theorem noNan_postStep (m : Model F A S) (hh : Schedule.HooksSatisfy m (fun _ c => c.avoids (· = .nan))) (w : World F A S) (h : NoNan w.sched.events) :
    NoNan (Schedule.postStep m w).sched.events := fun e he hb =>
  (Schedule.postStep_weight m (fun _ => 0) (· = .nan) (fun _ => False) (fun _ _ => rfl) w hh (fun e he hb => h e he hb)).2 e he hb

theorem advance_ne_nan (rnd : Rat → Rat) {t : F} (h : t ≠ .nan) : advance rnd t ≠ .nan := by
  match t with
  | .nan => exact absurd rfl h
  | .inf s => simp [advance, add]
  | .fin q =>
    show ofRat rnd (q + 1) ≠ .nan
    unfold ofRat
    split
    · simp
    · split <;> simp

theorem noNan_step {rnd : Rat → Rat} (m : Model F A S) (hadv : m.adv = advance rnd) (hh : Schedule.HooksSatisfy m (fun _ c => c.avoids (· = .nan)))
    (w : World F A S) (hn : (Schedule.ids w.sched.events).Nodup) (h : NoNan w.sched.events) : NoNan (Schedule.step m w).sched.events := by
  have hp := noNan_preStep m hh w h
  apply noNan_postStep m hh
  obtain ⟨t, ran, kept, _, _, _, h2, _, h4, h5, _⟩ := Schedule.runsOf_step m w hn
  intro e he
  rw [h5] at he
  rcases List.mem_append.1 he with he | he
  · exact hp e (List.mem_of_mem_filter he)
  · obtain ⟨f, hf, _, _, _, hft, _⟩ := Schedule.turns_times h4 he
    rw [hft, hadv]
    exact advance_ne_nan rnd (hp f (List.mem_of_mem_filter (h2.mem_iff.1 hf)))

theorem steps_eq {rnd : Rat → Rat} (m : Model F A S) (hadv : m.adv = advance rnd) (hh : Schedule.HooksSatisfy m (fun _ c => c.avoids (· = .nan))) :
    ∀ (n : Nat) (w : World F A S), (Schedule.ids w.sched.events).Nodup → NoNan w.sched.events → steps m n w = Schedule.steps m n w
  | 0, _, _, _ => rfl
  | n + 1, w, hn, h => by
    show steps m n (step m w) = Schedule.steps m n (Schedule.step m w)
    rw [step_eq m w (noNan_preStep m hh w h)]
    exact steps_eq m hadv hh n _ (Schedule.step_nodup m w hn) (noNan_step m hadv hh w hn h)

theorem run_invariant {rnd : Rat → Rat} (m : Model F A S) (hadv : m.adv = advance rnd) (hh : Schedule.HooksSatisfy m (fun _ c => c.avoids (· = .nan)))
    (ops : List (Op F A)) : ∀ w : World F A S, (∀ c, Op.cmd c ∈ ops → c.avoids (· = .nan)) → (Schedule.ids w.sched.events).Nodup → NoNan w.sched.events →
    (Schedule.ids (run m w ops).sched.events).Nodup ∧ NoNan (run m w ops).sched.events := by
  induction ops with
  | nil => intro w _ hn h; exact ⟨hn, h⟩
  | cons o ops ih =>
    intro w hc hn h
    show (Schedule.ids (run m (op m w o) ops).sched.events).Nodup ∧ NoNan (run m (op m w o) ops).sched.events
    have hc' : ∀ c, Op.cmd c ∈ ops → c.avoids (· = .nan) := fun c hm => hc c (List.mem_cons_of_mem _ hm)
    cases o with
    | cmd c =>
      refine ih (w.exec c) hc' (by rw [Schedule.exec_sched]; exact Schedule.after_nodup _ _ hn) ?_
      intro e he hb
      exact (Schedule.execAll_weight (fun _ => 0) (· = .nan) (fun _ => False) (fun _ _ => rfl) [c] w ⟨hc c (by simp), trivial⟩
        (fun e he hb => h e he hb)).2 e he hb
    | step =>
      show (Schedule.ids (run m (step m w) ops).sched.events).Nodup ∧ _
      refine ih (step m w) hc' ?_ ?_ <;> rw [step_eq m w (noNan_preStep m hh w h)]
      · exact Schedule.step_nodup m w hn
      · exact noNan_step m hadv hh w hn h

/-! ### Any times -/

theorem cmp_self (p : Priority F) : cmp p p = .eq := by
  have : lt p.time p.time = false := by
    cases p.time with
    | nan => rfl
    | inf s => cases s <;> rfl
    | fin q => simp [lt]
  simp [cmp, this]

theorem lt_asymm {a b : F} (h : lt a b = true) : lt b a = false := by
  match a, b with
  | .nan, _ => simp [lt] at h
  | .inf _, .nan => simp [lt] at h
  | .fin _, .nan => simp [lt] at h
  | .fin p, .fin q => simp only [lt, decide_eq_true_eq, decide_eq_false_iff_not] at *; exact not_lt.2 h.le
  | .inf true, .inf true | .inf false, .inf false | .inf true, .inf false | .inf false, .inf true
  | .inf true, .fin _ | .fin _, .inf true | .inf false, .fin _ | .fin _, .inf false => simp_all [lt]

theorem cmp_asymm {p q : Priority F} (h : cmp p q = .gt) : cmp q p ≠ .gt := by
  unfold cmp at *
  by_cases h1 : lt p.time q.time = true
  · rw [lt_asymm h1]; simp [h1]
  · rw [if_neg h1] at h
    by_cases h2 : lt q.time p.time = true
    · simp [h2] at h
    · rw [if_neg h2] at h ⊢
      rw [if_neg h1]
      by_cases h3 : p.ordering < q.ordering
      · rw [if_neg (by omega), if_pos h3]; simp
      · rw [if_neg h3] at h
        split at h <;> simp at h

theorem candidates_ne_nil {q : Queue F A} (h : q ≠ []) : candidates q ≠ [] := by
  by_cases hn : hasNan q = true
  · unfold candidates
    rw [hn, Bool.true_and]
    split
    · exact h
    · rename_i hl
      match q, h, hl with
      | [e], _, _ => simp [tops, cmp_self]
      | [e, f], _, _ =>
        by_cases hc : cmp f.2 e.2 = .gt
        · have := cmp_asymm hc
          exact List.ne_nil_of_mem (a := f) (List.mem_filter.2 ⟨by simp, by simp [cmp_self, this]⟩)
        · exact List.ne_nil_of_mem (a := e) (List.mem_filter.2 ⟨by simp, by simp [cmp_self, hc]⟩)
      | _ :: _ :: _ :: _, _, hl => simp at hl
  · have hq : NoNan q := by
      intro e he hb
      apply hn
      unfold hasNan
      rw [List.any_eq_true]
      exact ⟨e, he, by simp [hb]⟩
    rw [candidates_eq hq]
    obtain ⟨e, he, hm⟩ := Schedule.exists_min q h
    exact List.ne_nil_of_mem (Schedule.mem_tops.2 ⟨he, hm⟩)

theorem candidates_sub {q : Queue F A} {e : Entry F A} (h : e ∈ candidates q) : e ∈ q := by
  unfold candidates at h
  split at h
  · exact h
  · exact List.mem_of_mem_filter h

theorem peek_mem {tb : TieBreak F A} {n : Nat} {q : Queue F A} {e : Entry F A} (h : peek tb n q = some e) : e ∈ q :=
  candidates_sub (List.mem_of_getElem? h)

theorem peek_some (tb : TieBreak F A) (n : Nat) {q : Queue F A} (h : q ≠ []) : ∃ e, peek tb n q = some e :=
  ⟨_, List.getElem?_eq_getElem (Nat.mod_lt _ (List.length_pos_iff.2 (candidates_ne_nil h)))⟩

theorem pop_of_peek {tb : TieBreak F A} {n : Nat} {q : Queue F A} {e : Entry F A} (h : peek tb n q = some e) :
    pop tb n q = some (e, q.filter (fun f => f.1.id != e.1.id)) := by
  unfold pop; rw [h]; rfl

theorem cons_filter_perm {q : Queue F A} (hn : (Schedule.ids q).Nodup) {e : Entry F A} (he : e ∈ q) : (e :: q.filter (fun f => f.1.id != e.1.id)).Perm q := by
  have h1 := List.filter_append_perm (fun f : Entry F A => f.1.id == e.1.id) q
  have h2 : q.filter (fun f => f.1.id == e.1.id) = [e] := by
    clear h1
    induction q with
    | nil => simp at he
    | cons x q ih =>
      have hn' := hn
      simp only [Schedule.ids_cons, List.nodup_cons] at hn'
      rcases List.mem_cons.1 he with rfl | he'
      · rw [List.filter_cons_of_pos (by simp)]
        congr 1
        rw [List.filter_eq_nil_iff]
        intro f hf
        simp only [beq_iff_eq]
        exact fun hc => hn'.1 (Schedule.mem_ids.2 ⟨f, hf, hc⟩)
      · rw [List.filter_cons_of_neg, ih hn'.2 he']
        simp only [beq_iff_eq]
        exact fun hc => hn'.1 (Schedule.mem_ids.2 ⟨e, he', hc.symm⟩)
  rw [h2] at h1
  exact h1

/-- What the pop loop does with any times. -/
theorem popDue_any (tb : TieBreak F A) : ∀ (fuel : Nat) (s : Sched F A), (Schedule.ids s.events).Nodup →
    ((popDue tb fuel s).1 ++ (popDue tb fuel s).2.events).Perm s.events ∧ (popDue tb fuel s).2.events.Sublist s.events ∧
    (popDue tb fuel s).2.time = s.time ∧ (popDue tb fuel s).2.step = s.step ∧ (popDue tb fuel s).2.idCount = s.idCount ∧
    ((∀ e ∈ s.events, lt s.time e.2.time = false) → s.events.length ≤ fuel → (popDue tb fuel s).2.events = []) ∧
    (∀ e ∈ (popDue tb fuel s).1, lt s.time e.2.time = false)
  | 0, s, _ => ⟨by simp [popDue], by simp [popDue], rfl, rfl, rfl, fun _ h => by simpa [popDue] using h, by simp [popDue]⟩
  | fuel + 1, s, hn => by
    unfold popDue
    cases hp : peek tb s.pops s.events with
    | none =>
      dsimp only
      refine ⟨by simp, List.Sublist.refl _, rfl, rfl, rfl, fun _ _ => ?_, by simp⟩
      by_cases hq : s.events = []
      · exact hq
      · obtain ⟨e, he⟩ := peek_some tb s.pops hq
        rw [hp] at he; simp at he
    | some top =>
      dsimp only
      have hm := peek_mem hp
      by_cases hlt : lt s.time top.2.time = true
      · rw [if_pos hlt]
        exact ⟨by simp, List.Sublist.refl _, rfl, rfl, rfl, fun h _ => by rw [h top hm] at hlt; simp at hlt, by simp⟩
      · rw [if_neg hlt, pop_of_peek hp]
        dsimp only
        obtain ⟨h1, h2, h3, h4, h5, h6, h7⟩ := popDue_any tb fuel { s with events := s.events.filter (fun f => f.1.id != top.1.id), pops := s.pops + 1 }
          (Schedule.nodup_filter hn _)
        refine ⟨(h1.cons top).trans (cons_filter_perm hn hm), h2.trans List.filter_sublist, h3, h4, h5, fun h hl => ?_, ?_⟩
        · refine h6 (fun e he => h e (List.mem_of_mem_filter he)) ?_
          have := Schedule.length_filter_lt hm
          show (s.events.filter (fun f => f.1.id != top.1.id)).length ≤ fuel
          omega
        · intro e he
          rcases List.mem_cons.1 he with rfl | he
          · exact Bool.eq_false_iff.2 hlt
          · exact h7 e he

/-- What a step does with any times. -/
theorem midStep_any (m : Model F A S) (w : World F A S) (hn : (Schedule.ids w.sched.events).Nodup) :
    ∃ ran rest kept : Queue F A, (ran ++ rest).Perm (Schedule.preStep m w).sched.events ∧ rest.Sublist (Schedule.preStep m w).sched.events ∧
      Schedule.Turns m (Schedule.preStep m w).state ran (midStep m w).state kept ∧ (midStep m w).sched.events = rest ++ kept ∧
      (midStep m w).sched.idCount = (Schedule.preStep m w).sched.idCount ∧
      (midStep m w).trace = (Schedule.preStep m w).trace ++ ran.flatMap Schedule.callsOf ∧
      (∀ top, peek m.tb (Schedule.preStep m w).sched.pops (Schedule.preStep m w).sched.events = some top →
        top ∈ ran ∧ (midStep m w).sched.time = top.2.time ∧ (∀ e ∈ ran, lt top.2.time e.2.time = false) ∧
        ((∀ e ∈ (Schedule.preStep m w).sched.events, lt top.2.time e.2.time = false) → rest = [])) := by
  have hp := Schedule.preStep_nodup m w hn
  unfold midStep
  dsimp only
  generalize Schedule.preStep m w = v at *
  by_cases hq : v.sched.events = []
  · rw [if_pos (by rw [hq]; rfl)]
    refine ⟨[], [], [], by rw [hq]; simp, by simp, Schedule.Turns.nil _, by rw [hq]; rfl, rfl, by simp, fun top ht => ?_⟩
    have := peek_mem ht
    rw [hq] at this; simp at this
  · rw [if_neg (by simp [hq])]
    obtain ⟨top, ht⟩ := peek_some m.tb v.sched.pops hq
    unfold runDue
    rw [ht]
    dsimp only
    obtain ⟨h1, h2, h3, h4, h5, h6, h7⟩ := popDue_any m.tb v.sched.events.length { v.sched with time := top.2.time } hp
    have hfirst : top ∈ (popDue m.tb v.sched.events.length { v.sched with time := top.2.time }).1 := by
      obtain ⟨n, hl⟩ : ∃ n, v.sched.events.length = n + 1 := Nat.exists_eq_succ_of_ne_zero (by simp [hq])
      rw [hl]
      unfold popDue
      dsimp only
      rw [ht, pop_of_peek ht]
      dsimp only
      have : lt top.2.time top.2.time = false := by
        by_contra hc
        have hc : lt top.2.time top.2.time = true := by simpa using hc
        have := lt_asymm hc
        rw [hc] at this; simp at this
      rw [if_neg (by rw [this]; simp)]
      simp
    generalize popDue m.tb v.sched.events.length { v.sched with time := top.2.time } = r at *
    have hids : (Schedule.ids (r.2.events ++ r.1)).Nodup := by
      have : (Schedule.ids (r.2.events ++ r.1)).Perm (Schedule.ids v.sched.events) := (List.perm_append_comm.trans h1).map _
      exact this.nodup_iff.2 hp
    obtain ⟨k, hk, he⟩ := Schedule.foldl_runOne_turns m r.1 { v with sched := r.2 } hids
    obtain ⟨hf1, hf2, hf3, hf4⟩ := Schedule.foldl_runOne_fields m r.1 { v with sched := r.2 }
    refine ⟨r.1, r.2.events, k, h1, h2, hk, he, hf3.trans h5, ?_, ?_⟩
    · rw [Schedule.foldl_runOne_trace]
    · intro top' ht'
      have htt := Option.some.inj ht'
      subst htt
      exact ⟨hfirst, hf2.trans h3, h7, fun h => h6 h (Nat.le_refl _)⟩

theorem step_nodup (m : Model F A S) (w : World F A S) (hn : (Schedule.ids w.sched.events).Nodup) : (Schedule.ids (step m w).sched.events).Nodup := by
  apply Schedule.postStep_nodup
  obtain ⟨ran, rest, kept, h1, _, h3, h4, _⟩ := midStep_any m w hn
  rw [h4]
  have hp := Schedule.preStep_nodup m w hn
  have h5 : (Schedule.ids (rest ++ ran)).Nodup := by
    have : (Schedule.ids (rest ++ ran)).Perm (Schedule.ids (Schedule.preStep m w).sched.events) := (List.perm_append_comm.trans h1).map _
    exact this.nodup_iff.2 hp
  refine h5.sublist ?_
  simp only [Schedule.ids, List.map_append]
  exact (List.Sublist.refl _).append (Schedule.turns_ids h3)

theorem run_nodup (m : Model F A S) (ops : List (Op F A)) : ∀ w : World F A S, (Schedule.ids w.sched.events).Nodup →
    (Schedule.ids (run m w ops).sched.events).Nodup := by
  induction ops with
  | nil => intro w h; exact h
  | cons o ops ih =>
    intro w h
    show (Schedule.ids (run m (op m w o) ops).sched.events).Nodup
    apply ih
    cases o with
    | cmd c => show (Schedule.ids (w.exec c).sched.events).Nodup; rw [Schedule.exec_sched]; exact Schedule.after_nodup _ _ h
    | step => exact step_nodup m w h

/-- The runs of a step with any times. -/
theorem step_runs (m : Model F A S) (w : World F A S) (ran : Queue F A)
    (h : (midStep m w).trace = (Schedule.preStep m w).trace ++ ran.flatMap Schedule.callsOf) :
    Schedule.runsOf (Schedule.since w (step m w)) = ran.map (fun e => (e.1.id, e.2)) := by
  obtain ⟨api, ha, hpre⟩ := Schedule.preStep_trace m w
  obtain ⟨api', ha', hpost⟩ := Schedule.postStep_trace m (midStep m w)
  have hall : (step m w).trace = w.trace ++ (((if w.sched.step = 0 then [.update 0] else []) ++ [.stateBefore] ++ api) ++
      (ran.flatMap Schedule.callsOf ++ ([.stateAfter] ++ api' ++ [.update ((midStep m w).sched.step + 1)]))) := by
    show (Schedule.postStep m (midStep m w)).trace = _
    rw [hpost, h, hpre]
    simp only [List.append_assoc]
  rw [Schedule.since_append hall]
  simp only [Schedule.runsOf_append, Schedule.runsOf_api ha, Schedule.runsOf_api ha', Schedule.runsOf_calls]
  have e1 : Schedule.runsOf ([.stateBefore] : List (Schedule.Ev F A)) = [] := rfl
  have e2 : Schedule.runsOf ([.stateAfter] : List (Schedule.Ev F A)) = [] := rfl
  have e3 : ∀ k, Schedule.runsOf ([.update k] : List (Schedule.Ev F A)) = [] := fun _ => rfl
  have e4 : Schedule.runsOf (if w.sched.step = 0 then [.update 0] else [] : List (Schedule.Ev F A)) = [] := by
    split <;> rfl
  simp [e1, e2, e3, e4]

/-! ### A time and the next -/

theorem fin_le {p q : Rat} : (F.fin p ≤ F.fin q) ↔ p ≤ q := by
  rw [← decide_eq_true_iff (p := F.fin p ≤ F.fin q), ← le_eq (by simp) (by simp)]
  simp [le]

theorem fin_lt {p q : Rat} : (F.fin p < F.fin q) ↔ p < q := by
  rw [← decide_eq_true_iff (p := F.fin p < F.fin q), ← lt_eq (by simp) (by simp)]
  simp [lt]

theorem low_le {a : F} (ha : a ≠ .nan) : F.inf true ≤ a := by
  rw [← decide_eq_true_iff (p := F.inf true ≤ a), ← le_eq (by simp) ha]
  cases a with
  | nan => exact absurd rfl ha
  | inf s => rfl
  | fin q => rfl

theorem le_high {a : F} (ha : a ≠ .nan) : a ≤ F.inf false := by
  rw [← decide_eq_true_iff (p := a ≤ F.inf false), ← le_eq ha (by simp)]
  cases a with
  | nan => exact absurd rfl ha
  | inf s => simp [le]
  | fin q => rfl

theorem fin_lt_high {q : Rat} : F.fin q < F.inf false := by
  rw [← decide_eq_true_iff (p := F.fin q < F.inf false), ← lt_eq (by simp) (by simp)]
  rfl

theorem low_lt_fin {q : Rat} : F.inf true < F.fin q := by
  rw [← decide_eq_true_iff (p := F.inf true < F.fin q), ← lt_eq (by simp) (by simp)]
  rfl

theorem fin_le_nan {q : Rat} : F.fin q ≤ F.nan := by
  show key _ ≤ key _
  simp [key, Prod.Lex.le_iff]

theorem ofRat_mono {rnd : Rat → Rat} (hr : Single.Rounding rnd) {p q : Rat} (h : p ≤ q) : ofRat rnd p ≤ ofRat rnd q := by
  have h' := hr.mono p q h
  have nn : ∀ x, ofRat rnd x ≠ .nan := by
    intro x; unfold ofRat; split
    · simp
    · split <;> simp
  by_cases h1 : largest < rnd q
  · rw [show ofRat rnd q = .inf false from if_pos h1]; exact le_high (nn p)
  · by_cases h2 : rnd p < -largest
    · have h0 : (0 : Rat) ≤ largest := by norm_num [largest]
      rw [show ofRat rnd p = .inf true by unfold ofRat; rw [if_neg (by linarith), if_pos h2]]; exact low_le (nn q)
    · have h3 : ofRat rnd p = .fin (rnd p) := by unfold ofRat; rw [if_neg (by linarith), if_neg h2]
      have h4 : ofRat rnd q = .fin (rnd q) := by unfold ofRat; rw [if_neg h1, if_neg (by linarith)]
      rw [h3, h4]; exact fin_le.2 h'

theorem advance_mono {rnd : Rat → Rat} (hr : Single.Rounding rnd) {a b : F} (ha : a ≠ .nan) (hb : b ≠ .nan) (h : a ≤ b) : advance rnd a ≤ advance rnd b := by
  match a, b with
  | .nan, _ => exact absurd rfl ha
  | _, .nan => exact absurd rfl hb
  | .inf true, _ => exact low_le (advance_ne_nan rnd hb)
  | _, .inf false => exact le_high (advance_ne_nan rnd ha)
  | .fin p, .fin q => exact ofRat_mono hr (add_le_add_left (fin_le.1 h) 1)
  | .fin p, .inf true => exact absurd low_lt_fin (not_lt.2 h)
  | .inf false, .fin q => exact absurd fin_lt_high (not_lt.2 h)
  | .inf false, .inf true => exact absurd ((low_lt_fin (q := 0)).trans fin_lt_high) (not_lt.2 h)

theorem isF32_abs {n : Int} (h : |n| ≤ 2 ^ 24) : Single.IsF32 n := ⟨n, 0, h, by omega, by simp⟩

theorem ceil_eq (x : Rat) : x.ceil = ⌈x⌉ := (Int.ceil_eq_iff.2 ⟨by have := Rat.ceil_lt (x := x); linarith, Rat.le_ceil⟩).symm

/-- What is left of `turnsUpTo` without the last turn. -/
def halves (u : Rat) : F → Nat
  | .fin q => (2 * (u - q)).ceil.toNat
  | _ => 0

/-- Between -2^24 and 2^24 a time advances by a half at least. -/
theorem advance_half {rnd : Rat → Rat} (hr : Single.Rounding rnd) {q : Rat} (h1 : -2 ^ 24 ≤ q) (h2 : q + 1 ≤ 2 ^ 24) : q + 1 / 2 ≤ rnd (q + 1) := by
  have key : ∃ n : Int, |n| ≤ 2 ^ 24 ∧ |(n : Rat) - (q + 1)| ≤ 1 / 2 := by
    refine ⟨round (q + 1), ?_, ?_⟩
    · have ha : (-2 ^ 24 : Int) ≤ round (q + 1) := by
        rw [round_eq, Int.le_floor]; push_cast; linarith
      have hb : round (q + 1) < (2 ^ 24 + 1 : Int) := by
        rw [round_eq, Int.floor_lt]; push_cast; linarith
      have hb : round (q + 1) ≤ (2 ^ 24 : Int) := by omega
      exact abs_le.2 ⟨ha, hb⟩
    · rw [abs_sub_comm]; exact abs_sub_round _
  obtain ⟨n, hn, hd⟩ := key
  have := (hr.nearest (q + 1) n (isF32_abs hn)).trans hd
  have := (abs_le.1 this).1
  linarith

end Verif.MachineSchedule
