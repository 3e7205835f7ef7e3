import Verif.Props.Retime
import Verif.Lemmas.Schedule3
import Verif.Lemmas.Single

/-!
C245 for the times of the code (single precision): whole times that stay below 2^24 (src/engine/schedule.rs:283-285,
395-408).
-/

set_option linter.unusedSectionVars false

namespace Verif.Schedule

variable {A S : Type}

theorem whole_mono {N M : Nat} (h : N ≤ M) {t : Rat} (ht : WholeUpTo N t) : WholeUpTo M t := by
  obtain ⟨n, hn, rfl⟩ := ht
  exact ⟨n, hn.trans h, rfl⟩

theorem callWhole_mono {N M : Nat} (h : N ≤ M) {c : Cmd Rat A} (hc : CallWhole N c) : CallWhole M c := by
  cases c with
  | scheduleOnce a t o => exact whole_mono h hc
  | scheduleRepeating a t o => exact whole_mono h hc
  | dequeue id => exact hc

/-- The pending times are whole numbers up to `N`. -/
def TimesWhole (N : Nat) (s : Sched Rat A) : Prop := ∀ e ∈ s.events, WholeUpTo N e.2.time

theorem exec_whole {N : Nat} {w : World Rat A S} (hw : TimesWhole N w.sched) {c : Cmd Rat A} (hc : CallWhole N c) :
    TimesWhole N (w.exec c).sched := by
  cases c with
  | scheduleOnce a t o =>
    intro e he
    rcases push_mem he with h1 | h1
    · exact hw e h1
    · rw [h1]; exact hc
  | scheduleRepeating a t o =>
    intro e he
    rcases push_mem he with h1 | h1
    · exact hw e h1
    · rw [h1]; exact hc
  | dequeue id =>
    intro e he
    exact hw e (List.mem_filter.1 he).1

theorem execAll_whole {N : Nat} : ∀ (cs : List (Cmd Rat A)) (w : World Rat A S), TimesWhole N w.sched →
    (∀ c ∈ cs, CallWhole N c) → TimesWhole N (w.execAll cs).sched := by
  intro cs
  unfold World.execAll
  induction cs with
  | nil => intro w hw _; exact hw
  | cons c cs ih =>
    intro w hw hc
    rw [List.foldl_cons]
    exact ih _ (exec_whole hw (hc c List.mem_cons_self)) (fun d hd => hc d (List.mem_cons_of_mem _ hd))

theorem popDue_sub (tb : TieBreak Rat A) : ∀ (fuel : Nat) (s : Sched Rat A),
    (∀ e ∈ (popDue tb fuel s).1, e ∈ s.events) ∧ ∀ e ∈ (popDue tb fuel s).2.events, e ∈ s.events := by
  intro fuel
  induction fuel with
  | zero => intro s; exact ⟨fun e he => absurd he (by simp [popDue]), fun e he => he⟩
  | succ fuel ih =>
    intro s
    rw [popDue]
    cases hp : s.events.peek tb s.pops with
    | none => exact ⟨fun e he => absurd he (by simp), fun e he => he⟩
    | some top =>
      dsimp only
      by_cases ht : s.time < top.2.time
      · rw [if_pos ht]; exact ⟨fun e he => absurd he (by simp), fun e he => he⟩
      · rw [if_neg ht]
        unfold Queue.pop
        rw [hp, Option.map_some]
        dsimp only
        have hmem : top ∈ s.events := by
          unfold Queue.peek at hp
          exact (List.mem_filter.1 (List.mem_of_getElem? hp)).1
        obtain ⟨i1, i2⟩ := ih { s with events := s.events.filter (fun f => f.1.id != top.1.id), pops := s.pops + 1 }
        refine ⟨fun e he => ?_, fun e he => ?_⟩
        · rcases List.mem_cons.1 he with rfl | h
          · exact hmem
          · exact (List.mem_filter.1 (i1 e h)).1
        · exact (List.mem_filter.1 (i2 e he)).1

/-- The same model with another way to add one to a time. -/
def Model.withAdv (m : Model Rat A S) (adv : Rat → Rat) : Model Rat A S := { m with adv := adv }

/-- Adding one to the whole times below `M` gives the next whole time. -/
def AddsOne (M : Nat) (adv : Rat → Rat) : Prop := ∀ n : Nat, n < M → adv n = ((n + 1 : Nat) : Rat)

theorem runs_whole {B M : Nat} (hB : B < M) {m : Model Rat A S} {adv : Rat → Rat} (h1 : AddsOne M m.adv)
    (h2 : AddsOne M adv) : ∀ (l : List (Entry Rat A)) (w : World Rat A S), (∀ e ∈ l, WholeUpTo B e.2.time) →
    TimesWhole (B + 1) w.sched → l.foldl (runOne (m.withAdv adv)) w = l.foldl (runOne m) w ∧
      TimesWhole (B + 1) (l.foldl (runOne m) w).sched := by
  intro l
  induction l with
  | nil => intro w _ hw; exact ⟨rfl, hw⟩
  | cons e l ih =>
    intro w hl hw
    obtain ⟨n, hn, ht⟩ := hl e List.mem_cons_self
    have e1 : m.adv e.2.time = ((n + 1 : Nat) : Rat) := by rw [ht]; exact h1 n (by omega)
    have e2 : adv e.2.time = ((n + 1 : Nat) : Rat) := by rw [ht]; exact h2 n (by omega)
    have same : runOne (m.withAdv adv) w e = runOne m w e := by
      unfold runOne Model.withAdv
      dsimp only
      rw [e1, e2]
    have ok : TimesWhole (B + 1) (runOne m w e).sched := by
      unfold runOne
      dsimp only
      by_cases hr : e.1.repeating = true
      · rw [if_pos hr]
        split_ifs
        · exact hw
        · intro f hf
          rcases push_mem hf with g | g
          · exact hw f g
          · rw [g]; exact ⟨n + 1, by omega, e1⟩
      · rw [if_neg hr]; exact hw
    rw [List.foldl_cons, List.foldl_cons, same]
    exact ih _ (fun f hf => hl f (List.mem_cons_of_mem _ hf)) ok

theorem step_whole {N B M : Nat} (hN : N ≤ B) (hB : B < M) {m : Model Rat A S} {adv : Rat → Rat} (h1 : AddsOne M m.adv)
    (h2 : AddsOne M adv) (hk : HooksWhole N m) {w : World Rat A S} (hw : TimesWhole B w.sched) :
    step (m.withAdv adv) w = step m w ∧ TimesWhole (B + 1) (step m w).sched := by
  have pre : preStep (m.withAdv adv) w = preStep m w := rfl
  have wpre : TimesWhole B (preStep m w).sched := by
    unfold preStep World.doBefore
    refine execAll_whole _ _ ?_ (fun c hc => callWhole_mono hN ((hk _ _).1 c hc))
    split_ifs
    · exact hw
    · exact hw
  have up : ∀ {s : Sched Rat A}, TimesWhole B s → TimesWhole (B + 1) s := fun h e he => whole_mono (Nat.le_succ B) (h e he)
  have mid : midStep (m.withAdv adv) w = midStep m w ∧ TimesWhole (B + 1) (midStep m w).sched := by
    unfold midStep
    dsimp only
    rw [pre]
    by_cases he : (preStep m w).sched.events.isEmpty = true
    · rw [if_pos he, if_pos he]; exact ⟨rfl, up wpre⟩
    · rw [if_neg he, if_neg he]
      unfold runDue
      have e1 : (preStep m w).sched.events.peek (m.withAdv adv).tb (preStep m w).sched.pops =
        (preStep m w).sched.events.peek m.tb (preStep m w).sched.pops := rfl
      rw [e1]
      cases (preStep m w).sched.events.peek m.tb (preStep m w).sched.pops with
      | none => exact ⟨rfl, up wpre⟩
      | some top =>
        dsimp only
        obtain ⟨p1, p2⟩ := popDue_sub m.tb (preStep m w).sched.events.length { (preStep m w).sched with time := top.2.time }
        exact runs_whole hB h1 h2 _ _ (fun e he => wpre e (p1 e he)) (fun e he => whole_mono (Nat.le_succ B) (wpre e (p2 e he)))
  unfold step
  rw [mid.1]
  refine ⟨rfl, ?_⟩
  unfold postStep World.doAfter
  exact execAll_whole _ _ mid.2 (fun c hc => callWhole_mono (hN.trans (Nat.le_succ B)) ((hk _ _).2 c hc))

theorem run_whole {N M : Nat} {m : Model Rat A S} {adv : Rat → Rat} (h1 : AddsOne M m.adv) (h2 : AddsOne M adv)
    (hk : HooksWhole N m) : ∀ (ops : List (Op Rat A)) (B : Nat) (w : World Rat A S), N ≤ B → TimesWhole B w.sched →
    (∀ c, Op.cmd c ∈ ops → CallWhole N c) → B + stepCount ops ≤ M →
    World.run (m.withAdv adv) w ops = World.run m w ops := by
  intro ops
  unfold World.run
  induction ops with
  | nil => intro B w _ _ _ _; rfl
  | cons op ops ih =>
    intro B w hN hw hc hM
    rw [List.foldl_cons, List.foldl_cons]
    have hc' : ∀ c, Op.cmd c ∈ ops → CallWhole N c := fun c h => hc c (List.mem_cons_of_mem _ h)
    cases op with
    | cmd c =>
      exact ih B _ hN (exec_whole hw (callWhole_mono hN (hc c List.mem_cons_self))) hc' hM
    | step =>
      have hM' : B + 1 + stepCount ops ≤ M := by
        have : stepCount (Op.step :: ops : List (Op Rat A)) = stepCount ops + 1 := rfl
        omega
      obtain ⟨s1, s2⟩ := step_whole hN (by omega) h1 h2 hk hw
      have e : World.op (m.withAdv adv) w .step = World.op m w .step := s1
      rw [e]
      exact ih (B + 1) _ (by omega) s2 hc' hM'

theorem addsOne_single : AddsOne 16777216 (fun t => Single.single (t + 1)) := by
  intro n hn
  have e : (n : Rat) + 1 = ((n + 1 : Nat) : Rat) := by push_cast; ring
  dsimp only
  rw [e]
  refine Single.single_keeps _ ⟨((n + 1 : Nat) : Int), 0, ?_, by norm_num, ?_⟩
  · rw [abs_of_nonneg (by positivity)]
    have : n + 1 ≤ 2 ^ 24 := by norm_num; omega
    exact_mod_cast this
  · simp

theorem addsOne_exact (M : Nat) : AddsOne M (fun t => t + 1) := by
  intro n _; push_cast; ring

theorem callWhole_later {N c : Nat} {x : Cmd Rat A} (h : CallWhole N x) : CallWhole (N + c) (x.retime (· + (c : Rat)) id) := by
  cases x with
  | scheduleOnce a t o => obtain ⟨n, hn, rfl⟩ := h; exact ⟨n + c, by omega, by push_cast; rfl⟩
  | scheduleRepeating a t o => obtain ⟨n, hn, rfl⟩ := h; exact ⟨n + c, by omega, by push_cast; rfl⟩
  | dequeue id => trivial

theorem stepCount_retime (σ : Rat → Rat) (ops : List (Op Rat A)) : stepCount (ops.map (Op.retime σ id)) = stepCount ops := by
  induction ops with
  | nil => rfl
  | cons op ops ih => cases op <;> simp [stepCount, Op.retime] <;> exact ih

/-- **C245**, times of the code: if all times a program and its hooks ask for are whole numbers, and with the delay and
the steps made they stay below 2^24, then in single precision the program runs the same `c` units later. -/
theorem C245_whole_partial (c N : Nat) (m : Model Rat A S) (hadv : m.adv = fun t => Single.single (t + 1))
    (hf : ClockFree m) (hk : HooksWhole N m) (s : S) (ops : List (Op Rat A)) (hc : ∀ x, Op.cmd x ∈ ops → CallWhole N x)
    (hM : N + c + stepCount ops ≤ 16777216) : ∃ t,
    World.run (m.later c) (World.start 0 s) (ops.map (Op.retime (· + (c : Rat)) id)) =
      ((World.run m (World.start 0 s) ops).retime (· + (c : Rat)) id).atClock t := by
  have none : ∀ B, TimesWhole B (World.start (A := A) (0 : Rat) s).sched := fun B e he => absurd he (by simp [World.start, Sched.new])
  have a1 : AddsOne 16777216 m.adv := by rw [hadv]; exact addsOne_single
  have e1 : World.run (m.withAdv (· + 1)) (World.start 0 s) ops = World.run m (World.start 0 s) ops :=
    run_whole a1 (addsOne_exact _) hk ops N _ le_rfl (none N) hc (by omega)
  have hk' : HooksWhole (N + c) (m.later c) := by
    intro s sch
    refine ⟨fun x hx => ?_, fun x hx => ?_⟩
    · obtain ⟨y, hy, rfl⟩ := List.mem_map.1 hx
      exact callWhole_later ((hk _ _).1 y hy)
    · obtain ⟨y, hy, rfl⟩ := List.mem_map.1 hx
      exact callWhole_later ((hk _ _).2 y hy)
  have hc' : ∀ x, Op.cmd x ∈ ops.map (Op.retime (· + (c : Rat)) id) → CallWhole (N + c) x := by
    intro x hx
    obtain ⟨y, hy, h⟩ := List.mem_map.1 hx
    cases y with
    | step => cases h
    | cmd y => cases h; exact callWhole_later (hc y hy)
  have e2 : World.run ((m.later c).withAdv (· + 1)) (World.start 0 s) (ops.map (Op.retime (· + (c : Rat)) id)) =
      World.run (m.later c) (World.start 0 s) (ops.map (Op.retime (· + (c : Rat)) id)) :=
    run_whole (m := m.later c) a1 (addsOne_exact _) hk' _ (N + c) _ le_rfl (none _) hc' (by rw [stepCount_retime]; omega)
  rw [← e1, ← e2]
  exact C245_later_partial c (m.withAdv (· + 1)) rfl hf s ops

/-- A case that meets the hypotheses: the program of the negation, as late as possible. -/
example : ClockFree (demoIdle (fun t => Single.single (t + 1))) ∧ HooksWhole 2 (demoIdle (fun t => Single.single (t + 1))) ∧
    (∀ x, Op.cmd x ∈ demoTwo 0 → CallWhole 2 x) ∧ 2 + 16777211 + stepCount (demoTwo 0) ≤ 16777216 := by
  refine ⟨fun _ _ _ => ⟨rfl, rfl⟩, fun _ _ => ⟨fun c hc => ?_, fun c hc => ?_⟩, ?_, by decide⟩
  · cases hc
  · cases hc
  · intro x hx
    simp only [demoTwo, List.mem_cons, Op.cmd.injEq, reduceCtorEq, List.not_mem_nil, or_false] at hx
    rcases hx with rfl | rfl
    · exact ⟨0, by omega, by norm_num⟩
    · exact ⟨2, by omega, by norm_num⟩

end Verif.Schedule
