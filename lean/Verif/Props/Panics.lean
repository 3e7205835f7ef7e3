import Verif.Spec.Panics
import Verif.Props.ParallelSchedule

/-! A panic in an agent is never lost: C176. -/

namespace Verif.Panics

open Verif.Schedule

variable {T A S : Type}

theorem runItem_ok {m : Model T A S} {p : Hooks A S} (ag : Agrees p m) {w w' : World T A S} {e : Entry T A}
    (h : runItem m p w e = .ok w') : ¬ Falls p e.1 w.state ∧ w' = runOne m w e := by
  unfold runItem at h
  cases h1 : p.aBefore e.1.agent w.state with
  | error s => rw [h1] at h; simp at h
  | ok r1 =>
  rw [h1] at h
  simp only at h
  cases h2 : p.aStep r1.1 r1.2 with
  | error s => rw [h2] at h; simp at h
  | ok r2 =>
  rw [h2] at h
  simp only at h
  cases h3 : p.aAfter r2.1 r2.2 with
  | error s => rw [h3] at h; simp at h
  | ok r3 =>
  rw [h3] at h
  simp only at h
  have g1 := ag.aBefore _ _ _ h1
  have g2 := ag.aStep _ _ _ h2
  have g3 := ag.aAfter _ _ _ h3
  by_cases hr : e.1.repeating = true
  · rw [if_pos hr] at h
    cases h4 : p.isStopped r3.1 r3.2 with
    | error s => rw [h4] at h; simp at h
    | ok r4 =>
    rw [h4] at h
    simp only at h
    have g4 := ag.isStopped _ _ _ h4
    constructor
    · rintro (⟨s, hs⟩ | ⟨a1, s1, e1, ⟨s, hs⟩ | ⟨a2, s2, e2, ⟨s, hs⟩ | ⟨a3, s3, e3, _, s, hs⟩⟩⟩)
      · rw [h1] at hs; simp at hs
      · rw [h1] at e1; obtain rfl := Except.ok.inj e1; rw [h2] at hs; simp at hs
      · rw [h1] at e1; obtain rfl := Except.ok.inj e1
        rw [h2] at e2; obtain rfl := Except.ok.inj e2; rw [h3] at hs; simp at hs
      · rw [h1] at e1; obtain rfl := Except.ok.inj e1
        rw [h2] at e2; obtain rfl := Except.ok.inj e2
        rw [h3] at e3; obtain rfl := Except.ok.inj e3; rw [h4] at hs; simp at hs
    · unfold runOne
      simp only [g1, g2, g3, g4, hr]
      by_cases hs : r4.1 = true
      · simp only [hs, if_true] at h ⊢
        exact (Except.ok.inj h).symm
      · rw [if_neg hs] at h
        rw [if_pos trivial, if_neg hs, ← Except.ok.inj h, hr]
  · rw [if_neg hr] at h
    constructor
    · rintro (⟨s, hs⟩ | ⟨a1, s1, e1, ⟨s, hs⟩ | ⟨a2, s2, e2, ⟨s, hs⟩ | ⟨a3, s3, e3, hr', s, hs⟩⟩⟩)
      · rw [h1] at hs; simp at hs
      · rw [h1] at e1; obtain rfl := Except.ok.inj e1; rw [h2] at hs; simp at hs
      · rw [h1] at e1; obtain rfl := Except.ok.inj e1
        rw [h2] at e2; obtain rfl := Except.ok.inj e2; rw [h3] at hs; simp at hs
      · exact hr hr'
    · unfold runOne
      simp only [g1, g2, g3]
      rw [if_neg hr]
      exact (Except.ok.inj h).symm

theorem runItem_error {m : Model T A S} {p : Hooks A S} {w w' : World T A S} {e : Entry T A}
    (h : runItem m p w e = .error w') : Falls p e.1 w.state ∧ CutShort p w w' e := by
  unfold runItem at h
  cases h1 : p.aBefore e.1.agent w.state with
  | error s =>
    rw [h1] at h
    obtain rfl := Except.error.inj h
    exact ⟨.inl ⟨s, h1⟩, rfl, 1, .inl ⟨h1, rfl⟩, rfl⟩
  | ok r1 =>
  rw [h1] at h
  simp only at h
  cases h2 : p.aStep r1.1 r1.2 with
  | error s =>
    rw [h2] at h
    obtain rfl := Except.error.inj h
    exact ⟨.inr ⟨_, _, h1, .inl ⟨s, h2⟩⟩, rfl, 2, .inr ⟨_, _, h1, .inl ⟨h2, rfl⟩⟩, rfl⟩
  | ok r2 =>
  rw [h2] at h
  simp only at h
  cases h3 : p.aAfter r2.1 r2.2 with
  | error s =>
    rw [h3] at h
    obtain rfl := Except.error.inj h
    exact ⟨.inr ⟨_, _, h1, .inr ⟨_, _, h2, .inl ⟨s, h3⟩⟩⟩, rfl, 3, .inr ⟨_, _, h1, .inr ⟨_, _, h2, .inl ⟨h3, rfl⟩⟩⟩, rfl⟩
  | ok r3 =>
  rw [h3] at h
  simp only at h
  by_cases hr : e.1.repeating = true
  · rw [if_pos hr] at h
    cases h4 : p.isStopped r3.1 r3.2 with
    | error s =>
      rw [h4] at h
      obtain rfl := Except.error.inj h
      exact ⟨.inr ⟨_, _, h1, .inr ⟨_, _, h2, .inr ⟨_, _, h3, hr, s, h4⟩⟩⟩, rfl, 3, .inr ⟨_, _, h1, .inr ⟨_, _, h2, .inr ⟨_, _, h3, hr, h4, rfl⟩⟩⟩, rfl⟩
    | ok r4 =>
      rw [h4] at h
      simp only at h
      split at h <;> simp at h
  · rw [if_neg hr] at h
    simp at h

theorem runItems_reported {m : Model T A S} {p : Hooks A S} (ag : Agrees p m) : ∀ (es : List (Entry T A))
    (w : World T A S),
    (∀ w', runItems m p w es = .ok w' → NoneFalls m p w es ∧ w' = es.foldl (runOne m) w) ∧
    (∀ w', runItems m p w es = .error w' → ∃ ran e rest, es = ran ++ e :: rest ∧ NoneFalls m p w ran ∧
      Falls p e.1 (ran.foldl (runOne m) w).state ∧ CutShort p (ran.foldl (runOne m) w) w' e) := by
  intro es
  induction es with
  | nil =>
    intro w
    exact ⟨fun w' h => ⟨trivial, (Except.ok.inj h).symm⟩, fun w' h => by simp [runItems] at h⟩
  | cons e es ih =>
    intro w
    cases h1 : runItem m p w e with
    | error v =>
      obtain ⟨hf, hc⟩ := runItem_error h1
      refine ⟨fun w' h => ?_, fun w' h => ?_⟩
      · simp [runItems, h1] at h
      · simp only [runItems, h1] at h
        obtain rfl := Except.error.inj h
        exact ⟨[], e, es, rfl, trivial, hf, hc⟩
    | ok v =>
      obtain ⟨hf, rfl⟩ := runItem_ok ag h1
      refine ⟨fun w' h => ?_, fun w' h => ?_⟩
      · simp only [runItems, h1] at h
        obtain ⟨a, b⟩ := (ih _).1 w' h
        exact ⟨⟨hf, a⟩, b⟩
      · simp only [runItems, h1] at h
        obtain ⟨ran, e', rest, a, b, c, d⟩ := (ih _).2 w' h
        exact ⟨e :: ran, e', rest, by rw [a]; rfl, ⟨hf, b⟩, c, d⟩

/-- **C176 (sequential).** A step of the sequential schedule gives every agent that is due its turn, in the order of
the queue, and then completes; or the first agent that panics is the last thing that happens, and the step
panics. -/
theorem C176_sequential [LinearOrder T] (m : Model T A S) (p : Hooks A S) (ag : Agrees p m) (w : World T A S)
    (top : Entry T A) (htop : (preStep m w).sched.events.peek m.tb (preStep m w).sched.pops = some top) :
    Reported m p
      { preStep m w with
        sched := (popDue m.tb (preStep m w).sched.events.length
          { (preStep m w).sched with time := top.2.time }).2 }
      (popDue m.tb (preStep m w).sched.events.length { (preStep m w).sched with time := top.2.time }).1
      (seqStep m p w) := by
  unfold seqStep
  rw [htop]
  simp only
  generalize { preStep m w with
        sched := (popDue m.tb (preStep m w).sched.events.length
          { (preStep m w).sched with time := top.2.time }).2 } = v
  generalize (popDue m.tb (preStep m w).sched.events.length
    { (preStep m w).sched with time := top.2.time }).1 = es
  obtain ⟨h1, h2⟩ := runItems_reported ag es v
  cases h : runItems m p v es with
  | error w' => exact h2 _ h
  | ok w' =>
    obtain ⟨a, rfl⟩ := h1 _ h
    exact ⟨a, rfl⟩

/-- **C176 (sequential, without panics).** A step that completes is the step of the model without panics. -/
theorem C176_sequential_same [LinearOrder T] (m : Model T A S) (p : Hooks A S) (ag : Agrees p m)
    (w w' : World T A S) (h : seqStep m p w = .ok w') : w' = step m w := by
  unfold step midStep runDue
  cases htop : (preStep m w).sched.events.peek m.tb (preStep m w).sched.pops with
  | none =>
    unfold seqStep at h
    rw [htop] at h
    simp only [htop]
    split <;> exact (Out.ok.inj h).symm
  | some top =>
    have := C176_sequential m p ag w top htop
    rw [h] at this
    have hne : (preStep m w).sched.events.isEmpty = false := by
      cases he : (preStep m w).sched.events with
      | nil => rw [he, peek_nil] at htop; simp at htop
      | cons a b => rfl
    rw [this.2]
    simp only [hne, htop, Bool.false_eq_true, if_false]

theorem moves_poisoned {m : Model T A S} {p : Hooks A S} {x y : Workers T A S} (h : Moves m p x y)
    (hx : x.poisoned = true) : y.poisoned = true ∧ y.w = x.w := by
  induction h with
  | refl x => exact ⟨hx, rfl⟩
  | step h hs ih =>
    cases h with
    | run => simp at hx
    | crash => simp at hx
    | refused => exact ih rfl

theorem moves_reported {m : Model T A S} {p : Hooks A S} (ag : Agrees p m) {x y : Workers T A S}
    (h : Moves m p x y) (hx : x.poisoned = false) (hend : ∀ b ∈ y.bs, b = []) :
    (y.poisoned = false → ∃ seq, Interleaves x.bs seq ∧ NoneFalls m p x.w seq ∧
      y.w = seq.foldl (runOne m) x.w) ∧
    (y.poisoned = true → ∃ ran e rest, Interleaves x.bs (ran ++ e :: rest) ∧ NoneFalls m p x.w ran ∧
      Falls p e.1 (ran.foldl (runOne m) x.w).state ∧ CutShort p (ran.foldl (runOne m) x.w) y.w e) := by
  induction h with
  | refl x =>
    exact ⟨fun _ => ⟨[], .done hend, trivial, rfl⟩, fun h => by rw [hx] at h; simp at h⟩
  | @step x y z h hs ih =>
    cases h with
    | @run bs w w' i e rest hi h =>
      obtain ⟨hf, rfl⟩ := runItem_ok ag h
      obtain ⟨h1, h2⟩ := ih rfl hend
      refine ⟨fun hz => ?_, fun hz => ?_⟩
      · obtain ⟨seq, a, b, c⟩ := h1 hz
        exact ⟨e :: seq, .pick hi a, ⟨hf, b⟩, c⟩
      · obtain ⟨ran, e', rest', a, b, c, d⟩ := h2 hz
        exact ⟨e :: ran, e', rest', .pick hi a, ⟨hf, b⟩, c, d⟩
    | @crash bs w w' i e rest hi h =>
      obtain ⟨hf, hc⟩ := runItem_error h
      obtain ⟨h1, h2⟩ := moves_poisoned hs rfl
      refine ⟨fun hz => by rw [h1] at hz; simp at hz, fun _ => ?_⟩
      obtain ⟨seq, hseq⟩ := interleaves_exists _ (bs.set i rest) rfl
      exact ⟨[], e, seq, .pick hi hseq, trivial, hf, by rw [h2]; exact hc⟩
    | refused => simp at hx

/-- **C176 (parallel).** Whatever the number of threads and however they are scheduled, a step of the parallel
schedule lets its agents take their turns one after another, in an order that respects the batches, and then
completes; or the first agent that panics is the last thing that happens, and the step panics on the caller's
thread. -/
theorem C176_parallel [LinearOrder T] (m : Model T A S) (p : Hooks A S) (ag : Agrees p m) (k : Nat) (hk : 0 < k)
    (w : World T A S) (out : Out T A S) (h : ParStep m p k w out) (hne : (preStep m w).sched.events ≠ []) :
    ∃ top order, (preStep m w).sched.events.peek m.tb (preStep m w).sched.pops = some top ∧
      Interleaves (batches k (popAll m.tb (preStep m w).sched.events.length
        (preStep m w).sched.pops (preStep m w).sched.events)) order ∧
      Reported m p
        { preStep m w with
          sched := { (preStep m w).sched with
            time := top.2.time, events := [], pops := (preStep m w).sched.pops + order.length } }
        order out := by
  cases h with
  | exit h => exact absurd h hne
  | noThreads _ h => omega
  | @scope top x _ htop hx hend =>
    have len : ∀ order, Interleaves (batches k (popAll m.tb (preStep m w).sched.events.length
        (preStep m w).sched.pops (preStep m w).sched.events)) order → order.length =
        (popAll m.tb (preStep m w).sched.events.length
        (preStep m w).sched.pops (preStep m w).sched.events).length := by
      intro order ho
      have h1 := (interleaves_perm ho).length_eq
      have h2 := (deal_perm k hk (popAll m.tb (preStep m w).sched.events.length
        (preStep m w).sched.pops (preStep m w).sched.events) 0 (List.replicate k []) (by simp)).1.length_eq
      unfold batches at h1
      rw [h1, h2]
      simp
    obtain ⟨h1, h2⟩ := moves_reported ag hx rfl hend
    unfold Workers.finish
    cases hp : x.poisoned with
    | false =>
      obtain ⟨seq, a, b, c⟩ := h1 hp
      refine ⟨top, seq, htop, a, ?_⟩
      rw [len seq a]
      exact ⟨b, by rw [c]; rfl⟩
    | true =>
      obtain ⟨ran, e, rest, a, b⟩ := h2 hp
      refine ⟨top, ran ++ e :: rest, htop, a, ?_⟩
      rw [len _ a]
      exact ⟨ran, e, rest, rfl, b⟩

/-- **C176 (parallel, without panics).** A parallel step that completes is a step of the model without panics. -/
theorem C176_parallel_same [LinearOrder T] (m : Model T A S) (p : Hooks A S) (ag : Agrees p m) (k : Nat)
    (w w' : World T A S) (h : ParStep m p k w (.ok w')) : Schedule.ParStep m k w (.ok w') := by
  have hk : 0 < k := by
    generalize hout : Out.ok w' = out at h
    cases h with
    | exit => simp at hout
    | noThreads => simp at hout
    | scope hk => exact hk
  have hne : (preStep m w).sched.events ≠ [] := by
    generalize hout : Out.ok w' = out at h
    cases h with
    | exit => simp at hout
    | noThreads => simp at hout
    | scope _ htop =>
      intro he
      rw [he, peek_nil] at htop
      simp at htop
  obtain ⟨top, order, a, b, _, rfl⟩ := C176_parallel m p ag k hk w _ h hne
  exact .ok hk a b

theorem length_set_lt {α : Type} {bs : List (List α)} {i : Nat} {e : α} {rest r : List α}
    (hi : bs[i]? = some (e :: rest)) (hr : r.length ≤ rest.length) :
    (bs.set i r).flatten.length < bs.flatten.length := by
  induction bs generalizing i with
  | nil => simp at hi
  | cons b bs ih =>
    cases i with
    | zero =>
      simp at hi
      subst hi
      simp
      omega
    | succ i =>
      simp only [List.getElem?_cons_succ] at hi
      have := ih hi
      simp only [List.set_cons_succ, List.flatten_cons, List.length_append]
      omega

/-- **C176 (the scope is left).** Panics included, as long as some worker is not done one of them can go on, and
every iteration leaves less to do: the caller always gets to the check. -/
theorem C176_scope_ends (m : Model T A S) (p : Hooks A S) (x : Workers T A S) :
    ((∃ b ∈ x.bs, b ≠ []) → ∃ y, Move m p x y) ∧
    ∀ y, Move m p x y → y.bs.flatten.length < x.bs.flatten.length := by
  constructor
  · rintro ⟨b, hb, hne⟩
    obtain ⟨i, hi, rfl⟩ := List.getElem_of_mem hb
    obtain ⟨e, rest, he⟩ := List.exists_cons_of_ne_nil hne
    have hi' : x.bs[i]? = some (e :: rest) := by rw [List.getElem?_eq_getElem hi, he]
    obtain ⟨bs, w, poisoned⟩ := x
    cases poisoned with
    | true => exact ⟨_, .refused hi'⟩
    | false =>
      cases h : runItem m p w e with
      | ok w' => exact ⟨_, .run hi' h⟩
      | error w' => exact ⟨_, .crash hi' h⟩
  · intro y h
    cases h with
    | run hi _ => exact length_set_lt hi (Nat.le_refl _)
    | crash hi _ => exact length_set_lt hi (Nat.zero_le _)
    | refused hi => exact length_set_lt hi (Nat.zero_le _)

theorem drain (m : Model T A S) (p : Hooks A S) (w : World T A S) : ∀ (n : Nat) (bs : List (List (Entry T A))),
    bs.flatten.length = n → ∃ bs', Moves m p ⟨bs, w, true⟩ ⟨bs', w, true⟩ ∧ ∀ b ∈ bs', b = [] := by
  intro n
  induction n using Nat.strongRecOn with
  | ind n ih =>
    intro bs hn
    by_cases h : ∀ b ∈ bs, b = []
    · exact ⟨bs, .refl _, h⟩
    · have : ∃ b ∈ bs, b ≠ [] := by
        by_contra hc
        exact h (fun b hb => by_contra (fun hb' => hc ⟨b, hb, hb'⟩))
      obtain ⟨b, hb, hne⟩ := this
      obtain ⟨i, hi, rfl⟩ := List.getElem_of_mem hb
      obtain ⟨e, rest, he⟩ := List.exists_cons_of_ne_nil hne
      have hi' : bs[i]? = some (e :: rest) := by rw [List.getElem?_eq_getElem hi, he]
      have hlt := length_set_lt hi' (Nat.zero_le rest.length) (r := [])
      obtain ⟨bs', h1, h2⟩ := ih _ (by omega) (bs.set i []) rfl
      exact ⟨bs', .step (.refused hi') h1, h2⟩

theorem moves_exists (m : Model T A S) (p : Hooks A S) {bs : List (List (Entry T A))} {order : List (Entry T A)}
    (h : Interleaves bs order) : ∀ w : World T A S, ∃ x, Moves m p ⟨bs, w, false⟩ x ∧ (∀ b ∈ x.bs, b = []) ∧
      match runItems m p w order with
      | .ok w' => x.poisoned = false ∧ x.w = w'
      | .error w' => x.poisoned = true ∧ x.w = w' := by
  induction h with
  | done h => intro w; exact ⟨_, .refl _, h, rfl, rfl⟩
  | @pick bs i e rest seq hi _ ih =>
    intro w
    cases h1 : runItem m p w e with
    | ok v =>
      obtain ⟨x, a, b, c⟩ := ih v
      refine ⟨x, .step (.run hi h1) a, b, ?_⟩
      simp only [runItems, h1]
      exact c
    | error v =>
      obtain ⟨bs', a, b⟩ := drain m p v _ (bs.set i []) rfl
      refine ⟨_, .step (.crash hi h1) a, b, ?_⟩
      simp [runItems, h1]

/-- **C176 (every order).** Every order that respects the batches is taken by some run of the threads, and is
reported faithfully by it: in particular a panic does come out of `step` whenever an agent panics. -/
theorem C176_every_order [LinearOrder T] (m : Model T A S) (p : Hooks A S) (ag : Agrees p m) (k : Nat) (hk : 0 < k)
    (w : World T A S) (top : Entry T A) (order : List (Entry T A))
    (htop : (preStep m w).sched.events.peek m.tb (preStep m w).sched.pops = some top)
    (ho : Interleaves (batches k (popAll m.tb (preStep m w).sched.events.length
        (preStep m w).sched.pops (preStep m w).sched.events)) order) :
    ∃ out, ParStep m p k w out ∧ Reported m p (Workers.start m k top (preStep m w)).w order out := by
  obtain ⟨x, hx, hend, hres⟩ := moves_exists m p ho (Workers.start m k top (preStep m w)).w
  refine ⟨x.finish m, .scope hk htop hx hend, ?_⟩
  obtain ⟨h1, h2⟩ := runItems_reported ag order (Workers.start m k top (preStep m w)).w
  unfold Workers.finish
  cases h : runItems m p (Workers.start m k top (preStep m w)).w order with
  | ok w' =>
    rw [h] at hres
    obtain ⟨a, b⟩ := h1 _ h
    rw [hres.1]
    exact ⟨a, by rw [hres.2, b]⟩
  | error w' =>
    rw [h] at hres
    rw [hres.1]
    have := h2 _ h
    rw [← hres.2] at this
    exact this

/-- The agents of `demo`, except that agent 20 panics in its step. -/
def demoHooks : Hooks Nat Nat where
  aBefore := fun a s => .ok (a, s)
  aStep := fun a s => if a = 20 then .error (s + 100) else .ok (a + 1, s + 1)
  aAfter := fun a s => .ok (a, s)
  isStopped := fun a s => .ok (a == 22, a, s)

theorem demo_agrees : Agrees demoHooks demo where
  aBefore := fun _ _ _ h => Except.ok.inj h
  aStep := by
    intro a s r h
    unfold demoHooks at h
    simp only at h
    split at h
    · simp at h
    · exact Except.ok.inj h
  aAfter := fun _ _ _ h => Except.ok.inj h
  isStopped := fun _ _ _ h => Except.ok.inj h

/-- In `demoWorld` agent 20 is the first to run: the sequential step panics with the state agent 20 left, and nobody
else runs. -/
example : ∃ w', seqStep demo demoHooks demoWorld = .panicked w' ∧ w'.state = 100 := ⟨_, rfl, by decide +kernel⟩

/-- `demoWorld` with three threads meets the hypotheses of the theorems about parallel steps. -/
example : ∃ top order out, (preStep demo demoWorld).sched.events.peek demo.tb (preStep demo demoWorld).sched.pops = some top ∧
    ParStep demo demoHooks 3 demoWorld out ∧ Reported demo demoHooks (Workers.start demo 3 top (preStep demo demoWorld)).w order out := by
  obtain ⟨top, htop⟩ := peek_some demo.tb (preStep demo demoWorld).sched.pops
    (q := (preStep demo demoWorld).sched.events) (by decide +kernel)
  obtain ⟨order, ho⟩ := interleaves_exists _ (batches 3 (popAll demo.tb (preStep demo demoWorld).sched.events.length
    (preStep demo demoWorld).sched.pops (preStep demo demoWorld).sched.events)) rfl
  obtain ⟨out, h1, h2⟩ := C176_every_order demo demoHooks demo_agrees 3 (by decide) demoWorld top order htop ho
  exact ⟨top, order, out, htop, h1, h2⟩

end Verif.Panics
