import Verif.Lemmas.MachineStall
import Verif.Props.MachineSchedule

/-! C12 and C193 on machine floats, for all times: where the time of a repeating agent stands still, and exactly which agents wait for ever. -/

namespace Verif.MachineSchedule

open Machine (F add lt le ofRat largest)
open Schedule (Sched Model World Queue Entry Priority TieBreak Cmd Op HooksSatisfy Callbacks Turns runsOf since preStep ids)
open Single (single Rounding rounding_single IsF32)

variable {A S : Type}

/-- A stored time advances to a stored one, not before it. -/
theorem advance_stored {rnd : Rat → Rat} (hr : Rounding rnd) {q : Rat} (h : Stored (.fin q)) :
    advance rnd (.fin q) = .inf false ∧ largest < rnd (q + 1) ∨
    advance rnd (.fin q) = .fin (rnd (q + 1)) ∧ rnd (q + 1) ≤ largest ∧ Stored (.fin (rnd (q + 1))) := by
  obtain ⟨h1, h2⟩ := h
  have h3 := (advance_between hr h1).1
  have h4 := (abs_le.1 h2).1
  by_cases h5 : largest < rnd (q + 1)
  · left
    exact ⟨by show ofRat rnd (q + 1) = _; unfold ofRat; rw [if_pos h5], h5⟩
  · right
    refine ⟨?_, not_lt.1 h5, hr.lands _, abs_le.2 ⟨by linarith, not_lt.1 h5⟩⟩
    show ofRat rnd (q + 1) = _
    unfold ofRat
    rw [if_neg h5, if_neg (by linarith)]

/-- **C12** on machine floats. (Partial: the property is false.) Exactly where the time of a repeating agent advances: everywhere but at the multiples of 4 from 2^24
on and below -2^24. -/
theorem C12_advances_iff_partial (q : Rat) (h : Stored (.fin q)) :
    lt (.fin q) (advance single (.fin q)) = true ↔ ¬ (2 ^ 24 ≤ |q| ∧ q ≠ -2 ^ 24 ∧ ∃ m : Int, q = m * 4) := by
  rw [← stuck_iff h.1]
  have hb := (advance_between rounding_single h.1).1
  rcases advance_stored rounding_single h with ⟨h1, h2⟩ | ⟨h1, -, -⟩
  · rw [h1]
    refine ⟨fun _ hc => ?_, fun _ => rfl⟩
    rw [hc] at h2
    exact absurd h2 (not_lt.2 (abs_le.1 h.2).2)
  · rw [h1]
    show decide (q < single (q + 1)) = true ↔ _
    rw [decide_eq_true_iff]
    exact ⟨fun h3 h4 => by rw [h4] at h3; exact lt_irrefl _ h3, fun h3 => lt_of_le_of_ne hb (Ne.symm h3)⟩

/-- **C193.** (Partial: the property is false.) Exactly where adding 1 gives the same `f32` again. -/
theorem C193_stuck_iff_partial (q : Rat) (h : Stored (.fin q)) :
    advance single (.fin q) = .fin q ↔ 2 ^ 24 ≤ |q| ∧ q ≠ -2 ^ 24 ∧ ∃ m : Int, q = m * 4 := by
  rw [← stuck_iff h.1]
  rcases advance_stored rounding_single h with ⟨h1, h2⟩ | ⟨h1, -, -⟩
  · rw [h1]
    refine ⟨fun hc => by simp at hc, fun hc => ?_⟩
    rw [hc] at h2
    exact absurd h2 (not_lt.2 (abs_le.1 h.2).2)
  · rw [h1, F.fin.injEq]

theorem after_advance (rnd : Rat → Rat) (t : F) (k : Nat) : after rnd (advance rnd t) k = after rnd t (k + 1) := by
  induction k with
  | zero => rfl
  | succ k ih => show add rnd (after rnd (advance rnd t) k) _ = _; rw [ih]; rfl

attribute [local instance] order in
/-- **C193.** (Partial: the property is false.) All times: an agent that is pending at `u` gets its turn if no pending agent would come to a halt before `u`, whatever
these agents do; the hooks leave it alone and schedule nothing that is not later. -/
theorem C193_reached_partial {rnd : Rat → Rat} (hr : Rounding rnd) (m : Model F A S) (hadv : m.adv = advance rnd) (u : Rat) (j : Nat)
    (hh : HooksSatisfy m (fun _ c => ¬ c.touches j ∧ c.avoids (fun t => lt (.fin u) t = false))) (t0 : F) (s : S) (ops : List (Op F A))
    (hops : ∀ c, Op.cmd c ∈ ops → c.avoids (· = .nan)) (w : World F A S) (hw : w = run m (World.start t0 s) ops) (hj : j < w.sched.idCount) (e : Entry F A)
    (he : e ∈ w.sched.events) (hid : e.1.id = j) (het : e.2.time = .fin u) (hstored : ∀ f ∈ w.sched.events, Stored f.2.time)
    (hfree : ∀ f ∈ w.sched.events, ¬ HaltsBefore rnd f.2.time (.fin u)) :
    ∃ n, (j, e.2) ∈ runsOf (since w (steps m n w)) := by
  have hhn : HooksSatisfy m (fun _ c => c.avoids (· = .nan)) := hh.imp (fun _ c h => by
    have h2 := h.2
    cases c with
    | scheduleOnce a t o => intro hc; exact h2 (by rw [show t = F.nan from hc]; rfl)
    | scheduleRepeating a t o => intro hc; exact h2 (by rw [show t = F.nan from hc]; rfl)
    | dequeue i => trivial)
  obtain ⟨hn, hnan⟩ := run_invariant m hadv hhn ops (World.start t0 s) hops (by simp [World.start, Sched.new, ids]) (by simp [NoNan, World.start, Sched.new])
  rw [← hw] at hn hnan
  have hh' : HooksSatisfy m (fun _ c => ¬ c.touches j ∧ c.avoids (· ≤ F.fin u)) := hh.imp (fun _ c h => by
    refine ⟨h.1, ?_⟩
    have h2 := h.2
    have key : ∀ t : F, ¬ lt (.fin u) t = false → ¬ t ≤ F.fin u := fun t ht hc => by
      apply ht
      by_cases hb : t = .nan
      · rw [hb]; rfl
      · rw [lt_eq (by simp) hb]; exact decide_eq_false (not_lt.2 hc)
    cases c with
    | scheduleOnce a t o => exact key t h2
    | scheduleRepeating a t o => exact key t h2
    | dequeue i => trivial)
  have hrank : ∀ t : F, (∃ q, t = .fin q ∧ Stored t ∧ ¬ HaltsBefore rnd t (.fin u)) → t < .fin u → m.adv t ≤ .fin u →
      (∃ q, m.adv t = .fin q ∧ Stored (m.adv t) ∧ ¬ HaltsBefore rnd (m.adv t) (.fin u)) ∧ halves u (m.adv t) < halves u t := by
    rintro t ⟨q, rfl, hs, hf⟩ hlt hle
    rw [hadv] at hle ⊢
    have hqu : q < u := fin_lt.1 hlt
    rcases advance_stored hr hs with ⟨h1, -⟩ | ⟨h1, -, h2⟩
    · rw [h1] at hle
      exact absurd fin_lt_high (not_lt.2 hle)
    · have h3 : ¬ HaltsBefore rnd (advance rnd (.fin q)) (.fin u) := by
        rintro ⟨k, h4, h5⟩
        rw [after_advance] at h4 h5
        exact hf ⟨k + 1, h4, h5⟩
      rw [h1] at hle h3 ⊢
      refine ⟨⟨_, rfl, h2, h3⟩, ?_⟩
      have hle' := fin_le.1 hle
      have hprog : q + 1 / 2 ≤ rnd (q + 1) := by
        rcases advance_or hr hs.1 with h4 | h4
        · exfalso
          apply hf
          refine ⟨0, ?_, ?_⟩
          · show decide (q < u) = true
            exact decide_eq_true hqu
          · show advance rnd (.fin q) = .fin q
            rw [h1, h4]
        · exact h4
      show (2 * (u - rnd (q + 1))).ceil.toNat < (2 * (u - q)).ceil.toNat
      have hpos : 0 < (2 * (u - q)).ceil := by
        rw [ceil_eq, Int.ceil_pos]; linarith
      have h6 : ⌈2 * (u - rnd (q + 1))⌉ ≤ ⌈2 * (u - q) - 1⌉ := Int.ceil_le_ceil (by linarith)
      rw [Int.ceil_sub_one] at h6
      rw [ceil_eq] at hpos ⊢
      rw [ceil_eq]
      omega
  have hQ : ∀ f ∈ w.sched.events, f.2.time ≤ .fin u → ∃ q, f.2.time = .fin q ∧ Stored f.2.time ∧ ¬ HaltsBefore rnd f.2.time (.fin u) := by
    intro f hf hfu
    cases hft : f.2.time with
    | nan => exact absurd hft (hnan f hf)
    | inf b =>
      rw [hft] at hfu
      cases b with
      | false => exact absurd fin_lt_high (not_lt.2 hfu)
      | true =>
        refine absurd ⟨0, ?_, ?_⟩ (hfree f hf)
        · rw [hft]; rfl
        · rw [hft]; rfl
    | fin q =>
      exact ⟨q, rfl, hft ▸ hstored f hf, hft ▸ hfree f hf⟩
  obtain ⟨n, -, h⟩ := Schedule.served m (.fin u) j (fun t => ∃ q, t = .fin q ∧ Stored t ∧ ¬ HaltsBefore rnd t (.fin u)) (halves u) hrank hh' _ w e hn hj he hid het hQ
    (le_refl _)
  exact ⟨n, by rw [steps_eq m hadv hhn n w hn hnan]; exact h⟩

attribute [local instance] order in
theorem after_mono {rnd : Rat → Rat} (hr : Rounding rnd) {t : F} (ht : t ≠ .nan) (hs : Stored t) (k : Nat) :
    after rnd t k ≠ .nan ∧ Stored (after rnd t k) ∧ t ≤ after rnd t k := by
  induction k with
  | zero => exact ⟨ht, hs, le_refl _⟩
  | succ k ih =>
    obtain ⟨h1, h2, h3⟩ := ih
    have h4 : after rnd t (k + 1) = advance rnd (after rnd t k) := rfl
    rw [h4]
    refine ⟨advance_ne_nan rnd h1, ?_⟩
    cases hc : after rnd t k with
    | nan => exact absurd hc h1
    | inf b =>
      rw [hc] at h3
      exact ⟨trivial, h3⟩
    | fin q =>
      rw [hc] at h2 h3
      rcases advance_stored hr h2 with ⟨h5, -⟩ | ⟨h5, -, h6⟩
      · rw [h5]; exact ⟨trivial, le_high ht⟩
      · rw [h5]
        exact ⟨h6, h3.trans (fin_le.2 (advance_between hr h2.1).1)⟩

attribute [local instance] order in
/-- **C193.** (Partial: the property is false.) Exactly which agents wait for ever among agents that repeat and never stop: those before whose time another one comes to a
halt. -/
theorem C193_waits_iff_partial {rnd : Rat → Rat} (hr : Rounding rnd) (m : Model F A S) (hadv : m.adv = advance rnd)
    (hgo : ∀ a s, (m.isStopped a s).1 = false) (u : Rat) (j : Nat)
    (hh : HooksSatisfy m (fun _ c => (∀ i, ¬ c.touches i) ∧ c.avoids (fun t => lt (.fin u) t = false))) (t0 : F) (s : S) (ops : List (Op F A))
    (hops : ∀ c, Op.cmd c ∈ ops → c.avoids (· = .nan)) (w : World F A S) (hw : w = run m (World.start t0 s) ops) (e : Entry F A)
    (he : e ∈ w.sched.events) (hid : e.1.id = j) (het : e.2.time = .fin u) (hstored : ∀ f ∈ w.sched.events, Stored f.2.time)
    (hrep : ∀ f ∈ w.sched.events, f.1.repeating = true ∧ f.1.id < w.sched.idCount) :
    (∀ n, ∀ r ∈ runsOf (since w (steps m n w)), r.1 ≠ j) ↔ ∃ f ∈ w.sched.events, HaltsBefore rnd f.2.time (.fin u) := by
  have hhn : HooksSatisfy m (fun _ c => c.avoids (· = .nan)) := hh.imp (fun _ c h => by
    have h2 := h.2
    cases c with
    | scheduleOnce a t o => intro hc; exact h2 (by rw [show t = F.nan from hc]; rfl)
    | scheduleRepeating a t o => intro hc; exact h2 (by rw [show t = F.nan from hc]; rfl)
    | dequeue i => trivial)
  constructor
  · intro hnever
    by_contra hc
    obtain ⟨n, hn⟩ := C193_reached_partial hr m hadv u j (hh.imp (fun _ _ h => ⟨h.1 j, h.2⟩)) t0 s ops hops w hw (hid ▸ (hrep e he).2) e he hid het hstored
      (fun f hf hx => hc ⟨f, hf, hx⟩)
    exact hnever n _ hn rfl
  · rintro ⟨f, hf, k, h1, h2⟩ n
    have hnan : NoNan w.sched.events := by
      rw [hw]
      exact (run_invariant m hadv hhn ops (World.start t0 s) hops (by simp [World.start, Sched.new, ids]) (by simp [NoNan, World.start, Sched.new])).2
    obtain ⟨h3, -, h5⟩ := after_mono hr (hnan f hf) (hstored f hf) k
    have hrf := hrep f hf
    have hfe : f = (⟨f.1.id, f.1.agent, true⟩, f.2) := by
      rcases f with ⟨⟨i, a, r⟩, p⟩
      have : r = true := hrf.1
      rw [this]
    exact (C193_starves_partial hr m hadv (after rnd f.2.time k) h3 h2 (fun _ => True) (fun a s a' s' _ _ => ⟨hgo a' s', trivial⟩) f.1.id j
      (hh.imp (fun _ c h => ⟨by
        have h2 := h.2
        cases c with
        | scheduleOnce a t o => intro hc; exact h2 (by rw [show t = F.nan from hc]; rfl)
        | scheduleRepeating a t o => intro hc; exact h2 (by rw [show t = F.nan from hc]; rfl)
        | dequeue i => trivial, h.1 _, h.1 _⟩)) t0 s ops hops w hw hrf.2 (hid ▸ (hrep e he).2) f.1.agent f.2 (hfe ▸ hf) trivial
      (by rw [le_eq (hnan f hf) h3]; exact decide_eq_true h5) e he hid (by rw [het]; exact h1) n).1

/-! ### Concrete cases -/

/-- An agent at 2^24 - 1 comes to a halt at 2^24, before 2^24 + 2. -/
example : HaltsBefore single (.fin (2 ^ 24 - 1)) (.fin (2 ^ 24 + 2)) := ⟨1, by decide +kernel, by decide +kernel⟩

/-- An agent at 2^24 + 2 jumps to 2^24 + 4 and stays there; it does not halt before. -/
theorem jumps : ¬ HaltsBefore single (.fin (2 ^ 24 + 2)) (.fin (2 ^ 24 + 4)) := by
  have h : ∀ k, after single (.fin (2 ^ 24 + 2)) (k + 1) = .fin (2 ^ 24 + 4) := by
    intro k
    induction k with
    | zero => decide +kernel
    | succ k ih => show add single (after single (.fin (2 ^ 24 + 2)) (k + 1)) (.fin 1) = _; rw [ih]; decide +kernel
  rintro ⟨k, h1, h2⟩
  cases k with
  | zero => exact absurd h2 (by decide +kernel)
  | succ k => rw [h k] at h1; exact absurd h1 (by decide +kernel)

/-- So the agent at 2^24 + 4 gets its turn, above the bound of `C193_served_partial`. -/
example : ∃ n, (1, ⟨.fin (2 ^ 24 + 4), 0⟩) ∈ runsOf (since (registered [(.fin (2 ^ 24 + 2), 0), (.fin (2 ^ 24 + 4), 0)])
    (steps idle n (registered [(.fin (2 ^ 24 + 2), 0), (.fin (2 ^ 24 + 4), 0)]))) := by
  have hstored : Stored (.fin (2 ^ 24 + 2)) ∧ Stored (.fin (2 ^ 24 + 4)) := by
    refine ⟨⟨⟨2 ^ 23 + 1, 1, by norm_num, by omega, by norm_num⟩, ?_⟩, ⟨⟨2 ^ 23 + 2, 1, by norm_num, by omega, by norm_num⟩, ?_⟩⟩ <;>
      (rw [abs_of_pos (by norm_num)]; norm_num [largest])
  have h2 : (registered [(.fin (2 ^ 24 + 2), 0), (.fin (2 ^ 24 + 4), 0)]).sched.events =
      [(⟨0, (), true⟩, ⟨.fin (2 ^ 24 + 2), 0⟩), (⟨1, (), true⟩, ⟨.fin (2 ^ 24 + 4), 0⟩)] := by decide +kernel
  exact C193_reached_partial rounding_single idle rfl (2 ^ 24 + 4) 1 (idle_hooks _) (.fin 0) ()
    ([(.fin (2 ^ 24 + 2), 0), (.fin (2 ^ 24 + 4), 0)].map (fun x => Op.cmd (.scheduleRepeating () x.1 x.2)))
    (by simp only [List.map_cons, List.map_nil, List.mem_cons, List.not_mem_nil, or_false]
        rintro c (h | h) <;> cases h <;> simp [Cmd.avoids]) _ rfl (by decide) (⟨1, (), true⟩, ⟨.fin (2 ^ 24 + 4), 0⟩) (by decide +kernel) rfl rfl
    (fun f hf => by
      have hf : f ∈ [(⟨0, (), true⟩, ⟨.fin (2 ^ 24 + 2), 0⟩), (⟨1, (), true⟩, ⟨.fin (2 ^ 24 + 4), 0⟩)] := by
        exact h2 ▸ hf
      rcases List.mem_pair.1 hf with rfl | rfl
      · exact hstored.1
      · exact hstored.2)
    (fun f hf => by
      have hf : f ∈ [(⟨0, (), true⟩, ⟨.fin (2 ^ 24 + 2), 0⟩), (⟨1, (), true⟩, ⟨.fin (2 ^ 24 + 4), 0⟩)] := by
        exact h2 ▸ hf
      rcases List.mem_pair.1 hf with rfl | rfl
      · exact jumps
      · rintro ⟨k, h1, -⟩
        have hk : ∀ k, after single (.fin (2 ^ 24 + 4)) k = .fin (2 ^ 24 + 4) := by
          intro k
          induction k with
          | zero => rfl
          | succ k ih => show add single (after single (.fin (2 ^ 24 + 4)) k) (.fin 1) = _; rw [ih]; decide +kernel
        rw [hk k] at h1
        exact absurd h1 (by decide +kernel))

/-- Times at which an agent goes on, and times at which it does not. -/
example : lt (.fin (2 ^ 24 + 2)) (advance single (.fin (2 ^ 24 + 2))) = true ∧ lt (.fin (2 ^ 24 + 4)) (advance single (.fin (2 ^ 24 + 4))) = false ∧
    lt (.fin (-2 ^ 24)) (advance single (.fin (-2 ^ 24))) = true ∧ lt (.fin (-2 ^ 24 - 4)) (advance single (.fin (-2 ^ 24 - 4))) = false := by decide +kernel

end Verif.MachineSchedule
