import Verif.Lemmas.MachineSchedule
import Verif.Spec.MachineSchedule

/-! C192, C193, C194: the schedule on machine floats. -/

namespace Verif.MachineSchedule

open Machine (F add lt le ofRat largest)
open Schedule (Sched Model World Queue Entry Priority TieBreak Cmd Op HooksSatisfy Callbacks Turns runsOf since preStep ids)
open Single (single Rounding rounding_single)

variable {A S : Type}

/-- **C194.** Whatever the times are, a step takes some of the pending agents, at least one, runs each of them exactly once, and leaves all others pending as they
are; those who repeat and do not stop are pending again, one unit of time later. -/
theorem C194_nobody_lost (m : Model F A S) (t0 : F) (s : S) (ops : List (Op F A)) (w : World F A S) (hw : w = run m (World.start t0 s) ops) :
    ∃ ran rest kept : Queue F A, (ran ++ rest).Perm (preStep m w).sched.events ∧ (ids (ran ++ rest)).Nodup ∧
      ((preStep m w).sched.events ≠ [] → ran ≠ []) ∧ runsOf (since w (step m w)) = ran.map (fun e => (e.1.id, e.2)) ∧
      Turns m (preStep m w).state ran (midStep m w).state kept ∧ (midStep m w).sched.events = rest ++ kept ∧
      step m w = Schedule.postStep m (midStep m w) := by
  have hn : (ids w.sched.events).Nodup := hw ▸ run_nodup m ops _ (by simp [World.start, Sched.new, ids])
  obtain ⟨ran, rest, kept, h1, _, h3, h4, _, h6, h7⟩ := midStep_any m w hn
  refine ⟨ran, rest, kept, h1, ?_, fun hq => ?_, step_runs m w ran h6, h3, h4, rfl⟩
  · have : (ids (ran ++ rest)).Perm (ids (preStep m w).sched.events) := h1.map _
    exact this.nodup_iff.2 (Schedule.preStep_nodup m w hn)
  · obtain ⟨top, ht⟩ := peek_some m.tb (preStep m w).sched.pops hq
    exact List.ne_nil_of_mem (h7 top ht).1

attribute [local instance] order in
/-- **C192.** (Partial: without NaN.) If neither the program nor the hooks schedule anything at NaN, infinite times allowed, a step runs exactly the pending
agents of the earliest time, in the order of their orderings; the clock shows this time; the others stay. -/
theorem C192_due_partial (rnd : Rat → Rat) (m : Model F A S) (hadv : m.adv = advance rnd) (hh : HooksSatisfy m (fun _ c => c.avoids (· = .nan))) (t0 : F) (s : S)
    (ops : List (Op F A)) (hops : ∀ c, Op.cmd c ∈ ops → c.avoids (· = .nan)) (w : World F A S) (hw : w = run m (World.start t0 s) ops)
    (hq : (preStep m w).sched.events ≠ []) :
    ∃ (t : F) (ran kept : Queue F A), (∃ e ∈ (preStep m w).sched.events, e.2.time = t) ∧ (∀ e ∈ (preStep m w).sched.events, le t e.2.time = true) ∧
      ran.Perm ((preStep m w).sched.events.filter (fun e => decide (e.2.time = t))) ∧ ran.Pairwise (fun e f => e.2.ordering ≤ f.2.ordering) ∧
      runsOf (since w (step m w)) = ran.map (fun e => (e.1.id, e.2)) ∧ (step m w).sched.time = t ∧
      Turns m (preStep m w).state ran (midStep m w).state kept ∧
      (midStep m w).sched.events = (preStep m w).sched.events.filter (fun e => lt t e.2.time) ++ kept := by
  obtain ⟨hn, hnan⟩ := run_invariant m hadv hh ops (World.start t0 s) hops (by simp [World.start, Sched.new, ids]) (by simp [NoNan, World.start, Sched.new])
  rw [← hw] at hn hnan
  have hp := noNan_preStep m hh w hnan
  rw [step_eq m w hp, midStep_eq m w hp]
  obtain ⟨t, ran, kept, h1, h0, _, h2, h3, h4, h5, _, _, h8, h9⟩ := Schedule.runsOf_step m w hn
  obtain ⟨x, hx, hxt⟩ := h0 hq
  have ht : t ≠ .nan := hxt ▸ hp x hx
  obtain ⟨l, hl⟩ := Schedule.step_trace_prefix m w hn
  have hruns : runsOf (since w (Schedule.step m w)) = ran.map (fun e => (e.1.id, e.2)) := by
    have := Schedule.runsOf_since hl
    rw [h9] at this
    exact (List.append_cancel_left this).symm
  have hrt : ∀ e ∈ ran, e.2.time = t := fun e he => by
    simpa only [decide_eq_true_eq] using (List.mem_filter.1 (h2.mem_iff.1 he)).2
  refine ⟨t, ran, kept, ⟨x, hx, hxt⟩, fun e he => ?_, ?_, ?_, hruns, h8, h4, ?_⟩
  · rw [le_eq ht (hp e he)]; exact decide_eq_true (h1 e he)
  · refine h2.trans (List.Perm.of_eq (List.filter_congr (fun e _ => ?_)))
    rw [decide_eq_decide]
  · refine h3.imp_of_mem (fun {e f} he hf hle => ?_)
    rcases hle with h | h
    · rw [hrt e he, hrt f hf] at h; exact absurd h (lt_irrefl _)
    · exact h.2
  · rw [h5]
    congr 1
    exact List.filter_congr (fun e he => (lt_eq ht (hp e he)).symm)

/-- **C192.** (Partial: the property is false.) If the agent at the front of the queue has the time NaN, all pending agents run in this step, whatever their times;
the clock shows NaN. -/
theorem C192_nan_first_partial (m : Model F A S) (t0 : F) (s : S) (ops : List (Op F A)) (w : World F A S) (hw : w = run m (World.start t0 s) ops)
    (top : Entry F A) (htop : peek m.tb (preStep m w).sched.pops (preStep m w).sched.events = some top) (hnan : top.2.time = .nan) :
    ∃ ran : Queue F A, ran.Perm (preStep m w).sched.events ∧ runsOf (since w (step m w)) = ran.map (fun e => (e.1.id, e.2)) ∧ (step m w).sched.time = .nan := by
  have hn : (ids w.sched.events).Nodup := hw ▸ run_nodup m ops _ (by simp [World.start, Sched.new, ids])
  obtain ⟨ran, rest, kept, h1, _, _, _, _, h6, h7⟩ := midStep_any m w hn
  obtain ⟨_, h8, _, h9⟩ := h7 top htop
  have hr : rest = [] := h9 (fun e _ => by rw [hnan]; rfl)
  rw [hr, List.append_nil] at h1
  exact ⟨ran, h1, step_runs m w ran h6, ((Schedule.postStep_step m _).2.trans h8).trans hnan⟩

/-- **C192.** (Partial: the property is false.) Of two pending agents one of which has the time NaN both run in this step, whatever the time and the orderings of the
other, and however the queue resolves ties. -/
theorem C192_two_partial (m : Model F A S) (t0 : F) (s : S) (ops : List (Op F A)) (w : World F A S) (hw : w = run m (World.start t0 s) ops) (x y : Entry F A)
    (hq : (preStep m w).sched.events = [x, y] ∨ (preStep m w).sched.events = [y, x]) (hnan : x.2.time = .nan) :
    ∃ ran : Queue F A, ran.Perm [x, y] ∧ runsOf (since w (step m w)) = ran.map (fun e => (e.1.id, e.2)) := by
  have hn : (ids w.sched.events).Nodup := hw ▸ run_nodup m ops _ (by simp [World.start, Sched.new, ids])
  obtain ⟨ran, rest, kept, h1, _, _, _, _, h6, h7⟩ := midStep_any m w hn
  have hperm : (preStep m w).sched.events.Perm [x, y] := by
    rcases hq with h | h <;> rw [h]
    exact List.Perm.swap x y []
  obtain ⟨top, ht⟩ := peek_some m.tb (preStep m w).sched.pops (q := (preStep m w).sched.events) (by rcases hq with h | h <;> simp [h])
  obtain ⟨_, _, _, h9⟩ := h7 top ht
  have self : ∀ a : F, lt a a = false := fun a => by
    cases a with
    | nan => rfl
    | inf s => cases s <;> rfl
    | fin q => simp [lt]
  have right : ∀ a : F, lt a .nan = false := fun a => by cases a <;> rfl
  have hr : rest = [] := h9 (fun e he => by
    have h2 := hperm.mem_iff.1 (peek_mem ht)
    have h3 := hperm.mem_iff.1 he
    simp only [List.mem_cons, List.not_mem_nil, or_false] at h2 h3
    rcases h2 with rfl | rfl
    · rw [hnan]; rfl
    · rcases h3 with rfl | rfl
      · rw [hnan]; exact right _
      · exact self _)
  rw [hr, List.append_nil] at h1
  exact ⟨ran, h1.trans hperm, step_runs m w ran h6⟩

attribute [local instance] order in
/-- **C193.** (Partial: times between -2^24 and 2^24.) An agent that is pending at the time `u` gets its turn, with this priority, however many other agents there are
and however long they repeat, if the hooks leave it alone and schedule nothing that is not later; within as many steps as the earlier ones can take turns. -/
theorem C193_served_partial {rnd : Rat → Rat} (hr : Rounding rnd) (m : Model F A S) (hadv : m.adv = advance rnd) (u : Rat) (hu : u ≤ 2 ^ 24) (j : Nat)
    (hh : HooksSatisfy m (fun _ c => ¬ c.touches j ∧ c.avoids (fun t => lt (.fin u) t = false))) (t0 : F) (s : S) (ops : List (Op F A))
    (hops : ∀ c, Op.cmd c ∈ ops → c.avoids (· = .nan)) (w : World F A S) (hw : w = run m (World.start t0 s) ops) (hj : j < w.sched.idCount) (e : Entry F A)
    (he : e ∈ w.sched.events) (hid : e.1.id = j) (het : e.2.time = .fin u) (hlow : ∀ f ∈ w.sched.events, le (.fin (-2 ^ 24)) f.2.time = true) :
    ∃ n, n ≤ Schedule.weight (turnsUpTo u) w.sched.events ∧ (j, e.2) ∈ runsOf (since w (steps m n w)) := by
  have hhn : HooksSatisfy m (fun _ c => c.avoids (· = .nan)) := hh.imp (fun _ c h => by
    have h2 := h.2
    cases c with
    | scheduleOnce a t o => intro hc; exact h2 (by rw [show t = F.nan from hc]; rfl)
    | scheduleRepeating a t o => intro hc; exact h2 (by rw [show t = F.nan from hc]; rfl)
    | dequeue i => trivial)
  obtain ⟨hn, hnan⟩ := run_invariant m hadv hhn ops (World.start t0 s) hops (by simp [World.start, Sched.new, ids]) (by simp [NoNan, World.start, Sched.new])
  rw [← hw] at hn hnan
  have hh' : HooksSatisfy m (fun _ c => ¬ c.touches j ∧ c.avoids (· ≤ F.fin u)) := hh.imp (fun _ c h => by
    refine ⟨h.1, ?_⟩
    have h2 := h.2
    have key : ∀ t : F, ¬ lt (.fin u) t = false → ¬ t ≤ F.fin u := fun t ht hc => by
      apply ht
      by_cases hb : t = .nan
      · rw [hb]; rfl
      · rw [lt_eq (by simp) hb]; exact decide_eq_false (not_lt.2 hc)
    cases c with
    | scheduleOnce a t o => exact key t h2
    | scheduleRepeating a t o => exact key t h2
    | dequeue i => trivial)
  have hrank : ∀ t : F, (∃ q, t = .fin q ∧ -2 ^ 24 ≤ q) → t < .fin u → m.adv t ≤ .fin u →
      (∃ q, m.adv t = .fin q ∧ -2 ^ 24 ≤ q) ∧
      halves u (m.adv t) < halves u t := by
    rintro t ⟨q, rfl, hq⟩ hlt hle
    rw [hadv] at hle ⊢
    have hqu : q < u := fin_lt.1 hlt
    have hlow : q + 1 / 2 ≤ rnd (q + 1) ∨ u ≤ rnd (q + 1) := by
      by_cases h : q + 1 ≤ 2 ^ 24
      · exact Or.inl (advance_half hr hq h)
      · refine Or.inr (hu.trans ?_)
        have h1 := hr.mono (2 ^ 24) (q + 1) (by linarith)
        have h2 : rnd (2 ^ 24) = 2 ^ 24 := by
          have := hr.keeps (isF32_abs (n := 2 ^ 24) (by norm_num))
          norm_num at this ⊢; exact this
        rwa [h2] at h1
    have hge : -2 ^ 24 ≤ rnd (q + 1) := by
      rcases hlow with h | h <;> linarith
    have hfin : advance rnd (.fin q) = .fin (rnd (q + 1)) := by
      show ofRat rnd (q + 1) = _
      have hL : (2 : Rat) ^ 24 ≤ largest := by norm_num [largest]
      unfold ofRat
      by_cases h1 : largest < rnd (q + 1)
      · exfalso
        have : advance rnd (.fin q) = .inf false := by
          show ofRat rnd (q + 1) = _
          unfold ofRat
          rw [if_pos h1]
        rw [this] at hle
        exact absurd fin_lt_high (not_lt.2 hle)
      · rw [if_neg h1, if_neg (by linarith)]
    rw [hfin] at hle ⊢
    have hle' := fin_le.1 hle
    refine ⟨⟨_, rfl, hge⟩, ?_⟩
    show (2 * (u - rnd (q + 1))).ceil.toNat < (2 * (u - q)).ceil.toNat
    have hpos : 0 < (2 * (u - q)).ceil := by
      rw [ceil_eq, Int.ceil_pos]; linarith
    have hlt' : (2 * (u - rnd (q + 1))).ceil < (2 * (u - q)).ceil := by
      rcases hlow with h | h
      · have h1 : ⌈2 * (u - rnd (q + 1))⌉ ≤ ⌈2 * (u - q) - 1⌉ := Int.ceil_le_ceil (by linarith)
        rw [Int.ceil_sub_one] at h1
        rw [ceil_eq, ceil_eq]
        omega
      · have : rnd (q + 1) = u := le_antisymm hle' h
        rw [this, sub_self, mul_zero]
        exact hpos
    omega
  have hQ : ∀ f ∈ w.sched.events, f.2.time ≤ .fin u → ∃ q, f.2.time = .fin q ∧ -2 ^ 24 ≤ q := by
    intro f hf hfu
    have h1 := hlow f hf
    have h2 := hnan f hf
    rw [le_eq (by simp) h2, decide_eq_true_iff] at h1
    cases hft : f.2.time with
    | nan => exact absurd hft h2
    | inf b =>
      rw [hft] at h1 hfu
      cases b with
      | true => exact absurd low_lt_fin (not_lt.2 h1)
      | false => exact absurd fin_lt_high (not_lt.2 hfu)
    | fin q => rw [hft] at h1; exact ⟨q, rfl, fin_le.1 h1⟩
  rw [show (fun n => n ≤ Schedule.weight (turnsUpTo u) w.sched.events ∧ (j, e.2) ∈ runsOf (since w (steps m n w))) =
    (fun n => n ≤ Schedule.weight (turnsUpTo u) w.sched.events ∧ (j, e.2) ∈ runsOf (since w (Schedule.steps m n w))) from
    funext (fun n => by rw [steps_eq m hadv hhn n w hn hnan])]
  refine Schedule.served m (.fin u) j (fun t => ∃ q, t = .fin q ∧ -2 ^ 24 ≤ q) (halves u) hrank hh' _ w e hn hj he hid het hQ (le_of_eq ?_)
  unfold Schedule.weight
  congr 1
  refine List.map_congr_left (fun f hf => ?_)
  show (if f.2.time ≤ F.fin u then halves u f.2.time + 1 else 0) = turnsUpTo u f.2.time
  by_cases hfu : f.2.time ≤ .fin u
  · rw [if_pos hfu]
    obtain ⟨q, hq, _⟩ := hQ f hf hfu
    rw [hq] at hfu ⊢
    show _ = if q ≤ u then _ else _
    rw [if_pos (fin_le.1 hfu)]
    rfl
  · rw [if_neg hfu]
    cases hft : f.2.time with
    | nan => rfl
    | inf b => rfl
    | fin q =>
      rw [hft] at hfu
      show _ = if q ≤ u then _ else _
      rw [if_neg (fun h => hfu (fin_le.2 h))]

attribute [local instance] order in
/-- **C193.** (Partial: the property is false.) Where adding 1 gives the same `f32` again, an agent that repeats and does not stop keeps every later agent from running:
it stays pending and does not run in any number of steps. -/
theorem C193_starves_partial {rnd : Rat → Rat} (hr : Rounding rnd) (m : Model F A S) (hadv : m.adv = advance rnd) (b : F) (hb : b ≠ .nan)
    (hstuck : advance rnd b = b) (P : A → Prop)
    (hP : ∀ a s a' s', P a → Callbacks m a s a' s' → (m.isStopped a' s').1 = false ∧ P (m.isStopped a' s').2.1) (i j : Nat)
    (hh : HooksSatisfy m (fun _ c => c.avoids (· = .nan) ∧ ¬ c.touches i ∧ ¬ c.touches j)) (t0 : F) (s : S) (ops : List (Op F A))
    (hops : ∀ c, Op.cmd c ∈ ops → c.avoids (· = .nan)) (w : World F A S) (hw : w = run m (World.start t0 s) ops) (hi : i < w.sched.idCount)
    (hj : j < w.sched.idCount) (a : A) (p : Priority F) (ha : (⟨i, a, true⟩, p) ∈ w.sched.events) (hPa : P a) (hp : le p.time b = true) (e : Entry F A)
    (he : e ∈ w.sched.events) (hid : e.1.id = j) (hlater : lt b e.2.time = true) (n : Nat) :
    (∀ r ∈ runsOf (since w (steps m n w)), r.1 ≠ j) ∧ e ∈ (steps m n w).sched.events := by
  have hhn := hh.imp (fun _ _ h => h.1)
  obtain ⟨hn, hnan⟩ := run_invariant m hadv hhn ops (World.start t0 s) hops (by simp [World.start, Sched.new, ids]) (by simp [NoNan, World.start, Sched.new])
  rw [← hw] at hn hnan
  rw [steps_eq m hadv hhn n w hn hnan]
  have key := Schedule.starves m b (fun t ht => by
    rw [hadv, ← hstuck]
    refine advance_mono hr (fun hc => ?_) hb ht
    rw [hc] at ht
    have h1 : F.nan ≤ F.inf false := ht.trans (le_high hb)
    have h2 : key F.nan ≤ key (F.inf false) := h1
    simp [key, Prod.Lex.le_iff] at h2) P hP i j (hh.imp (fun _ _ h => h.2)) n w hn hi hj
    ⟨a, p, ha, hPa, by rw [le_eq (hnan _ ha) hb] at hp; exact of_decide_eq_true hp⟩
    ⟨e, he, hid, by rw [lt_eq hb (hnan _ he)] at hlater; exact of_decide_eq_true hlater⟩
  exact ⟨key.1, key.2 e he hid⟩

/-- **C193.** Where it happens: at 2^24 exactly (`C193_served_partial` goes up to there), below -2^24 - 4, and at the infinities. -/
theorem C193_stuck_partial : advance single (.fin (2 ^ 24)) = .fin (2 ^ 24) ∧ advance single (.fin (-2 ^ 24 - 4)) = .fin (-2 ^ 24 - 4) ∧
    (∀ rnd b, advance rnd (.inf b) = .inf b) :=
  ⟨by decide +kernel, by decide +kernel, fun _ _ => rfl⟩

/-! ### Concrete cases -/

/-- Agents that do nothing and never stop, hooks that do nothing. -/
def idle : Model F Unit Unit where
  update := fun _ s => s
  beforeStep := fun s _ => (s, [])
  afterStep := fun s _ => (s, [])
  aBefore := fun a s => (a, s)
  aStep := fun a s => (a, s)
  aAfter := fun a s => (a, s)
  isStopped := fun a s => (false, a, s)
  adv := advance single
  tb := fun _ _ => 0

theorem idle_hooks (P : Sched F Unit → Cmd F Unit → Prop) : HooksSatisfy idle P := fun _ _ => ⟨trivial, trivial⟩

/-- Registers repeating agents with these times and orderings. -/
def registered (l : List (F × Int)) : World F Unit Unit := run idle (World.start (.fin 0) ()) (l.map (fun x => .cmd (.scheduleRepeating () x.1 x.2)))

/-- **C192.** (Partial: the property is false.) An agent at NaN, one at 5 and one at 0, registered in this order: the first step runs all three, that at 5 together with
that at 0. -/
theorem C192_together_partial : runsOf (since (registered [(.nan, 0), (.fin 5, 1), (.fin 0, 2)]) (step idle (registered [(.nan, 0), (.fin 5, 1), (.fin 0, 2)]))) =
    [(0, ⟨.nan, 0⟩), (2, ⟨.fin 0, 2⟩), (1, ⟨.fin 5, 1⟩)] := by decide +kernel

/-- Without NaN the agent at 5 waits, and an infinite time is the last one. -/
example : runsOf (since (registered [(.inf false, 0), (.fin 5, 1), (.fin 0, 2), (.fin 0, 1)]) (steps idle 1 (registered [(.inf false, 0), (.fin 5, 1), (.fin 0, 2), (.fin 0, 1)]))) =
    [(3, ⟨.fin 0, 1⟩), (2, ⟨.fin 0, 2⟩)] := by decide +kernel

example : ∃ (t : F) (ran : Queue F Unit), ran.Perm ((preStep idle (registered [(.inf true, 0), (.fin 5, 1)])).sched.events.filter (fun e => decide (e.2.time = t))) ∧
    runsOf (since (registered [(.inf true, 0), (.fin 5, 1)]) (step idle (registered [(.inf true, 0), (.fin 5, 1)]))) = ran.map (fun e => (e.1.id, e.2)) := by
  obtain ⟨t, ran, kept, _, _, h, _, h', _⟩ := C192_due_partial single idle rfl (idle_hooks _) (.fin 0) ()
    ([(.inf true, 0), (.fin 5, 1)].map (fun x => Op.cmd (.scheduleRepeating () x.1 x.2)))
    (by simp only [List.map_cons, List.map_nil, List.mem_cons, List.not_mem_nil, or_false]
        rintro c (h | h) <;> cases h <;> simp [Cmd.avoids]) _ rfl (by decide +kernel)
  exact ⟨t, ran, h, h'⟩

/-- `C194_nobody_lost` with NaN in the queue. -/
example : ∃ ran rest : Queue F Unit, (ran ++ rest).Perm (preStep idle (registered [(.nan, 0), (.fin 5, 1)])).sched.events ∧ ran ≠ [] := by
  obtain ⟨ran, rest, _, h, _, h', _⟩ := C194_nobody_lost idle (.fin 0) () _ (registered [(.nan, 0), (.fin 5, 1)]) rfl
  exact ⟨ran, rest, h, h' (by decide +kernel)⟩

/-- Two agents one of which is at NaN (`C192_two_partial`). -/
example : ∃ ran : Queue F Unit, ran.length = 2 ∧
    runsOf (since (registered [(.fin 5, 0), (.nan, 1)]) (step idle (registered [(.fin 5, 0), (.nan, 1)]))) = ran.map (fun e => (e.1.id, e.2)) := by
  obtain ⟨ran, h, h'⟩ := C192_two_partial idle (.fin 0) () _ (registered [(.fin 5, 0), (.nan, 1)]) rfl (⟨1, (), true⟩, ⟨.nan, 1⟩) (⟨0, (), true⟩, ⟨.fin 5, 0⟩)
    (Or.inr rfl) rfl
  exact ⟨ran, h.length_eq, h'⟩

/-- The agent at 100 gets its turn within 202 steps. -/
example : ∃ n, n ≤ 202 ∧ (1, ⟨.fin 100, 0⟩) ∈ runsOf (since (registered [(.fin 0, 0), (.fin 100, 0)]) (steps idle n (registered [(.fin 0, 0), (.fin 100, 0)]))) := by
  obtain ⟨n, h, h'⟩ := C193_served_partial rounding_single idle rfl 100 (by norm_num) 1 (idle_hooks _) (.fin 0) ()
    ([(.fin 0, 0), (.fin 100, 0)].map (fun x => Op.cmd (.scheduleRepeating () x.1 x.2)))
    (by simp only [List.map_cons, List.map_nil, List.mem_cons, List.not_mem_nil, or_false]
        rintro c (h | h) <;> cases h <;> simp [Cmd.avoids]) _ rfl (by decide) (⟨1, (), true⟩, ⟨.fin 100, 0⟩) (by decide +kernel) rfl rfl (by decide +kernel)
  exact ⟨n, h.trans (by decide +kernel), h'⟩

/-- **C193.** (Partial: the property is false.) An agent at 2^24 and one at 2^24 + 2, both repeating: the second never runs; likewise an agent at 0 besides one at
-2^24 - 4 or at minus infinity. -/
theorem C193_never_partial (b u : F) (hb : (b, u) ∈ [(F.fin (2 ^ 24), F.fin (2 ^ 24 + 2)), (F.fin (-2 ^ 24 - 4), F.fin 0), (F.inf true, F.fin 0)]) (n : Nat) :
    ∀ r ∈ runsOf (since (registered [(b, 0), (u, 0)]) (steps idle n (registered [(b, 0), (u, 0)]))), r.1 ≠ 1 := by
  have hall : b ≠ .nan ∧ u ≠ .nan ∧ advance single b = b ∧ le b b = true ∧ lt b u = true := by
    simp only [List.mem_cons, List.not_mem_nil, or_false, Prod.mk.injEq] at hb
    rcases hb with ⟨rfl, rfl⟩ | ⟨rfl, rfl⟩ | ⟨rfl, rfl⟩ <;> decide +kernel
  obtain ⟨h1, h2, h3, h4, h5⟩ := hall
  exact (C193_starves_partial rounding_single idle rfl b h1 h3 (fun _ => True) (fun _ _ _ _ _ _ => ⟨rfl, trivial⟩) 0 1 (idle_hooks _) (.fin 0) ()
    ([(b, 0), (u, 0)].map (fun x => Op.cmd (.scheduleRepeating () x.1 x.2)))
    (by simp only [List.map_cons, List.map_nil, List.mem_cons, List.not_mem_nil, or_false]
        rintro c (h | h) <;> cases h <;> simp [Cmd.avoids, h1, h2]) (registered [(b, 0), (u, 0)]) rfl (by decide : 0 < 2) (by decide : 1 < 2) () ⟨b, 0⟩
    (List.mem_cons_self) trivial h4 (⟨1, (), true⟩, ⟨u, 0⟩) (List.mem_cons_of_mem _ List.mem_cons_self) rfl h5 n).1

end Verif.MachineSchedule
