import Mathlib.Tactic.Ring
import Mathlib.Tactic.Linarith
import Verif.Props.Schedule
import Verif.Spec.Waiting

/-! Who waits for whom in the schedule, over any linear order of times. -/

namespace Verif.Schedule

variable {T A S : Type}

theorem CallsSatisfy.imp {P Q : Sched T A → Cmd T A → Prop} (h : ∀ s c, P s c → Q s c) : ∀ {s : Sched T A} {cs : List (Cmd T A)},
    CallsSatisfy P s cs → CallsSatisfy Q s cs
  | _, [], _ => trivial
  | _, _ :: _, hc => ⟨h _ _ hc.1, CallsSatisfy.imp h hc.2⟩

theorem HooksSatisfy.imp {m : Model T A S} {P Q : Sched T A → Cmd T A → Prop} (h : ∀ s c, P s c → Q s c) (hh : HooksSatisfy m P) :
    HooksSatisfy m Q := fun s sch => ⟨(hh s sch).1.imp h, (hh s sch).2.imp h⟩

theorem weight_append (f : T → Nat) (q r : Queue T A) : weight f (q ++ r) = weight f q + weight f r := by simp [weight]

theorem weight_perm (f : T → Nat) {q r : Queue T A} (h : q.Perm r) : weight f q = weight f r := (h.map _).sum_nat

theorem weight_filter (f : T → Nat) (p : Entry T A → Bool) (q : Queue T A) :
    weight f q = weight f (q.filter p) + weight f (q.filter (fun e => !p e)) := by
  induction q with
  | nil => rfl
  | cons e q ih =>
    have hc : ∀ r : Queue T A, weight f (e :: r) = f e.2.time + weight f r := fun r => by simp [weight]
    rw [hc, ih]
    cases hp : p e
    · rw [List.filter_cons_of_neg (by simp [hp]), List.filter_cons_of_pos (by simp [hp]), hc]; omega
    · rw [List.filter_cons_of_pos hp, List.filter_cons_of_neg (by simp [hp]), hc]; omega

theorem weight_const (f : T → Nat) (k : Nat) (q : Queue T A) (h : ∀ e ∈ q, f e.2.time = k) : weight f q = q.length * k := by
  induction q with
  | nil => simp [weight]
  | cons e q ih =>
    have hc : weight f (e :: q) = f e.2.time + weight f q := by simp [weight]
    rw [hc, ih (fun x hx => h x (List.mem_cons_of_mem _ hx)), h e (by simp), List.length_cons]; ring

theorem weight_le (f : T → Nat) (k : Nat) (q : Queue T A) (h : ∀ e ∈ q, f e.2.time ≤ k) : weight f q ≤ q.length * k := by
  induction q with
  | nil => simp [weight]
  | cons e q ih =>
    have hc : weight f (e :: q) = f e.2.time + weight f q := by simp [weight]
    have h1 := ih (fun x hx => h x (List.mem_cons_of_mem _ hx))
    have h2 := h e (by simp)
    rw [hc, List.length_cons, Nat.add_mul]; omega

theorem weight_reprio (f : T → Nat) (i : Nat) (p : Priority T) (hp : f p.time = 0) (q : Queue T A) :
    weight f (q.map (fun e => if e.1.id == i then (e.1, p) else e)) ≤ weight f q := by
  induction q with
  | nil => simp [weight]
  | cons e q ih =>
    have hc : ∀ (e : Entry T A) (r : Queue T A), weight f (e :: r) = f e.2.time + weight f r := fun e r => by simp [weight]
    rw [List.map_cons, hc, hc]
    split
    · show f p.time + _ ≤ _
      rw [hp]; omega
    · omega

theorem weight_push (f : T → Nat) (q : Queue T A) (a : AgentImpl A) (p : Priority T) (hp : f p.time = 0) : weight f (q.push a p).1 ≤ weight f q := by
  by_cases h : a.id ∈ ids q
  · obtain ⟨_, _, _, hpush⟩ := push_present (p := p) h
    rw [hpush]
    exact weight_reprio f _ p hp q
  · rw [push_fresh h, weight_append]
    simp [weight, hp]

theorem weight_filter_le (f : T → Nat) (p : Entry T A → Bool) (q : Queue T A) : weight f (q.filter p) ≤ weight f q := by
  rw [weight_filter f p q]; omega

/-- What the calls of a list do to the weight and to the times, if they schedule nothing at a time of positive weight. -/
theorem execAll_weight (f : T → Nat) (Bad : T → Prop) (Q : T → Prop) (hf : ∀ t, ¬ Bad t → f t = 0) (cs : List (Cmd T A)) : ∀ w : World T A S,
    CallsSatisfy (fun _ c => c.avoids Bad) w.sched cs → (∀ e ∈ w.sched.events, Bad e.2.time → Q e.2.time) →
    weight f (w.execAll cs).sched.events ≤ weight f w.sched.events ∧ ∀ e ∈ (w.execAll cs).sched.events, Bad e.2.time → Q e.2.time := by
  induction cs with
  | nil => intro w _ h; exact ⟨Nat.le_refl _, h⟩
  | cons c cs ih =>
    intro w hc h
    rw [execAll_cons]
    have key : weight f (w.sched.after c).events ≤ weight f w.sched.events ∧ ∀ e ∈ (w.sched.after c).events, Bad e.2.time → Q e.2.time := by
      have h1 := hc.1
      cases c with
      | scheduleOnce a t o =>
        refine ⟨weight_push f _ _ _ (hf _ h1), fun e he hb => ?_⟩
        rcases push_mem he with h2 | h2
        · exact h e h2 hb
        · rw [h2] at hb; exact absurd hb h1
      | scheduleRepeating a t o =>
        refine ⟨weight_push f _ _ _ (hf _ h1), fun e he hb => ?_⟩
        rcases push_mem he with h2 | h2
        · exact h e h2 hb
        · rw [h2] at hb; exact absurd hb h1
      | dequeue i => exact ⟨weight_filter_le f _ _, fun e he hb => h e (List.mem_of_mem_filter he) hb⟩
    obtain ⟨h3, h4⟩ := ih (w.exec c) (by rw [exec_sched]; exact hc.2) (by rw [exec_sched]; exact key.2)
    rw [exec_sched] at h3
    exact ⟨h3.trans key.1, h4⟩

theorem preStep_weight (m : Model T A S) (f : T → Nat) (Bad Q : T → Prop) (hf : ∀ t, ¬ Bad t → f t = 0) (w : World T A S)
    (hh : HooksSatisfy m (fun _ c => c.avoids Bad)) (h : ∀ e ∈ w.sched.events, Bad e.2.time → Q e.2.time) :
    weight f (preStep m w).sched.events ≤ weight f w.sched.events ∧ ∀ e ∈ (preStep m w).sched.events, Bad e.2.time → Q e.2.time := by
  unfold preStep
  split
  · exact execAll_weight f Bad Q hf _ { state := _, sched := w.sched, trace := _ } (hh _ _).1 h
  · exact execAll_weight f Bad Q hf _ { state := _, sched := w.sched, trace := _ } (hh _ _).1 h

theorem postStep_weight (m : Model T A S) (f : T → Nat) (Bad Q : T → Prop) (hf : ∀ t, ¬ Bad t → f t = 0) (w : World T A S)
    (hh : HooksSatisfy m (fun _ c => c.avoids Bad)) (h : ∀ e ∈ w.sched.events, Bad e.2.time → Q e.2.time) :
    weight f (postStep m w).sched.events ≤ weight f w.sched.events ∧ ∀ e ∈ (postStep m w).sched.events, Bad e.2.time → Q e.2.time := by
  unfold postStep
  exact execAll_weight f Bad Q hf _ { state := _, sched := w.sched, trace := _ } (hh _ _).2 h

theorem steps_trace_prefix [LinearOrder T] (m : Model T A S) (w : World T A S) (hn : (ids w.sched.events).Nodup) (n : Nat) :
    ∃ l, (steps m n w).trace = w.trace ++ l := by
  induction n generalizing w with
  | zero => exact ⟨[], by simp [steps]⟩
  | succ n ih =>
    obtain ⟨l, hl⟩ := step_trace_prefix m w hn
    obtain ⟨l', hl'⟩ := ih (step m w) (step_nodup m w hn)
    exact ⟨l ++ l', by rw [show steps m (n + 1) w = steps m n (step m w) from rfl, hl', hl, List.append_assoc]⟩

/-- An entry gets its turn if each turn of an earlier agent brings this agent closer to it: within as many steps as the weight says. -/
theorem served [LinearOrder T] (m : Model T A S) (u : T) (j : Nat) (Q : T → Prop) (rank : T → Nat)
    (hr : ∀ t, Q t → t < u → m.adv t ≤ u → Q (m.adv t) ∧ rank (m.adv t) < rank t)
    (hh : HooksSatisfy m (fun _ c => ¬ c.touches j ∧ c.avoids (· ≤ u))) :
    ∀ (k : Nat) (w : World T A S) (e : Entry T A), (ids w.sched.events).Nodup → j < w.sched.idCount → e ∈ w.sched.events → e.1.id = j → e.2.time = u →
    (∀ e ∈ w.sched.events, e.2.time ≤ u → Q e.2.time) → weight (fun t => if t ≤ u then rank t + 1 else 0) w.sched.events ≤ k →
    ∃ n, n ≤ k ∧ (j, e.2) ∈ runsOf (since w (steps m n w)) := by
  have hf : ∀ t, ¬ t ≤ u → (if t ≤ u then rank t + 1 else 0) = 0 := fun t ht => if_neg ht
  have hk := hh.imp (fun _ _ h => h.1)
  have ha := hh.imp (fun _ _ h => h.2)
  intro k
  induction k with
  | zero =>
    intro w e _ _ he _ hu _ hw
    exfalso
    have : 0 < weight (fun t => if t ≤ u then rank t + 1 else 0) w.sched.events := by
      obtain ⟨l1, l2, hl⟩ := List.append_of_mem he
      rw [hl, weight_append]
      simp only [weight, List.map_cons, List.sum_cons, hu, le_refl, if_true]
      omega
    omega
  | succ k ih =>
    intro w e hn hi he hid hu hQ hw
    obtain ⟨hp1, hp2⟩ := preStep_weight m _ (· ≤ u) Q hf w ha hQ
    obtain ⟨hpi, hpk⟩ := preStep_keeps m j w hk hi
    have hpe := hpk he hid
    obtain ⟨t, ran, kept, h1, h0, _, h2, h3, h4, h5, h6, h7, h8, h9⟩ := runsOf_step m w hn
    have htu : t ≤ u := hu ▸ h1 e hpe
    obtain ⟨l, hl⟩ := step_trace_prefix m w hn
    have hruns : runsOf (since w (step m w)) = ran.map (fun e => (e.1.id, e.2)) := by
      have := runsOf_since hl
      rw [h9] at this
      exact (List.append_cancel_left this).symm
    rcases eq_or_lt_of_le htu with htu | htu
    · refine ⟨1, by omega, ?_⟩
      show _ ∈ runsOf (since w (step m w))
      rw [hruns]
      refine List.mem_map.2 ⟨e, h2.mem_iff.2 (List.mem_filter.2 ⟨hpe, by simp [hu, htu]⟩), by rw [hid]⟩
    · obtain ⟨x, hx, hxt⟩ := h0 (List.ne_nil_of_mem hpe)
      have hQt : Q t := hxt ▸ hp2 x hx (by rw [hxt]; exact htu.le)
      -- the weight goes down
      generalize hfd : (fun t => if t ≤ u then rank t + 1 else 0) = f at *
      have hft : f t = rank t + 1 := by rw [← hfd]; exact if_pos htu.le
      have hwr : weight f ran = ran.length * (rank t + 1) := weight_const f _ _ (fun y hy => by
        have := (List.mem_filter.1 (h2.mem_iff.1 hy)).2
        rw [of_decide_eq_true this]; exact hft)
      have hpos : 0 < ran.length := List.length_pos_of_mem (h2.mem_iff.2 (List.mem_filter.2 ⟨hx, by simp [hxt]⟩))
      have hlen : kept.length ≤ ran.length := by
        have := (turns_ids h4).length_le
        simpa [ids] using this
      have hkt : ∀ y ∈ kept, y.2.time = m.adv t := by
        intro y hy
        obtain ⟨z, hz, _, _, _, hzt, _⟩ := turns_times h4 hy
        rw [hzt, of_decide_eq_true (List.mem_filter.1 (h2.mem_iff.1 hz)).2]
      have hwk : weight f kept ≤ kept.length * rank t := weight_le f _ _ (fun y hy => by
        rw [hkt y hy, ← hfd]
        show (if m.adv t ≤ u then rank (m.adv t) + 1 else 0) ≤ _
        split
        · have := (hr t hQt htu ‹_›).2; omega
        · omega)
      have hsplit := weight_filter f (fun e => decide (e.2.time = t)) (preStep m w).sched.events
      have hrest : (preStep m w).sched.events.filter (fun e => !decide (e.2.time = t)) = (preStep m w).sched.events.filter (fun e => decide (t < e.2.time)) := by
        apply List.filter_congr
        intro y hy
        have := h1 y hy
        by_cases hyt : y.2.time = t
        · simp [hyt]
        · simp [hyt, lt_of_le_of_ne this (Ne.symm hyt)]
      rw [hrest, ← weight_perm f h2, hwr] at hsplit
      have hmid : weight f (midStep m w).sched.events < weight f (preStep m w).sched.events := by
        rw [h5, weight_append, hsplit]
        have : kept.length * rank t ≤ ran.length * rank t := Nat.mul_le_mul_right _ hlen
        rw [Nat.mul_add]
        omega
      have hmQ : ∀ y ∈ (midStep m w).sched.events, y.2.time ≤ u → Q y.2.time := by
        intro y hy hyu
        rw [h5] at hy
        rcases List.mem_append.1 hy with hy | hy
        · exact hp2 y (List.mem_of_mem_filter hy) hyu
        · rw [hkt y hy] at hyu ⊢
          exact (hr t hQt htu hyu).1
      have hme : e ∈ (midStep m w).sched.events := by
        rw [h5]
        exact List.mem_append_left _ (List.mem_filter.2 ⟨hpe, by simp [hu, htu]⟩)
      obtain ⟨hq1, hq2⟩ := postStep_weight m f (· ≤ u) Q (by rw [← hfd]; exact hf) (midStep m w) ha hmQ
      obtain ⟨hqi, hqk⟩ := postStep_keeps m j (midStep m w) hk (by rw [h6]; exact hpi)
      obtain ⟨n, hnk, hrun⟩ := ih (step m w) e (step_nodup m w hn) hqi (hqk hme hid) hid hu hq2 (by
        have : weight f (step m w).sched.events ≤ weight f (midStep m w).sched.events := hq1
        omega)
      refine ⟨n + 1, by omega, ?_⟩
      obtain ⟨l', hl'⟩ := steps_trace_prefix m (step m w) (step_nodup m w hn) n
      rw [since_append hl'] at hrun
      have : (steps m (n + 1) w).trace = w.trace ++ (l ++ l') := by
        rw [show steps m (n + 1) w = steps m n (step m w) from rfl, hl', hl, List.append_assoc]
      rw [since_append this, runsOf_append]
      exact List.mem_append_right _ hrun

/-- An agent does not get its turn while another one goes on for ever at times it cannot get past. -/
theorem starves [LinearOrder T] (m : Model T A S) (b : T) (hb : ∀ t, t ≤ b → m.adv t ≤ b) (P : A → Prop)
    (hP : ∀ a s a' s', P a → Callbacks m a s a' s' → (m.isStopped a' s').1 = false ∧ P (m.isStopped a' s').2.1)
    (i j : Nat) (hh : HooksSatisfy m (fun _ c => ¬ c.touches i ∧ ¬ c.touches j)) :
    ∀ (n : Nat) (w : World T A S), (ids w.sched.events).Nodup → i < w.sched.idCount → j < w.sched.idCount →
    (∃ a p, (⟨i, a, true⟩, p) ∈ w.sched.events ∧ P a ∧ p.time ≤ b) → (∃ e ∈ w.sched.events, e.1.id = j ∧ b < e.2.time) →
    (∀ r ∈ runsOf (since w (steps m n w)), r.1 ≠ j) ∧ ∀ e ∈ w.sched.events, e.1.id = j → e ∈ (steps m n w).sched.events := by
  have hki := hh.imp (fun _ _ h => h.1)
  have hkj := hh.imp (fun _ _ h => h.2)
  intro n
  induction n with
  | zero => intro w _ _ _ _ _; exact ⟨by simp [steps, since, runsOf], fun e he _ => he⟩
  | succ n ih =>
    intro w hn hi hj hai hej
    obtain ⟨a, p, hap, ha, hpb⟩ := hai
    obtain ⟨e, he, hid, hbe⟩ := hej
    obtain ⟨hpi, hpki⟩ := preStep_keeps m i w hki hi
    obtain ⟨hpj, hpkj⟩ := preStep_keeps m j w hkj hj
    have hpa := hpki hap rfl
    have hpe := hpkj he hid
    obtain ⟨t, ran, kept, h1, h0, _, h2, h3, h4, h5, h6, h7, h8, h9⟩ := runsOf_step m w hn
    have htb : t ≤ b := (h1 _ hpa).trans hpb
    obtain ⟨l, hl⟩ := step_trace_prefix m w hn
    have hruns : runsOf (since w (step m w)) = ran.map (fun e => (e.1.id, e.2)) := by
      have := runsOf_since hl
      rw [h9] at this
      exact (List.append_cancel_left this).symm
    have hnj : ∀ y ∈ ran, y.1.id ≠ j := by
      intro y hy hyj
      have hy' := List.mem_filter.1 (h2.mem_iff.1 hy)
      have := eq_of_id (preStep_nodup m w hn) hy'.1 hpe (hyj.trans hid.symm)
      subst this
      rw [of_decide_eq_true hy'.2] at hbe
      exact absurd hbe (not_lt.2 htb)
    have hme : e ∈ (midStep m w).sched.events := by
      rw [h5]
      exact List.mem_append_left _ (List.mem_filter.2 ⟨hpe, by simp [lt_of_le_of_lt htb hbe]⟩)
    have hma : ∃ a p, (⟨i, a, true⟩, p) ∈ (midStep m w).sched.events ∧ P a ∧ p.time ≤ b := by
      by_cases hpt : p.time = t
      · obtain ⟨a', ha', hmem⟩ := turns_goesOn hP h4 (h2.mem_iff.2 (List.mem_filter.2 ⟨hpa, by simp [hpt]⟩)) ha
        exact ⟨a', _, by rw [h5]; exact List.mem_append_right _ hmem, ha', hb _ hpb⟩
      · exact ⟨a, p, by
          rw [h5]
          exact List.mem_append_left _ (List.mem_filter.2 ⟨hpa, by simpa using lt_of_le_of_ne (h1 _ hpa) (Ne.symm hpt)⟩), ha, hpb⟩
    obtain ⟨hqi, hqki⟩ := postStep_keeps m i (midStep m w) hki (by rw [h6]; exact hpi)
    obtain ⟨hqj, hqkj⟩ := postStep_keeps m j (midStep m w) hkj (by rw [h6]; exact hpj)
    have hse : e ∈ (step m w).sched.events := hqkj hme hid
    obtain ⟨a', p', hm', ha', hp'⟩ := hma
    obtain ⟨hr, hk⟩ := ih (step m w) (step_nodup m w hn) hqi hqj ⟨a', p', hqki hm' rfl, ha', hp'⟩ ⟨e, hse, hid, hbe⟩
    obtain ⟨l', hl'⟩ := steps_trace_prefix m (step m w) (step_nodup m w hn) n
    have hall : (steps m (n + 1) w).trace = w.trace ++ (l ++ l') := by
      rw [show steps m (n + 1) w = steps m n (step m w) from rfl, hl', hl, List.append_assoc]
    constructor
    · rw [since_append hall, runsOf_append]
      rw [since_append hl'] at hr
      rw [since_append hl] at hruns
      intro r hr'
      rcases List.mem_append.1 hr' with h | h
      · rw [hruns] at h
        obtain ⟨y, hy, rfl⟩ := List.mem_map.1 h
        exact hnj y hy
      · exact hr r h
    · intro f hf hfj
      have := eq_of_id hn hf he (hfj.trans hid.symm)
      subst this
      exact hk f hse hfj

end Verif.Schedule
