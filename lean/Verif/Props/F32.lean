import Verif.Model.F32
import Verif.Props.Schedule
import Mathlib.Tactic.Ring
import Mathlib.Data.Nat.Log

/-! C12: does the clock of a repeating agent advance strictly? -/

namespace Verif.F32

theorem round_lower (n : Nat) : n / 2 ^ ulpExp n * 2 ^ ulpExp n ≤ round n := by
  unfold round
  dsimp only
  split
  · exact Nat.le_refl _
  · split
    · exact Nat.mul_le_mul_right _ (Nat.le_succ _)
    · exact Nat.mul_le_mul_right _ (Nat.le_add_right _ _)

/-- The rounding error downwards is at most half a unit in the last place. -/
theorem round_error (n : Nat) : 2 * n ≤ 2 * round n + 2 ^ ulpExp n := by
  have hu : 0 < 2 ^ ulpExp n := Nat.two_pow_pos _
  have hd := Nat.div_add_mod n (2 ^ ulpExp n)
  have hm := Nat.mod_lt n hu
  unfold round
  dsimp only
  generalize 2 ^ ulpExp n = u at *
  split
  · rw [Nat.mul_comm] at hd; omega
  · split
    · rw [Nat.add_mul, Nat.mul_comm (n / u) u]; omega
    · rw [Nat.add_mul, Nat.mul_comm (n / u) u]; omega

theorem pow_log2_le_round (n : Nat) (hn : n ≠ 0) : 2 ^ n.log2 ≤ round n := by
  refine Nat.le_trans ?_ (round_lower n)
  have hle : 2 ^ n.log2 ≤ n := Nat.log2_self_le hn
  by_cases h : 23 ≤ n.log2
  · have hs : 2 ^ n.log2 = 2 ^ 23 * 2 ^ ulpExp n := by
      unfold ulpExp; rw [← Nat.pow_add]; congr 1; omega
    rw [hs] at hle ⊢
    exact Nat.mul_le_mul_right _ ((Nat.le_div_iff_mul_le (Nat.two_pow_pos _)).2 hle)
  · have : ulpExp n = 0 := by unfold ulpExp; omega
    rw [this]; simpa using hle

/-- **C12 (partial).** Below `2^24` time units every rescheduling is strictly later, whatever the
(fractional) time. Missing: times from `2^24` on, where the statement is false of the code. -/
theorem C12_time_advances_below_2_24_partial (t : Nat) (h : t < 2 ^ 24 * one) : t < advance t := by
  unfold advance
  have ho : one = 2 ^ 149 := rfl
  have hne : t + one ≠ 0 := by rw [ho]; have := Nat.two_pow_pos 149; omega
  by_cases hb : t + one < 2 ^ 173
  · have hlog : (t + one).log2 < 173 := (Nat.log2_lt hne).2 hb
    have hexp : ulpExp (t + one) ≤ 149 := by unfold ulpExp; omega
    have hp : 2 ^ ulpExp (t + one) ≤ 2 ^ 149 := Nat.pow_le_pow_right (by decide) hexp
    have := round_error (t + one)
    rw [← ho] at hp
    have h1 : 0 < one := Nat.two_pow_pos _
    omega
  · have h173 : 173 ≤ (t + one).log2 := by
      by_contra hc
      exact hb ((Nat.log2_lt hne).1 (by omega))
    have h1 : 2 ^ 173 ≤ 2 ^ (t + one).log2 := Nat.pow_le_pow_right (by decide) h173
    have h2 := pow_log2_le_round (t + one) hne
    have h3 : 2 ^ 24 * one = 2 ^ 173 := by rw [ho, ← Nat.pow_add]
    omega

/-- Integer times below `2^24` advance by exactly one. -/
theorem C12_integer_times_advance_exactly_partial (n : Nat) (h : n < 2 ^ 24) : advance (n * one) = (n + 1) * one := by
  unfold advance
  have ho : one = 2 ^ 149 := rfl
  have e : n * one + one = (n + 1) * one := by ring
  rw [e]
  have hne : (n + 1) * one ≠ 0 := by
    rw [ho]; exact Nat.mul_ne_zero (by omega) (by have := Nat.two_pow_pos 149; omega)
  have hdvd : 2 ^ ulpExp ((n + 1) * one) ∣ (n + 1) * one := by
    by_cases hn : n + 1 = 2 ^ 24
    · have hz : (n + 1) * one = 2 ^ 173 := by rw [hn, ho, ← Nat.pow_add]
      rw [hz]
      apply Nat.pow_dvd_pow
      unfold ulpExp
      rw [Nat.log2_two_pow]
      omega
    · have hlt : (n + 1) * one < 2 ^ 173 := by
        have h3 : 2 ^ 24 * one = 2 ^ 173 := by rw [ho, ← Nat.pow_add]
        rw [← h3]
        exact Nat.mul_lt_mul_of_pos_right (by omega) (Nat.two_pow_pos _)
      have hlog : ((n + 1) * one).log2 < 173 := (Nat.log2_lt hne).2 hlt
      have : ulpExp ((n + 1) * one) ≤ 149 := by unfold ulpExp; omega
      exact Dvd.dvd.mul_left (Nat.pow_dvd_pow 2 this) _
  unfold round
  dsimp only
  have hm := Nat.mod_eq_zero_of_dvd hdvd
  rw [hm, if_pos (by have := Nat.two_pow_pos (ulpExp ((n + 1) * one)); omega)]
  exact Nat.div_mul_cancel hdvd

/-- **C12 is false of the code** at time `2^24`: the next time is the same time. -/
theorem C12_time_stalls_partial : Representable (2 ^ 24 * one) ∧ advance (2 ^ 24 * one) = 2 ^ 24 * one := by
  decide +kernel

/-- From `2^25` time units on, every single-precision time stalls. -/
theorem C12_all_large_times_stall_partial (t : Nat) (hr : Representable t) (h : 2 ^ 25 * one ≤ t) :
    advance t = t := by
  have ho : one = 2 ^ 149 := rfl
  have h3 : 2 ^ 25 * one = 2 ^ 174 := by rw [ho, ← Nat.pow_add]
  rw [h3] at h
  have hne : t ≠ 0 := by have := Nat.two_pow_pos 174; omega
  have hlog : 174 ≤ t.log2 := (Nat.le_log2 hne).2 h
  obtain ⟨c, hc⟩ := hr
  -- `t = c * 2^e` with `2^23 ≤ c < 2^24` and `e ≥ 151`
  have he : 151 ≤ ulpExp t := by unfold ulpExp; omega
  have hu1 : 2 ^ 151 ≤ 2 ^ ulpExp t := Nat.pow_le_pow_right (by decide) he
  have hlt : t < 2 ^ (t.log2 + 1) := Nat.lt_log2_self
  have hsplit : 2 ^ (t.log2 + 1) = 2 ^ ulpExp t * 2 ^ 24 := by
    rw [← Nat.pow_add]; congr 1; unfold ulpExp; omega
  have hpos : 0 < 2 ^ ulpExp t := Nat.two_pow_pos _
  have hclt : c < 2 ^ 24 := by
    rw [hsplit, hc] at hlt
    have hh : ulpExp (2 ^ ulpExp t * c) = ulpExp t := by rw [← hc]
    rw [hh] at hlt
    exact Nat.lt_of_mul_lt_mul_left hlt
  have ho151 : 4 * one = 2 ^ 151 := by
    rw [ho, show (4 : Nat) = 2 ^ 2 from rfl, ← Nat.pow_add]
  have hone_lt : 2 * one < 2 ^ ulpExp t := by
    have := Nat.two_pow_pos 149
    rw [← ho] at this
    omega
  have hlog2 : (t + one).log2 = t.log2 := by
    have hub : t + one < 2 ^ (t.log2 + 1) := by
      rw [hsplit]
      have : t + 2 ^ ulpExp t ≤ 2 ^ ulpExp t * 2 ^ 24 := by
        have e1 : t = 2 ^ ulpExp t * c := hc
        calc t + 2 ^ ulpExp t = 2 ^ ulpExp t * (c + 1) := by rw [Nat.mul_add, ← e1]; omega
          _ ≤ 2 ^ ulpExp t * 2 ^ 24 := Nat.mul_le_mul_left _ hclt
      omega
    have hne' : t + one ≠ 0 := by omega
    have h1 : (t + one).log2 < t.log2 + 1 := (Nat.log2_lt hne').2 hub
    have h2 : t.log2 ≤ (t + one).log2 := (Nat.le_log2 hne').2 (by have := Nat.log2_self_le hne; omega)
    omega
  have hexp : ulpExp (t + one) = ulpExp t := by unfold ulpExp; rw [hlog2]
  unfold advance round
  dsimp only
  rw [hexp]
  have hmod : (t + one) % 2 ^ ulpExp t = one := by
    rw [show t + one = one + 2 ^ ulpExp t * c by omega, Nat.add_mul_mod_self_left, Nat.mod_eq_of_lt (by omega)]
  have hdiv : (t + one) / 2 ^ ulpExp t = c := by
    rw [show t + one = one + 2 ^ ulpExp t * c by omega, Nat.add_mul_div_left _ _ hpos, Nat.div_eq_of_lt (by omega)]
    omega
  rw [hmod, hdiv, if_pos hone_lt]
  rw [Nat.mul_comm]; exact hc.symm

example : Representable (2 ^ 30 * one) ∧ 2 ^ 25 * one ≤ 2 ^ 30 * one := by decide +kernel
example : (3 * 2 ^ 148) < 2 ^ 24 * one ∧ advance (3 * 2 ^ 148) = 5 * 2 ^ 148 := by decide +kernel

end Verif.F32

namespace Verif.Schedule

variable {T A S : Type}

/-- A consequence for whole simulations: if an agent's next time is its own time (`adv t = t`, as at
`2^24`), never stops and is left alone by the hooks, then every step runs it again at the same clock value
and *no* agent scheduled for a later time is ever run. -/
theorem C12_stalled_agent_starves_later_agents_partial [LinearOrder T] (m : Model T A S) (w : World T A S)
    (hw : Reachable m w) (P : A → Prop)
    (hP : ∀ a s a' s', P a → Callbacks m a s a' s' →
      (m.isStopped a' s').1 = false ∧ P (m.isStopped a' s').2.1)
    (i : Nat) (hi : i < w.sched.idCount)
    (hh : HooksSatisfy m (fun _ c => ¬ c.touches i))
    (a : A) (ha : P a) (t : T) (o : Int) (hstall : m.adv t = t)
    (hmem : (⟨i, a, true⟩, ⟨t, o⟩) ∈ w.sched.events) (n : Nat) :
    (∀ r ∈ runsOf (since w (steps m n w)), r.2.time ≤ t) ∧
    ∃ a', P a' ∧ (⟨i, a', true⟩, ⟨t, o⟩) ∈ (steps m n w).sched.events := by
  have hn := reachable_nodup hw
  have key : ∀ n, (ids (steps m n w).sched.events).Nodup ∧ Reachable m (steps m n w) ∧
      i < (steps m n w).sched.idCount ∧ (∃ l, (steps m n w).trace = w.trace ++ l) ∧
      (∀ r ∈ runsOf (since w (steps m n w)), r.2.time ≤ t) ∧
      ∃ a', P a' ∧ (⟨i, a', true⟩, ⟨t, o⟩) ∈ (steps m n w).sched.events := by
    intro n
    induction n with
    | zero => exact ⟨hn, hw, hi, ⟨[], by simp [steps]⟩, by simp [steps, since, runsOf], a, ha, hmem⟩
    | succ n ih =>
      obtain ⟨h1, h2, h3, ⟨l, h4⟩, h5, a', ha', h6⟩ := ih
      rw [steps_succ']
      generalize steps m n w = v at *
      obtain ⟨g1, g2⟩ := tracked_step m v P hP i hh h1 h3 a' ⟨t, o⟩ h6 ha'
      obtain ⟨l', h4'⟩ := step_trace_prefix m v h1
      have htr : (step m v).trace = w.trace ++ (l ++ l') := by rw [h4', h4, List.append_assoc]
      have hsince : runsOf (since w (step m v)) = runsOf (since w v) ++ runsOf (since v (step m v)) := by
        rw [since_append htr, since_append h4, since_append h4', runsOf_append]
      have hle : (step m v).sched.time ≤ t := by
        rcases g2 with ⟨h, _⟩ | ⟨h, _⟩
        · exact le_of_eq h.symm
        · exact le_of_lt h
      refine ⟨step_nodup m v h1, reachable_step h2, g1, ⟨_, htr⟩, ?_, ?_⟩
      · intro r hr
        rw [hsince] at hr
        rcases List.mem_append.1 hr with hr | hr
        · exact h5 r hr
        · rw [(C04_clock_is_batch_time m v h2).1 r hr]; exact hle
      · rcases g2 with ⟨_, _, a'', ga, gm⟩ | ⟨_, _, gm⟩
        · rw [hstall] at gm; exact ⟨a'', ga, gm⟩
        · exact ⟨a', ha', gm⟩
  obtain ⟨_, _, _, _, h5, h6⟩ := key n
  exact ⟨h5, h6⟩

/-- The demo model on the single-precision clock. -/
def demoF32 : Model Nat Nat Nat := { demo with adv := Verif.F32.advance, isStopped := fun a s => (false, a, s) }

/-- A concrete run that meets the hypotheses: agent 0 at `2^24`, agent 1 at `2^24 + 2`. -/
example :
    let w : World Nat Nat Nat := (World.start 0 0).run demoF32
      [.cmd (.scheduleRepeating 10 (2 ^ 24 * Verif.F32.one) 0),
       .cmd (.scheduleRepeating 20 ((2 ^ 24 + 2) * Verif.F32.one) 0)]
    Reachable demoF32 w ∧ (0 : Nat) < w.sched.idCount ∧
    demoF32.adv (2 ^ 24 * Verif.F32.one) = 2 ^ 24 * Verif.F32.one ∧
    ((⟨0, 10, true⟩, ⟨2 ^ 24 * Verif.F32.one, 0⟩) : Entry Nat Nat) ∈ w.sched.events := by
  refine ⟨⟨0, 0, _, rfl⟩, by decide +kernel, Verif.F32.C12_time_stalls_partial.2, by decide +kernel⟩

end Verif.Schedule
