import Verif.Spec.Flocking
import Verif.Props.Flockers
import Mathlib.Analysis.SpecialFunctions.Complex.Arg
import Mathlib.Tactic.FieldSimp
import Mathlib.Tactic.Linarith

/-!
How the birds of the flockers simulation fly (C169, C170).
-/

namespace Verif.Flockers

open Grid Torus Schedule Field2D

/-! ### C169 -/

theorem lengthSq_nonneg (v : Pos) : 0 ≤ lengthSq v := add_nonneg (mul_self_nonneg _) (mul_self_nonneg _)

theorem lengthSq_eq_zero {v : Pos} (h : lengthSq v = 0) : v = ⟨0, 0⟩ := by
  obtain ⟨x, y⟩ := v
  have hx := mul_self_nonneg x
  have hy := mul_self_nonneg y
  have h' : x * x + y * y = 0 := h
  have h1 : x * x = 0 := by linarith
  have h2 : y * y = 0 := by linarith
  rw [mul_self_eq_zero.mp h1, mul_self_eq_zero.mp h2]

/-- The scaled direction has length 7/10, up to the error of the root, and the same direction. -/
theorem scaled_spec {c : Config} {δ : Rat} (hδ : δ < 1) (hs : ApproxSqrt δ c.sqrt) (v : Pos) :
    ((v = ⟨0, 0⟩ ∧ scaled c v = ⟨0, 0⟩) ∨
      (1 - δ) * lengthSq (scaled c v) ≤ 49 / 100 ∧ 49 / 100 ≤ (1 + δ) * lengthSq (scaled c v)) ∧
    ∃ k, 0 < k ∧ (scaled c v).x = k * v.x ∧ (scaled c v).y = k * v.y := by
  obtain ⟨h0, h1, h2⟩ := hs (lengthSq v) (lengthSq_nonneg v)
  by_cases hz : lengthSq v = 0
  · have hv := lengthSq_eq_zero hz
    subst hv
    have h3 : c.sqrt (lengthSq ⟨0, 0⟩) * c.sqrt (lengthSq ⟨0, 0⟩) ≤ 0 := by rw [hz] at h2; simpa [hz] using h2
    have h4 : c.sqrt (lengthSq ⟨0, 0⟩) = 0 := mul_self_eq_zero.mp (le_antisymm h3 (mul_self_nonneg _))
    have h5 : scaled c ⟨0, 0⟩ = ⟨0, 0⟩ := by
      unfold scaled
      rw [if_neg]
      show ¬ c.sqrt (lengthSq ⟨0, 0⟩) > 0
      rw [h4]
      exact lt_irrefl _
    exact ⟨.inl ⟨rfl, h5⟩, 1, one_pos, by rw [h5]; simp, by rw [h5]; simp⟩
  · have hq : 0 < lengthSq v := lt_of_le_of_ne (lengthSq_nonneg v) (Ne.symm hz)
    have hss : 0 < c.sqrt (lengthSq v) * c.sqrt (lengthSq v) := lt_of_lt_of_le (mul_pos (by linarith) hq) h1
    have hsp : 0 < c.sqrt (lengthSq v) := lt_of_le_of_ne h0 (fun h => by rw [← h] at hss; simp at hss)
    have hsc : scaled c v = ⟨v.x / c.sqrt (lengthSq v) * (7 / 10), v.y / c.sqrt (lengthSq v) * (7 / 10)⟩ := if_pos hsp
    generalize hsd : c.sqrt (lengthSq v) = s at *
    have hlen : lengthSq (scaled c v) * (s * s) = 49 / 100 * lengthSq v := by
      rw [hsc]
      unfold lengthSq
      field_simp
      ring
    refine ⟨.inr ⟨?_, ?_⟩, 7 / 10 / s, by positivity, ?_, ?_⟩
    · have h3 : lengthSq (scaled c v) * ((1 - δ) * lengthSq v) ≤ 49 / 100 * lengthSq v := by
        rw [← hlen]
        exact mul_le_mul_of_nonneg_left h1 (lengthSq_nonneg _)
      have h4 : ((1 - δ) * lengthSq (scaled c v)) * lengthSq v ≤ 49 / 100 * lengthSq v := by linarith
      exact le_of_mul_le_mul_right h4 hq
    · have h3 : 49 / 100 * lengthSq v ≤ lengthSq (scaled c v) * ((1 + δ) * lengthSq v) := by
        rw [← hlen]
        exact mul_le_mul_of_nonneg_left h2 (lengthSq_nonneg _)
      have h4 : 49 / 100 * lengthSq v ≤ ((1 + δ) * lengthSq (scaled c v)) * lengthSq v := by linarith
      exact le_of_mul_le_mul_right h4 hq
    · rw [hsc]; ring
    · rw [hsc]; ring

/-- What one move does to a bird: it keeps its id, moves by its new heading modulo the width, and the heading has length 7/10 unless it is zero. -/
def Flies (c : Config) (δ : Rat) (b b' : Bird) : Prop :=
  b'.id = b.id ∧ (∃ k : Int, b'.pos.x = b.pos.x + b'.lastD.x + k * c.width) ∧
  (∃ k : Int, b'.pos.y = b.pos.y + b'.lastD.y + k * c.width) ∧
  (0 ≤ b'.pos.x ∧ b'.pos.x < c.width) ∧ (0 ≤ b'.pos.y ∧ b'.pos.y < c.width) ∧
  (b'.lastD = ⟨0, 0⟩ ∨ (1 - δ) * lengthSq b'.lastD ≤ 49 / 100 ∧ 49 / 100 ≤ (1 + δ) * lengthSq b'.lastD)

theorem move_flies {c : Config} (hw : 0 < c.width) {δ : Rat} (hδ : δ < 1) (hs : ApproxSqrt δ c.sqrt) (r : Rat × Rat) (b : Bird)
    (vec : List Bird) : Flies c δ b (move c r b vec) := by
  refine ⟨rfl, ?_, ?_, toroidalTransform_range hw, toroidalTransform_range hw, ?_⟩
  · exact toroidalTransform_cong hw
  · exact toroidalTransform_cong hw
  · rcases (scaled_spec hδ hs (direction c r b vec)).1 with ⟨_, h⟩ | h
    · exact .inl h
    · exact .inr h

theorem flockAt_flies {c : Config} (hw : 0 < c.width) {δ : Rat} (hδ : δ < 1) (hs : ApproxSqrt δ c.sqrt)
    (r : Nat → Nat → Rat × Rat) (first : List Bird) (n : Nat) :
    ∀ b' ∈ flockAt c r first (n + 1), ∃ b ∈ flockAt c r first n, Flies c δ b b' := by
  intro b' hb'
  obtain ⟨b, hb, rfl⟩ := List.mem_map.1 hb'
  exact ⟨b, hb, move_flies hw hδ hs _ _ _⟩

/-- **C169.** In every step of the simulation, whatever the order of the birds, each bird flies by its heading on the torus (of the width of the world),
and its heading has the length 7/10, up to the error of the square root, unless it is zero. -/
theorem C169_birds_keep_speed {T : Type} [LinearOrder T] (c : Config) (hw : 0 < c.width) (hle : c.width ≤ c.height) (hr : UnitDraws c)
    {δ : Rat} (hδ : δ < 1) (hs : ApproxSqrt δ c.sqrt) (zero : T) (adv : T → T) (tb : TieBreak T Bird) (n : Nat) :
    ∀ e' ∈ (steps (model adv tb seqOps c) (n + 1) (Driver.start (sim zero adv tb seqOps c) (newState c))).sched.events,
      ∃ e ∈ (steps (model adv tb seqOps c) n (Driver.start (sim zero adv tb seqOps c) (newState c))).sched.events,
        Flies c δ e.1.agent e'.1.agent := by
  obtain ⟨σ, _, h⟩ := C138_birds_move_at_once c hw hle hr zero adv tb (n + 1)
  have h1 := (h n (Nat.le_succ n)).agents
  have h2 := (h (n + 1) (le_refl _)).agents
  have hf := flockAt_flies hw hδ hs (fun m i => c.rnd (σ m i)) (newBirds c 0) n
  intro e' he'
  obtain ⟨b', hb', rfl⟩ := List.mem_map.1 (h2.mem_iff.1 he')
  obtain ⟨b, hb, hfl⟩ := hf b' hb'
  exact ⟨_, h1.mem_iff.2 (List.mem_map_of_mem hb), hfl⟩

/-- **C169**, with the feature `parallel`: the same for every completed step, whatever the number of threads and the interleaving. -/
theorem C169_parallel_birds_keep_speed {T : Type} [LinearOrder T] (c : Config) (hw : 0 < c.width) (hle : c.width ≤ c.height)
    (hr : UnitDraws c) {δ : Rat} (hδ : δ < 1) (hs : ApproxSqrt δ c.sqrt) {cpus : Nat}
    (hc : DBDashMap.shardAmount cpus ≤ 2 ^ 64) (hashO : Nat → Nat) (hashL : Loc → Nat) (zero : T) (adv : T → T)
    (tb : TieBreak T Bird) (threads n : Nat) (w : World T Bird (State (ParField2D.PField Bird Nat)))
    (hp : ParSteps (model adv tb parOps c) threads (n + 1)
      (Driver.start (sim zero adv tb parOps c) (newStatePar cpus hashO hashL c)) w) :
    ∀ e ∈ w.sched.events, e.1.agent.lastD = ⟨0, 0⟩ ∨
      (1 - δ) * lengthSq e.1.agent.lastD ≤ 49 / 100 ∧ 49 / 100 ≤ (1 + δ) * lengthSq e.1.agent.lastD := by
  obtain ⟨σ, _, h⟩ := C139_parallel_birds_move_at_once c hw hle hr hc hashO hashL zero adv tb threads (n + 1) w hp
  intro e he
  obtain ⟨b', hb', rfl⟩ := List.mem_map.1 (h.agents.mem_iff.1 he)
  have hf := flockAt_flies hw hδ hs (fun m i => c.rnd (σ m i)) (newBirds c 0) n
  obtain ⟨b, _, hfl⟩ := hf b' hb'
  exact hfl.2.2.2.2.2

/-- There are such roots for every positive error. -/
example (δ : Rat) (hδ : 0 < δ) (h1 : δ < 1) : ∃ f, ApproxSqrt δ f := by
  have key : ∀ q : Rat, ∃ r : Rat, 0 ≤ q → 0 ≤ r ∧ (1 - δ) * q ≤ r * r ∧ r * r ≤ (1 + δ) * q := by
    intro q
    by_cases hq : 0 < q
    · have h2 : Real.sqrt ((1 - δ : ℚ) * q : ℝ) < Real.sqrt ((1 + δ : ℚ) * q : ℝ) := by
        apply Real.sqrt_lt_sqrt
        · exact_mod_cast (mul_nonneg (by linarith) hq.le)
        · have : (1 - δ) * q < (1 + δ) * q := by nlinarith
          exact_mod_cast this
      obtain ⟨r, ha, hb⟩ := exists_rat_btwn h2
      refine ⟨r, fun _ => ?_⟩
      have hr0 : (0 : ℝ) ≤ r := le_trans (Real.sqrt_nonneg _) ha.le
      refine ⟨by exact_mod_cast hr0, ?_, ?_⟩
      · have h3 := Real.sqrt_le_left hr0 |>.mp ha.le
        have : (((1 - δ) * q : ℚ) : ℝ) ≤ ((r * r : ℚ) : ℝ) := by push_cast; push_cast at h3; nlinarith
        exact_mod_cast this
      · have h3 := Real.lt_sqrt hr0 |>.mp hb
        have : ((r * r : ℚ) : ℝ) ≤ (((1 + δ) * q : ℚ) : ℝ) := by push_cast; push_cast at h3; nlinarith
        exact_mod_cast this
    · refine ⟨0, fun h => ?_⟩
      have : q = 0 := le_antisymm (not_lt.mp hq) h
      subst this
      simp
  choose f hf using key
  exact ⟨f, hf⟩

/-! ### C170 -/

/-- The sums of the loop over the birds seen. -/
theorem fold_spec (w h : Rat) (self : Bird) : ∀ (vec : List Bird) (a : Acc),
    vec.foldl (addNeighbor w h self) a =
      { xAvoid := a.xAvoid + ((others self vec).map (fun b => toroidalDistance self.pos.x b.pos.x w *
          push ⟨toroidalDistance self.pos.x b.pos.x w, toroidalDistance self.pos.y b.pos.y h⟩)).sum
        yAvoid := a.yAvoid + ((others self vec).map (fun b => toroidalDistance self.pos.y b.pos.y h *
          push ⟨toroidalDistance self.pos.x b.pos.x w, toroidalDistance self.pos.y b.pos.y h⟩)).sum
        xCohe := a.xCohe + ((others self vec).map (fun b => toroidalDistance self.pos.x b.pos.x w)).sum
        yCohe := a.yCohe + ((others self vec).map (fun b => toroidalDistance self.pos.y b.pos.y h)).sum
        xCons := a.xCons + ((others self vec).map (fun b => b.lastD.x)).sum
        yCons := a.yCons + ((others self vec).map (fun b => b.lastD.y)).sum
        count := a.count + (others self vec).length } := by
  intro vec
  induction vec with
  | nil => intro a; simp [others]
  | cons b vec ih =>
    intro a
    rw [List.foldl_cons, ih]
    by_cases hb : self.id = b.id
    · have e1 : addNeighbor w h self a b = a := if_neg (by simp [hb])
      have e2 : others self (b :: vec) = others self vec := by simp [others, hb]
      rw [e1, e2]
    · have e2 : others self (b :: vec) = b :: others self vec := by simp [others, hb]
      rw [e2]
      simp only [List.map_cons, List.sum_cons, List.length_cons]
      rw [addNeighbor, if_pos hb]
      simp only [push, lengthSq, mul_one_div]
      simp only [Acc.mk.injEq]
      refine ⟨?_, ?_, ?_, ?_, ?_, ?_, ?_⟩
      all_goals first | omega | ring

/-- **C170, what holds.** A bird that sees something (at least itself) steers by the sum of the rules, except that the mean heading of the others is
divided by their number once more. The random vector has length 1/20 and the direction of the two random numbers, mapped to `[-1, 1]`. -/
theorem C170_steering_partial (c : Config) (hw : 0 < c.width) (hh : 0 < c.height) (r : Rat × Rat) (self : Bird) (seen : List Bird)
    (hne : seen ≠ []) :
    ∃ off rand, (∀ b, ShortWay c.width self.pos.x b.pos.x (off b).x ∧ ShortWay c.height self.pos.y b.pos.y (off b).y) ∧
      Steers c.randomness self (others self seen) off (1 / (others self seen).length) rand (direction c r self seen) ∧
      rand.x * (2 * r.2 - 1) = rand.y * (2 * r.1 - 1) ∧
      ∀ s, c.sqrt ((2 * r.1 - 1) * (2 * r.1 - 1) + (2 * r.2 - 1) * (2 * r.2 - 1)) = s → s ≠ 0 →
        (2 * r.1 - 1) * (2 * r.1 - 1) + (2 * r.2 - 1) * (2 * r.2 - 1) = s * s → lengthSq rand = 1 / 20 * (1 / 20) := by
  refine ⟨fun b => ⟨toroidalDistance self.pos.x b.pos.x c.width, toroidalDistance self.pos.y b.pos.y c.height⟩,
    randomness c.sqrt r, ?_, ?_, ?_, ?_⟩
  · intro b
    exact ⟨⟨toroidalDistance_cong hw, toroidalDistance_bound hw⟩, ⟨toroidalDistance_cong hh, toroidalDistance_bound hh⟩⟩
  · have hemp : seen.isEmpty = false := by cases seen <;> simp_all
    unfold Steers direction
    rw [hemp, fold_spec]
    simp only [Bool.false_eq_true, if_false, Acc.cohesion, Acc.avoidance, Acc.consistency, Acc.mean, Acc.zero, zero_add, mean,
      List.length_map]
    by_cases hz : (others self seen).length = 0
    · have hnil := List.length_eq_zero_iff.mp hz
      rw [hnil]
      simp
    · rw [if_pos (Nat.pos_of_ne_zero hz), if_pos (Nat.pos_of_ne_zero hz)]
      constructor <;> ring
  · simp only [randomness]
    ring
  · intro s hs hs0 hq
    have e1 : r.1 * 2 - 1 = 2 * r.1 - 1 := by ring
    have e2 : r.2 * 2 - 1 = 2 * r.2 - 1 := by ring
    simp only [randomness, lengthSq, e1, e2, hs]
    generalize 2 * r.1 - 1 = a at *
    generalize 2 * r.2 - 1 = b at *
    field_simp
    linarith

/-- A bird that sees nothing goes on in its direction. -/
theorem C170_alone_partial (c : Config) (r : Rat × Rat) (self : Bird) : direction c r self [] = self.lastD := rfl

/-- Two birds to the left and to the right of a third, all flying to the right, without randomness. -/
def between : Config := { demo with width := 10, height := 10, randomness := 0 }

def leftBird : Bird := ⟨1, ⟨4, 5⟩, ⟨1, 0⟩⟩
def rightBird : Bird := ⟨2, ⟨6, 5⟩, ⟨1, 0⟩⟩
def middleBird : Bird := ⟨0, ⟨5, 5⟩, ⟨0, 0⟩⟩

/-- **C170 is false** for the heading: a bird between two others that both fly right with heading (1, 0) gets (1/2, 0), for whatever offsets and random
vector. -/
theorem C170_heading_not_mean_partial : ∃ (c : Config) (r : Rat × Rat) (self : Bird) (seen : List Bird), 0 < c.width ∧ 0 < c.height ∧
    seen ≠ [] ∧ direction c r self seen = ⟨1 / 2, 0⟩ ∧ ∀ off rand,
      (∀ b, ShortWay c.width self.pos.x b.pos.x (off b).x ∧ ShortWay c.height self.pos.y b.pos.y (off b).y) →
      ¬ Steers c.randomness self (others self seen) off 1 rand (direction c r self seen) := by
  refine ⟨between, (0, 0), middleBird, [middleBird, leftBird, rightBird], by decide +kernel, by decide +kernel, by simp, by decide +kernel, ?_⟩
  intro off rand hoff hst
  have hd : direction between (0, 0) middleBird [middleBird, leftBird, rightBird] = ⟨1 / 2, 0⟩ := by decide +kernel
  have ho : others middleBird [middleBird, leftBird, rightBird] = [leftBird, rightBird] := by decide +kernel
  have uniq : ∀ (dim a b d d' : Rat), 0 < dim → ShortWay dim a b d → (∃ k : Int, d' = a - b + k * dim) → -(dim / 2) < d' → d' < dim / 2 → d = d' := by
    intro dim a b d d' hdim h1 h2 h3 h4
    have hc : Cong dim d d' := Cong.trans h1.1 (Cong.symm h2)
    exact hc.eq_of_lt hdim (by linarith [h1.2.1, h1.2.2]) (by linarith [h1.2.1, h1.2.2])
  have l1 : (off leftBird).x = 1 := uniq 10 5 4 _ _ (by norm_num) (hoff leftBird).1 ⟨0, by norm_num⟩ (by norm_num) (by norm_num)
  have l2 : (off leftBird).y = 0 := uniq 10 5 5 _ _ (by norm_num) (hoff leftBird).2 ⟨0, by norm_num⟩ (by norm_num) (by norm_num)
  have r1 : (off rightBird).x = -1 := uniq 10 5 6 _ _ (by norm_num) (hoff rightBird).1 ⟨0, by norm_num⟩ (by norm_num) (by norm_num)
  have r2 : (off rightBird).y = 0 := uniq 10 5 5 _ _ (by norm_num) (hoff rightBird).2 ⟨0, by norm_num⟩ (by norm_num) (by norm_num)
  have h := hst.1
  rw [hd, ho] at h
  simp only [List.map_cons, List.map_nil, mean, List.sum_cons, List.sum_nil, List.length_cons, List.length_nil, push, lengthSq, l1, l2, r1, r2,
    show leftBird.lastD.x = 1 from rfl, show rightBird.lastD.x = 1 from rfl, show middleBird.lastD.x = 0 from rfl,
    show between.randomness = 0 from rfl] at h
  norm_num at h

end Verif.Flockers
