import Verif.Props.Field2D
import Mathlib.Tactic.NormNum

/-!
How far away the objects are that a search returns, for all distances (C37).
-/

namespace Verif.Field2D

open Torus Grid

variable {O : Type} [DecidableEq O]

/-- Moving by at most half of `d` along both axes adds at most three quarters of `d` to a distance. -/
theorem moved_bound {a b u v r d : ℚ} (hr : 0 ≤ r) (hd : 0 < d) (h : a * a + b * b ≤ r * r) (hu : -(d / 2) ≤ u ∧ u ≤ d / 2)
    (hv : -(d / 2) ≤ v ∧ v ≤ d / 2) : (a + u) * (a + u) + (b + v) * (b + v) ≤ (r + 3 / 4 * d) * (r + 3 / 4 * d) := by
  have hs : ∀ x y : ℚ, x * x + y * y ≤ r * r → x + y ≤ 3 / 2 * r := by
    intro x y hxy
    by_contra hc
    nlinarith [mul_self_nonneg (x - y)]
  have key : a * u + b * v ≤ 3 / 4 * (d * r) := by
    have h1 := hs a b h
    have h2 := hs a (-b) (by linarith [neg_mul_neg b b])
    have h3 := hs (-a) b (by linarith [neg_mul_neg a a])
    have h4 := hs (-a) (-b) (by linarith [neg_mul_neg a a, neg_mul_neg b b])
    have e1 : a * u ≤ a * (d / 2) ∨ a * u ≤ -a * (d / 2) := by
      by_cases ha : 0 ≤ a
      · exact .inl (mul_le_mul_of_nonneg_left hu.2 ha)
      · exact .inr (by nlinarith)
    have e2 : b * v ≤ b * (d / 2) ∨ b * v ≤ -b * (d / 2) := by
      by_cases hb : 0 ≤ b
      · exact .inl (mul_le_mul_of_nonneg_left hv.2 hb)
      · exact .inr (by nlinarith)
    rcases e1 with e1 | e1 <;> rcases e2 with e2 | e2 <;> nlinarith
  have hu2 : u * u ≤ d * d / 4 := by nlinarith
  have hv2 : v * v ≤ d * d / 4 := by nlinarith
  nlinarith [mul_pos hd hd, mul_nonneg hr hd.le]

/-- One of the ends of an interval of length at most `d` is at most half of `d` away. -/
theorem near_end {l p u d : ℚ} (h1 : l ≤ p) (h2 : p ≤ u) (h3 : u - l ≤ d) :
    (-(d / 2) ≤ p - l ∧ p - l ≤ d / 2) ∨ (-(d / 2) ≤ p - u ∧ p - u ≤ d / 2) := by
  by_cases hc : p - l ≤ d / 2
  · exact .inl ⟨by linarith, hc⟩
  · exact .inr ⟨by linarith, by linarith⟩

/-- Within some distance of a point that is within `r` of the centre. -/
theorem within_moved {t : Bool} {w h r d : ℚ} (hr : 0 ≤ r) (hd : 0 < d) {p q loc : Pos} (hq : Within t w h q loc r)
    (hx : -(d / 2) ≤ p.x - q.x ∧ p.x - q.x ≤ d / 2) (hy : -(d / 2) ≤ p.y - q.y ∧ p.y - q.y ≤ d / 2) :
    Within t w h p loc (r + 3 / 4 * d) := by
  unfold Within at hq ⊢
  cases t with
  | false =>
    simp only [Bool.false_eq_true, if_false] at hq ⊢
    have := moved_bound hr hd hq hx hy
    rw [show q.x - loc.x + (p.x - q.x) = p.x - loc.x by ring, show q.y - loc.y + (p.y - q.y) = p.y - loc.y by ring] at this
    exact this
  | true =>
    simp only [if_true] at hq ⊢
    obtain ⟨k, m, hkm⟩ := hq
    refine ⟨k, m, ?_⟩
    have := moved_bound hr hd hkm hx hy
    rw [show q.x - loc.x + k * w + (p.x - q.x) = p.x - loc.x + k * w by ring,
      show q.y - loc.y + m * h + (p.y - q.y) = p.y - loc.y + m * h by ring] at this
    exact this

/-- A cell that is taken whole lies within the distance and three quarters of the side of a cell, on a torus too. -/
theorem full_cell_near {w h d : ℚ} (hd : 0 < d) (hw : 0 < w) (hh : 0 < h) {p : Pos} (hp : InField w h p)
    (loc : Pos) (dist : ℚ) (hdist : 0 < dist) (tor : Bool) (hc : checkCircle (discretize d p) d w h loc dist tor = 1) :
    Within tor w h p loc (dist + 3 / 4 * d) := by
  obtain ⟨a, b, c, e⟩ := (check_cases _ _ _ _ _ _ _).1.1 hc
  obtain ⟨⟨x1, x2⟩, ⟨y1, y2⟩⟩ := cell_bounds hd hp
  rw [within_iff _ _ _ hw hh] at a b c e
  have hlx : min (((discretize d p).x : ℚ) * d + d) w - ((discretize d p).x : ℚ) * d ≤ d := by
    have := min_le_left (((discretize d p).x : ℚ) * d + d) w; linarith
  have hly : min (((discretize d p).y : ℚ) * d + d) h - ((discretize d p).y : ℚ) * d ≤ d := by
    have := min_le_left (((discretize d p).y : ℚ) * d + d) h; linarith
  rcases near_end x1 x2 hlx with hx | hx <;> rcases near_end y1 y2 hly with hy | hy
  · exact within_moved hdist.le hd a hx hy
  · exact within_moved hdist.le hd b hx hy
  · exact within_moved hdist.le hd c hx hy
  · exact within_moved hdist.le hd e hx hy

/-- **C37**, for every distance, on a torus too: every object returned by the exact search is published and lies within the distance
asked for and three quarters of the side of a cell. Full statement: within the distance asked for, false on a torus. -/
theorem C37_within_a_cell_partial (w h d : ℚ) (t : Bool) (hw : 0 < w) (hh : 0 < h) (hd : 0 < d)
    (hist : List (FieldOp O)) (hin : ∀ op ∈ hist, op.InField w h) (locOf : O → Pos)
    (hloc : CarriesLocation locOf hist) (loc : Pos) (dist : ℚ) :
    ∃ f r, run (new w h d t) hist = some f ∧ getNeighborsWithinDistance f locOf loc dist = some r ∧
      ∀ o ∈ r, o ∈ objsPublished d hist (locOf o) ∧ Within t w h (locOf o) loc (dist + 3 / 4 * d) := by
  obtain ⟨f, h1, hs⟩ := shows_run t hw hh hd hist hin
  have hown := atOwnLocation_run hd hin hloc hs
  unfold getNeighborsWithinDistance
  by_cases hdist : dist ≤ 0
  · exact ⟨f, [], h1, by rw [if_pos hdist], by simp⟩
  · have hpos : 0 < dist := lt_of_not_ge hdist
    refine ⟨f, _, h1, by rw [if_neg hdist, scan_eq hs.wf], ?_⟩
    intro o ho
    obtain ⟨c, _, hc⟩ := List.mem_flatMap.1 ho
    obtain ⟨hb, hk⟩ := List.mem_filter.1 hc
    have hr := wrapped_inRange hs.wf c
    obtain ⟨hf1, hf2⟩ := hown _ hr o hb
    rw [hs.width, hs.height] at hf1
    rw [hs.disc] at hf2
    refine ⟨?_, ?_⟩
    · rw [bagOf_shows hs hr] at hb
      rwa [objsPublished_congr hist (q := locOf o) (by rw [discretize_notDiscretize hd, hf2])] at hb
    · unfold keepExact at hk
      rw [hs.disc, hs.width, hs.height, hs.tor, decide_eq_true_eq] at hk
      rcases hk with ⟨_, hk⟩ | hk
      · rw [distSq_symm _ _ _ hw hh, within_iff _ _ _ hw hh] at hk
        exact within_moved hpos.le hd hk ⟨by linarith, by linarith⟩ ⟨by linarith, by linarith⟩
      · rw [← hf2] at hk
        exact full_cell_near hd hw hh hf1 loc dist hpos t hk

/-- The object of the counterexample to C37 is farther away than asked, and within the bound. -/
example : CarriesLocation carried ([.lazyUpdate, .place (⟨59/10, 0⟩ : Pos) ⟨59/10, 0⟩] : List (FieldOp Pos)) ∧
    ¬ distSq (⟨59/10, 0⟩ : Pos) ⟨9/10, 1/2⟩ 10 10 true ≤ 5 * 5 ∧
    distSq (⟨59/10, 0⟩ : Pos) ⟨9/10, 1/2⟩ 10 10 true ≤ (5 + 3 / 4 * 1) * (5 + 3 / 4 * 1) := by
  refine ⟨?_, by decide +kernel, by decide +kernel⟩
  intro o p h
  simp only [List.mem_cons, List.not_mem_nil, or_false, reduceCtorEq, false_or] at h
  cases h
  rfl

end Verif.Field2D
