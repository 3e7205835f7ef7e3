import Verif.Lemmas.KdTree2
import Mathlib.Tactic.FieldSimp
import Mathlib.Tactic.Positivity

/-!
C240: the blocks of the distributed field are nearly equal. With `2^k ≤ n < 2^(k+1)` processes every block has an area of
`1/2^k` or `1/2^(k+1)` of the field, and the blocks have nearly the proportions of the field.
-/

namespace Verif.KdTree

/-- The size of the boxes after `k` rounds of halving, the first of which halves the width. -/
def Level (root : Tile) (k : Nat) (t : Tile) : Prop :=
  t.w = root.w / 2 ^ ((k + 1) / 2) ∧ t.h = root.h / 2 ^ (k / 2)

/-- The direction of the round after `k` rounds. -/
def axisAt (k : Nat) : Axis := if k % 2 = 0 then .vertical else .horizontal

theorem axisAt_other (k : Nat) : (axisAt k).other = axisAt (k + 1) := by
  unfold axisAt
  by_cases h : k % 2 = 0
  · rw [if_pos h, if_neg (by omega)]; rfl
  · rw [if_neg h, if_pos (by omega)]; rfl

theorem level_split {root t : Tile} {k : Nat} (h : Level root k t) :
    Level root (k + 1) (split t (axisAt k)).1 ∧ Level root (k + 1) (split t (axisAt k)).2 := by
  obtain ⟨hw, hh⟩ := h
  unfold axisAt Level
  by_cases hk : k % 2 = 0
  · rw [if_pos hk]
    have e1 : (k + 1 + 1) / 2 = (k + 1) / 2 + 1 := by omega
    have e2 : (k + 1) / 2 = k / 2 := by omega
    have e3 : t.w / 2 = root.w / 2 ^ ((k + 1 + 1) / 2) := by rw [hw, e1, pow_succ, div_div]
    have e4 : t.h = root.h / 2 ^ ((k + 1) / 2) := by rw [hh, e2]
    exact ⟨⟨e3, e4⟩, ⟨e3, e4⟩⟩
  · rw [if_neg hk]
    have e1 : (k + 1 + 1) / 2 = (k + 1) / 2 := by omega
    have e2 : (k + 1) / 2 = k / 2 + 1 := by omega
    have e3 : t.w = root.w / 2 ^ ((k + 1 + 1) / 2) := by rw [hw, e1]
    have e4 : t.h / 2 = root.h / 2 ^ ((k + 1) / 2) := by rw [hh, e2, pow_succ, div_div]
    exact ⟨⟨e3, e4⟩, ⟨e3, e4⟩⟩

theorem splitFirst_beyond {axis : Axis} : ∀ (ts : List Tile) (k : Nat), ts.length ≤ k →
    splitFirst axis k ts = splitFirst axis ts.length ts
  | [], k, _ => by cases k <;> rfl
  | t :: ts, k, hk => by
    rw [List.length_cons] at hk
    obtain ⟨k, rfl⟩ : ∃ k', k = k' + 1 := ⟨k - 1, by omega⟩
    rw [List.length_cons, splitFirst, splitFirst, splitFirst_beyond ts k (by omega)]

theorem level_all {root : Tile} {k : Nat} {ts : List Tile} (h : ∀ t ∈ ts, Level root k t) :
    ∀ t ∈ splitFirst (axisAt k) ts.length ts, Level root (k + 1) t := by
  intro s hs
  obtain ⟨t, ht, rfl | rfl⟩ := mem_splitFirst_all hs
  · exact (level_split (h t ht)).1
  · exact (level_split (h t ht)).2

/-- Boxes of two sizes, those of round `k` and those of round `k + 1`. -/
def TwoLevels (root : Tile) (k : Nat) (ts : List Tile) : Prop :=
  2 ^ k ≤ ts.length ∧ ts.length < 2 ^ (k + 1) ∧ (∀ t ∈ ts, Level root k t ∨ Level root (k + 1) t) ∧
    (ts.length = 2 ^ k → ∀ t ∈ ts, Level root k t)

theorem twoLevels_of_level {root : Tile} {k : Nat} {ts : List Tile} (hl : ts.length = 2 ^ k)
    (h : ∀ t ∈ ts, Level root k t) : TwoLevels root k ts := by
  have : 2 ^ (k + 1) = 2 ^ k + 2 ^ k := by rw [Nat.pow_succ]; omega
  have h0 : 0 < 2 ^ k := Nat.pow_pos (by omega)
  exact ⟨by omega, by omega, fun t ht => .inl (h t ht), fun _ => h⟩

theorem subtrees_levels (root : Tile) {p : Nat} (hp : 2 ≤ p) :
    ∃ ts k, subtrees root p = some ts ∧ ts.length = p ∧ TwoLevels root k ts := by
  have hfirst : ∀ t ∈ [(split root .vertical).1, (split root .vertical).2], Level root 1 t := by
    have h0 : Level root 0 root := ⟨by simp, by simp⟩
    have := level_split h0
    intro t ht
    rw [List.mem_cons, List.mem_singleton] at ht
    rcases ht with rfl | rfl
    · exact this.1
    · exact this.2
  obtain ⟨ts, h1, h2, k, h3⟩ := passes_inv (p := p)
    (fun axis ts => ∃ k, axis = axisAt k ∧ ts.length = 2 ^ k ∧ ∀ t ∈ ts, Level root k t)
    (fun ts => ∃ k, TwoLevels root k ts)
    (fun _ _ ⟨k, _, hl, h⟩ => ⟨k, twoLevels_of_level hl h⟩)
    (fun axis ts ⟨k, ha, hl, h⟩ => by
      subst ha
      refine ⟨k + 1, axisAt_other k, ?_, level_all h⟩
      rw [splitFirst_length, Nat.min_self, hl, Nat.pow_succ]; omega)
    (fun axis ts m ⟨k, ha, hl, h⟩ => by
      subst ha
      by_cases hm : ts.length ≤ m
      · rw [splitFirst_beyond ts m hm]
        refine ⟨k + 1, twoLevels_of_level ?_ (level_all h)⟩
        rw [splitFirst_length, Nat.min_self, hl, Nat.pow_succ]; omega
      · have hlen := splitFirst_length (axisAt k) m ts
        have hpow : 2 ^ (k + 1) = 2 ^ k + 2 ^ k := by rw [Nat.pow_succ]; omega
        refine ⟨k, by omega, by omega, ?_, ?_⟩
        · intro s hs
          rcases mem_splitFirst hs with hs | ⟨t, ht, rfl | rfl⟩
          · exact .inl (h s hs)
          · exact .inr (level_split (h t ht)).1
          · exact .inr (level_split (h t ht)).2
        · intro he
          have : m = 0 := by omega
          subst this
          cases ts with
          | nil => simp [splitFirst]
          | cons t ts => exact h)
    p .horizontal [(split root .vertical).1, (split root .vertical).2] (by simp) (by simpa using hp) (by simp)
    ⟨1, rfl, rfl, hfirst⟩
  refine ⟨ts, k, ?_, h2, h3⟩
  unfold subtrees
  rw [if_pos (by omega)]
  exact h1

theorem level_area {root t : Tile} {k : Nat} (h : Level root k t) : t.w * t.h = root.w * root.h / 2 ^ k := by
  rw [h.1, h.2, div_mul_div_comm, ← pow_add]
  congr 2
  omega

theorem level_shape {root t : Tile} {k : Nat} (hr : 0 < root.w ∧ 0 < root.h) (h : Level root k t) :
    t.w * root.h ≤ t.h * root.w ∧ t.h * root.w ≤ 2 * (t.w * root.h) := by
  have hA : 0 < root.w * root.h := mul_pos hr.1 hr.2
  have e1 : t.w * root.h = root.w * root.h / 2 ^ ((k + 1) / 2) := by rw [h.1]; ring
  have e2 : t.h * root.w = root.w * root.h / 2 ^ (k / 2) := by rw [h.2]; ring
  rw [e1, e2]
  by_cases hk : k % 2 = 0
  · have : (k + 1) / 2 = k / 2 := by omega
    rw [this]
    have : 0 < root.w * root.h / 2 ^ (k / 2) := by positivity
    constructor <;> linarith
  · have : (k + 1) / 2 = k / 2 + 1 := by omega
    rw [this, pow_succ, ← div_div]
    have : 0 < root.w * root.h / 2 ^ (k / 2) := by positivity
    constructor <;> linarith

/-- The area of a block. -/
def Block.area (b : Block) : Rat := b.width * b.height

/-- **C240.** With `2^k ≤ n < 2^(k+1)` processes there are `2^(k+1) - n` blocks of a `2^k`-th of the field; all others are
half of that. -/
theorem C240_sizes (rank size id : Nat) (root : Tile) (d : ℚ) (h : 0 < root.w ∧ 0 < root.h) (hs : 2 ≤ size) :
    ∃ l k, createTree rank size id root d = some l ∧ 2 ^ k ≤ size ∧ size < 2 ^ (k + 1) ∧
      (∀ b ∈ l.subtrees, b.area = root.w * root.h / 2 ^ k ∨ b.area = root.w * root.h / 2 ^ (k + 1)) ∧
      (l.subtrees.filter (fun b => b.area = root.w * root.h / 2 ^ k)).length = 2 ^ (k + 1) - size := by
  obtain ⟨ts, k, h1, h2, h3, h4, h5, _⟩ := subtrees_levels root hs
  obtain ⟨ts', h1', _, hpart, _⟩ := subtrees_spec h hs
  rw [h1] at h1'
  obtain rfl := Option.some.inj h1'
  have hA : 0 < root.w * root.h := mul_pos h.1 h.2
  refine ⟨layoutOf rank size root d (blocksFrom id ts) (boxAndNeighbors rank root (blocksFrom id ts)), k, ?_, by omega,
    by omega, ?_, ?_⟩
  · unfold createTree
    rw [if_neg (by omega), h1]
  · intro b hb
    have hb' : b.tile ∈ ts := by
      rw [← blocksFrom_tiles id ts]; exact List.mem_map_of_mem hb
    rcases h5 _ hb' with hl | hl
    · exact .inl (level_area hl)
    · exact .inr (level_area hl)
  · show ((blocksFrom id ts).filter _).length = _
    have e : ((blocksFrom id ts).filter (fun b => b.area = root.w * root.h / 2 ^ k)).length =
        (ts.filter (fun t => t.w * t.h = root.w * root.h / 2 ^ k)).length := by
      conv_rhs => rw [← blocksFrom_tiles id ts, List.filter_map, List.length_map]
      rfl
    rw [e]
    have hcount : ∀ (l : List Tile), (∀ t ∈ l, Level root k t ∨ Level root (k + 1) t) →
        (l.map (fun t => t.w * t.h)).sum * 2 ^ (k + 1) =
        root.w * root.h * ((l.filter (fun t => t.w * t.h = root.w * root.h / 2 ^ k)).length + l.length) := by
      intro l
      induction l with
      | nil => intro _; simp
      | cons t l ih =>
        intro hl
        have ih' := ih fun t ht => hl t (List.mem_cons_of_mem _ ht)
        rw [List.map_cons, List.sum_cons, add_mul, ih']
        have hp : (2 : ℚ) ^ k ≠ 0 := by positivity
        rcases hl t List.mem_cons_self with ht | ht
        · rw [List.filter_cons_of_pos (by simpa using level_area ht), level_area ht]
          simp only [List.length_cons]
          push_cast
          field_simp
          ring_nf
        · have hne : ¬ t.w * t.h = root.w * root.h / 2 ^ k := by
            rw [level_area ht]
            intro hh
            rw [pow_succ, ← div_div] at hh
            have : 0 < root.w * root.h / 2 ^ k := by positivity
            linarith
          rw [List.filter_cons_of_neg (by simpa using hne), level_area ht]
          simp only [List.length_cons]
          push_cast
          field_simp
          ring_nf
    have := hcount ts h5
    rw [hpart.area] at this
    have hc := mul_left_cancel₀ (ne_of_gt hA) this
    rw [h2] at hc
    have hc' : 2 ^ (k + 1) = (ts.filter (fun t => t.w * t.h = root.w * root.h / 2 ^ k)).length + size := by
      exact_mod_cast hc
    omega

/-- **C240.** No block is more than twice as large as another, and none exceeds twice the fair share or falls short of half
of it. -/
theorem C240_balance (rank size id : Nat) (root : Tile) (d : ℚ) (h : 0 < root.w ∧ 0 < root.h) (hs : 2 ≤ size) :
    ∃ l, createTree rank size id root d = some l ∧
      (∀ b ∈ l.subtrees, ∀ b' ∈ l.subtrees, b.area ≤ 2 * b'.area) ∧
      ∀ b ∈ l.subtrees, b.area < 2 * (root.w * root.h / size) ∧ root.w * root.h / size ≤ 2 * b.area := by
  obtain ⟨l, k, h1, h2, h3, h4, _⟩ := C240_sizes rank size id root d h hs
  have hA : 0 < root.w * root.h := mul_pos h.1 h.2
  have hk : (0 : ℚ) < 2 ^ k := by positivity
  have hq : 0 < root.w * root.h / 2 ^ k := div_pos hA hk
  have he : root.w * root.h / 2 ^ (k + 1) = root.w * root.h / 2 ^ k / 2 := by rw [pow_succ, div_div]
  have hsz : (0 : ℚ) < size := by exact_mod_cast (by omega : 0 < size)
  have hlt : (size : ℚ) < 2 * 2 ^ k := by
    have : size < 2 * 2 ^ k := by rw [Nat.pow_succ] at h3; omega
    exact_mod_cast this
  have hle : (2 : ℚ) ^ k ≤ size := by exact_mod_cast h2
  have hup : root.w * root.h / 2 ^ k < 2 * (root.w * root.h / size) := by
    rw [← mul_div_assoc, div_lt_div_iff₀ hk hsz]
    nlinarith
  have hlow : root.w * root.h / size ≤ root.w * root.h / 2 ^ k :=
    div_le_div_of_nonneg_left (le_of_lt hA) hk hle
  refine ⟨l, h1, ?_, ?_⟩
  · intro b hb b' hb'
    rcases h4 b hb with e | e <;> rcases h4 b' hb' with e' | e' <;> rw [e, e'] <;> linarith
  · intro b hb
    rcases h4 b hb with e | e <;> rw [e] <;> constructor <;> linarith

/-- **C240.** With a power of two of processes all blocks have the same width and height. -/
theorem C240_power_of_two (rank k id : Nat) (root : Tile) (d : ℚ) (hk : 1 ≤ k) :
    ∃ l, createTree rank (2 ^ k) id root d = some l ∧
      ∀ b ∈ l.subtrees, b.width = root.w / 2 ^ ((k + 1) / 2) ∧ b.height = root.h / 2 ^ (k / 2) := by
  have hp : 2 ≤ 2 ^ k := by
    calc 2 = 2 ^ 1 := rfl
      _ ≤ 2 ^ k := Nat.pow_le_pow_right (by omega) hk
  obtain ⟨ts, k', h1, h2, h3, h4, _, h6⟩ := subtrees_levels root hp
  have hkk : k' = k := by
    rw [h2] at h3 h4
    have a := (Nat.pow_le_pow_iff_right (by omega : 1 < 2)).1 h3
    have b := (Nat.pow_lt_pow_iff_right (by omega : 1 < 2)).1 h4
    omega
  subst hkk
  refine ⟨layoutOf rank (2 ^ k') root d (blocksFrom id ts) (boxAndNeighbors rank root (blocksFrom id ts)), ?_, ?_⟩
  · unfold createTree
    rw [if_neg (by omega), h1]
  · intro b hb
    have hb' : b.tile ∈ ts := by
      rw [← blocksFrom_tiles id ts]; exact List.mem_map_of_mem hb
    exact h6 h2 _ hb'

/-- **C240.** The blocks have the proportions of the field, or are narrower by half: on a square field no block is wider
than high nor more than twice as high as wide. -/
theorem C240_shape (rank size id : Nat) (root : Tile) (d : ℚ) (h : 0 < root.w ∧ 0 < root.h) (hs : 2 ≤ size) :
    ∃ l, createTree rank size id root d = some l ∧
      ∀ b ∈ l.subtrees, b.width * root.h ≤ b.height * root.w ∧ b.height * root.w ≤ 2 * (b.width * root.h) := by
  obtain ⟨ts, k, h1, _, _, _, h5, _⟩ := subtrees_levels root hs
  refine ⟨layoutOf rank size root d (blocksFrom id ts) (boxAndNeighbors rank root (blocksFrom id ts)), ?_, ?_⟩
  · unfold createTree
    rw [if_neg (by omega), h1]
  · intro b hb
    have hb' : b.tile ∈ ts := by
      rw [← blocksFrom_tiles id ts]; exact List.mem_map_of_mem hb
    rcases h5 _ hb' with hl | hl
    · exact level_shape h hl
    · exact level_shape h hl

/-- Five processes: three blocks of a quarter of the field, two of an eighth. -/
example : (createTree 2 5 0 ⟨0, 0, 8, 8⟩ 1).map (fun l => l.subtrees.map Block.area) = some [8, 8, 16, 16, 16] := by
  decide +kernel

end Verif.KdTree
