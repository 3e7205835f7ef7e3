import Verif.Spec.GeneticMpi
import Verif.Lemmas.Genetic
import Mathlib.Tactic.Ring
import Mathlib.Data.List.Flatten
import Mathlib.Data.List.Forall2
import Mathlib.Tactic.Tauto

namespace Verif.GeneticMpi

open Verif.Genetic

set_option linter.unusedSectionVars false

variable {I F : Type}

/-! ### The subdivision -/

theorem sizes_eq (per : Nat) : ∀ (k rem : Nat), rem ≤ k →
    sizes per rem k = List.replicate rem (per + 1) ++ List.replicate (k - rem) per := by
  intro k
  induction k with
  | zero => intro rem h; have : rem = 0 := by omega
            subst this; rfl
  | succ k ih =>
    intro rem h
    rw [sizes]
    by_cases hr : rem > 0
    · rw [if_pos hr, ih (rem - 1) (by omega)]
      obtain ⟨m, rfl⟩ : ∃ m, rem = m + 1 := ⟨rem - 1, by omega⟩
      rw [List.replicate_succ]
      congr 2
      simp
    · have : rem = 0 := by omega
      subst this
      rw [if_neg hr, ih 0 (by omega)]
      simp [List.replicate_succ]

theorem sum_replicate (n a : Nat) : (List.replicate n a).sum = n * a := by
  induction n with
  | zero => simp
  | succ n ih => rw [List.replicate_succ, List.sum_cons, ih]; ring

theorem sizes_sum (per : Nat) {k rem : Nat} (h : rem ≤ k) : (sizes per rem k).sum = k * per + rem := by
  rw [sizes_eq per k rem h]
  simp only [List.sum_append, sum_replicate]
  obtain ⟨m, rfl⟩ : ∃ m, k = rem + m := ⟨k - rem, by omega⟩
  rw [Nat.add_sub_cancel_left]
  ring

theorem sizes_length (per : Nat) : ∀ (k rem : Nat), (sizes per rem k).length = k := by
  intro k
  induction k with
  | zero => intro rem; rfl
  | succ k ih => intro rem; rw [sizes]; split <;> simp [ih]

theorem deal_eq : ∀ (ks : List Nat) (pop : List I), ks.sum = pop.length →
    ∃ blocks, deal ks pop = some blocks ∧ blocks.map List.length = ks ∧ blocks.flatten = pop := by
  intro ks
  induction ks with
  | nil =>
    intro pop h
    have : pop = [] := List.length_eq_zero_iff.1 (by simpa using h.symm)
    subst this
    exact ⟨[], rfl, rfl, rfl⟩
  | cons k ks ih =>
    intro pop h
    rw [List.sum_cons] at h
    obtain ⟨blocks, h1, h2, h3⟩ := ih (pop.drop k) (by rw [List.length_drop]; omega)
    refine ⟨pop.take k :: blocks, ?_, ?_, ?_⟩
    · rw [deal, if_pos (by omega), h1]; rfl
    · rw [List.map_cons, h2, List.length_take, Nat.min_eq_left (by omega)]
    · rw [List.flatten_cons, h3, List.take_append_drop]

/-! ### The work of a process -/

/-- The full rows of a block that starts at index `start`. -/
def blockRows (cb : Callbacks I F) (g start : Nat) (xs : List I) : List (Genetic.Row I F) :=
  (xs.zipIdx start).map (fun p => ⟨g, p.2, cb.fitness g p.2 p.1, p.1⟩)

theorem blockRows_cons (cb : Callbacks I F) (g start : Nat) (x : I) (xs : List I) :
    blockRows cb g start (x :: xs) = ⟨g, start, cb.fitness g start x, x⟩ :: blockRows cb g (start + 1) xs := rfl

theorem blockRows_append (cb : Callbacks I F) (g start : Nat) (xs ys : List I) :
    blockRows cb g start (xs ++ ys) = blockRows cb g start xs ++ blockRows cb g (start + xs.length) ys := by
  unfold blockRows
  rw [List.zipIdx_append, List.map_append]

theorem blockRows_zero (cb : Callbacks I F) (g : Nat) (xs : List I) : blockRows cb g 0 xs = fullRows cb g xs := rfl

theorem blockRows_length (cb : Callbacks I F) (g start : Nat) (xs : List I) : (blockRows cb g start xs).length = xs.length := by
  unfold blockRows; simp

theorem myBest_step (cmp : F → F → Bool) (b : Option (F × I)) (r : Genetic.Row I F) :
    myBest cmp b r.fitness r.individual = bestStep cmp b r := rfl

theorem work_spec (cb : Callbacks I F) (g start : Nat) (xs : List I) : ∀ (k : Nat) (b : Option (F × I)),
    (work cb g start k b xs).1.map (fun r => (⟨r.generation, r.index + start, r.fitness⟩ : Row F)) =
      (blockRows cb g (start + k) xs).map forget ∧
    (work cb g start k b xs).2.1 = (blockRows cb g (start + k) xs).foldl (bestStep cb.cmp) b ∧
    (work cb g start k b xs).2.2 = (blockRows cb g (start + k) xs).any (Good cb) := by
  induction xs with
  | nil => intro k b; exact ⟨rfl, rfl, rfl⟩
  | cons x xs ih =>
    intro k b
    rw [work, blockRows_cons]
    obtain ⟨h1, h2, h3⟩ := ih (k + 1) (myBest cb.cmp b (cb.fitness g (start + k) x) x)
    refine ⟨?_, ?_, ?_⟩
    · rw [List.map_cons, List.map_cons, h1]
      congr 1
      unfold forget
      simp [Nat.add_comm]
    · rw [List.foldl_cons]; exact h2
    · rw [List.any_cons]
      dsimp only
      rw [h3]
      rfl

theorem work_length (cb : Callbacks I F) (g start : Nat) (xs : List I) : ∀ (k : Nat) (b : Option (F × I)),
    (work cb g start k b xs).1.length = xs.length := by
  induction xs with
  | nil => intro k b; rfl
  | cons x xs ih => intro k b; rw [work, List.length_cons, ih, List.length_cons]

/-! ### Gathering -/

theorem reindex_block (counts ds : List Nat) {i d c : Nat} (hd : ds[i]? = some d) (hc : counts[i]? = some c)
    (rest : List (Row F)) : ∀ (rs : List (Row F)) (j : Nat), rs ≠ [] → j + rs.length = c →
    reindex counts ds i j (rs ++ rest) = (reindex counts ds (i + 1) 0 rest).map
      (fun l => rs.map (fun r => ⟨r.generation, r.index + d, r.fitness⟩) ++ l) := by
  intro rs
  induction rs with
  | nil => intro j h; exact absurd rfl h
  | cons r rs ih =>
    intro j _ hl
    rw [List.length_cons] at hl
    rw [List.cons_append, reindex, hd, hc]
    dsimp only
    by_cases h : j + 1 = c
    · rw [if_pos h]
      have : rs = [] := List.length_eq_zero_iff.1 (by omega)
      subst this
      rw [List.nil_append]
      cases reindex counts ds (i + 1) 0 rest <;> rfl
    · rw [if_neg h]
      have hne : rs ≠ [] := by rintro rfl; simp at hl; omega
      rw [ih (j + 1) hne (by omega)]
      cases reindex counts ds (i + 1) 0 rest <;> rfl

theorem reindex_all (counts ds : List Nat) : ∀ (rss : List (List (Row F))) (dd : List Nat) (i : Nat),
    rss.length = dd.length →
    (∀ t, t < rss.length → counts[i + t]? = some ((rss.getD t []).length) ∧ ds[i + t]? = some (dd.getD t 0)) →
    (∃ a b, rss = a ++ b ∧ (∀ rs ∈ a, rs ≠ []) ∧ ∀ rs ∈ b, rs = []) →
    reindex counts ds i 0 rss.flatten = some ((rss.zip dd).flatMap (fun p =>
      p.1.map (fun r => (⟨r.generation, r.index + p.2, r.fitness⟩ : Row F)))) := by
  intro rss
  induction rss with
  | nil => intro dd i _ _ _; rfl
  | cons rs rss ih =>
    intro dd i hl ht hs
    cases dd with
    | nil => simp at hl
    | cons d dd =>
      obtain ⟨a, b, hab, ha, hb⟩ := hs
      cases a with
      | nil =>
        have hall : ∀ l ∈ rs :: rss, l = [] := by rw [hab]; simpa using hb
        have hfl : (rs :: rss).flatten = [] := by
          rw [List.flatten_eq_nil_iff]; exact hall
        rw [hfl, reindex]
        congr 1
        symm
        rw [List.flatMap_eq_nil_iff]
        intro p hp
        have := (List.of_mem_zip (p.eta ▸ hp : (p.1, p.2) ∈ _)).1
        rw [hall _ this]
        rfl
      | cons a0 a =>
        rw [List.cons_append] at hab
        injection hab with h0 h1
        subst h0
        have hne := ha rs List.mem_cons_self
        have hz := ht 0 (by simp)
        simp only [Nat.add_zero, List.getD_cons_zero] at hz
        rw [List.flatten_cons, reindex_block counts ds hz.2 hz.1 rss.flatten rs 0 hne (by omega),
          ih dd (i + 1) (by simpa using hl) ?_ ⟨a, b, h1, fun l hl => ha l (List.mem_cons_of_mem _ hl), hb⟩]
        · rfl
        · intro t htl
          have := ht (t + 1) (by simpa using htl)
          simp only [List.getD_cons_succ] at this
          rw [show i + 1 + t = i + (t + 1) by omega]
          exact this

theorem workAll_rows (cb : Callbacks I F) (g : Nat) : ∀ (blocks : List (List I)) (acc : Nat) (bs : List (Option (F × I))),
    bs.length = blocks.length →
    ((workAll cb g (displs acc (blocks.map List.length)) bs blocks).map (fun w => w.1)).map List.length =
      blocks.map List.length ∧
    (((workAll cb g (displs acc (blocks.map List.length)) bs blocks).map (fun w => w.1)).zip
      (displs acc (blocks.map List.length))).flatMap (fun p =>
        p.1.map (fun r => (⟨r.generation, r.index + p.2, r.fitness⟩ : Row F))) =
      (blockRows cb g acc blocks.flatten).map forget ∧
    (workAll cb g (displs acc (blocks.map List.length)) bs blocks).any (fun w => w.2.2) =
      (blockRows cb g acc blocks.flatten).any (Good cb) := by
  intro blocks
  induction blocks with
  | nil => intro acc bs _; cases bs <;> exact ⟨rfl, rfl, rfl⟩
  | cons xs blocks ih =>
    intro acc bs hl
    cases bs with
    | nil => simp at hl
    | cons b bs =>
      obtain ⟨h1, h2, h3⟩ := ih (acc + xs.length) bs (by simpa using hl)
      obtain ⟨w1, w2, w3⟩ := work_spec cb g acc xs 0 b
      rw [List.map_cons, displs, workAll]
      refine ⟨?_, ?_, ?_⟩
      · rw [List.map_cons, List.map_cons, h1, work_length]
      · rw [List.map_cons, List.zip_cons_cons, List.flatMap_cons, h2, w1, List.flatten_cons, blockRows_append, List.map_append,
          Nat.add_zero]
      · rw [List.any_cons, h3, w3, List.flatten_cons, blockRows_append, List.any_append, Nat.add_zero]

theorem displs_length : ∀ (ks : List Nat) (acc : Nat), (displs acc ks).length = ks.length := by
  intro ks
  induction ks with
  | nil => intro acc; rfl
  | cons k ks ih => intro acc; rw [displs, List.length_cons, ih, List.length_cons]

theorem workAll_length (cb : Callbacks I F) (g : Nat) : ∀ (ds : List Nat) (bs : List (Option (F × I))) (blocks : List (List I)),
    ds.length = blocks.length → bs.length = blocks.length → (workAll cb g ds bs blocks).length = blocks.length := by
  intro ds
  induction ds with
  | nil => intro bs blocks h _; cases blocks with
    | nil => rfl
    | cons x xs => simp at h
  | cons d ds ih =>
    intro bs blocks h1 h2
    cases blocks with
    | nil => simp at h1
    | cons x xs =>
      cases bs with
      | nil => simp at h2
      | cons b bs =>
        rw [workAll, List.length_cons, ih bs xs (by simpa using h1) (by simpa using h2), List.length_cons]

theorem sizes_shape (per : Nat) {rem k : Nat} (h : rem ≤ k) :
    ∃ a b, sizes per rem k = a ++ b ∧ (∀ x ∈ a, x ≠ 0) ∧ ∀ x ∈ b, x = 0 := by
  rw [sizes_eq per k rem h]
  by_cases hp : per = 0
  · subst hp
    refine ⟨_, _, rfl, ?_, ?_⟩
    · intro x hx; rw [List.eq_of_mem_replicate hx]; omega
    · intro x hx; exact List.eq_of_mem_replicate hx
  · refine ⟨List.replicate rem (per + 1) ++ List.replicate (k - rem) per, [], by simp, ?_, by simp⟩
    intro x hx
    rcases List.mem_append.1 hx with hx | hx
    · rw [List.eq_of_mem_replicate hx]; omega
    · rw [List.eq_of_mem_replicate hx]; exact hp

/-- The generation, when it does not panic: its rows are those of the population in order with their own numbers, the flag says
whether one of them is good, and the bests are those of the processes. -/
theorem generation_spec (cb : Callbacks I F) {procs : Nat} (hp : 0 < procs) (s : State I F) (hb : s.bests.length = procs) :
    ∃ blocks : List (List I), blocks.length = procs ∧ blocks.flatten = s.population ∧
      blocks.map List.length = sizes (s.population.length / procs) (s.population.length % procs) procs ∧
      generation cb procs s = (allBests ((workAll cb (s.generation + 1) (displs 0 (blocks.map List.length)) s.bests
        blocks).map (fun w => w.2.1))).map (fun bests =>
          ((fullRows cb (s.generation + 1) s.population).map forget, bests,
            (fullRows cb (s.generation + 1) s.population).any (Good cb))) := by
  have hmod : s.population.length % procs ≤ procs := Nat.le_of_lt (Nat.mod_lt _ hp)
  obtain ⟨blocks, h1, h2, h3⟩ := deal_eq (sizes (s.population.length / procs) (s.population.length % procs) procs)
    s.population (by rw [sizes_sum _ hmod]; exact Nat.div_add_mod _ _)
  have hlen : blocks.length = procs := by
    have := congrArg List.length h2
    rwa [List.length_map, sizes_length] at this
  refine ⟨blocks, hlen, h3, h2, ?_⟩
  obtain ⟨w1, w2, w3⟩ := workAll_rows cb (s.generation + 1) blocks 0 s.bests (hb.trans hlen.symm)
  have hre : reindex (blocks.map List.length) (displs 0 (blocks.map List.length)) 0 0
      ((workAll cb (s.generation + 1) (displs 0 (blocks.map List.length)) s.bests blocks).flatMap (fun w => w.1)) =
      some ((fullRows cb (s.generation + 1) s.population).map forget) := by
    rw [List.flatMap_def, reindex_all (dd := displs 0 (blocks.map List.length)), w2, h3, blockRows_zero]
    · rw [List.length_map, displs_length, workAll_length _ _ _ _ _ (by rw [displs_length, List.length_map])
        (hb.trans hlen.symm), List.length_map]
    · intro t ht
      rw [Nat.zero_add]
      constructor
      · refine (congrArg (·[t]?) w1).symm.trans ?_
        generalize (workAll cb (s.generation + 1) (displs 0 (blocks.map List.length)) s.bests blocks).map (fun w => w.1) = l at ht
        show (l.map List.length)[t]? = _
        rw [List.getElem?_map, List.getElem?_eq_getElem ht]
        simp [List.getD, List.getElem?_eq_getElem ht]
      · have ht' : t < (displs 0 (blocks.map List.length)).length := by
          rw [List.length_map, workAll_length _ _ _ _ _ (by rw [displs_length, List.length_map]) (hb.trans hlen.symm)] at ht
          rwa [displs_length, List.length_map]
        rw [List.getElem?_eq_getElem ht']
        simp [List.getD, List.getElem?_eq_getElem ht']
    · obtain ⟨a, b, hab, ha, hbz⟩ := sizes_shape (s.population.length / procs) hmod
      rw [← h2, ← w1] at hab
      obtain ⟨a', b', hab', rfl, rfl⟩ := List.map_eq_append_iff.1 hab
      refine ⟨a', b', hab', ?_, ?_⟩
      · rintro rs hrs rfl
        exact ha _ (List.mem_map.2 ⟨_, hrs, rfl⟩) rfl
      · intro rs hrs
        exact List.length_eq_zero_iff.1 (hbz _ (List.mem_map.2 ⟨_, hrs, rfl⟩))
  unfold GeneticMpi.generation
  rw [h1]
  dsimp only
  rw [hre, w3, h3, blockRows_zero]
  cases allBests _ <;> rfl

/-! ### The pairs given to the selection -/

theorem pairs_eq (old : List (Row F)) (g n : Nat) (hold : old.length = (g - 1) * n) : ∀ (xs : List I) (fs : List (Row F)) (i : Nat)
    (pre : List (Row F)), pre.length = i → xs.length = fs.length →
    pairs (old ++ (pre ++ fs)) g n i xs = some ((xs.zip fs).map (fun p => (p.1, p.2.fitness))) := by
  intro xs
  induction xs with
  | nil => intro fs i pre _ _; rfl
  | cons x xs ih =>
    intro fs i pre hi hl
    cases fs with
    | nil => simp at hl
    | cons r fs =>
      have hg : (old ++ (pre ++ r :: fs))[(g - 1) * n + i]? = some r := by
        rw [List.getElem?_append_right (by omega), hold, Nat.add_sub_cancel_left,
          List.getElem?_append_right (by omega), hi, Nat.sub_self]
        rfl
      rw [pairs, hg]
      dsimp only
      have := ih fs (i + 1) (pre ++ [r]) (by simp [hi]) (by simpa using hl)
      rw [show pre ++ [r] ++ fs = pre ++ r :: fs by simp] at this
      rw [this]
      rfl

theorem zip_rows (cb : Callbacks I F) (g : Nat) : ∀ (xs : List I) (start : Nat),
    ((xs.zip ((blockRows cb g start xs).map forget)).map (fun p => (p.1, p.2.fitness))) =
      (blockRows cb g start xs).map (fun r => (r.individual, r.fitness)) := by
  intro xs
  induction xs with
  | nil => intro start; rfl
  | cons x xs ih =>
    intro start
    rw [blockRows_cons, List.map_cons, List.zip_cons_cons, List.map_cons, List.map_cons, ih]
    rfl

theorem pairs_rows (cb : Callbacks I F) (old : List (Row F)) (g : Nat) (pop : List I)
    (hold : old.length = g * pop.length) :
    pairs (old ++ (fullRows cb (g + 1) pop).map forget) (g + 1) pop.length 0 pop =
      some ((fullRows cb (g + 1) pop).map (fun r => (r.individual, r.fitness))) := by
  have := pairs_eq (I := I) old (g + 1) pop.length (by simpa using hold) pop
    ((fullRows cb (g + 1) pop).map forget) 0 [] rfl (by simp [fullRows])
  rw [List.nil_append] at this
  rw [this, ← blockRows_zero, zip_rows]

/-! ### The bests of the processes -/

/-- `b` is the best of the rows `h`. -/
def BestP (cmp : F → F → Bool) (h : List (Genetic.Row I F)) : Option (F × I) → Prop
  | none => h = []
  | some (f, x) => Top cmp h f ∧ ∃ r ∈ h, r.fitness = f ∧ r.individual = x

theorem fold_hist {cmp : F → F → Bool} {h : List (Genetic.Row I F)} {b : Option (F × I)} (hb : BestP cmp h b)
    (rows : List (Genetic.Row I F)) : BestP cmp (h ++ rows) (rows.foldl (bestStep cmp) b) := by
  cases b with
  | some fx =>
    obtain ⟨f, x⟩ := fx
    obtain ⟨f', x', h1, h2, h3⟩ := foldl_best cmp rows h f x hb.1 hb.2
    rw [h1]
    exact ⟨h2, h3⟩
  | none =>
    have : h = [] := hb
    subst this
    by_cases hr : rows = []
    · subst hr; rfl
    · obtain ⟨f, x, h1, h2, h3⟩ := bestGen_some cmp hr
      show BestP cmp ([] ++ rows) (bestGen cmp rows)
      rw [h1, List.nil_append]
      exact ⟨h2, h3⟩

theorem workAll_bests (cb : Callbacks I F) (g : Nat) : ∀ (blocks : List (List I)) (acc : Nat) (hs : List (List (Genetic.Row I F)))
    (bs : List (Option (F × I))), bs.length = blocks.length → List.Forall₂ (BestP cb.cmp) hs bs →
    ∃ hs', List.Forall₂ (BestP cb.cmp) hs'
        ((workAll cb g (displs acc (blocks.map List.length)) bs blocks).map (fun w => w.2.1)) ∧
      ∀ r, r ∈ hs'.flatten ↔ r ∈ hs.flatten ∨ r ∈ blockRows cb g acc blocks.flatten := by
  intro blocks
  induction blocks with
  | nil =>
    intro acc hs bs hl hf
    have : bs = [] := List.length_eq_zero_iff.1 (by simpa using hl)
    subst this
    cases hf
    exact ⟨[], List.Forall₂.nil, by simp [blockRows]⟩
  | cons xs blocks ih =>
    intro acc hs bs hl hf
    cases hf with
    | nil => simp at hl
    | @cons h b hs bs hb hf =>
      obtain ⟨hs', h1, h2⟩ := ih (acc + xs.length) hs bs (by simpa using hl) hf
      obtain ⟨_, w2, _⟩ := work_spec cb g acc xs 0 b
      refine ⟨(h ++ blockRows cb g acc xs) :: hs', ?_, ?_⟩
      · rw [List.map_cons, displs, workAll, List.map_cons]
        refine List.Forall₂.cons ?_ h1
        rw [w2]
        exact fold_hist hb _
      · intro r
        rw [List.flatten_cons, List.flatten_cons, List.flatten_cons, blockRows_append]
        simp only [List.mem_append, h2]
        tauto

theorem allBests_some : ∀ (bs : List (Option (F × I))), (∀ b ∈ bs, b ≠ none) → ∃ l, allBests bs = some l ∧ bs = l.map some := by
  intro bs
  induction bs with
  | nil => intro _; exact ⟨[], rfl, rfl⟩
  | cons b bs ih =>
    intro h
    cases b with
    | none => exact absurd rfl (h none List.mem_cons_self)
    | some b =>
      obtain ⟨l, h1, h2⟩ := ih (fun b hb => h b (List.mem_cons_of_mem _ hb))
      exact ⟨b :: l, by rw [allBests, h1]; rfl, by rw [List.map_cons, ← h2]⟩

theorem allBests_none {bs : List (Option (F × I))} (h : none ∈ bs) : allBests bs = none := by
  induction bs with
  | nil => simp at h
  | cons b bs ih =>
    cases b with
    | none => rfl
    | some b =>
      rcases List.mem_cons.1 h with h | h
      · simp at h
      · rw [allBests, ih h]; rfl

theorem allBests_eq {bs : List (Option (F × I))} {l : List (F × I)} (h : allBests bs = some l) : bs = l.map some := by
  by_cases hn : none ∈ bs
  · rw [allBests_none hn] at h; simp at h
  · obtain ⟨l', h1, h2⟩ := allBests_some bs (fun b hb hb' => hn (hb' ▸ hb))
    rw [h1] at h
    injection h with h
    rw [← h]
    exact h2

theorem bestFold {cmp : F → F → Bool} : ∀ (l : List (F × I)) (hs : List (List (Genetic.Row I F))),
    List.Forall₂ (fun h b => BestP cmp h (some b)) hs l → ∀ (seen : List (Genetic.Row I F)) (b : F × I), BestP cmp seen (some b) →
    BestP cmp (seen ++ hs.flatten) (some (l.foldl (fun m c => if cmp c.1 m.1 = true then c else m) b)) := by
  intro l hs hf
  induction hf with
  | nil => intro seen b h; simpa using h
  | @cons h c hs l hc _ ih =>
    intro seen b hb
    rw [List.flatten_cons, ← List.append_assoc, List.foldl_cons]
    obtain ⟨f, x⟩ := b
    obtain ⟨f', x'⟩ := c
    obtain ⟨t1, r1, m1, e1⟩ := hb
    obtain ⟨t2, r2, m2, e2⟩ := hc
    apply ih
    by_cases hcmp : cmp f' f = true
    · rw [if_pos hcmp]
      exact ⟨t1.replace t2 hcmp, r2, List.mem_append_right _ m2, e2⟩
    · rw [if_neg hcmp]
      exact ⟨t1.keep t2 hcmp, r1, List.mem_append_left _ m1, e1⟩

theorem bestOfAll_spec {cmp : F → F → Bool} {l : List (F × I)} {hs : List (List (Genetic.Row I F))}
    (hf : List.Forall₂ (BestP cmp) hs (l.map some)) (hne : l ≠ []) :
    ∃ b, bestOfAll cmp l = some b ∧ BestP cmp hs.flatten (some b) := by
  have hf' : List.Forall₂ (fun h b => BestP cmp h (some b)) hs l := by
    rwa [List.forall₂_map_right_iff] at hf
  cases hf' with
  | nil => exact absurd rfl hne
  | @cons h b hs l hb hf' =>
    exact ⟨_, rfl, by rw [List.flatten_cons]; exact bestFold l hs hf' h b hb⟩

theorem BestP.congr {cmp : F → F → Bool} {h h' : List (Genetic.Row I F)} {b : F × I} (hm : ∀ r, r ∈ h ↔ r ∈ h')
    (hb : BestP cmp h (some b)) : BestP cmp h' (some b) := by
  obtain ⟨f, x⟩ := b
  obtain ⟨⟨t1, t2⟩, r, m, e⟩ := hb
  exact ⟨⟨fun hs r hr => t1 hs r ((hm r).2 hr), fun ht r hr => t2 ht r ((hm r).2 hr)⟩, r, (hm r).1 m, e⟩

theorem foldl_isSome (cmp : F → F → Bool) : ∀ (rows : List (Genetic.Row I F)) (b : Option (F × I)), rows ≠ [] ∨ b ≠ none →
    rows.foldl (bestStep cmp) b ≠ none := by
  intro rows
  induction rows with
  | nil => intro b h; rcases h with h | h
           · exact absurd rfl h
           · exact h
  | cons r rows ih =>
    intro b _
    rw [List.foldl_cons]
    apply ih
    right
    unfold bestStep
    split
    · split <;> simp
    · simp

theorem workAll_some (cb : Callbacks I F) (g : Nat) : ∀ (ds : List Nat) (bs : List (Option (F × I))) (blocks : List (List I)),
    (∀ xs ∈ blocks, xs ≠ []) → ∀ w ∈ workAll cb g ds bs blocks, w.2.1 ≠ none := by
  intro ds
  induction ds with
  | nil => intro bs blocks _ w hw; simp [workAll] at hw
  | cons d ds ih =>
    intro bs blocks hb w hw
    cases bs with
    | nil => simp [workAll] at hw
    | cons b bs =>
      cases blocks with
      | nil => simp [workAll] at hw
      | cons xs blocks =>
        rw [workAll] at hw
        rcases List.mem_cons.1 hw with rfl | hw
        · rw [(work_spec cb g d xs 0 b).2.1]
          apply foldl_isSome
          left
          intro h
          have := congrArg List.length h
          rw [blockRows_length] at this
          exact hb xs List.mem_cons_self (List.length_eq_zero_iff.1 (by simpa using this))
        · exact ih bs blocks (fun xs hxs => hb xs (List.mem_cons_of_mem _ hxs)) w hw

/-! ### The best rows -/

theorem foldl_bestFitness (cmp : F → F → Bool) : ∀ (rows : List (Genetic.Row I F)) (b : Option (F × I)),
    (rows.map forget).foldl (bestFitness cmp) (b.map Prod.fst) = (rows.foldl (bestStep cmp) b).map Prod.fst := by
  intro rows
  induction rows with
  | nil => intro b; rfl
  | cons r rows ih =>
    intro b
    rw [List.map_cons, List.foldl_cons, List.foldl_cons, ← ih]
    congr 1
    cases b with
    | none => rfl
    | some fx =>
      obtain ⟨f, x⟩ := fx
      show (if cmp r.fitness f = true then some r.fitness else some f) = _
      unfold bestStep
      dsimp only
      split <;> rfl

theorem updateBest_eq (cmp : F → F → Bool) (g : Nat) (b : Option (Best I F)) (bg : Option (F × I)) :
    GeneticMpi.updateBest cmp g (b.map (fun b => (b.fitness, b.generation))) (bg.map Prod.fst) =
      (Genetic.updateBest cmp g b bg).map (fun b => (b.fitness, b.generation)) := by
  cases bg with
  | none => rfl
  | some fx =>
    obtain ⟨f, x⟩ := fx
    cases b with
    | none => rfl
    | some b =>
      unfold GeneticMpi.updateBest Genetic.updateBest
      dsimp only [Option.map_some]
      split <;> rfl

/-- The best row: the dummy, or a row; no row beats it. -/
theorem bestRow_spec (cmp : F → F → Bool) (rows : List (Row F)) : ∀ (b : Row F),
    (rows.foldl (bestRow cmp) b = b ∨ rows.foldl (bestRow cmp) b ∈ rows) ∧
    (StrictWeak cmp → cmp b.fitness (rows.foldl (bestRow cmp) b).fitness = false ∧
      ∀ r ∈ rows, cmp r.fitness (rows.foldl (bestRow cmp) b).fitness = false) := by
  induction rows with
  | nil => intro b; exact ⟨Or.inl rfl, fun hs => ⟨hs.irrefl _, by simp⟩⟩
  | cons r rows ih =>
    intro b
    rw [List.foldl_cons]
    obtain ⟨h1, h2⟩ := ih (bestRow cmp b r)
    by_cases hc : cmp r.fitness b.fitness = true
    · have hb : bestRow cmp b r = r := by unfold bestRow; rw [if_pos hc]
      rw [hb] at h1 h2 ⊢
      refine ⟨Or.inr ?_, ?_⟩
      · rcases h1 with h1 | h1
        · rw [h1]; exact List.mem_cons_self
        · exact List.mem_cons_of_mem _ h1
      · intro hs
        obtain ⟨h3, h4⟩ := h2 hs
        refine ⟨?_, ?_⟩
        · cases hx : cmp b.fitness (rows.foldl (bestRow cmp) r).fitness with
          | false => rfl
          | true => rw [hs.trans _ _ _ hc hx] at h3; exact h3
        · intro r' hr'
          rcases List.mem_cons.1 hr' with rfl | hr'
          · exact h3
          · exact h4 r' hr'
    · have hb : bestRow cmp b r = b := by unfold bestRow; rw [if_neg hc]
      rw [hb] at h1 h2 ⊢
      refine ⟨?_, ?_⟩
      · rcases h1 with h1 | h1
        · exact Or.inl h1
        · exact Or.inr (List.mem_cons_of_mem _ h1)
      · intro hs
        obtain ⟨h3, h4⟩ := h2 hs
        refine ⟨h3, ?_⟩
        intro r' hr'
        rcases List.mem_cons.1 hr' with rfl | hr'
        · cases hx : cmp r'.fitness (rows.foldl (bestRow cmp) b).fitness with
          | false => rfl
          | true =>
            rcases hs.incomp _ _ b.fitness hx with h5 | h5
            · exact absurd h5 hc
            · rw [h3] at h5; exact absurd h5 (by decide)
        · exact h4 r' hr'

theorem bestRow_none (cmp : F → F → Bool) (rows : List (Row F)) (b : Row F) (h : ∀ r ∈ rows, cmp r.fitness b.fitness = false) :
    rows.foldl (bestRow cmp) b = b := by
  induction rows with
  | nil => rfl
  | cons r rows ih =>
    rw [List.foldl_cons]
    have hb : bestRow cmp b r = b := by unfold bestRow; rw [if_neg (by rw [h r List.mem_cons_self]; decide)]
    rw [hb]
    exact ih (fun r hr => h r (List.mem_cons_of_mem _ hr))

/-! ### The whole search -/

variable [DecidableEq F]

/-- The states of the distributed search and of the search on one computer correspond. -/
structure Rel (cb : Callbacks I F) (dummy : F) (procs n : Nat) (s : Genetic.State I F) (m : State I F) : Prop where
  gen : m.generation = s.generation
  pop : m.population = s.population
  size : s.population.length = n
  rows : m.rows = s.rows.map forget
  count : s.rows.length = s.generation * n
  best : m.best = s.best.map (fun b => (b.fitness, b.generation))
  bests : ∃ hs, List.Forall₂ (BestP cb.cmp) hs m.bests ∧ ∀ r, r ∈ hs.flatten ↔ r ∈ s.rows
  procs : m.bests.length = procs
  row : m.row = (s.rows.map forget).foldl (bestRow cb.cmp) ⟨0, 0, dummy⟩
  string : s.best ≠ none → ∃ b, m.string = some b ∧ BestP cb.cmp s.rows (some b)

theorem sizes_pos {n procs : Nat} (hp : 0 < procs) (hn : procs ≤ n) : ∀ k ∈ sizes (n / procs) (n % procs) procs, k ≠ 0 := by
  intro k hk
  rw [sizes_eq _ _ _ (Nat.le_of_lt (Nat.mod_lt _ hp))] at hk
  have : 0 < n / procs := Nat.div_pos hn hp
  rcases List.mem_append.1 hk with hk | hk
  · rw [List.eq_of_mem_replicate hk]; omega
  · rw [List.eq_of_mem_replicate hk]; omega

theorem loop_sim {cb : Callbacks I F} {dummy : F} {procs n : Nat} (hp : 0 < procs) (hn : procs ≤ n)
    (hd : ∀ g k x, cb.fitness g k x ≠ dummy)
    (hsize : ∀ g l, l.length = n → 1 < (cb.select g l).length ∧ (cb.cross g ((cb.select g l).map Prod.fst)).length = n)
    (limit : Nat) {small : Nat} (hsm : small ≤ 1) : ∀ (fuel : Nat) (s : Genetic.State I F) (m : State I F), Rel cb dummy procs n s m →
    ∀ rows b, Genetic.loop cb (evalPar cb) small limit fuel s = .finished rows b →
      ∃ str, GeneticMpi.loop cb dummy limit procs fuel m = .finished (rows.map forget) (b.fitness, b.generation)
        ((rows.map forget).foldl (bestRow cb.cmp) ⟨0, 0, dummy⟩) (some str) ∧ BestP cb.cmp rows (some str) := by
  intro fuel
  induction fuel with
  | zero => intro s m _ rows b h; simp [Genetic.loop] at h
  | succ fuel ih =>
    intro s m hr rows b h
    rw [Genetic.loop, Genetic.round] at h
    rw [GeneticMpi.loop, GeneticMpi.round, hr.gen]
    by_cases hlim : limit ≠ 0 ∧ s.generation = limit
    · rw [if_pos hlim] at h ⊢
      dsimp only at h ⊢
      rw [hr.best]
      cases hb : s.best with
      | none => rw [hb] at h; simp at h
      | some b0 =>
        rw [hb] at h
        dsimp only at h
        injection h with h1 h2
        subst h1
        subst h2
        obtain ⟨str, h3, h4⟩ := hr.string (by rw [hb]; simp)
        exact ⟨str, by rw [hr.rows, hr.row, h3]; rfl, h4⟩
    · rw [if_neg hlim] at h ⊢
      obtain ⟨blocks, g1, g2, g3, g4⟩ := generation_spec cb hp m hr.procs
      obtain ⟨hs, f1, f2⟩ := hr.bests
      obtain ⟨hs', f3, f4⟩ := workAll_bests cb (m.generation + 1) blocks 0 hs m.bests (by rw [hr.procs, g1]) f1
      have hne : ∀ xs ∈ blocks, xs ≠ [] := by
        rintro xs hxs rfl
        refine sizes_pos hp (n := n) hn 0 ?_ rfl
        rw [show n = m.population.length by rw [hr.pop, hr.size], ← g3]
        exact List.mem_map.2 ⟨[], hxs, rfl⟩
      obtain ⟨bl, b1, b2⟩ := allBests_some ((workAll cb (m.generation + 1) (displs 0 (blocks.map List.length)) m.bests
        blocks).map (fun w => w.2.1)) (by
          intro b hb
          obtain ⟨w, hw, rfl⟩ := List.mem_map.1 hb
          exact workAll_some cb _ _ _ _ hne w hw)
      rw [b2] at f3
      have hblen : bl.length = procs := by
        have h1 := congrArg List.length b2
        rw [List.length_map, List.length_map, workAll_length _ _ _ _ _ (by rw [displs_length, List.length_map])
          (by rw [hr.procs, g1])] at h1
        rw [← h1, g1]
      have hblne : bl ≠ [] := by rintro rfl; simp at hblen; omega
      obtain ⟨str, t1, t2⟩ := bestOfAll_spec f3 hblne
      have hmem : ∀ r, r ∈ hs'.flatten ↔ r ∈ s.rows ++ fullRows cb (s.generation + 1) s.population := by
        intro r
        rw [f4, f2, g2, blockRows_zero, hr.gen, hr.pop, List.mem_append]
      have t3 := t2.congr hmem
      rw [g4, b1, hr.gen, hr.pop, Option.map_some]
      dsimp only
      rw [if_neg]
      swap
      · intro hany
        obtain ⟨r, h1, h2⟩ := List.any_eq_true.1 hany
        obtain ⟨r', h3, rfl⟩ := List.mem_map.1 h1
        unfold fullRows at h3
        obtain ⟨p, _, rfl⟩ := List.mem_map.1 h3
        exact hd _ _ _ (of_decide_eq_true h2)
      have hbest : GeneticMpi.updateBest cb.cmp (s.generation + 1) m.best
          (((fullRows cb (s.generation + 1) s.population).map forget).foldl (bestFitness cb.cmp) none) =
          (Genetic.updateBest cb.cmp (s.generation + 1) s.best
            (bestGen cb.cmp (fullRows cb (s.generation + 1) s.population))).map (fun b => (b.fitness, b.generation)) := by
        rw [hr.best, ← updateBest_eq]
        congr 1
        exact foldl_bestFitness cb.cmp _ none
      rw [hbest]
      rw [(evalPar_eq cb (s.generation + 1) s.population).1, (evalPar_eq cb (s.generation + 1) s.population).2, id] at h
      cases hu : Genetic.updateBest cb.cmp (s.generation + 1) s.best
          (bestGen cb.cmp (fullRows cb (s.generation + 1) s.population)) with
      | none => rw [hu] at h; simp at h
      | some b0 =>
        rw [hu] at h
        dsimp only [Option.map_some] at h ⊢
        have hrow : ((fullRows cb (s.generation + 1) s.population).map forget).foldl (bestRow cb.cmp) m.row =
            ((s.rows ++ fullRows cb (s.generation + 1) s.population).map forget).foldl (bestRow cb.cmp) ⟨0, 0, dummy⟩ := by
          rw [hr.row, List.map_append, List.foldl_append]
        by_cases hf : (fullRows cb (s.generation + 1) s.population).any (Good cb) = true
        · rw [if_pos hf] at h ⊢
          dsimp only at h ⊢
          injection h with h1 h2
          subst h1
          subst h2
          exact ⟨str, by rw [hr.rows, hrow, t1, ← List.map_append], t3⟩
        · rw [if_neg hf] at h ⊢
          rw [hr.rows, pairs_rows cb _ s.generation s.population (by rw [List.length_map, hr.count, hr.size])]
          dsimp only
          have hfl : ((fullRows cb (s.generation + 1) s.population).map (fun r => (r.individual, r.fitness))).length = n := by
            rw [List.length_map, ← hr.size]; simp [fullRows]
          obtain ⟨z1, z2⟩ := hsize (s.generation + 1) _ hfl
          rw [if_neg (by omega)] at h ⊢
          dsimp only at h ⊢
          apply ih _ _ _ _ _ h
          refine ⟨rfl, rfl, ?_, ?_, ?_, rfl, ⟨hs', f3, hmem⟩, ?_, hrow, fun _ => ⟨str, t1, t3⟩⟩
          · dsimp only
            rw [mutateAll_from, List.length_map, List.length_zipIdx, z2]
          · dsimp only
            rw [List.map_append]
          · dsimp only
            rw [List.length_append, hr.count]
            simp [fullRows, hr.size]
            ring
          · dsimp only
            rw [List.length_map, hblen]

theorem rel_init (cb : Callbacks I F) (dummy : F) (procs : Nat) (init : List I) :
    Rel cb dummy procs init.length ⟨0, init, [], none⟩
      ⟨0, init, [], List.replicate procs none, none, ⟨0, 0, dummy⟩, none⟩ := by
  refine ⟨rfl, rfl, rfl, rfl, by simp, rfl, ⟨List.replicate procs [], ?_, by simp⟩, by simp, rfl, fun h => absurd rfl h⟩
  induction procs with
  | zero => exact List.Forall₂.nil
  | succ p ih => rw [List.replicate_succ, List.replicate_succ]; exact List.Forall₂.cons rfl ih

end Verif.GeneticMpi
