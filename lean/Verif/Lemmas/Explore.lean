import Verif.Spec.Explore
import Mathlib.Data.List.Flatten
import Mathlib.Data.List.Perm.Basic
import Mathlib.Data.List.Nodup
import Mathlib.Data.List.Forall2
import Mathlib.Algebra.BigOperators.Ring.List
import Mathlib.Tactic.Ring
import Mathlib.Tactic.Linarith

namespace Verif.Explore

set_option linter.unusedSectionVars false

variable {V S : Type}

/-! ### The table -/

theorem fillRow_length (rep size n : Nat) : ∀ i, (fillRow rep size n i).length = n * rep := by
  induction n with
  | zero => intro i; simp [fillRow]
  | succ n ih => intro i; rw [fillRow, List.length_append, List.length_replicate, ih]; ring

theorem fillRow_get (rep size : Nat) (n : Nat) : ∀ i k, i < size → k < n * rep →
    (fillRow rep size n i)[k]? = some ((i + k / rep) % size) := by
  induction n with
  | zero => intro i k _ hk; omega
  | succ n ih =>
    intro i k hi hk
    have hrep : 0 < rep := by
      rcases Nat.eq_zero_or_pos rep with h | h
      · subst h; simp at hk
      · exact h
    rw [fillRow]
    by_cases h : k < rep
    · rw [List.getElem?_append_left (by simpa using h), List.getElem?_replicate, if_pos h, Nat.div_eq_of_lt h,
        Nat.add_zero, Nat.mod_eq_of_lt hi]
    · rw [List.getElem?_append_right (by simp; omega), List.length_replicate,
        ih _ _ (Nat.mod_lt _ (by omega)) (by rw [Nat.succ_mul] at hk; omega)]
      congr 1
      obtain ⟨m, rfl⟩ : ∃ m, k = m + rep := ⟨k - rep, by omega⟩
      rw [Nat.add_sub_cancel, Nat.add_div_right _ hrep, Nat.mod_add_mod]
      congr 1
      omega

/-- The product of the sizes. -/
def prod : List Nat → Nat
  | [] => 1
  | k :: ks => k * prod ks

theorem nConf_exaustive (sizes : List Nat) : nConf .exaustive sizes = prod sizes := by
  have : ∀ (sizes : List Nat) (a : Nat), sizes.foldl (fun n k => n * k) a = a * prod sizes := by
    intro sizes
    induction sizes with
    | nil => intro a; simp [prod]
    | cons k ks ih => intro a; rw [List.foldl_cons, ih, prod]; ring
  unfold nConf
  dsimp only
  rw [this, Nat.one_mul]

theorem prod_pos {sizes : List Nat} (h : ∀ k ∈ sizes, 0 < k) : 0 < prod sizes := by
  induction sizes with
  | nil => simp [prod]
  | cons k ks ih =>
    rw [prod]
    exact Nat.mul_pos (h k List.mem_cons_self) (ih (fun k hk => h k (List.mem_cons_of_mem _ hk)))

/-- The index of every input in configuration `i`. -/
def digitsOf : List Nat → Nat → List Nat
  | [], _ => []
  | k :: ks, i => (i / prod ks) % k :: digitsOf ks i

theorem digitsOf_mod (ks : List Nat) (i m : Nat) (h : prod ks ∣ m) : digitsOf ks (i % m) = digitsOf ks i := by
  induction ks with
  | nil => rfl
  | cons k ks ih =>
    rw [prod] at h
    rw [digitsOf, digitsOf, ih (Dvd.dvd.trans (Dvd.intro_left _ rfl) h)]
    congr 1
    obtain ⟨c, rfl⟩ := h
    rw [show k * prod ks * c = prod ks * (k * c) by ring, Nat.mod_mul_right_div_self, Nat.mod_mul_right_mod]

/-- The elements at these indices. -/
def sel : List (List V) → List Nat → Option (List V)
  | [], _ => some []
  | _ :: _, [] => none
  | l :: ls, k :: ks =>
    match l[k]?, sel ls ks with
    | some v, some vs => some (v :: vs)
    | _, _ => none

theorem build_spec {n : Nat} {sizes : List Nat} (h : ∀ k ∈ sizes, 0 < k) :
    ∃ tab, buildRows n (prod sizes) sizes = some tab ∧ ∀ (inputs : List (List V)), inputs.length = sizes.length →
      ∀ i, i < n → pick i inputs tab = sel inputs (digitsOf sizes i) := by
  induction sizes with
  | nil =>
    refine ⟨[], rfl, ?_⟩
    intro inputs hi i _
    have : inputs = [] := by simpa using hi
    subst this
    rfl
  | cons k ks ih =>
    have hk := h k List.mem_cons_self
    have hks : ∀ k ∈ ks, 0 < k := fun k hk => h k (List.mem_cons_of_mem _ hk)
    obtain ⟨tab, h1, h2⟩ := ih hks
    refine ⟨fillRow (prod ks) k n 0 :: tab, ?_, ?_⟩
    · rw [buildRows, if_neg (by omega), prod, Nat.mul_div_cancel_left _ hk, h1]
      rfl
    · intro inputs hi i hin
      cases inputs with
      | nil => simp at hi
      | cons l ls =>
        have hlt : i < n * prod ks := by
          have := Nat.le_mul_of_pos_right n (prod_pos hks)
          omega
        rw [pick, fillRow_get _ _ _ _ _ hk hlt, Nat.zero_add, digitsOf, sel, h2 ls (by simpa using hi) i hin]
        dsimp only
        cases l[i / prod ks % k]? <;> cases sel ls (digitsOf ks i) <;> rfl

theorem range_mul (a b : Nat) : List.range (a * b) =
    (List.range a).flatMap (fun i => (List.range b).map (fun j => i * b + j)) := by
  induction a with
  | zero => simp
  | succ a ih =>
    rw [List.range_succ, List.flatMap_append, ← ih, Nat.succ_mul, List.range_add, List.flatMap_singleton]

theorem flatMap_eq_range {α β : Type} (l : List α) (f : α → List β) (g : Nat → List β)
    (h : ∀ i a, l[i]? = some a → g i = f a) : (List.range l.length).flatMap g = l.flatMap f := by
  induction l generalizing g with
  | nil => rfl
  | cons a l ih =>
    rw [List.length_cons, List.range_succ_eq_map, List.flatMap_cons, List.flatMap_cons, h 0 a rfl, List.flatMap_map]
    congr 1
    exact ih (fun i => g (i + 1)) (fun i b hi => h (i + 1) b (by simpa using hi))

theorem sel_combinations (inputs : List (List V)) :
    (List.range (prod (inputs.map List.length))).map (fun i => sel inputs (digitsOf (inputs.map List.length) i)) =
      (combinations inputs).map some := by
  induction inputs with
  | nil => rfl
  | cons l ls ih =>
    rw [List.map_cons, prod, range_mul, List.map_flatMap, combinations, List.map_flatMap]
    apply flatMap_eq_range
    intro a v hv
    have ha : a < l.length := (List.getElem?_eq_some_iff.1 hv).1
    rw [List.map_map]
    have : (combinations ls).map ((some : List V → Option (List V)) ∘ fun c => v :: c) =
        ((combinations ls).map some).map (fun o => o.map (fun c => v :: c)) := by
      rw [List.map_map]; rfl
    rw [List.map_map, this, ← ih, List.map_map]
    apply List.map_congr_left
    intro b hb
    have hb' : b < prod (ls.map List.length) := List.mem_range.1 hb
    have hP : 0 < prod (ls.map List.length) := by omega
    show sel (l :: ls) (digitsOf (l.length :: ls.map List.length) (a * prod (ls.map List.length) + b)) =
      (sel ls (digitsOf (ls.map List.length) b)).map (fun c => v :: c)
    rw [digitsOf, sel]
    have e1 : (a * prod (ls.map List.length) + b) / prod (ls.map List.length) = a := by
      rw [Nat.mul_comm, Nat.mul_add_div hP, Nat.div_eq_of_lt hb', Nat.add_zero]
    have e2 : digitsOf (ls.map List.length) (a * prod (ls.map List.length) + b) = digitsOf (ls.map List.length) b := by
      rw [← digitsOf_mod _ (a * prod (ls.map List.length) + b) (prod (ls.map List.length)) (dvd_refl _),
        Nat.mul_add_mod', Nat.mod_eq_of_lt hb']
    rw [e1, e2, Nat.mod_eq_of_lt ha, hv]
    cases sel ls (digitsOf (ls.map List.length) b) <;> rfl

/-- An empty input makes the table fail. -/
theorem build_empty {n rep : Nat} {sizes : List Nat} (h : 0 ∈ sizes) : buildRows n rep sizes = none := by
  induction sizes generalizing rep with
  | nil => simp at h
  | cons k ks ih =>
    rw [buildRows]
    by_cases hk : k = 0
    · rw [if_pos hk]
    · rw [if_neg hk, ih]
      · rfl
      · rcases List.mem_cons.1 h with h | h
        · exact absurd h.symm hk
        · exact h

/-! ### Rows -/

theorem repeatRows_eq (sim : S → S) (label : Nat → Nat) (i n : Nat) : ∀ j s,
    repeatRows sim label i n j s = (List.range n).map (fun m => ⟨i, label (j + m), sim^[m + 1] s⟩) := by
  induction n with
  | zero => intro j s; rfl
  | succ n ih =>
    intro j s
    rw [repeatRows, ih, List.range_succ_eq_map, List.map_cons, List.map_map]
    congr 1
    apply List.map_congr_left
    intro m _
    show (⟨i, label (j + 1 + m), sim^[m + 1] (sim s)⟩ : Row S) = ⟨i, label (j + (m + 1)), sim^[m + 1 + 1] s⟩
    rw [Function.iterate_succ_apply (n := m + 1), show j + 1 + m = j + (m + 1) by omega]

theorem joinAll_some {α : Type} (f : Nat → Option (List α)) (g : Nat → List α) (is : List Nat)
    (h : ∀ i ∈ is, f i = some (g i)) : joinAll f is = some (is.flatMap g) := by
  induction is with
  | nil => rfl
  | cons i is ih =>
    rw [joinAll, h i List.mem_cons_self, ih (fun j hj => h j (List.mem_cons_of_mem _ hj))]
    rfl

theorem joinAll_none {α : Type} (f : Nat → Option (List α)) (is : List Nat) {i : Nat} (hi : i ∈ is) (h : f i = none) :
    joinAll f is = none := by
  induction is with
  | nil => simp at hi
  | cons j is ih =>
    rw [joinAll]
    rcases List.mem_cons.1 hi with rfl | hi
    · rw [h]
    · rw [ih hi]
      cases f j <;> rfl

theorem zipIdx_flatMap {α β : Type} (l : List α) (f : α × Nat → List β) :
    l.zipIdx.flatMap f = (List.range l.length).flatMap (fun i => ((l[i]?).map (fun a => f (a, i))).getD []) := by
  symm
  have : (List.range l.length) = List.range l.zipIdx.length := by rw [List.length_zipIdx]
  rw [this]
  apply flatMap_eq_range
  intro i a hi
  rw [List.getElem?_zipIdx] at hi
  cases hl : l[i]? with
  | none => rw [hl] at hi; simp at hi
  | some b =>
    rw [hl] at hi
    simp at hi
    rw [Option.map_some, Option.getD_some, hi]

/-- The configurations of an exploration. -/
structure Configs (mode : Mode) (inputs : List (List V)) (tab : List (List Nat)) (cs : List (List V)) : Prop where
  table : table mode (inputs.map List.length) = some tab
  length : cs.length = nConf mode (inputs.map List.length)
  get : ∀ i, i < cs.length → config mode inputs tab i = cs[i]?

theorem combinations_length (inputs : List (List V)) :
    (combinations inputs).length = prod (inputs.map List.length) := by
  have := congrArg List.length (sel_combinations inputs)
  simpa using this.symm

theorem configs_exaustive {inputs : List (List V)} (h : ∀ l ∈ inputs, l ≠ []) :
    ∃ tab, Configs .exaustive inputs tab (combinations inputs) := by
  have hpos : ∀ k ∈ inputs.map List.length, 0 < k := by
    intro k hk
    obtain ⟨l, hl, rfl⟩ := List.mem_map.1 hk
    exact List.length_pos_of_ne_nil (h l hl)
  obtain ⟨tab, h1, h2⟩ := build_spec (V := V) (n := prod (inputs.map List.length)) hpos
  have hlen := combinations_length inputs
  refine ⟨tab, ?_, ?_, ?_⟩
  · show buildConfigurations (nConf .exaustive _) _ = some tab
    rw [nConf_exaustive]
    exact h1
  · rw [nConf_exaustive, hlen]
  · intro i hi
    show pick i inputs tab = _
    rw [hlen] at hi
    rw [h2 inputs (by simp) i hi]
    have := congrArg (fun l => l[i]?) (sel_combinations inputs)
    simp only [List.getElem?_map, List.getElem?_range hi, Option.map_some] at this
    cases hc : (combinations inputs)[i]? with
    | none => rw [hc] at this; simp at this
    | some c => rw [hc] at this; simpa using this

theorem pickMatched_some {inputs : List (List V)} {i : Nat} (h : ∀ l ∈ inputs, i < l.length) :
    pickMatched i inputs = some (inputs.filterMap (fun l => l[i]?)) := by
  induction inputs with
  | nil => rfl
  | cons l ls ih =>
    have hl := h l List.mem_cons_self
    rw [pickMatched, ih (fun l hl => h l (List.mem_cons_of_mem _ hl)),
      List.filterMap_cons_some (f := fun l : List V => l[i]?) (List.getElem?_eq_getElem hl),
      List.getElem?_eq_getElem hl]

theorem pickMatched_none {inputs : List (List V)} {i : Nat} (h : ∃ l ∈ inputs, l.length ≤ i) :
    pickMatched i inputs = none := by
  obtain ⟨l, hl, hi⟩ := h
  induction inputs with
  | nil => simp at hl
  | cons l' ls ih =>
    rw [pickMatched]
    rcases List.mem_cons.1 hl with rfl | hl
    · rw [List.getElem?_eq_none hi]
    · rw [ih hl]
      cases l'[i]? <;> rfl

theorem nConf_matched {sizes : List Nat} {n : Nat} (hne : sizes ≠ []) (h : ∀ k ∈ sizes, k = n) :
    nConf .matched sizes = n := by
  have : ∀ (sizes : List Nat) (a : Nat), sizes ≠ [] → (∀ k ∈ sizes, k = n) → sizes.foldl (fun _ k => k) a = n := by
    intro sizes
    induction sizes with
    | nil => intro a h; exact absurd rfl h
    | cons k ks ih =>
      intro a _ h
      rw [List.foldl_cons]
      by_cases hk : ks = []
      · subst hk; exact h k List.mem_cons_self
      · exact ih k hk (fun k hk => h k (List.mem_cons_of_mem _ hk))
  exact this sizes 1 hne h

theorem configs_matched {inputs : List (List V)} {n : Nat} (hne : inputs ≠ []) (h : ∀ l ∈ inputs, l.length = n) :
    Configs .matched inputs [] (matchedConfigs inputs n) := by
  refine ⟨rfl, ?_, ?_⟩
  · unfold matchedConfigs
    rw [List.length_map, List.length_range, nConf_matched (by simpa using hne)]
    intro k hk
    obtain ⟨l, hl, rfl⟩ := List.mem_map.1 hk
    exact h l hl
  · intro i hi
    unfold matchedConfigs at hi ⊢
    rw [List.length_map, List.length_range] at hi
    show pickMatched i inputs = _
    rw [pickMatched_some (fun l hl => by rw [h l hl]; exact hi), List.getElem?_map, List.getElem?_range hi]
    rfl

theorem ConfigsOf.table {mode : Mode} {inputs cs : List (List V)} (h : ConfigsOf mode inputs cs) :
    ∃ tab, Configs mode inputs tab cs := by
  cases mode with
  | exaustive =>
    obtain ⟨h1, rfl⟩ := h
    exact configs_exaustive h1
  | matched =>
    obtain ⟨h1, n, h2, rfl⟩ := h
    exact ⟨[], configs_matched h1 h2⟩

theorem sequential_rows {mode : Mode} {inputs : List (List V)} {tab : List (List Nat)} {cs : List (List V)}
    (h : Configs mode inputs tab cs) (new : List V → S) (sim : S → S) (rep : Nat) :
    exploreSequential new sim rep mode inputs =
      some (majorRows rep (fun i j vs => ⟨i, j + 1, sim^[j + 1] (new vs)⟩) cs) := by
  unfold exploreSequential
  rw [h.table]
  dsimp only
  rw [← h.length]
  unfold majorRows
  rw [zipIdx_flatMap]
  apply joinAll_some
  intro i hi
  have hi' := List.mem_range.1 hi
  unfold rowsOf
  rw [h.get i hi', List.getElem?_eq_getElem hi', Option.map_some, Option.map_some, Option.getD_some, repeatRows_eq]
  congr 1
  apply List.map_congr_left
  intro j _
  rw [Nat.zero_add]

theorem parallel_rows {mode : Mode} {inputs : List (List V)} {tab : List (List Nat)} {cs : List (List V)}
    (h : Configs mode inputs tab cs) (new : List V → S) (sim : S → S) (rep : Nat) :
    exploreParallel new sim rep mode inputs = some (majorRows rep (fun i j vs => ⟨i, j, sim (new vs)⟩) cs) := by
  unfold exploreParallel
  rw [h.table]
  dsimp only
  rw [← h.length]
  have key : joinAll (taskRow new sim rep mode inputs tab) (List.range (cs.length * rep)) =
      some ((List.range (cs.length * rep)).flatMap (fun run =>
        ((cs[run / rep]?).map (fun vs => [(⟨run / rep, run % rep, sim (new vs)⟩ : Row S)])).getD [])) := by
    apply joinAll_some
    intro run hrun
    have hrun' := List.mem_range.1 hrun
    have hi : run / rep < cs.length := Nat.div_lt_of_lt_mul (by rwa [Nat.mul_comm])
    unfold taskRow
    rw [h.get _ hi, List.getElem?_eq_getElem hi]
    rfl
  rw [key]
  congr 1
  unfold majorRows
  rw [zipIdx_flatMap, range_mul, List.flatMap_assoc]
  apply List.flatMap_congr
  intro i hi
  have hi' := List.mem_range.1 hi
  rw [List.flatMap_map, List.getElem?_eq_getElem hi', Option.map_some, Option.getD_some, List.map_eq_flatMap]
  apply List.flatMap_congr
  intro j hj
  have hj' := List.mem_range.1 hj
  have hrep : 0 < rep := by omega
  rw [show (i * rep + j) / rep = i by
      rw [Nat.mul_comm, Nat.mul_add_div hrep, Nat.div_eq_of_lt hj', Nat.add_zero],
    show (i * rep + j) % rep = j by rw [Nat.mul_add_mod', Nat.mod_eq_of_lt hj'], List.getElem?_eq_getElem hi']
  rfl

/-! ### MPI -/

theorem lt_localSize {n p x : Nat} (hp : 0 < p) : x / p < localSize n p (x % p) ↔ x < n := by
  unfold localSize
  have hx := Nat.div_add_mod x p
  have hn := Nat.div_add_mod n p
  have hxm := Nat.mod_lt x hp
  have hnm := Nat.mod_lt n hp
  generalize x / p = a at *
  generalize x % p = b at *
  generalize n / p = q at *
  generalize n % p = m at *
  subst hx
  subst hn
  by_cases h : b < m
  · rw [if_pos h]
    constructor
    · intro h1
      have : p * a ≤ p * q := Nat.mul_le_mul_left p (by omega)
      omega
    · intro h1
      by_contra hc
      have : p * (q + 1) ≤ p * a := Nat.mul_le_mul_left p (by omega)
      rw [Nat.mul_succ] at this
      omega
  · rw [if_neg h]
    constructor
    · intro h1
      have : p * (a + 1) ≤ p * q := Nat.mul_le_mul_left p (by omega)
      rw [Nat.mul_succ] at this
      omega
    · intro h1
      by_contra hc
      have : p * q ≤ p * a := Nat.mul_le_mul_left p (by omega)
      omega

/-- The configurations of the processes. -/
def assigned (n p : Nat) : List Nat :=
  (List.range p).flatMap (fun r => (List.range (localSize n p r)).map (fun i => i * p + r))

theorem assigned_perm {n p : Nat} (hp : 0 < p) : (assigned n p).Perm (List.range n) := by
  have hd : ∀ i r, r < p → (i * p + r) / p = i ∧ (i * p + r) % p = r := by
    intro i r hr
    constructor
    · rw [Nat.mul_comm, Nat.mul_add_div hp, Nat.div_eq_of_lt hr, Nat.add_zero]
    · rw [Nat.mul_add_mod', Nat.mod_eq_of_lt hr]
  rw [List.perm_ext_iff_of_nodup]
  · intro x
    unfold assigned
    rw [List.mem_range, List.mem_flatMap]
    constructor
    · rintro ⟨r, hr, hx⟩
      obtain ⟨i, hi, rfl⟩ := List.mem_map.1 hx
      have hr' := List.mem_range.1 hr
      have hi' := List.mem_range.1 hi
      rw [← lt_localSize hp, (hd i r hr').1, (hd i r hr').2]
      exact hi'
    · intro hx
      refine ⟨x % p, List.mem_range.2 (Nat.mod_lt x hp), List.mem_map.2 ⟨x / p, ?_, ?_⟩⟩
      · exact List.mem_range.2 ((lt_localSize hp).2 hx)
      · rw [Nat.mul_comm]; exact Nat.div_add_mod x p
  · unfold assigned
    rw [List.nodup_flatMap]
    constructor
    · intro r hr
      refine (List.nodup_range).map_on ?_
      intro i _ j _ hij
      have : i * p = j * p := by omega
      exact Nat.eq_of_mul_eq_mul_right hp this
    · refine (List.nodup_range (n := p)).imp_of_mem ?_
      intro r r' hr hr' hne x hx hx'
      obtain ⟨i, _, rfl⟩ := List.mem_map.1 hx
      obtain ⟨i', _, h⟩ := List.mem_map.1 hx'
      have h1 := (hd i r (List.mem_range.1 hr)).2
      have h2 := (hd i' r' (List.mem_range.1 hr')).2
      rw [← h] at h1
      exact hne (h1.symm.trans h2)
  · exact List.nodup_range

theorem sum_localSize {n p : Nat} (hp : 0 < p) : ((List.range p).map (localSize n p)).sum = n := by
  have := (assigned_perm (n := n) hp).length_eq
  rw [List.length_range] at this
  unfold assigned at this
  rw [List.length_flatMap] at this
  simpa using this

theorem samplesCount_eq {n p rep : Nat} (is : List Nat) :
    samplesCount n p (localSize n p 0) rep is = some (is.map (fun i => localSize n p i * rep)) := by
  induction is with
  | nil => rfl
  | cons i is ih =>
    rw [samplesCount, ih]
    by_cases h : i < n % p ∨ n % p = 0
    · rw [if_pos h, Option.map_some, List.map_cons]
      congr 2
      congr 1
      unfold localSize
      rcases h with h | h
      · rw [if_pos h, if_pos (by omega)]
      · rw [h, if_neg (by omega), if_neg (by omega)]
    · rw [if_neg h]
      have h0 : localSize n p 0 = n / p + 1 := by unfold localSize; rw [if_pos (by omega)]
      rw [h0, if_neg (Nat.succ_ne_zero (n / p)), Option.map_some, List.map_cons]
      congr 2
      have hi : localSize n p i = n / p := by unfold localSize; rw [if_neg (by omega)]
      rw [hi]
      rfl

theorem gather_eq {α : Type} (rows : List (List α)) : ∀ (buf : List α) (acc : Nat),
    acc + (rows.map List.length).sum = buf.length →
    gather buf ((rows.map List.length).zip (displs acc (rows.map List.length))) rows = some (buf.take acc ++ rows.flatten) := by
  induction rows with
  | nil =>
    intro buf acc h
    simp at h
    simp [gather, displs, h]
  | cons r rows ih =>
    intro buf acc h
    rw [List.map_cons, List.sum_cons] at h
    rw [List.map_cons, displs, List.zip_cons_cons, gather, if_pos ⟨rfl, by omega⟩]
    have hlen : (buf.take acc ++ r ++ buf.drop (acc + r.length)).length = buf.length := by
      simp only [List.length_append, List.length_take, List.length_drop]
      omega
    rw [ih _ (acc + r.length) (by rw [hlen]; omega), List.flatten_cons, ← List.append_assoc]
    congr 2
    rw [List.take_append_of_le_length (by simp only [List.length_append, List.length_take]; omega),
      List.take_of_length_le (by simp only [List.length_append, List.length_take]; omega)]

theorem allLocal_some {α : Type} (f : Nat → Option (List α)) (g : Nat → List α) (is : List Nat)
    (h : ∀ i ∈ is, f i = some (g i)) : allLocal f is = some (is.map g) := by
  induction is with
  | nil => rfl
  | cons i is ih =>
    rw [allLocal, h i List.mem_cons_self, ih (fun j hj => h j (List.mem_cons_of_mem _ hj))]
    rfl

/-- The rows a process makes. -/
def processRows (new : List V → S) (sim : S → S) (rep : Nat) (cs : List (List V)) (p r : Nat) : List (Row S) :=
  (List.range (localSize cs.length p r)).flatMap (fun i =>
    (List.range rep).map (fun j => ⟨i, j, sim^[j + 1] (new (cs.getD (i * p + r) []))⟩))

theorem processRows_length (new : List V → S) (sim : S → S) (rep : Nat) (cs : List (List V)) (p r : Nat) :
    (processRows new sim rep cs p r).length = localSize cs.length p r * rep := by
  unfold processRows
  rw [List.length_flatMap]
  simp

theorem localRows_eq {mode : Mode} {inputs : List (List V)} {tab : List (List Nat)} {cs : List (List V)}
    (h : Configs mode inputs tab cs) (new : List V → S) (sim : S → S) {rep : Nat} (hrep : rep ≠ 0) {p r : Nat} (hr : r < p) :
    localRows new sim rep mode inputs tab p r = some (processRows new sim rep cs p r) := by
  unfold localRows processRows
  rw [← h.length]
  apply joinAll_some
  intro i hi
  have hi' := List.mem_range.1 hi
  have hlt : i * p + r < cs.length := by
    rw [← lt_localSize (by omega : 0 < p), Nat.mul_add_mod', Nat.mod_eq_of_lt hr, Nat.mul_comm,
      Nat.mul_add_div (by omega), Nat.div_eq_of_lt hr, Nat.add_zero]
    exact hi'
  unfold rowsMpi
  rw [h.get _ hlt, List.getElem?_eq_getElem hlt, Option.map_some, repeatRows_eq]
  congr 1
  unfold repMpi
  rw [if_neg hrep]
  apply List.map_congr_left
  intro j _
  rw [Nat.zero_add]
  simp [List.getD, List.getElem?_eq_getElem hlt]

theorem mpi_rows {mode : Mode} {inputs : List (List V)} {tab : List (List Nat)} {cs : List (List V)}
    (h : Configs mode inputs tab cs) (new : List V → S) (sim : S → S) {rep : Nat} (hrep : rep ≠ 0) {p : Nat} (hp : 0 < p)
    (hcs : cs ≠ []) :
    exploreMpi new sim rep mode inputs p = some ((List.range p).flatMap (processRows new sim rep cs p)) := by
  unfold exploreMpi
  rw [h.table]
  dsimp only
  rw [allLocal_some _ (processRows new sim rep cs p) _ (fun r hr => localRows_eq h new sim hrep (List.mem_range.1 hr)),
    ← h.length]
  dsimp only
  have hpos : 0 < cs.length := List.length_pos_of_ne_nil hcs
  have hown : 0 < localSize cs.length p 0 := by
    have := (lt_localSize (n := cs.length) (x := 0) hp).2 hpos
    simpa using this
  have hlens : ((List.range p).map (processRows new sim rep cs p)).map List.length =
      (List.range p).map (fun i => localSize cs.length p i * rep) := by
    rw [List.map_map]
    apply List.map_congr_left
    intro r _
    exact processRows_length new sim rep cs p r
  have hsum : (((List.range p).map (processRows new sim rep cs p)).map List.length).sum = cs.length * rep := by
    rw [hlens, List.sum_map_mul_right, sum_localSize hp]
  obtain ⟨q, rfl⟩ : ∃ q, p = q + 1 := ⟨p - 1, by omega⟩
  cases hfirst : processRows new sim rep cs (q + 1) 0 with
  | nil =>
    have := processRows_length new sim rep cs (q + 1) 0
    rw [hfirst] at this
    have hz : 0 < localSize cs.length (q + 1) 0 * rep := Nat.mul_pos hown (by omega)
    simp at this
    omega
  | cons first rest =>
    have hl : (List.range (q + 1)).map (processRows new sim rep cs (q + 1)) = (first :: rest) ::
        (List.range q).map (fun r => processRows new sim rep cs (q + 1) (r + 1)) := by
      rw [List.range_succ_eq_map, List.map_cons, hfirst, List.map_map]
      rfl
    unfold collectRoot
    rw [hl]
    dsimp only
    rw [← hl, samplesCount_eq]
    dsimp only
    unfold repMpi
    rw [if_neg hrep, ← hlens, gather_eq]
    · rw [List.take_zero, List.nil_append, List.flatMap_def]
    · rw [hsum, List.length_replicate, Nat.zero_add]

theorem majorRows_process (new : List V → S) (sim : S → S) (rep : Nat) (cs : List (List V)) (p r : Nat) :
    majorRows rep (fun i j k => (⟨i, j, sim^[j + 1] (new (cs.getD k []))⟩ : Row S))
      ((List.range (localSize cs.length p r)).map (fun i => i * p + r)) = processRows new sim rep cs p r := by
  unfold majorRows processRows
  rw [zipIdx_flatMap, List.length_map, List.length_range]
  apply List.flatMap_congr
  intro i hi
  have hi' := List.mem_range.1 hi
  rw [List.getElem?_map, List.getElem?_range hi']
  rfl

theorem majorRows_length {C R : Type} (rep : Nat) (row : Nat → Nat → C → R) (cs : List C) :
    (majorRows rep row cs).length = cs.length * rep := by
  unfold majorRows
  rw [List.length_flatMap]
  simp

theorem mem_combinations {inputs : List (List V)} {c : List V} :
    c ∈ combinations inputs ↔ List.Forall₂ (fun v l => v ∈ l) c inputs := by
  induction inputs generalizing c with
  | nil => simp [combinations]
  | cons l ls ih =>
    rw [combinations, List.mem_flatMap]
    constructor
    · rintro ⟨v, hv, hc⟩
      obtain ⟨c', hc', rfl⟩ := List.mem_map.1 hc
      exact List.Forall₂.cons hv (ih.1 hc')
    · intro h
      cases h with
      | cons hv hc => exact ⟨_, hv, List.mem_map.2 ⟨_, ih.2 hc, rfl⟩⟩

theorem nodup_combinations {inputs : List (List V)} (h : ∀ l ∈ inputs, l.Nodup) : (combinations inputs).Nodup := by
  induction inputs with
  | nil => simp [combinations]
  | cons l ls ih =>
    rw [combinations, List.nodup_flatMap]
    constructor
    · intro v _
      exact (ih (fun l hl => h l (List.mem_cons_of_mem _ hl))).map (fun a b hab => by simpa using hab)
    · refine (h l List.mem_cons_self).imp_of_mem ?_
      intro a b _ _ hab x hx hx'
      obtain ⟨c, _, rfl⟩ := List.mem_map.1 hx
      obtain ⟨c', _, h'⟩ := List.mem_map.1 hx'
      exact hab (by injection h' with h1 _; exact h1.symm)

theorem combinations_empty {inputs : List (List V)} (h : [] ∈ inputs) : combinations inputs = [] := by
  rw [List.eq_nil_iff_forall_not_mem]
  intro c hc
  have := mem_combinations.1 hc
  clear hc
  induction this with
  | nil => simp at h
  | cons hv _ ih =>
    rcases List.mem_cons.1 h with rfl | h
    · simp at hv
    · exact ih h

end Verif.Explore
