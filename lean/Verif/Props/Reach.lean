import Verif.Spec.Reach
import Verif.Props.Synchronous
import Verif.Props.Metric
import Verif.Props.FieldNear
import Verif.Props.OthersField

/-!
C273: influence travels at most as far as agents see and move. Two simulations that differ only far away from a place go on alike near the place, for as many
steps as it takes.
-/

set_option linter.unusedSectionVars false

namespace Verif.Sync

open Schedule Grid Torus

open Flockers (ParSteps)

variable {T D B V : Type}

/-! ### Any view -/

section

variable {act : D → B → V → B × Bool} {ident : B → Nat} {ok : B → Prop} {same : V → V → Prop} {view : List B → B → V} {near : Rat → B → Prop} {R s : Rat}

open Classical in
/-- One round. -/
theorem nextPop_near (L : Lawful act ident ok same) (hperm : ∀ {r r' : List B} (b : B), (∀ x ∈ r, ok x) → ok b → r.Perm r' → same (view r b) (view r' b))
    (hR : 0 ≤ R) (hs : 0 ≤ s)
    (hmono : ∀ {ρ ρ' : Rat} {b}, 0 ≤ ρ → ρ ≤ ρ' → near ρ b → near ρ' b)
    (hslow : ∀ {ρ : Rat} x b v, 0 ≤ ρ → (act x b v).2 = true → near ρ (act x b v).1 → near (ρ + s) b)
    (hsee : ∀ {ρ : Rat} (pop : List B) (b : B), 0 ≤ ρ → (∀ x ∈ pop, ok x) → ok b → near ρ b → view (pop.filter (fun x => decide (near (ρ + R) x))) b = view pop b)
    {r : Nat → D} {pop pop' : List (Nat × B)} (hok : ∀ x ∈ pop, ok x.2) (hok' : ∀ x ∈ pop', ok x.2)
    (hid : (pop.map (fun x => ident x.2)).Nodup) (hid' : (pop'.map (fun x => ident x.2)).Nodup) {ρ : Rat} (hρ : 0 ≤ ρ)
    (h : SameThere (near (ρ + s + R)) pop pop') : SameThere (near ρ) (nextPop act view r pop) (nextPop act view r pop') := by
  have half : ∀ {pop pop' : List (Nat × B)}, (∀ x ∈ pop, ok x.2) → (∀ x ∈ pop', ok x.2) → (pop.map (fun x => ident x.2)).Nodup → (pop'.map (fun x => ident x.2)).Nodup →
      SameThere (near (ρ + s + R)) pop pop' → ∀ i b, near ρ b → (i, b) ∈ nextPop act view r pop → (i, b) ∈ nextPop act view r pop' := by
    intro pop pop' hok hok' hid hid' h i b' hb hm
    unfold nextPop at hm
    obtain ⟨⟨j, b⟩, h1, h2⟩ := List.mem_filterMap.1 hm
    dsimp only at h2
    by_cases ha : (act (r j) b (view (pop.map Prod.snd) b)).2 = true
    · rw [if_pos ha] at h2
      cases h2
      have hn1 := hslow _ _ _ hρ ha hb
      have hn2 : near (ρ + s + R) b := hmono (by linarith) (by linarith) hn1
      have h1' := (h i b hn2).1 h1
      have nd : ∀ {p : List (Nat × B)}, (p.map (fun x => ident x.2)).Nodup → (p.map Prod.snd).Nodup := by
        intro p hp
        have e : p.map (fun x => ident x.2) = (p.map Prod.snd).map ident := by rw [List.map_map]; rfl
        rw [e] at hp
        exact List.Nodup.of_map _ hp
      have hp : ((pop.map Prod.snd).filter (fun x => decide (near (ρ + s + R) x))).Perm ((pop'.map Prod.snd).filter (fun x => decide (near (ρ + s + R) x))) := by
        rw [List.perm_ext_iff_of_nodup ((nd hid).filter _) ((nd hid').filter _)]
        intro x
        rw [List.mem_filter, List.mem_filter]
        constructor
        · rintro ⟨hx, hn⟩
          obtain ⟨⟨k, y⟩, hy, rfl⟩ := List.mem_map.1 hx
          exact ⟨List.mem_map.2 ⟨(k, y), (h k y (by simpa using hn)).1 hy, rfl⟩, hn⟩
        · rintro ⟨hx, hn⟩
          obtain ⟨⟨k, y⟩, hy, rfl⟩ := List.mem_map.1 hx
          exact ⟨List.mem_map.2 ⟨(k, y), (h k y (by simpa using hn)).2 hy, rfl⟩, hn⟩
      have okp : ∀ x ∈ pop.map Prod.snd, ok x := fun x hx => by
        obtain ⟨y, hy, rfl⟩ := List.mem_map.1 hx
        exact hok y hy
      have okp' : ∀ x ∈ pop'.map Prod.snd, ok x := fun x hx => by
        obtain ⟨y, hy, rfl⟩ := List.mem_map.1 hx
        exact hok' y hy
      have hv : same (view (pop.map Prod.snd) b) (view (pop'.map Prod.snd) b) := by
        rw [← hsee (ρ := ρ + s) (pop.map Prod.snd) b (by linarith) okp (hok _ h1) hn1, ← hsee (ρ := ρ + s) (pop'.map Prod.snd) b (by linarith) okp' (hok _ h1) hn1]
        exact hperm b (fun x hx => okp x (List.mem_filter.1 hx).1) (hok _ h1) hp
      have e := L.same (r i) b hv
      unfold nextPop
      refine List.mem_filterMap.2 ⟨(i, b), h1', ?_⟩
      dsimp only
      rw [← e, if_pos ha]
    · rw [if_neg ha] at h2
      cases h2
  intro i b hb
  exact ⟨half hok hok' hid hid' h i b hb, half hok' hok hid' hid (fun i b hb => (h i b hb).symm) i b hb⟩

theorem nextPop_ok (L : Lawful act ident ok same) {r : Nat → D} {pop : List (Nat × B)} (h : ∀ x ∈ pop, ok x.2) : ∀ x ∈ nextPop act view r pop, ok x.2 := by
  intro x hx
  obtain ⟨⟨j, b⟩, h1, h2⟩ := List.mem_filterMap.1 hx
  dsimp only at h2
  by_cases ha : (act (r j) b (view (pop.map Prod.snd) b)).2 = true
  · rw [if_pos ha] at h2
    cases h2
    exact L.ok _ _ _ (h _ h1) ha
  · rw [if_neg ha] at h2
    cases h2

theorem popAt_ok (L : Lawful act ident ok same) {r : Nat → Nat → D} {first : List (Nat × B)} (h : ∀ x ∈ first, ok x.2) : ∀ n, ∀ x ∈ popAt act view r first n, ok x.2
  | 0 => h
  | n + 1 => nextPop_ok L (popAt_ok L h n)

theorem popAt_idents (L : Lawful act ident ok same) {r : Nat → Nat → D} {first : List (Nat × B)} (h : (first.map (fun x => ident x.2)).Nodup) :
    ∀ n, ((popAt act view r first n).map (fun x => ident x.2)).Nodup
  | 0 => h
  | n + 1 => (nextPop_idents L _).nodup (popAt_idents L h n)

open Classical in
/-- Any number of rounds. -/
theorem popAt_near (L : Lawful act ident ok same) (hperm : ∀ {r r' : List B} (b : B), (∀ x ∈ r, ok x) → ok b → r.Perm r' → same (view r b) (view r' b))
    (hR : 0 ≤ R) (hs : 0 ≤ s)
    (hmono : ∀ {ρ ρ' : Rat} {b}, 0 ≤ ρ → ρ ≤ ρ' → near ρ b → near ρ' b)
    (hslow : ∀ {ρ : Rat} x b v, 0 ≤ ρ → (act x b v).2 = true → near ρ (act x b v).1 → near (ρ + s) b)
    (hsee : ∀ {ρ : Rat} (pop : List B) (b : B), 0 ≤ ρ → (∀ x ∈ pop, ok x) → ok b → near ρ b → view (pop.filter (fun x => decide (near (ρ + R) x))) b = view pop b)
    {r : Nat → Nat → D} {first first' : List (Nat × B)} (hok : ∀ x ∈ first, ok x.2) (hok' : ∀ x ∈ first', ok x.2)
    (hid : (first.map (fun x => ident x.2)).Nodup) (hid' : (first'.map (fun x => ident x.2)).Nodup) : ∀ (n : Nat) {ρ : Rat}, 0 ≤ ρ →
    SameThere (near (ρ + n * (s + R))) first first' → SameThere (near ρ) (popAt act view r first n) (popAt act view r first' n)
  | 0, ρ, _, h => by
    have e : ρ + ((0 : Nat) : Rat) * (s + R) = ρ := by rw [Nat.cast_zero, zero_mul, add_zero]
    rw [e] at h
    exact h
  | n + 1, ρ, hρ, h => by
    refine nextPop_near (near := near) L hperm hR hs hmono hslow hsee (popAt_ok L hok n) (popAt_ok L hok' n) (popAt_idents L hid n) (popAt_idents L hid' n) hρ ?_
    refine popAt_near L hperm hR hs hmono hslow hsee hok hok' hid hid' n (by linarith) ?_
    have e : ρ + s + R + (n : Rat) * (s + R) = ρ + ((n + 1 : Nat) : Rat) * (s + R) := by push_cast; ring
    rw [e]
    exact h

variable [LinearOrder T]

/-- From populations to schedules. -/
theorem follows_near {F F' : Type} {shows : F → List B → Prop} {shows' : F' → List B → Prop} {ord : Nat → Int} {time : T} {n : Nat} {pop pop' : List (Nat × B)}
    {w : World T (B × Bool) (State F)} {w' : World T (B × Bool) (State F')} {there : B → Prop}
    (h : Follows shows ord time n pop w) (h' : Follows shows' ord time n pop' w') (hp : SameThere there pop pop') : SameEvents there w.sched.events w'.sched.events := by
  have half : ∀ {pop pop' : List (Nat × B)}, SameThere there pop pop' → ∀ e : Entry T (B × Bool), there e.1.agent.1 →
      e ∈ pop.map (fun p => ((⟨p.1, (p.2, true), true⟩ : AgentImpl (B × Bool)), (⟨time, ord p.1⟩ : Priority T))) →
      e ∈ pop'.map (fun p => ((⟨p.1, (p.2, true), true⟩ : AgentImpl (B × Bool)), (⟨time, ord p.1⟩ : Priority T))) := by
    intro pop pop' hp e he hm
    obtain ⟨⟨i, b⟩, hb, rfl⟩ := List.mem_map.1 hm
    exact List.mem_map.2 ⟨(i, b), (hp i b he).1 hb, rfl⟩
  intro e he
  rw [h.agents.mem_iff, h'.agents.mem_iff]
  exact ⟨half hp e he, half (fun i b hb => (hp i b hb).symm) e he⟩

end

/-! ### Continuous fields -/

theorem distance_le {w h : ℚ} {tor : Bool} (hw : 0 < w) (hh : 0 < h) {p q : Pos} {r : ℚ} (hr : 0 ≤ r) : distance w h tor p q ≤ (r : ℝ) ↔ Field2D.Within tor w h p q r := by
  rw [← Field2D.within_iff p q tor hw hh r]
  unfold distance
  rw [Real.sqrt_le_left (by exact_mod_cast hr), pow_two]
  norm_cast

theorem within_triangle {w h : ℚ} {tor : Bool} (hw : 0 < w) (hh : 0 < h) {p q x : Pos} {r r' : ℚ} (hr : 0 ≤ r) (hr' : 0 ≤ r') (h1 : Field2D.Within tor w h p q r)
    (h2 : Field2D.Within tor w h q x r') : Field2D.Within tor w h p x (r + r') := by
  rw [← distance_le hw hh (by linarith)]
  rw [← distance_le hw hh hr] at h1
  rw [← distance_le hw hh hr'] at h2
  have ht : distance w h tor p x ≤ distance w h tor p q + distance w h tor q x := by
    cases tor with
    | true => exact (C242_metric_partial w h hw hh).1.triangle p q x
    | false => exact (C242_metric_partial w h hw hh).2.triangle p q x
  push_cast
  linarith

theorem within_symm {w h : ℚ} {tor : Bool} (hw : 0 < w) (hh : 0 < h) {p q : Pos} {r : ℚ} (hr : 0 ≤ r) (h1 : Field2D.Within tor w h p q r) : Field2D.Within tor w h q p r := by
  rw [← distance_le hw hh hr] at h1 ⊢
  have hs : distance w h tor q p = distance w h tor p q := by
    cases tor with
    | true => exact (C242_metric_partial w h hw hh).1.symm q p
    | false => exact (C242_metric_partial w h hw hh).2.symm q p
  rw [hs]
  exact h1

variable [DecidableEq B]

/-- What an agent sees depends only on the agents within its reach, or its reach and three quarters of a cell. -/
theorem fieldView_filter {w h d : ℚ} (hw : 0 < w) (hh : 0 < h) (hd : 0 < d) (tor : Bool) {loc : B → Pos} {reach : B → ℚ} (P : B → Bool) {pop : List B} {b : B}
    (hok : ∀ x ∈ pop, Field2D.InField w h (loc x)) {R : ℚ} (hs : Sees w h d tor reach R)
    (hP : 0 < reach b → ∀ x, Field2D.Within tor w h (loc x) (loc b) R → P x = true) :
    fieldView w h d tor loc reach (pop.filter P) b = fieldView w h d tor loc reach pop b := by
  have hin : ∀ op ∈ (Field2D.FieldOp.lazyUpdate :: (pop.map (fun b => Field2D.FieldOp.place b (loc b))).reverse : List (Field2D.FieldOp B)), op.InField w h := by
    intro op hop
    rcases List.mem_cons.1 hop with rfl | hop
    · trivial
    · obtain ⟨x, hx, rfl⟩ := List.mem_map.1 (List.mem_reverse.1 hop)
      exact hok x hx
  have hloc : Field2D.CarriesLocation loc (Field2D.FieldOp.lazyUpdate :: (pop.map (fun b => Field2D.FieldOp.place b (loc b))).reverse : List (Field2D.FieldOp B)) := by
    intro o l hm
    rcases List.mem_cons.1 hm with hm | hm
    · cases hm
    · obtain ⟨x, _, hx⟩ := List.mem_map.1 (List.mem_reverse.1 hm)
      cases hx
      rfl
  have hwide : ∀ {x : B} {r : ℚ}, 0 ≤ r → r ≤ R → Field2D.Within tor w h (loc x) (loc b) r → Field2D.Within tor w h (loc x) (loc b) R := by
    intro x r h0 hle hx
    rw [← distance_le hw hh h0] at hx
    rw [← distance_le hw hh (by linarith)]
    exact le_trans hx (by exact_mod_cast hle)
  obtain ⟨f, r, h1, h2, h3⟩ : ∃ f r, Field2D.run (Field2D.new w h d tor) (Field2D.FieldOp.lazyUpdate :: (pop.map (fun b => Field2D.FieldOp.place b (loc b))).reverse) = some f ∧
      Field2D.getNeighborsWithinDistance f loc (loc b) (reach b) = some r ∧ ∀ o ∈ r, 0 < reach b → Field2D.Within tor w h (loc o) (loc b) R := by
    rcases hs b with hle | ⟨hle, hsmall⟩
    · obtain ⟨f, r, h1, h2, h3⟩ := Field2D.C37_within_a_cell_partial w h d tor hw hh hd _ hin loc hloc (loc b) (reach b)
      exact ⟨f, r, h1, h2, fun o ho hpos => hwide (by linarith) hle (h3 o ho).2⟩
    · obtain ⟨f, r, h1, h2, h3⟩ := Field2D.C37_neighbors_sound_partial w h d tor hw hh hd _ hin loc hloc (loc b) (reach b) hsmall
      exact ⟨f, r, h1, h2, fun o ho hpos => hwide hpos.le hle (h3 o ho).2⟩
  obtain ⟨f', h4, h5⟩ := Field2D.C248_field_partial (P := P) (fun x y hxy => by rw [eq_of_beq hxy]) h1
  have he : Field2D.aboutOnly P (Field2D.FieldOp.lazyUpdate :: (pop.map (fun b => Field2D.FieldOp.place b (loc b))).reverse : List (Field2D.FieldOp B)) =
      Field2D.FieldOp.lazyUpdate :: ((pop.filter P).map (fun b => Field2D.FieldOp.place b (loc b))).reverse := by
    unfold Field2D.aboutOnly
    rw [List.filter_cons_of_pos rfl, List.filter_reverse, List.filter_map]
    rfl
  rw [he] at h4
  unfold fieldView
  rw [h4, h1, Option.bind_some, Option.bind_some, h5.neighbors, h2, Option.map_some, Option.getD_some, Option.getD_some]
  refine List.filter_eq_self.2 (fun x hx => ?_)
  by_cases hpos : 0 < reach b
  · exact hP hpos x (h3 x hx hpos)
  unfold Field2D.getNeighborsWithinDistance at h2
  rw [if_pos (not_lt.1 hpos)] at h2
  cases h2
  cases hx

variable [LinearOrder T] {ident : B → Nat} {rnd : Nat → D} {ord : Nat → Int}
variable {actF : D → B → List B → B × Bool} {actG : D → B → List (Option (List B)) → B × Bool}

open Classical in
/-- In a field: populations. -/
theorem field_near {w h d : ℚ} (hw : 0 < w) (hh : 0 < h) (hd : 0 < d) (tor : Bool) {loc : B → Pos} {reach : B → ℚ}
    (L : Lawful actF ident (fun b => Field2D.InField w h (loc b)) List.Perm) {R s : ℚ} (hR : 0 ≤ R) (hs : 0 ≤ s) (hreach : Sees w h d tor reach R)
    (hslow : ∀ x b v, (actF x b v).2 = true → Field2D.Within tor w h (loc (actF x b v).1) (loc b) s) (p : Pos)
    {r : Nat → Nat → D} {agents agents' : List B} (hok : ∀ b ∈ agents, Field2D.InField w h (loc b)) (hok' : ∀ b ∈ agents', Field2D.InField w h (loc b))
    (hid : (agents.map ident).Nodup) (hid' : (agents'.map ident).Nodup) (n : Nat) {ρ : ℚ} (hρ : 0 ≤ ρ)
    (hsame : SameThere (fun b => Field2D.Within tor w h (loc b) p (ρ + n * (s + R))) (numbered agents) (numbered agents')) :
    SameThere (fun b => Field2D.Within tor w h (loc b) p ρ) (popAt actF (fieldView w h d tor loc reach) r (numbered agents) n)
      (popAt actF (fieldView w h d tor loc reach) r (numbered agents') n) := by
  have okn : ∀ {as : List B}, (∀ b ∈ as, Field2D.InField w h (loc b)) → ∀ x ∈ numbered as, Field2D.InField w h (loc x.2) := by
    intro as h x hx
    refine h x.2 ?_
    rw [← numbered_snd as]
    exact List.mem_map.2 ⟨x, hx, rfl⟩
  have idn : ∀ {as : List B}, (as.map ident).Nodup → ((numbered as).map (fun x => ident x.2)).Nodup := by
    intro as h
    have e : (numbered as).map (fun x => ident x.2) = ((numbered as).map Prod.snd).map ident := by rw [List.map_map]; rfl
    rw [e, numbered_snd]
    exact h
  refine popAt_near (near := fun ρ b => Field2D.Within tor w h (loc b) p ρ) L (fun b h1 h2 h3 => (fieldLaws ident hw hh hd tor loc reach).perm b h1 h2 h3) hR hs ?_ ?_ ?_
    (okn hok) (okn hok') (idn hid) (idn hid') n hρ hsame
  · intro ρ ρ' b h0 hle hb
    rw [← distance_le hw hh h0] at hb
    rw [← distance_le hw hh (by linarith)]
    exact le_trans hb (by exact_mod_cast hle)
  · intro ρ x b v h0 ha hb
    have := within_triangle hw hh hs h0 (within_symm hw hh hs (hslow x b v ha)) hb
    rw [add_comm] at this
    exact this
  · intro ρ pop b h0 hokp _ hb
    refine fieldView_filter hw hh hd tor _ hokp hreach (fun _ x hx => decide_eq_true ?_)
    have := within_triangle hw hh hR h0 hx hb
    rw [add_comm] at this
    exact this

/-- **C273, continuous field.** Full statement: with the reach of the agents alone, false on a torus (below). If agents see at most as far as `R` and move at most `s` in a step, then two simulations that
begin with the same agents within `ρ + n (s + R)` of a place have the same agents within `ρ` of it after `n` steps, on a torus or not, however ties are broken in
the schedules. -/
theorem C273_field_partial {w h d : ℚ} (hw : 0 < w) (hh : 0 < h) (hd : 0 < d) (tor : Bool) {loc : B → Pos} {reach : B → ℚ}
    (L : Lawful actF ident (fun b => Field2D.InField w h (loc b)) List.Perm) (h0 : ∀ x x' b v, actF x b v = actF x' b v)
    {R s : ℚ} (hR : 0 ≤ R) (hs : 0 ≤ s) (hreach : Sees w h d tor reach R)
    (hslow : ∀ x b v, (actF x b v).2 = true → Field2D.Within tor w h (loc (actF x b v).1) (loc b) s) (p : Pos) (zero : T) (adv : T → T) (tb tb' : TieBreak T (B × Bool))
    {agents agents' : List B} (hok : ∀ b ∈ agents, Field2D.InField w h (loc b)) (hok' : ∀ b ∈ agents', Field2D.InField w h (loc b))
    (hid : (agents.map ident).Nodup) (hid' : (agents'.map ident).Nodup) (n : Nat) {ρ : ℚ} (hρ : 0 ≤ ρ)
    (hsame : SameThere (fun b => Field2D.Within tor w h (loc b) p (ρ + n * (s + R))) (numbered agents) (numbered agents')) :
    SameEvents (fun b => Field2D.Within tor w h (loc b) p ρ)
      (steps (model adv tb (fieldOps loc reach) actF rnd) n (Driver.start (sim zero adv tb (fieldOps loc reach) actF rnd agents ord) ⟨some (Field2D.new w h d tor), 0⟩)).sched.events
      (steps (model adv tb' (fieldOps loc reach) actF rnd) n (Driver.start (sim zero adv tb' (fieldOps loc reach) actF rnd agents' ord) ⟨some (Field2D.new w h d tor), 0⟩)).sched.events := by
  obtain ⟨σ, _, h1⟩ := C143_field (rnd := rnd) (ord := ord) (reach := reach) hw hh hd tor L zero adv tb agents hok hid n
  obtain ⟨σ', _, h2⟩ := C143_field (rnd := rnd) (ord := ord) (reach := reach) hw hh hd tor L zero adv tb' agents' hok' hid' n
  have h1 := h1 n (le_refl _)
  have h2 := h2 n (le_refl _)
  rw [popAt_sure h0 _ (fun m i => rnd (σ m i))] at h2
  exact follows_near h1 h2 (field_near hw hh hd tor L hR hs hreach hslow p hok hok' hid hid' n hρ hsame)

/-- **C273, continuous field under the feature `parallel`**, whatever the numbers of threads and the interleavings. -/
theorem C273_parallel_field_partial {w h d : ℚ} (hw : 0 < w) (hh : 0 < h) (hd : 0 < d) (tor : Bool) {loc : B → Pos} {reach : B → ℚ}
    (L : Lawful actF ident (fun b => Field2D.InField w h (loc b)) List.Perm) (h0 : ∀ x x' b v, actF x b v = actF x' b v)
    {R s : ℚ} (hR : 0 ≤ R) (hs : 0 ≤ s) (hreach : Sees w h d tor reach R)
    (hslow : ∀ x b v, (actF x b v).2 = true → Field2D.Within tor w h (loc (actF x b v).1) (loc b) s) (p : Pos) {cpus : Nat}
    (hc : DBDashMap.shardAmount cpus ≤ 2 ^ 64) (hashO : Nat → Nat) (hashL : Loc → Nat) (zero : T) (adv : T → T) (tb tb' : TieBreak T (B × Bool))
    {agents agents' : List B} (hok : ∀ b ∈ agents, Field2D.InField w h (loc b)) (hok' : ∀ b ∈ agents', Field2D.InField w h (loc b))
    (hid : (agents.map ident).Nodup) (hid' : (agents'.map ident).Nodup) (threads threads' n : Nat) {ρ : ℚ} (hρ : 0 ≤ ρ)
    (hsame : SameThere (fun b => Field2D.Within tor w h (loc b) p (ρ + n * (s + R))) (numbered agents) (numbered agents'))
    (wd wd' : World T (B × Bool) (State (ParField2D.PField B Nat)))
    (hst : ParSteps (model adv tb (parFieldOps ident loc reach) actF rnd) threads n
      (Driver.start (sim zero adv tb (parFieldOps ident loc reach) actF rnd agents ord) ⟨some (ParField2D.PField.new cpus hashO hashL w h d tor), 0⟩) wd)
    (hst' : ParSteps (model adv tb' (parFieldOps ident loc reach) actF rnd) threads' n
      (Driver.start (sim zero adv tb' (parFieldOps ident loc reach) actF rnd agents' ord) ⟨some (ParField2D.PField.new cpus hashO hashL w h d tor), 0⟩) wd') :
    SameEvents (fun b => Field2D.Within tor w h (loc b) p ρ) wd.sched.events wd'.sched.events := by
  obtain ⟨σ, _, h1⟩ := C143_parallel_field (rnd := rnd) (ord := ord) hw hh hd tor L hc hashO hashL zero adv tb agents hok hid threads n wd hst
  obtain ⟨σ', _, h2⟩ := C143_parallel_field (rnd := rnd) (ord := ord) hw hh hd tor L hc hashO hashL zero adv tb' agents' hok' hid' threads' n wd' hst'
  rw [popAt_sure h0 _ (fun m i => rnd (σ m i))] at h2
  exact follows_near h1 h2 (field_near hw hh hd tor L hR hs hreach hslow p hok hok' hid hid' n hρ hsame)

/-! ### Grids -/

theorem natAbs_triangle (a b c : Int) : (((c - a).natAbs : Nat) : ℚ) ≤ (((b - a).natAbs : Nat) : ℚ) + (((c - b).natAbs : Nat) : ℚ) := by
  have h : (c - a).natAbs ≤ (b - a).natAbs + (c - b).natAbs := by omega
  exact_mod_cast h

theorem nearby_triangle {p q l : Loc} {r r' : ℚ} (h1 : Nearby p q r) (h2 : Nearby q l r') : Nearby p l (r + r') :=
  ⟨le_trans (natAbs_triangle _ _ _) (add_le_add h1.1 h2.1), le_trans (natAbs_triangle _ _ _) (add_le_add h1.2 h2.2)⟩

theorem nearby_symm {p q : Loc} {r : ℚ} (h : Nearby p q r) : Nearby q p r := by
  have e : ∀ a b : Int, (a - b).natAbs = (b - a).natAbs := fun a b => by omega
  unfold Nearby at *
  rw [e p.x, e p.y]
  exact h

open Classical in
/-- On a grid: populations. -/
theorem grid_near {w h : Int} {loc : B → Loc} {nbh : B → List Loc} (L : Lawful actG ident (GridOk loc nbh w h) SameView) {R s : ℚ} (hR : 0 ≤ R) (hs : 0 ≤ s)
    (hreach : ∀ b, ∀ l ∈ nbh b, Nearby (loc b) l R) (hslow : ∀ x b v, (actG x b v).2 = true → Nearby (loc b) (loc (actG x b v).1) s) (p : Loc)
    {r : Nat → Nat → D} {agents agents' : List B} (hok : ∀ b ∈ agents, GridOk loc nbh w h b) (hok' : ∀ b ∈ agents', GridOk loc nbh w h b)
    (hid : (agents.map ident).Nodup) (hid' : (agents'.map ident).Nodup) (n : Nat) {ρ : ℚ} (hρ : 0 ≤ ρ)
    (hsame : SameThere (fun b => Nearby p (loc b) (ρ + n * (s + R))) (numbered agents) (numbered agents')) :
    SameThere (fun b => Nearby p (loc b) ρ) (popAt actG (gridView loc nbh) r (numbered agents) n) (popAt actG (gridView loc nbh) r (numbered agents') n) := by
  have okn : ∀ {as : List B}, (∀ b ∈ as, GridOk loc nbh w h b) → ∀ x ∈ numbered as, GridOk loc nbh w h x.2 := by
    intro as h x hx
    refine h x.2 ?_
    rw [← numbered_snd as]
    exact List.mem_map.2 ⟨x, hx, rfl⟩
  have idn : ∀ {as : List B}, (as.map ident).Nodup → ((numbered as).map (fun x => ident x.2)).Nodup := by
    intro as h
    have e : (numbered as).map (fun x => ident x.2) = ((numbered as).map Prod.snd).map ident := by rw [List.map_map]; rfl
    rw [e, numbered_snd]
    exact h
  refine popAt_near (near := fun ρ b => Nearby p (loc b) ρ) L (fun b h1 h2 h3 => (sparseLaws ident loc nbh w h).perm b h1 h2 h3) hR hs ?_ ?_ ?_
    (okn hok) (okn hok') (idn hid) (idn hid') n hρ hsame
  · intro ρ ρ' b _ hle hb
    exact ⟨le_trans hb.1 hle, le_trans hb.2 hle⟩
  · intro ρ x b v _ ha hb
    exact nearby_triangle hb (nearby_symm (hslow x b v ha))
  · intro ρ pop b _ _ _ hb
    unfold gridView
    refine List.map_congr_left (fun l hl => ?_)
    have e : (pop.filter (fun x => decide (Nearby p (loc x) (ρ + R)))).filter (fun x => decide (loc x = l)) = pop.filter (fun x => decide (loc x = l)) := by
      rw [List.filter_filter]
      refine List.filter_congr (fun x _ => ?_)
      by_cases hx : loc x = l
      · have := nearby_triangle hb (hreach b l hl)
        rw [← hx] at this
        simp [hx]
        rw [← hx]
        exact this
      · simp [hx]
    unfold bagAt
    rw [e]

/-- **C273, dense object grid.** If agents look at most `R` cells away and move at most `s` cells in a step, two simulations that begin with the same agents within
`ρ + n (s + R)` cells of a place have the same agents within `ρ` cells of it after `n` steps. -/
theorem C273_dense_grid_partial {w h : Int} (hw : 0 ≤ w) (hh : 0 ≤ h) {loc : B → Loc} {nbh : B → List Loc} (L : Lawful actG ident (GridOk loc nbh w h) SameView)
    (h0 : ∀ x x' b v, actG x b v = actG x' b v) {R s : ℚ} (hR : 0 ≤ R) (hs : 0 ≤ s)
    (hreach : ∀ b, ∀ l ∈ nbh b, Nearby (loc b) l R) (hslow : ∀ x b v, (actG x b v).2 = true → Nearby (loc b) (loc (actG x b v).1) s) (p : Loc)
    (zero : T) (adv : T → T) (tb tb' : TieBreak T (B × Bool)) {agents agents' : List B} (hok : ∀ b ∈ agents, GridOk loc nbh w h b) (hok' : ∀ b ∈ agents', GridOk loc nbh w h b)
    (hid : (agents.map ident).Nodup) (hid' : (agents'.map ident).Nodup) (n : Nat) {ρ : ℚ} (hρ : 0 ≤ ρ)
    (hsame : SameThere (fun b => Nearby p (loc b) (ρ + n * (s + R))) (numbered agents) (numbered agents')) :
    SameEvents (fun b => Nearby p (loc b) ρ)
      (steps (model adv tb (denseOps loc nbh) actG rnd) n (Driver.start (sim zero adv tb (denseOps loc nbh) actG rnd agents ord) ⟨DenseObject.new w h, 0⟩)).sched.events
      (steps (model adv tb' (denseOps loc nbh) actG rnd) n (Driver.start (sim zero adv tb' (denseOps loc nbh) actG rnd agents' ord) ⟨DenseObject.new w h, 0⟩)).sched.events := by
  obtain ⟨σ, _, h1⟩ := C142_dense_grid (rnd := rnd) (ord := ord) hw hh L zero adv tb agents hok hid n
  obtain ⟨σ', _, h2⟩ := C142_dense_grid (rnd := rnd) (ord := ord) hw hh L zero adv tb' agents' hok' hid' n
  have h1 := h1 n (le_refl _)
  have h2 := h2 n (le_refl _)
  rw [popAt_sure h0 _ (fun m i => rnd (σ m i))] at h2
  exact follows_near h1 h2 (grid_near L hR hs hreach hslow p hok hok' hid hid' n hρ hsame)

/-- **C273, sparse object grid.** -/
theorem C273_sparse_grid_partial {w h : Int} {loc : B → Loc} {nbh : B → List Loc} (L : Lawful actG ident (GridOk loc nbh w h) SameView)
    (h0 : ∀ x x' b v, actG x b v = actG x' b v) {R s : ℚ} (hR : 0 ≤ R) (hs : 0 ≤ s)
    (hreach : ∀ b, ∀ l ∈ nbh b, Nearby (loc b) l R) (hslow : ∀ x b v, (actG x b v).2 = true → Nearby (loc b) (loc (actG x b v).1) s) (p : Loc)
    (zero : T) (adv : T → T) (tb tb' : TieBreak T (B × Bool)) {agents agents' : List B} (hok : ∀ b ∈ agents, GridOk loc nbh w h b) (hok' : ∀ b ∈ agents', GridOk loc nbh w h b)
    (hid : (agents.map ident).Nodup) (hid' : (agents'.map ident).Nodup) (n : Nat) {ρ : ℚ} (hρ : 0 ≤ ρ)
    (hsame : SameThere (fun b => Nearby p (loc b) (ρ + n * (s + R))) (numbered agents) (numbered agents')) :
    SameEvents (fun b => Nearby p (loc b) ρ)
      (steps (model adv tb (sparseOps loc nbh) actG rnd) n (Driver.start (sim zero adv tb (sparseOps loc nbh) actG rnd agents ord) ⟨some (SparseObject.new w h), 0⟩)).sched.events
      (steps (model adv tb' (sparseOps loc nbh) actG rnd) n (Driver.start (sim zero adv tb' (sparseOps loc nbh) actG rnd agents' ord) ⟨some (SparseObject.new w h), 0⟩)).sched.events := by
  obtain ⟨σ, _, h1⟩ := C142_sparse_grid (rnd := rnd) (ord := ord) L zero adv tb agents hok hid n
  obtain ⟨σ', _, h2⟩ := C142_sparse_grid (rnd := rnd) (ord := ord) L zero adv tb' agents' hok' hid' n
  have h1 := h1 n (le_refl _)
  have h2 := h2 n (le_refl _)
  rw [popAt_sure h0 _ (fun m i => rnd (σ m i))] at h2
  exact follows_near h1 h2 (grid_near L hR hs hreach hslow p hok hok' hid hid' n hρ hsame)

/-- **C273, object grids under the feature `parallel`.** -/
theorem C273_parallel_grid_partial {w h : Int} {loc : B → Loc} {nbh : B → List Loc} (L : Lawful actG ident (GridOk loc nbh w h) SameView)
    (h0 : ∀ x x' b v, actG x b v = actG x' b v) {R s : ℚ} (hR : 0 ≤ R) (hs : 0 ≤ s)
    (hreach : ∀ b, ∀ l ∈ nbh b, Nearby (loc b) l R) (hslow : ∀ x b v, (actG x b v).2 = true → Nearby (loc b) (loc (actG x b v).1) s) (p : Loc) {cpus : Nat}
    (hc : DBDashMap.shardAmount cpus ≤ 2 ^ 64) (hashO : Nat → Nat) (hashL : Loc → Nat)
    (zero : T) (adv : T → T) (tb tb' : TieBreak T (B × Bool)) {agents agents' : List B} (hok : ∀ b ∈ agents, GridOk loc nbh w h b) (hok' : ∀ b ∈ agents', GridOk loc nbh w h b)
    (hid : (agents.map ident).Nodup) (hid' : (agents'.map ident).Nodup) (threads threads' n : Nat) {ρ : ℚ} (hρ : 0 ≤ ρ)
    (hsame : SameThere (fun b => Nearby p (loc b) (ρ + n * (s + R))) (numbered agents) (numbered agents'))
    (wd wd' : World T (B × Bool) (State (ParGrid.OGrid B Nat)))
    (hst : ParSteps (model adv tb (parGridOps ident loc nbh) actG rnd) threads n
      (Driver.start (sim zero adv tb (parGridOps ident loc nbh) actG rnd agents ord) ⟨some (ParGrid.OGrid.new cpus hashO hashL w h), 0⟩) wd)
    (hst' : ParSteps (model adv tb' (parGridOps ident loc nbh) actG rnd) threads' n
      (Driver.start (sim zero adv tb' (parGridOps ident loc nbh) actG rnd agents' ord) ⟨some (ParGrid.OGrid.new cpus hashO hashL w h), 0⟩) wd') :
    SameEvents (fun b => Nearby p (loc b) ρ) wd.sched.events wd'.sched.events := by
  obtain ⟨σ, _, h1⟩ := C142_parallel_grid (rnd := rnd) (ord := ord) L hc hashO hashL zero adv tb agents hok hid threads n wd hst
  obtain ⟨σ', _, h2⟩ := C142_parallel_grid (rnd := rnd) (ord := ord) L hc hashO hashL zero adv tb' agents' hok' hid' threads' n wd' hst'
  rw [popAt_sure h0 _ (fun m i => rnd (σ m i))] at h2
  exact follows_near h1 h2 (grid_near L hR hs hreach hslow p hok hok' hid hid' n hρ hsame)

/-! ### Concrete models, and where it fails -/

namespace Cone

/-- An agent in a field: its number and where it is. -/
abbrev Bird := Nat × Pos

/-- Whoever sees somebody else dies; the others go north by one half, unless they would leave the field. -/
def fly (_ : Unit) (b : Bird) (v : List Bird) : Bird × Bool := ((b.1, if b.2.y + 1 / 2 < 10 then ⟨b.2.x, b.2.y + 1 / 2⟩ else b.2), decide (v.length = 1))

theorem lawful : Lawful fly Prod.fst (fun b => Field2D.InField 10 10 b.2) List.Perm where
  ident _ _ _ := rfl
  ok x b v h _ := by
    unfold fly
    obtain ⟨h1, h2, h3, h4⟩ := h
    by_cases hb : b.2.y + 1 / 2 < 10
    · simp only [if_pos hb]
      exact ⟨h1, h2, by dsimp only; linarith, hb.le⟩
    · simp only [if_neg hb]
      exact ⟨h1, h2, h3, h4⟩
  same _ _ {_ _} h := by unfold fly; rw [h.length_eq]

theorem slow (x : Unit) (b : Bird) (v : List Bird) (_ : (fly x b v).2 = true) : Field2D.Within false 10 10 (fly x b v).1.2 b.2 (1 / 2) := by
  unfold Field2D.Within
  rw [if_neg (by decide)]
  unfold fly
  by_cases hb : b.2.y + 1 / 2 < 10
  · simp only [if_pos hb]
    norm_num
  · simp only [if_neg hb]
    norm_num

/-- Agents see as far as one. -/
theorem sees : Sees 10 10 1 false (fun _ : Bird => 1) 1 := fun _ => Or.inr ⟨le_refl _, by intro h; cases h⟩

/-- Three birds; the third is far from the first, and dies with the second. -/
def three : List Bird := [(0, ⟨1, 1⟩), (1, ⟨8, 8⟩), (2, ⟨8, 17 / 2⟩)]

/-- The third elsewhere. -/
def three' : List Bird := [(0, ⟨1, 1⟩), (1, ⟨8, 8⟩), (2, ⟨5, 5⟩)]

example : (∀ b ∈ three, Field2D.InField 10 10 b.2) ∧ (∀ b ∈ three', Field2D.InField 10 10 b.2) ∧ (three.map Prod.fst).Nodup ∧ (three'.map Prod.fst).Nodup := by
  decide +kernel

/-- The two agree within three and a half of the first bird, that is `1 / 2 + 2 (1 / 2 + 1)`. -/
example : SameThere (fun b : Bird => Field2D.Within false 10 10 b.2 ⟨1, 1⟩ (1 / 2 + (2 : Nat) * (1 / 2 + 1))) (numbered three) (numbered three') := by
  intro i b hb
  have far : ∀ q : Pos, (¬ (q.x - 1) * (q.x - 1) + (q.y - 1) * (q.y - 1) ≤ (1 / 2 + (2 : Nat) * (1 / 2 + 1)) * (1 / 2 + (2 : Nat) * (1 / 2 + 1) : ℚ)) → b.2 ≠ q := by
    intro q hq e
    unfold Field2D.Within at hb
    rw [if_neg (by decide), e] at hb
    exact hq hb
  have n1 := far ⟨8, 8⟩ (by norm_num)
  have n2 := far ⟨8, 17 / 2⟩ (by norm_num)
  have n3 := far ⟨5, 5⟩ (by norm_num)
  have e1 : numbered three = [(0, (0, ⟨1, 1⟩)), (1, (1, ⟨8, 8⟩)), (2, (2, ⟨8, 17 / 2⟩))] := rfl
  have e2 : numbered three' = [(0, (0, ⟨1, 1⟩)), (1, (1, ⟨8, 8⟩)), (2, (2, ⟨5, 5⟩))] := rfl
  rw [e1, e2]
  obtain ⟨k, q⟩ := b
  dsimp only at n1 n2 n3
  simp [n1, n2, n3]

/-- After one step of the two simulations, what is far away differs. -/
example :
    ((steps (model (· + 1) (fun _ _ => 0) (fieldOps (fun b : Bird => b.2) (fun _ => 1)) fly (fun _ => ())) 1
      (Driver.start (sim (0 : Nat) (· + 1) (fun _ _ => 0) (fieldOps (fun b : Bird => b.2) (fun _ => 1)) fly (fun _ => ()) three (fun _ => 0)) ⟨some (Field2D.new 10 10 1 false), 0⟩)).sched.events.map
        (fun e => e.1.agent.1)) = [(0, ⟨1, 3 / 2⟩)] ∧
    ((steps (model (· + 1) (fun _ _ => 0) (fieldOps (fun b : Bird => b.2) (fun _ => 1)) fly (fun _ => ())) 1
      (Driver.start (sim (0 : Nat) (· + 1) (fun _ _ => 0) (fieldOps (fun b : Bird => b.2) (fun _ => 1)) fly (fun _ => ()) three' (fun _ => 0)) ⟨some (Field2D.new 10 10 1 false), 0⟩)).sched.events.map
        (fun e => e.1.agent.1)).length = 3 := by
  decide +kernel

/-- Whoever sees somebody else dies; the others stay. -/
def sit (_ : Unit) (b : Bird) (v : List Bird) : Bird × Bool := (b, decide (v.length = 1))

/-- The walkers of the dense grid move less than five cells along a ring of five. -/
example : ∀ (x : Unit) (b : Walker) (v : List (Option (List Walker))), (Demo.walk x b v).2 = true → Nearby (Demo.loc b) (Demo.loc (Demo.walk x b v).1) 4 := by
  intro x b v _
  unfold Nearby Demo.loc Demo.walk
  dsimp only
  have h : ((b.2 + b.1 + 1) % 5 - b.2 % 5).natAbs ≤ 4 := by omega
  exact ⟨by exact_mod_cast h, by norm_num⟩

end Cone

/-- **C273 is false of a torus** if agents look half around it: an agent with a reach of five dies because of another that is more than five away. -/
theorem C273_torus_negation_partial :
    (∀ x b v, (Cone.sit x b v).2 = true → Field2D.Within true 10 10 (Cone.sit x b v).1.2 b.2 0) ∧
    SameThere (fun b : Cone.Bird => Field2D.Within true 10 10 b.2 ⟨9 / 10, 1 / 2⟩ (0 + (1 : Nat) * (0 + 5)))
      (numbered [(0, ⟨9 / 10, 1 / 2⟩), (1, ⟨59 / 10, 0⟩)]) (numbered [(0, ⟨9 / 10, 1 / 2⟩)]) ∧
    ¬ SameEvents (fun b : Cone.Bird => Field2D.Within true 10 10 b.2 ⟨9 / 10, 1 / 2⟩ 0)
      (steps (model (· + 1) (fun _ _ => 0) (fieldOps (fun b : Cone.Bird => b.2) (fun _ => 5)) Cone.sit (fun _ => ())) 1
        (Driver.start (sim (0 : Nat) (· + 1) (fun _ _ => 0) (fieldOps (fun b : Cone.Bird => b.2) (fun _ => 5)) Cone.sit (fun _ => ())
          [(0, ⟨9 / 10, 1 / 2⟩), (1, ⟨59 / 10, 0⟩)] (fun _ => 0)) ⟨some (Field2D.new 10 10 1 true), 0⟩)).sched.events
      (steps (model (· + 1) (fun _ _ => 0) (fieldOps (fun b : Cone.Bird => b.2) (fun _ => 5)) Cone.sit (fun _ => ())) 1
        (Driver.start (sim (0 : Nat) (· + 1) (fun _ _ => 0) (fieldOps (fun b : Cone.Bird => b.2) (fun _ => 5)) Cone.sit (fun _ => ())
          [(0, ⟨9 / 10, 1 / 2⟩)] (fun _ => 0)) ⟨some (Field2D.new 10 10 1 true), 0⟩)).sched.events := by
  have self : ∀ q : Pos, Field2D.Within true 10 10 q q 0 := by
    intro q
    unfold Field2D.Within
    rw [if_pos rfl]
    exact ⟨0, 0, by norm_num⟩
  refine ⟨fun x b v _ => self _, ?_, ?_⟩
  · intro i b hb
    have far : b.2 ≠ ⟨59 / 10, 0⟩ := by
      intro e
      rw [e, ← Field2D.within_iff _ _ _ (by norm_num) (by norm_num)] at hb
      revert hb
      decide +kernel
    have e1 : numbered [((0, ⟨9 / 10, 1 / 2⟩) : Cone.Bird), (1, ⟨59 / 10, 0⟩)] = [(0, (0, ⟨9 / 10, 1 / 2⟩)), (1, (1, ⟨59 / 10, 0⟩))] := rfl
    have e2 : numbered [((0, ⟨9 / 10, 1 / 2⟩) : Cone.Bird)] = [(0, (0, ⟨9 / 10, 1 / 2⟩))] := rfl
    rw [e1, e2]
    obtain ⟨k, q⟩ := b
    dsimp only at far
    simp [far]
  · intro h
    have h := (h (⟨0, ((0, ⟨9 / 10, 1 / 2⟩), true), true⟩, ⟨1, 0⟩) (self _)).2
    revert h
    decide +kernel

end Verif.Sync
