import Verif.Lemmas.MachineBirds
import Verif.Props.Arranged
import Verif.Lemmas.SingleIeee

/-!
Simulations in a `Field2D` with the machine arithmetic of the code (C185) and the flockers simulation in it (C186, C187). `rnd` and `root` are any correct rounding and
rounded square root; `Single.single` and `Single.root` are those of IEEE 754.
-/

namespace Verif.Machine

open Schedule
open Sync (Rule Rounds Follows numbered model sim)
open Single (Rounding Root IsF32 Squares cellOf)
open DenseI32 (Mode)

variable {T B D : Type} [LinearOrder T] [DecidableEq B] {ident : B → Nat} {ok : B → Prop} {okD : D → Prop} {draws : Nat → D} {ord : Nat → Int}
  {act : D → B → List B → B × Bool}

/-! ### C185 -/

/-- **C185.** Agents in a `Field2D` of ordinary size, with positions in `f32`, in debug and release builds: if the rule keeps agents inside the field, then after every
number of steps the field shows exactly the population of as many rounds in which all agents act at once, each on the answer of a field in which exactly the agents of the
round before are, in some arrangement; no step panics. -/
theorem C185_machine_field {rnd root : Rat → Rat} (hr : Rounding rnd) (mode : Mode) {w h d : Rat} (ho : Ordinary rnd w h d) (t : Bool) {loc : B → PosF}
    (hok : ∀ b, ok b → Inside w h (loc b)) {reach : B → Rat} (hreach : ∀ b, reach b / d ≤ 2 ^ 31 - 2 ^ 25)
    (R : Rule act ident ok okD (answer rnd root mode w h d t loc (fun b => .fin (reach b))) List.Perm) (hD : ∀ k, okD (draws k)) (zero : T) (adv : T → T)
    (tb : TieBreak T (B × Bool)) (agents : List B) (hag : ∀ b ∈ agents, ok b) (hid : (agents.map ident).Nodup) (n : Nat) :
    ∃ cell, Squares cell d ∧
    ∃ pops, Rounds act (answer rnd root mode w h d t loc (fun b => .fin (reach b))) List.Perm draws (numbered agents) 0 n pops ∧ ∀ k ≤ n,
      Follows (ShowsAll rnd mode cell loc w h) ord (adv^[k] zero) k (pops k)
        (steps (model adv tb (agentOps rnd root mode loc (fun b => .fin (reach b))) act draws) k
          (Driver.start (sim zero adv tb (agentOps rnd root mode loc (fun b => .fin (reach b))) act draws agents ord)
            ⟨new rnd mode (.fin w) (.fin h) (.fin d) t, 0⟩)) ∧
      ∀ p ∈ pops k, ok p.2 := by
  obtain ⟨f, hf, hh⟩ := holds_new hr mode ho t loc
  exact ⟨cellOf rnd d, Single.squares_cellOf hr ho.pos, Sync.C184_arranged (machineLaws hr mode ho t ident ok loc hok reach hreach) R hD (fun h h' => h.trans h') zero adv tb
    agents hag hid (s := ⟨new rnd mode (.fin w) (.fin h) (.fin d) t, 0⟩) (r := []) hf hh n⟩

/-- **C185**, for `simulate!` with any number of repetitions. -/
theorem C185_repetitions {rnd root : Rat → Rat} (hr : Rounding rnd) (mode : Mode) {w h d : Rat} (ho : Ordinary rnd w h d) (t : Bool) {loc : B → PosF}
    (hok : ∀ b, ok b → Inside w h (loc b)) {reach : B → Rat} (hreach : ∀ b, reach b / d ≤ 2 ^ 31 - 2 ^ 25)
    (R : Rule act ident ok okD (answer rnd root mode w h d t loc (fun b => .fin (reach b))) List.Perm) (hD : ∀ k, okD (draws k)) (zero : T) (adv : T → T)
    (tb : TieBreak T (B × Bool)) (agents : List B) (hag : ∀ b ∈ agents, ok b) (hid : (agents.map ident).Nodup) (n : Nat) (hn : 0 < n) (reps : Nat) :
    ∃ cell, Squares cell d ∧
    (Driver.runReps (sim zero adv tb (agentOps rnd root mode loc (fun b => .fin (reach b))) act draws agents ord) n reps
      ⟨new rnd mode (.fin w) (.fin h) (.fin d) t, 0⟩).length = reps ∧
    ∀ wd ∈ Driver.runReps (sim zero adv tb (agentOps rnd root mode loc (fun b => .fin (reach b))) act draws agents ord) n reps
        ⟨new rnd mode (.fin w) (.fin h) (.fin d) t, 0⟩,
      ∃ k pops, Rounds act (answer rnd root mode w h d t loc (fun b => .fin (reach b))) List.Perm draws (numbered agents) k n pops ∧
        Follows (ShowsAll rnd mode cell loc w h) ord (adv^[n] zero) n (pops n) wd ∧ ∀ p ∈ pops n, ok p.2 := by
  obtain ⟨f, hf, hh⟩ := holds_new hr mode ho t loc
  exact ⟨cellOf rnd d, Single.squares_cellOf hr ho.pos, Sync.C184_repetitions (machineLaws hr mode ho t ident ok loc hok reach hreach) R hD (fun h h' => h.trans h') zero adv
    tb agents hag hid (s := ⟨new rnd mode (.fin w) (.fin h) (.fin d) t, 0⟩) (r := []) hf hh n hn reps⟩

theorem ordinary_ten : Ordinary Single.single 10 10 (1 / 2) := ⟨by norm_num, by norm_num, by norm_num, by norm_num, by norm_num, by decide +kernel⟩

/-- A rule the theorem applies to: an agent jumps to whom it sees first. -/
example (mode : Mode) : Rule (fun (_ : Unit) (b : Nat × PosF) (v : List (Nat × PosF)) => ((b.1, (v.head?.map Prod.snd).getD b.2), true)) Prod.fst
    (fun b => Inside 10 10 b.2) (fun _ => True) (answer Single.single Single.root mode 10 10 (1 / 2) true Prod.snd (fun _ => .fin 3)) List.Perm where
  ident _ _ _ := rfl
  ok x b r v _ hb hr hv _ := by
    cases v with
    | nil => exact hb
    | cons c v =>
      exact hr c (mem_answer Single.rounding_single mode ordinary_ten (reach := fun _ => 3) hr hb (by norm_num) (hv.mem_iff.1 List.mem_cons_self))

/-- Three agents in a run of it: the second jumps to the first. -/
example : (steps (model (· + 1) (fun _ _ => 0) (agentOps Single.single Single.root .debug Prod.snd (fun _ => .fin 3))
      (fun (_ : Unit) (b : Nat × PosF) (v : List (Nat × PosF)) => ((b.1, (v.head?.map Prod.snd).getD b.2), true)) (fun _ => ())) 2
    (Driver.start (sim (0 : Nat) (· + 1) (fun _ _ => 0) (agentOps Single.single Single.root .debug Prod.snd (fun _ => .fin 3))
      (fun (_ : Unit) (b : Nat × PosF) (v : List (Nat × PosF)) => ((b.1, (v.head?.map Prod.snd).getD b.2), true)) (fun _ => ())
      [(0, ⟨.fin 1, .fin 1⟩), (1, ⟨.fin 2, .fin 1⟩), (2, ⟨.fin 9, .fin 9⟩)] (fun _ => 0)) ⟨new Single.single .debug (.fin 10) (.fin 10) (.fin (1 / 2)) true, 0⟩)).sched.events.map
      (fun e => e.1.agent) =
    [((0, ⟨.fin 1, .fin 1⟩), true), ((1, ⟨.fin 1, .fin 1⟩), true), ((2, ⟨.fin 9, .fin 9⟩), true)] := by decide +kernel

/-! ### C186 -/

theorem good_inside {w h : Rat} {b : BirdF} (hb : GoodBird w h b) : Inside w h b.pos := by
  obtain ⟨x, y, _, _, e, _, h1, h2, h3, h4, _⟩ := hb
  exact ⟨x, y, e, h1, h2, h3, h4⟩

theorem bird_rule {rnd root : Rat → Rat} (hr : Rounding rnd) (hroot : Root root) (mode : Mode) {w h : Rat} (ho : Ordinary rnd w h (1 / 2)) (hwf : IsF32 w) (hwh : w ≤ h) :
    Rule (birdAct rnd root (.fin w) (.fin h)) BirdF.id (GoodBird w h) Draw (answer rnd root mode w h (1 / 2) true BirdF.pos (fun _ => .fin 10)) List.Perm where
  ident _ _ _ := rfl
  ok x b r v hx hb hall hv _ := by
    refine move_good hr hroot (lt_of_lt_of_le ho.pos ho.dw) hwf hwh ho.high hb hx v ?_
    intro e he
    exact hall e (mem_answer hr mode ho (reach := fun _ => 10) (fun c hc => good_inside (hall c hc)) (good_inside hb) (by norm_num) (hv.mem_iff.1 he))

/-- **C186** (`_partial`: worlds that are not wider than high, and no bird ever draws 1/2 twice in a turn). The flockers simulation with the arithmetic of the code, whatever
the order in which the birds run, in debug and release builds: no step panics, every bird sees exactly the birds of the step before, and after every step its position is a
pair of numbers inside the world, its last move a pair of numbers. -/
theorem C186_flock_stays_inside_partial {rnd root : Rat → Rat} (hr : Rounding rnd) (hroot : Root root) (mode : Mode) {w h : Rat} (ho : Ordinary rnd w h (1 / 2))
    (hwf : IsF32 w) (hwh : w ≤ h) {draws : Nat → Rat × Rat} (hD : ∀ k, Draw (draws k)) (zero : T) (adv : T → T) (tb : TieBreak T (BirdF × Bool)) (birds : List BirdF)
    (hb : ∀ b ∈ birds, GoodBird w h b) (hid : (birds.map BirdF.id).Nodup) (n : Nat) :
    ∃ cell, Squares cell (1 / 2) ∧
    ∃ pops, Rounds (birdAct rnd root (.fin w) (.fin h)) (answer rnd root mode w h (1 / 2) true BirdF.pos (fun _ => .fin 10)) List.Perm draws (numbered birds) 0 n pops ∧
      ∀ k ≤ n, Follows (ShowsAll rnd mode cell BirdF.pos w h) ord (adv^[k] zero) k (pops k)
        (steps (model adv tb (birdOps rnd root mode) (birdAct rnd root (.fin w) (.fin h)) draws) k
          (Driver.start (sim zero adv tb (birdOps rnd root mode) (birdAct rnd root (.fin w) (.fin h)) draws birds ord)
            ⟨new rnd mode (.fin w) (.fin h) (.fin (1 / 2)) true, 0⟩)) ∧
        ∀ p ∈ pops k, GoodBird w h p.2 :=
  C185_machine_field hr mode ho true (fun b hb => good_inside hb) (reach := fun _ => 10) (fun _ => by norm_num) (bird_rule hr hroot mode ho hwf hwh) hD zero adv tb birds hb
    hid n

/-- **C186** (`_partial`), the birds that `init` makes are of this kind. -/
theorem C186_new_birds_partial {rnd : Rat → Rat} (hr : Rounding rnd) {w h : Rat} (hw0 : 0 ≤ w) (hh0 : 0 ≤ h) (hw : w ≤ 2 ^ 30) (hh : h ≤ 2 ^ 30) (hwf : IsF32 w)
    (hhf : IsF32 h) (i : Nat) {r : Rat × Rat} (h1 : 0 ≤ r.1) (h2 : r.1 ≤ 1) (h3 : 0 ≤ r.2) (h4 : r.2 ≤ 1) : GoodBird w h (newBird rnd (.fin w) (.fin h) i r) := by
  have key : ∀ {z q : Rat}, 0 ≤ z → z ≤ 2 ^ 30 → IsF32 z → 0 ≤ q → q ≤ 1 → mul rnd (.fin z) (.fin q) = .fin (rnd (z * q)) ∧ 0 ≤ rnd (z * q) ∧ rnd (z * q) ≤ z := by
    intro z q hz hz' hf hq hq'
    have a : z * q ≤ z := mul_le_of_le_one_right hz hq'
    have b : 0 ≤ z * q := mul_nonneg hz hq
    refine ⟨mul_of hr (by rw [abs_of_nonneg b]; exact le_trans (le_trans a hz') (by norm_num)), hr.nonneg b, ?_⟩
    have := hr.mono _ _ a
    rwa [hr.keeps hf] at this
  obtain ⟨a1, a2, a3⟩ := key hw0 hw hwf h1 h2
  obtain ⟨b1, b2, b3⟩ := key hh0 hh hhf h3 h4
  refine ⟨_, _, 0, 0, ?_, rfl, a2, a3, b2, b3, by norm_num, by norm_num, hr.lands _, hr.lands _, Single.isF32_zero, Single.isF32_zero⟩
  unfold newBird
  rw [a1, b1]

/-- A flock as `init` makes it, and draws that are allowed. -/
example : (∀ b ∈ (List.range 3).map (fun i => newBird Single.single (.fin 10) (.fin 10) i (1 / 3, 1 / 4)), GoodBird 10 10 b) ∧
    (((List.range 3).map (fun i => newBird Single.single (.fin 10) (.fin 10) i (1 / 3, 1 / 4))).map BirdF.id).Nodup ∧ Draw (1 / 2, 1 / 4) := by
  refine ⟨?_, by decide +kernel, 2 ^ 23, 2 ^ 22, by norm_num, by norm_num, by norm_num, by norm_num⟩
  intro b hb
  obtain ⟨i, _, rfl⟩ := List.mem_map.1 hb
  have h10 : IsF32 10 := ⟨10, 0, by norm_num, by norm_num, by norm_num⟩
  exact C186_new_birds_partial Single.rounding_single (by norm_num) (by norm_num) (by norm_num) (by norm_num) h10 h10 i (by norm_num) (by norm_num) (by norm_num) (by norm_num)

/-- **C186** is false of the code: a bird that sees anybody, itself for instance, and draws 1/2 twice divides 0 by 0, and is nowhere; whatever the bird, the world and the
neighbours. -/
theorem C186_draw_partial {rnd root : Rat → Rat} (hr : Rounding rnd) (hroot : Root root) (w h : F) (self : BirdF) (vec : List BirdF) (hv : vec ≠ []) :
    move rnd root w h (1 / 2, 1 / 2) self vec = ⟨self.id, ⟨.nan, .nan⟩, ⟨.nan, .nan⟩⟩ := by
  apply move_nan
  unfold direction
  rw [if_neg (by rw [List.isEmpty_iff]; exact hv), randomness_nan hr hroot]
  rw [together_nan _ _ _ _ _ (.inr (.inl rfl)), together_nan _ _ _ _ _ (.inr (.inl rfl))]

/-- **C186**, such a bird stays nowhere for ever. -/
theorem C186_nan_stays_partial (rnd root : Rat → Rat) (w h : F) (r : Rat × Rat) (self : BirdF) (vec : List BirdF) (hs : self.lastD = ⟨.nan, .nan⟩) :
    move rnd root w h r self vec = ⟨self.id, ⟨.nan, .nan⟩, ⟨.nan, .nan⟩⟩ := by
  apply move_nan
  unfold direction
  rw [hs]
  split_ifs <;> exact congrArg₂ PosF.mk (together_nan _ _ _ _ _ (.inr (.inr rfl))) (together_nan _ _ _ _ _ (.inr (.inr rfl)))

/-- **C186**, and whoever sees it is lost too. -/
theorem C186_nan_spreads_partial (rnd root : Rat → Rat) (w h : F) (r : Rat × Rat) (self : BirdF) (vec : List BirdF) {e : BirdF} (he : e ∈ vec) (hid : self.id ≠ e.id)
    (hn : e.lastD = ⟨.nan, .nan⟩) : move rnd root w h r self vec = ⟨self.id, ⟨.nan, .nan⟩, ⟨.nan, .nan⟩⟩ := by
  apply move_nan
  obtain ⟨h1, h2⟩ := cons_nan (rnd := rnd) w h self vec he hid hn AccF.zero
  unfold direction
  rw [if_neg (by rw [List.isEmpty_iff]; rintro rfl; cases he)]
  generalize vec.foldl (addNeighbor rnd w h self) AccF.zero = a at *
  have e1 : (a.consistency rnd).x = .nan := by
    unfold AccF.consistency
    rw [h1, mean_nan, mean_nan]
  have e2 : (a.consistency rnd).y = .nan := by
    unfold AccF.consistency
    rw [h2, mean_nan, mean_nan]
  rw [together_nan _ _ _ _ _ (.inl e1), together_nan _ _ _ _ _ (.inl e2)]

/-- The flock after `n` steps in a square world, with the arithmetic of IEEE 754 in a release build; `k` resolves ties. -/
def flock (birds : List BirdF) (draws : Nat → Rat × Rat) (w : Rat) (k n : Nat) : List BirdF :=
  (steps (model (· + 1) (fun _ _ => k) (birdOps Single.single Single.root .release) (birdAct Single.single Single.root (.fin w) (.fin w)) draws) n
    (Driver.start (sim (0 : Nat) (· + 1) (fun _ _ => k) (birdOps Single.single Single.root .release) (birdAct Single.single Single.root (.fin w) (.fin w)) draws birds (fun _ => 0))
      ⟨new Single.single .release (.fin w) (.fin w) (.fin (1 / 2)) true, 0⟩)).sched.events.map (fun e => e.1.agent.1)

/-- **C186**, a whole run: one bird draws 1/2 twice in the second step; after the third step no bird is left in the world, and no call has failed. The bird that is nowhere
is filed in the first cell of the field, where the search finds it without looking at its position. -/
theorem C186_flock_lost_partial :
    flock [⟨0, ⟨.fin (1 / 4), .fin (1 / 4)⟩, ⟨.fin 0, .fin 0⟩⟩, ⟨1, ⟨.fin (3 / 4), .fin (1 / 4)⟩, ⟨.fin 0, .fin 0⟩⟩]
      (fun n => if n = 2 then (1 / 2, 1 / 2) else (1 / 4, 1 / 4)) 1 0 3 =
    [⟨0, ⟨.nan, .nan⟩, ⟨.nan, .nan⟩⟩, ⟨1, ⟨.nan, .nan⟩, ⟨.nan, .nan⟩⟩] := by decide +kernel

/-! ### C187 -/

/-- Two sequences of rounds of at most three birds are the same, if all turns draw the same numbers. -/
theorem few_rounds_same {rnd root : Rat → Rat} (hr : Rounding rnd) (mode : Mode) {w h : Rat} (ho : Ordinary rnd w h (1 / 2)) {r : Rat × Rat} {birds : List BirdF}
    (hid : (birds.map BirdF.id).Nodup) (hfew : birds.length ≤ 3) {n m m' : Nat} {pops pops' : Nat → List (Nat × BirdF)}
    (hp : Rounds (birdAct rnd root (.fin w) (.fin h)) (answer rnd root mode w h (1 / 2) true BirdF.pos (fun _ => .fin 10)) List.Perm (fun _ => r) (numbered birds) m n pops)
    (hp' : Rounds (birdAct rnd root (.fin w) (.fin h)) (answer rnd root mode w h (1 / 2) true BirdF.pos (fun _ => .fin 10)) List.Perm (fun _ => r) (numbered birds) m' n pops')
    (hg : ∀ k ≤ n, ∀ p ∈ pops k, GoodBird w h p.2) : pops n = pops' n := by
  obtain ⟨_, _, hR⟩ := hp.rounds
  obtain ⟨_, _, hR'⟩ := hp'.rounds
  have w0 : 0 < w := lt_of_lt_of_le ho.pos ho.dw
  have h0 : 0 < h := lt_of_lt_of_le ho.pos ho.dh
  have keeps : ∀ (v : Nat → List BirdF) (pop : List (Nat × BirdF)),
      (Sync.nextSeen (birdAct rnd root (.fin w) (.fin h)) (fun _ => r) v pop).map (fun p => p.2.id) = pop.map (fun p => p.2.id) := by
    intro v pop
    unfold Sync.nextSeen
    induction pop with
    | nil => rfl
    | cons p pop ih =>
      rw [List.filterMap_cons]
      simp only [birdAct, if_true, List.map_cons] at ih ⊢
      rw [ih]
      rfl
  have key : ∀ k ≤ n, pops k = pops' k ∧ (pops k).map (fun p => p.2.id) = birds.map BirdF.id := by
    intro k
    induction k with
    | zero =>
      intro _
      refine ⟨by rw [hp.first, hp'.first], ?_⟩
      rw [hp.first]
      apply List.ext_getElem
      · simp [numbered]
      · intro i h1 h2
        simp [numbered]
    | succ k ih =>
      intro hk
      obtain ⟨e, hids⟩ := ih (by omega)
      obtain ⟨v, hv, en⟩ := hR k (by omega)
      obtain ⟨v', hv', en'⟩ := hR' k (by omega)
      rw [← e] at hv' en'
      refine ⟨?_, by rw [en, keeps, hids]⟩
      rw [en, en']
      unfold Sync.nextSeen
      apply List.filterMap_congr
      intro p hpm
      have hgood := hg k (by omega)
      have hgood' : ∀ c ∈ (pops k).map Prod.snd, GoodBird w h c := by
        intro c hc
        obtain ⟨q, hq, rfl⟩ := List.mem_map.1 hc
        exact hgood q hq
      have hins : ∀ c ∈ (pops k).map Prod.snd, Inside w h c.pos := fun c hc => good_inside (hgood' c hc)
      have hnd : (((pops k).map Prod.snd).map BirdF.id).Nodup := by
        rw [List.map_map]
        have : (BirdF.id ∘ Prod.snd) = (fun p : Nat × BirdF => p.2.id) := rfl
        rw [this, hids]
        exact hid
      have hans := answer_eq (root := root) hr mode ho (t := true) (reach := fun _ => 10) hins p.2 (good_inside (hgood p hpm)) (by norm_num)
      have hm : move rnd root (.fin w) (.fin h) r p.2 (v p.1) = move rnd root (.fin w) (.fin h) r p.2 (v' p.1) := by
        refine move_perm hr w0 ho.wide h0 ho.high (hgood p hpm) r ((hv p hpm).trans (hv' p hpm).symm) ?_ ?_
        · intro c hc
          exact hgood' c (mem_answer hr mode ho (reach := fun _ => 10) hins (good_inside (hgood p hpm)) (by norm_num) ((hv p hpm).mem_iff.1 hc))
        · have hv1 := hv p hpm
          rw [hans] at hv1
          have hnod : (v p.1).Nodup := hv1.nodup_iff.2 (seenM_nodup hr ho hnd.of_map _)
          have hsub : ∀ c ∈ (v p.1).filter (fun c => decide (p.2.id ≠ c.id)), c ∈ ((pops k).map Prod.snd).filter (fun c => decide (p.2.id ≠ c.id)) := by
            intro c hc
            obtain ⟨c1, c2⟩ := List.mem_filter.1 hc
            exact List.mem_filter.2 ⟨mem_seenM (hv1.mem_iff.1 c1), c2⟩
          have hle := ((hnod.filter _).subperm hsub).length_le
          refine le_trans hle ?_
          have hlt : (((pops k).map Prod.snd).filter (fun c => decide (p.2.id ≠ c.id))).length < ((pops k).map Prod.snd).length := by
            rw [List.length_filter_lt_length_iff_exists]
            exact ⟨p.2, List.mem_map.2 ⟨p, hpm, rfl⟩, by simp⟩
          have hlen : ((pops k).map Prod.snd).length = birds.length := by
            have := congrArg List.length hids
            simpa using this
          omega
      simp only [birdAct, hm]
  exact (key n (le_refl _)).1

/-- **C187** (`_partial`: at most three birds, all turns draw the same numbers). Two runs of the flockers simulation with the arithmetic of the code agree in every bird,
whatever the orders in which the birds run. -/
theorem C187_same_flock_partial {rnd root : Rat → Rat} (hr : Rounding rnd) (hroot : Root root) (mode : Mode) {w h : Rat} (ho : Ordinary rnd w h (1 / 2))
    (hwf : IsF32 w) (hwh : w ≤ h) {r : Rat × Rat} (hD : Draw r) (zero : T) (adv : T → T) (tb tb' : TieBreak T (BirdF × Bool)) (birds : List BirdF)
    (hb : ∀ b ∈ birds, GoodBird w h b) (hid : (birds.map BirdF.id).Nodup) (hfew : birds.length ≤ 3) (n : Nat) :
    (steps (model adv tb (birdOps rnd root mode) (birdAct rnd root (.fin w) (.fin h)) (fun _ => r)) n
      (Driver.start (sim zero adv tb (birdOps rnd root mode) (birdAct rnd root (.fin w) (.fin h)) (fun _ => r) birds ord)
        ⟨new rnd mode (.fin w) (.fin h) (.fin (1 / 2)) true, 0⟩)).sched.events.Perm
    (steps (model adv tb' (birdOps rnd root mode) (birdAct rnd root (.fin w) (.fin h)) (fun _ => r)) n
      (Driver.start (sim zero adv tb' (birdOps rnd root mode) (birdAct rnd root (.fin w) (.fin h)) (fun _ => r) birds ord)
        ⟨new rnd mode (.fin w) (.fin h) (.fin (1 / 2)) true, 0⟩)).sched.events := by
  obtain ⟨_, _, pops, hp, h1⟩ := C186_flock_stays_inside_partial (ord := ord) hr hroot mode ho hwf hwh (draws := fun _ => r) (fun _ => hD) zero adv tb birds hb hid n
  obtain ⟨_, _, pops', hp', h1'⟩ := C186_flock_stays_inside_partial (ord := ord) hr hroot mode ho hwf hwh (draws := fun _ => r) (fun _ => hD) zero adv tb' birds hb hid n
  have a := (h1 n (le_refl _)).1.agents
  have a' := (h1' n (le_refl _)).1.agents
  rw [few_rounds_same hr mode ho hid hfew hp hp' (fun k hk => (h1 k hk).2)] at a
  exact a.trans a'.symm

/-- Four birds close to each other. -/
def four : List BirdF :=
  [⟨0, ⟨.fin (Single.single (13 / 4036)), .fin (Single.single (257 / 4036))⟩, ⟨.fin 0, .fin 0⟩⟩,
    ⟨1, ⟨.fin (Single.single (869 / 4036)), .fin (Single.single (807 / 4036))⟩, ⟨.fin 0, .fin 0⟩⟩,
    ⟨2, ⟨.fin (Single.single (716 / 4036)), .fin (Single.single (348 / 4036))⟩, ⟨.fin 0, .fin 0⟩⟩,
    ⟨3, ⟨.fin (Single.single (563 / 4036)), .fin (Single.single (898 / 4036))⟩, ⟨.fin 0, .fin 0⟩⟩]

/-- **C187** is false of the code for four birds: sums of floats depend on the order of the terms, and the flock after two steps depends on the order in which the birds ran
in the first, although all turns draw the same numbers. -/
theorem C187_order_matters_partial : ¬ (flock four (fun _ => (1 / 4, 1 / 4)) 1 0 2).Perm (flock four (fun _ => (1 / 4, 1 / 4)) 1 3 2) := by decide +kernel

/-- Two birds: the same flock in either order. -/
example : (flock (four.take 2) (fun _ => (1 / 4, 1 / 4)) 1 0 3).Perm (flock (four.take 2) (fun _ => (1 / 4, 1 / 4)) 1 1 3) := by decide +kernel

end Verif.Machine
