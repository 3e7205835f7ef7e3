import Verif.Spec.Monitor
import Verif.Lemmas.Fl
import Verif.Lemmas.HashMap
import Mathlib.Tactic.Linarith
import Mathlib.Data.List.Nodup

/-! Lemmas for plots, csv output, logs and the interface. -/

set_option linter.unusedSectionVars false

namespace Verif.Monitor

open MonitorSpec

/-! ### Plots -/

/-- `v` is the least of `xs` below `top`, or `top`. -/
def Low (top : Fl) (xs : List Fl) (v : Fl) : Prop :=
  (v = top ∧ ∀ x ∈ xs, x.lt top = false) ∨ (v ∈ xs ∧ v.lt top = true ∧ ∀ x ∈ xs, x.lt v = false)

/-- `v` is the greatest of `xs` above `bot`, or `bot`. -/
def High (bot : Fl) (xs : List Fl) (v : Fl) : Prop :=
  (v = bot ∧ ∀ x ∈ xs, bot.lt x = false) ∨ (v ∈ xs ∧ bot.lt v = true ∧ ∀ x ∈ xs, v.lt x = false)

theorem low_snoc {top : Fl} {xs : List Fl} {v : Fl} (h : Low top xs v) (x : Fl) :
    Low top (xs ++ [x]) (if x.lt v then x else v) := by
  by_cases hx : x.lt v = true
  · rw [if_pos hx]
    rcases h with ⟨rfl, h⟩ | ⟨_, h2, h3⟩
    · refine Or.inr ⟨by simp, hx, ?_⟩
      intro y hy
      rcases List.mem_append.1 hy with hy | hy
      · exact Fl.not_lt_of_lt hx (h y hy)
      · rw [List.mem_singleton.1 hy]; exact Fl.lt_irrefl _
    · refine Or.inr ⟨by simp, Fl.lt_trans hx h2, ?_⟩
      intro y hy
      rcases List.mem_append.1 hy with hy | hy
      · exact Fl.not_lt_of_lt hx (h3 y hy)
      · rw [List.mem_singleton.1 hy]; exact Fl.lt_irrefl _
  · rw [if_neg hx]
    have hx := eq_false_of_ne_true hx
    rcases h with ⟨rfl, h⟩ | ⟨h1, h2, h3⟩
    · refine Or.inl ⟨rfl, ?_⟩
      intro y hy
      rcases List.mem_append.1 hy with hy | hy
      · exact h y hy
      · rw [List.mem_singleton.1 hy]; exact hx
    · refine Or.inr ⟨List.mem_append_left _ h1, h2, ?_⟩
      intro y hy
      rcases List.mem_append.1 hy with hy | hy
      · exact h3 y hy
      · rw [List.mem_singleton.1 hy]; exact hx

theorem high_snoc {bot : Fl} {xs : List Fl} {v : Fl} (h : High bot xs v) (x : Fl) :
    High bot (xs ++ [x]) (if v.lt x then x else v) := by
  by_cases hx : v.lt x = true
  · rw [if_pos hx]
    rcases h with ⟨rfl, h⟩ | ⟨_, h2, h3⟩
    · refine Or.inr ⟨by simp, hx, ?_⟩
      intro y hy
      rcases List.mem_append.1 hy with hy | hy
      · exact Fl.not_lt_of_lt' hx (h y hy)
      · rw [List.mem_singleton.1 hy]; exact Fl.lt_irrefl _
    · refine Or.inr ⟨by simp, Fl.lt_trans h2 hx, ?_⟩
      intro y hy
      rcases List.mem_append.1 hy with hy | hy
      · exact Fl.not_lt_of_lt' hx (h3 y hy)
      · rw [List.mem_singleton.1 hy]; exact Fl.lt_irrefl _
  · rw [if_neg hx]
    have hx := eq_false_of_ne_true hx
    rcases h with ⟨rfl, h⟩ | ⟨h1, h2, h3⟩
    · refine Or.inl ⟨rfl, ?_⟩
      intro y hy
      rcases List.mem_append.1 hy with hy | hy
      · exact h y hy
      · rw [List.mem_singleton.1 hy]; exact hx
    · refine Or.inr ⟨List.mem_append_left _ h1, h2, ?_⟩
      intro y hy
      rcases List.mem_append.1 hy with hy | hy
      · exact h3 y hy
      · rw [List.mem_singleton.1 hy]; exact hx

theorem points_unknown {name : String} {h : List Call} (hk : known name h = false) : points name h = [] := by
  induction h with
  | nil => rfl
  | cons c h ih =>
    cases c with
    | add n x y s c =>
      rw [known, Bool.or_eq_false_iff] at hk
      exact ih hk.2
    | point n s x y c =>
      rw [known] at hk
      rw [points, ih hk, if_neg (by rw [hk]; simp)]
    | clear => rfl

theorem labels_unknown {name : String} {h : List Call} (hk : known name h = false) : labels name h = none := by
  induction h with
  | nil => rfl
  | cons c h ih =>
    cases c with
    | add n x y s c =>
      rw [known, Bool.or_eq_false_iff] at hk
      rw [labels, ih hk.2, if_neg (by simpa using hk.1)]
      rfl
    | point n s x y c => exact ih hk
    | clear => rfl

theorem get_pushPoint (s : HMap String (List (Fl × Fl))) (serie serie' : String) (p : Fl × Fl) :
    HMap.get (pushPoint s serie p) serie' =
      if serie' = serie then some ((HMap.get s serie).getD [] ++ [p]) else HMap.get s serie' := by
  unfold pushPoint
  rw [HMap.get_adjustBy]
  by_cases hs : (HMap.get s serie).isSome = true
  · rw [if_pos hs]
    by_cases he : serie' = serie
    · rw [if_pos he, if_pos he]
      obtain ⟨l, hl⟩ := Option.isSome_iff_exists.1 hs
      rw [hl]
      rfl
    · rw [if_neg he, if_neg he]
  · rw [if_neg hs]
    have hn : HMap.get s serie = none := Option.not_isSome_iff_eq_none.1 hs
    by_cases he : serie' = serie
    · rw [if_pos he, if_pos he, HMap.get_insert, if_pos rfl, hn]
      rfl
    · rw [if_neg he, if_neg he, HMap.get_insert, if_neg he]

theorem getD_if {A : Type} [DecidableEq A] (l : List A) : ((if l = [] then none else some l : Option (List A)).getD []) = l := by
  by_cases h : l = []
  · rw [if_pos h, h]; rfl
  · rw [if_neg h]; rfl

/-- What is known of a plot after the calls `h`. -/
structure PlotOk (h : List Call) (name : String) (p : Plot) : Prop where
  name_eq : p.name = name
  labels_eq : labels name h = some (p.xlabel, p.ylabel, p.stored)
  series_eq : ∀ serie, HMap.get p.series serie =
    if seriesPoints name serie h = [] then none else some (seriesPoints name serie h)
  minX_ok : Low maxF64 ((points name h).map (fun q => q.2.1)) p.minX
  maxX_ok : High Fl.minF64 ((points name h).map (fun q => q.2.1)) p.maxX
  minY_ok : Low maxF64 ((points name h).map (fun q => q.2.2)) p.minY
  maxY_ok : High Fl.minF64 ((points name h).map (fun q => q.2.2)) p.maxY

/-- What is known of the state after the calls `h`. -/
structure Inv (h : List Call) (m : Mon) : Prop where
  absent : ∀ name, known name h = false → HMap.get m.data name = none
  present : ∀ name, known name h = true → ∃ p, HMap.get m.data name = some p ∧ PlotOk h name p
  sent_eq : m.sent = csvPoints h

theorem plotOk_of_eq {h h' : List Call} {name : String} {p : Plot} (ok : PlotOk h name p) (hp : points name h' = points name h)
    (hl : labels name h' = labels name h) : PlotOk h' name p where
  name_eq := ok.name_eq
  labels_eq := by rw [hl, ok.labels_eq]
  series_eq := by intro serie; unfold seriesPoints; rw [hp]; exact ok.series_eq serie
  minX_ok := by rw [hp]; exact ok.minX_ok
  maxX_ok := by rw [hp]; exact ok.maxX_ok
  minY_ok := by rw [hp]; exact ok.minY_ok
  maxY_ok := by rw [hp]; exact ok.maxY_ok

theorem plotOk_new {h : List Call} {name : String} (x y : String) (s c : Bool) (hk : known name h = false) :
    PlotOk (.add name x y s c :: h) name (Plot.new name x y s) := by
  have hp : points name (.add name x y s c :: h) = [] := by
    rw [points]
    exact points_unknown hk
  refine ⟨rfl, ?_, ?_, ?_, ?_, ?_, ?_⟩
  · rw [labels, labels_unknown hk, if_pos rfl]
    rfl
  · intro serie
    unfold seriesPoints
    rw [hp]
    rfl
  · rw [hp]; exact Or.inl ⟨rfl, by simp⟩
  · rw [hp]; exact Or.inl ⟨rfl, by simp⟩
  · rw [hp]; exact Or.inl ⟨rfl, by simp⟩
  · rw [hp]; exact Or.inl ⟨rfl, by simp⟩

theorem plotOk_push {h : List Call} {name : String} {p : Plot} (ok : PlotOk h name p) (hk : known name h = true)
    (serie : String) (x y : Fl) (c : Bool) : PlotOk (.point name serie x y c :: h) name (p.push serie x y) := by
  have hp : points name (.point name serie x y c :: h) = points name h ++ [(serie, x, y)] := by
    rw [points, if_pos ⟨rfl, hk⟩]
  refine ⟨ok.name_eq, ok.labels_eq, ?_, ?_, ?_, ?_, ?_⟩
  · intro serie'
    show HMap.get (pushPoint p.series serie (x, y)) serie' = _
    rw [get_pushPoint]
    unfold seriesPoints
    rw [hp, List.filter_append, List.map_append]
    by_cases he : serie' = serie
    · rw [if_pos he, ok.series_eq serie]
      subst he
      rw [show List.map Prod.snd (List.filter (fun p : String × Fl × Fl => p.1 == serie') [(serie', x, y)]) = [(x, y)] by simp]
      rw [getD_if]
      exact (if_neg (by simp)).symm
    · rw [if_neg he, ok.series_eq serie',
        show List.map Prod.snd (List.filter (fun p : String × Fl × Fl => p.1 == serie') [(serie, x, y)]) = [] by
          simp [Ne.symm he], List.append_nil]
      rfl
  · rw [hp, List.map_append]; exact low_snoc ok.minX_ok x
  · rw [hp, List.map_append]; exact high_snoc ok.maxX_ok x
  · rw [hp, List.map_append]; exact low_snoc ok.minY_ok y
  · rw [hp, List.map_append]; exact high_snoc ok.maxY_ok y

theorem inv_exec {h : List Call} {m m' : Mon} (c : Call) (i : Inv h m) (he : exec m c = some m') : Inv (c :: h) m' := by
  cases c with
  | clear =>
    rw [exec] at he
    injection he with he
    subst he
    exact ⟨fun _ _ => rfl, fun _ hk => absurd hk (by rw [known]; simp), i.sent_eq⟩
  | add n x y s c =>
    rw [exec] at he
    injection he with he
    subst he
    unfold addplot
    by_cases hs : (HMap.get m.data n).isSome = true
    · rw [if_pos hs]
      have hkn : known n h = true := by
        by_contra hk
        rw [i.absent n (eq_false_of_ne_true hk)] at hs
        cases hs
      refine ⟨?_, ?_, i.sent_eq⟩
      · intro name hk
        rw [known, Bool.or_eq_false_iff] at hk
        exact i.absent name hk.2
      · intro name hk
        have hk' : known name h = true := by
          rw [known, Bool.or_eq_true] at hk
          rcases hk with hk | hk
          · rw [← beq_iff_eq.1 hk]; exact hkn
          · exact hk
        obtain ⟨p, h1, h2⟩ := i.present name hk'
        refine ⟨p, h1, plotOk_of_eq h2 rfl ?_⟩
        rw [labels, h2.labels_eq]
        rfl
    · rw [if_neg hs]
      have hkn : known n h = false := by
        by_contra hk
        obtain ⟨p, h1, _⟩ := i.present n (eq_true_of_ne_false hk)
        rw [h1] at hs
        exact hs rfl
      refine ⟨?_, ?_, i.sent_eq⟩
      · intro name hk
        rw [known, Bool.or_eq_false_iff] at hk
        show HMap.get (HMap.insert m.data n _).1 name = none
        rw [HMap.get_insert, if_neg (by intro e; subst e; simp at hk)]
        exact i.absent name hk.2
      · intro name hk
        show ∃ p, HMap.get (HMap.insert m.data n _).1 name = some p ∧ _
        rw [HMap.get_insert]
        by_cases e : name = n
        · subst e
          rw [if_pos rfl]
          exact ⟨_, rfl, plotOk_new x y s c hkn⟩
        · rw [if_neg e]
          rw [known, Bool.or_eq_true] at hk
          have hk' : known name h = true := by
            rcases hk with hk | hk
            · exact absurd (beq_iff_eq.1 hk).symm e
            · exact hk
          obtain ⟨p, h1, h2⟩ := i.present name hk'
          refine ⟨p, h1, plotOk_of_eq h2 rfl ?_⟩
          rw [labels, h2.labels_eq]
          rfl
  | point n s x y c =>
    rw [exec] at he
    unfold plot at he
    by_cases hs : (HMap.get m.data n).isSome = true
    · rw [if_pos hs] at he
      have hkn : known n h = true := by
        by_contra hk
        rw [i.absent n (eq_false_of_ne_true hk)] at hs
        cases hs
      have key : ∀ d sent, m'.data = d → m'.sent = sent → d = HMap.adjust m.data n (fun p => p.push s x y) →
          sent = (if c = true then m.sent ++ [(n, s, x, y)] else m.sent) → Inv (.point n s x y c :: h) m' := by
        intro d sent hd hse h1 h2
        refine ⟨?_, ?_, ?_⟩
        · intro name hk
          rw [known] at hk
          rw [hd, h1, HMap.get_adjustBy, if_neg (by intro e; subst e; rw [hkn] at hk; cases hk)]
          exact i.absent name hk
        · intro name hk
          rw [known] at hk
          obtain ⟨p, g1, g2⟩ := i.present name hk
          rw [hd, h1, HMap.get_adjustBy]
          by_cases e : name = n
          · subst e
            rw [if_pos rfl, g1]
            exact ⟨_, rfl, plotOk_push g2 hk s x y c⟩
          · rw [if_neg e]
            refine ⟨p, g1, plotOk_of_eq g2 ?_ rfl⟩
            rw [points, if_neg (fun hc => e hc.1.symm)]
        · rw [hse, h2, i.sent_eq, csvPoints]
          cases c with
          | true => rw [if_pos rfl, if_pos ⟨rfl, hkn⟩]
          | false => rw [if_neg (by simp), if_neg (by simp)]
      split at he
      · rename_i hc
        split at he
        · injection he with he
          subst he
          exact key _ _ rfl rfl rfl (by rw [if_pos hc])
        · cases he
      · rename_i hc
        injection he with he
        subst he
        exact key _ _ rfl rfl rfl (by rw [if_neg hc])
    · rw [if_neg hs] at he
      injection he with he
      subst he
      have hkn : known n h = false := by
        by_contra hk
        obtain ⟨p, h1, _⟩ := i.present n (eq_true_of_ne_false hk)
        rw [h1] at hs
        exact hs rfl
      refine ⟨fun name hk => i.absent name hk, ?_, ?_⟩
      · intro name hk
        rw [known] at hk
        obtain ⟨p, g1, g2⟩ := i.present name hk
        refine ⟨p, g1, plotOk_of_eq g2 ?_ rfl⟩
        rw [points, if_neg]
        rintro ⟨rfl, _⟩
        rw [hkn] at hk
        cases hk
      · rw [csvPoints, if_neg (by rw [hkn]; simp)]
        exact i.sent_eq

/-- The state before any call. -/
def Mon.empty (sender : Bool) : Mon := { data := [], names := [], sender := sender, sent := [] }

theorem inv_execAll (sender : Bool) (h : List Call) : ∀ {m : Mon}, execAll (Mon.empty sender) h = some m → Inv h m := by
  induction h with
  | nil =>
    intro m he
    injection he with he
    subst he
    exact ⟨fun _ _ => rfl, fun _ hk => absurd hk (by rw [known]; simp), rfl⟩
  | cons c h ih =>
    intro m he
    rw [execAll, Option.bind_eq_some_iff] at he
    obtain ⟨m1, h1, h2⟩ := he
    exact inv_exec c (ih h1) h2

theorem exec_sender {m m' : Mon} {c : Call} (h : exec m c = some m') : m'.sender = m.sender := by
  cases c with
  | clear => injection h with h; subst h; rfl
  | add n x y s c =>
    injection h with h; subst h
    unfold addplot
    split <;> rfl
  | point n s x y c =>
    rw [exec] at h
    unfold plot at h
    split at h
    · split at h
      · split at h
        · injection h with h; subst h; rfl
        · cases h
      · injection h with h; subst h; rfl
    · injection h with h; subst h; rfl

theorem execAll_sender {m : Mon} (h : List Call) : ∀ {m' : Mon}, execAll m h = some m' → m'.sender = m.sender := by
  induction h with
  | nil => intro m' he; injection he with he; subst he; rfl
  | cons c h ih =>
    intro m' he
    rw [execAll, Option.bind_eq_some_iff] at he
    obtain ⟨m1, h1, h2⟩ := he
    rw [exec_sender h2, ih h1]

theorem execAll_some_of_sender (h : List Call) : ∃ m, execAll (Mon.empty true) h = some m := by
  induction h with
  | nil => exact ⟨_, rfl⟩
  | cons c h ih =>
    obtain ⟨m, hm⟩ := ih
    have hs : m.sender = true := execAll_sender h hm
    rw [execAll, hm, Option.bind_some]
    cases c with
    | clear => exact ⟨_, rfl⟩
    | add n x y s c => exact ⟨_, rfl⟩
    | point n s x y c =>
      rw [exec]
      unfold plot
      split
      · split
        · rw [hs]; exact ⟨_, rfl⟩
        · exact ⟨_, rfl⟩
      · exact ⟨_, rfl⟩

/-! ### The csv thread -/

theorem openFold_other (names : List (String × String × String)) (r : Nat) : ∀ (fs : Files) (k : String) (r' : Nat),
    (r' ≠ r ∨ k ∉ names.map (fun n => sanitize n.1)) →
    names.foldl (fun fs n => setFile fs (sanitize n.1) r [("series", n.2.1, n.2.2)]) fs k r' = fs k r' := by
  induction names with
  | nil => intro fs k r' _; rfl
  | cons n names ih =>
    intro fs k r' h
    rw [List.foldl_cons, ih]
    · unfold setFile
      rw [if_neg]
      rintro ⟨rfl, rfl⟩
      rcases h with h | h
      · exact h rfl
      · exact h (by simp)
    · rcases h with h | h
      · exact Or.inl h
      · exact Or.inr (fun hm => h (List.mem_cons_of_mem _ hm))

theorem openFold_same (names : List (String × String × String)) (r : Nat)
    (hn : (names.map (fun n => sanitize n.1)).Nodup) : ∀ (fs : Files) (n : String × String × String), n ∈ names →
    names.foldl (fun fs n => setFile fs (sanitize n.1) r [("series", n.2.1, n.2.2)]) fs (sanitize n.1) r =
      some [("series", n.2.1, n.2.2)] := by
  induction names with
  | nil => intro fs n h; simp at h
  | cons a names ih =>
    intro fs n h
    rw [List.map_cons, List.nodup_cons] at hn
    rw [List.foldl_cons]
    rcases List.mem_cons.1 h with rfl | h
    · rw [openFold_other names r _ _ _ (Or.inr hn.1)]
      unfold setFile
      rw [if_pos ⟨rfl, rfl⟩]
    · exact ih hn.2 _ n h

theorem filter_writers {names : List (String × String × String)} (r : Nat) (hn : (names.map (fun n => sanitize n.1)).Nodup)
    (k : String) : (names.map (fun n => (sanitize n.1, r))).filter (fun w => decide (k = w.1)) =
      if k ∈ names.map (fun n => sanitize n.1) then [(k, r)] else [] := by
  induction names with
  | nil => rfl
  | cons a names ih =>
    rw [List.map_cons, List.nodup_cons] at hn
    rw [List.map_cons, List.filter_cons, ih hn.2]
    by_cases h : k = sanitize a.1
    · rw [if_pos (by simpa using h), if_neg (by rw [h]; exact hn.1), if_pos (by rw [List.map_cons, h]; exact List.mem_cons_self), h]
    · rw [if_neg (by simpa using h)]
      by_cases hm : k ∈ names.map (fun n => sanitize n.1)
      · rw [if_pos hm, if_pos (by rw [List.map_cons]; exact List.mem_cons_of_mem _ hm)]
      · rw [if_neg hm, if_neg]
        rw [List.map_cons]
        intro hc
        rcases List.mem_cons.1 hc with hc | hc
        · exact h hc
        · exact hm hc

theorem writeRow_other {fs : Files} {w : String × Nat} {row : CsvRow} {k : String} {r : Nat} (h : ¬ (k = w.1 ∧ r = w.2)) :
    writeRow fs w row k r = fs k r := by
  unfold writeRow
  cases fs w.1 w.2 with
  | none => rfl
  | some rows => exact if_neg h

theorem writeRow_same {fs : Files} {w : String × Nat} {rows : List CsvRow} (row : CsvRow) (h : fs w.1 w.2 = some rows) :
    writeRow fs w row w.1 w.2 = some (rows ++ [row]) := by
  unfold writeRow
  rw [h]
  exact if_pos ⟨rfl, rfl⟩

/-- The effect of the messages of a repetition after `Init`. -/
def pointMsg (p : (String × String × String × String) × List (String × String × String)) :
    Msg × List (String × String × String) := (.point p.1.1 p.1.2.1 p.1.2.2.1 p.1.2.2.2, p.2)

theorem csvLoop_points {names : List (String × String × String)} {r : Nat} (hn : (names.map (fun n => sanitize n.1)).Nodup)
    (pts : List ((String × String × String × String) × List (String × String × String)))
    (rest : List (Msg × List (String × String × String))) : ∀ (c : Csv), c.writers = names.map (fun n => (sanitize n.1, r)) →
    ∃ c', csvLoop c (pts.map pointMsg ++ rest) = csvLoop c' rest ∧ c'.counter = c.counter ∧
      (∀ k r', (r' ≠ r ∨ k ∉ names.map (fun n => sanitize n.1)) → c'.files k r' = c.files k r') ∧
      ∀ k rows, k ∈ names.map (fun n => sanitize n.1) → c.files k r = some rows →
        c'.files k r = some (rows ++ (pts.filter (fun p => decide (sanitize p.1.1 = k))).map (fun p => p.1.2)) := by
  induction pts with
  | nil => intro c hc; exact ⟨c, rfl, rfl, fun _ _ _ => rfl, fun k rows _ h => by simpa using h⟩
  | cons p pts ih =>
    intro c hc
    rw [List.map_cons, List.cons_append]
    obtain ⟨⟨n, s, x, y⟩, ns⟩ := p
    have hstep : csvLoop c (pointMsg ((n, s, x, y), ns) :: (pts.map pointMsg ++ rest)) =
        csvLoop { c with files := (if sanitize n ∈ names.map (fun n => sanitize n.1) then writeRow c.files (sanitize n, r) (s, x, y)
          else c.files) } (pts.map pointMsg ++ rest) := by
      rw [csvLoop]
      unfold pointMsg handle
      dsimp only
      rw [if_pos rfl, hc, filter_writers r hn]
      split <;> rfl
    rw [hstep]
    obtain ⟨c', h1, h2, h3, h4⟩ := ih { c with files := (if sanitize n ∈ names.map (fun n => sanitize n.1) then
      writeRow c.files (sanitize n, r) (s, x, y) else c.files) } hc
    refine ⟨c', h1, h2, ?_, ?_⟩
    · intro k r' hk
      rw [h3 k r' hk]
      dsimp only
      split
      · rename_i hm
        apply writeRow_other
        rintro ⟨rfl, rfl⟩
        rcases hk with hk | hk
        · exact hk rfl
        · exact hk hm
      · rfl
    · intro k rows hk hrows
      by_cases he : sanitize n = k
      · subst he
        rw [h4 (sanitize n) (rows ++ [(s, x, y)]) hk (by
          rw [if_pos hk]
          exact writeRow_same (w := (sanitize n, r)) (s, x, y) hrows)]
        rw [List.filter_cons, if_pos (by simp), List.map_cons, List.append_assoc]
        rfl
      · rw [h4 k rows hk (by
          dsimp only
          split
          · rw [writeRow_other (fun hc => he hc.1.symm)]
            exact hrows
          · exact hrows)]
        rw [List.filter_cons, if_neg (by simpa using he)]

/-- The messages of a repetition that plots nothing in `init`: the plot names when `Init` is handled, the points (with the plot
names when they are handled), the plot names at the end. -/
def repMsgs (rep : List (String × String × String) × List ((String × String × String × String) × List (String × String × String)) ×
    List (String × String × String)) : List (Msg × List (String × String × String)) :=
  (.init, rep.1) :: (rep.2.1.map pointMsg ++ [(.endOfSimulation, rep.2.2)])

theorem csvLoop_init (c : Csv) (names : List (String × String × String)) (ms : List (Msg × List (String × String × String))) :
    csvLoop c ((.init, names) :: ms) = csvLoop (openFiles names c.counter c) ms := rfl

theorem csvLoop_end (c : Csv) (names : List (String × String × String)) (ms : List (Msg × List (String × String × String))) :
    csvLoop c ((.endOfSimulation, names) :: ms) = csvLoop { c with counter := c.counter + 1 } ms := rfl

theorem csvLoop_rep (rep : List (String × String × String) × List ((String × String × String × String) ×
    List (String × String × String)) × List (String × String × String)) (hn : (rep.1.map (fun n => sanitize n.1)).Nodup)
    (rest : List (Msg × List (String × String × String))) (c : Csv) :
    ∃ c', csvLoop c (repMsgs rep ++ rest) = csvLoop c' rest ∧ c'.counter = c.counter + 1 ∧
      (∀ k r', r' ≠ c.counter → c'.files k r' = c.files k r') ∧
      ∀ n ∈ rep.1, c'.files (sanitize n.1) c.counter = some (("series", n.2.1, n.2.2) ::
        (rep.2.1.filter (fun p => decide (sanitize p.1.1 = sanitize n.1))).map (fun p => p.1.2)) := by
  obtain ⟨c1, h1, h2, h3, h4⟩ := csvLoop_points (r := c.counter) hn rep.2.1 ((.endOfSimulation, rep.2.2) :: rest)
    (openFiles rep.1 c.counter c) rfl
  refine ⟨{ c1 with counter := c1.counter + 1 }, ?_, ?_, ?_, ?_⟩
  · unfold repMsgs
    rw [List.cons_append, csvLoop_init, List.append_assoc, List.cons_append, List.nil_append, h1, csvLoop_end]
  · show c1.counter + 1 = _
    rw [h2]
    rfl
  · intro k r' hr
    show c1.files k r' = _
    rw [h3 k r' (Or.inl hr)]
    exact openFold_other rep.1 c.counter c.files k r' (Or.inl hr)
  · intro n hnm
    show c1.files (sanitize n.1) c.counter = _
    have e1 : sanitize n.1 ∈ rep.1.map (fun n => sanitize n.1) := List.mem_map.2 ⟨n, hnm, rfl⟩
    have e2 : (openFiles rep.1 c.counter c).files (sanitize n.1) c.counter = some [("series", n.2.1, n.2.2)] :=
      openFold_same rep.1 c.counter hn c.files n hnm
    rw [h4 _ _ e1 e2, List.cons_append, List.nil_append]

theorem csvLoop_reps (reps : List (List (String × String × String) × List ((String × String × String × String) ×
    List (String × String × String)) × List (String × String × String)))
    (hn : ∀ rep ∈ reps, (rep.1.map (fun n => sanitize n.1)).Nodup) (q : List (String × String × String)) : ∀ (c : Csv),
    (∀ k r', r' < c.counter → (csvLoop c (reps.flatMap repMsgs ++ [(.quit, q)])).files k r' = c.files k r') ∧
    ∀ (i : Nat) rep, reps[i]? = some rep → ∀ n ∈ rep.1,
      (csvLoop c (reps.flatMap repMsgs ++ [(.quit, q)])).files (sanitize n.1) (c.counter + i) =
        some (("series", n.2.1, n.2.2) ::
          (rep.2.1.filter (fun p => decide (sanitize p.1.1 = sanitize n.1))).map (fun p => p.1.2)) := by
  induction reps with
  | nil =>
    intro c
    refine ⟨fun k r' _ => rfl, ?_⟩
    intro i rep h
    simp at h
  | cons rep reps ih =>
    intro c
    rw [List.flatMap_cons, List.append_assoc]
    obtain ⟨c', h1, h2, h3, h4⟩ := csvLoop_rep rep (hn rep List.mem_cons_self) (reps.flatMap repMsgs ++ [(.quit, q)]) c
    rw [h1]
    obtain ⟨g1, g2⟩ := ih (fun rep hr => hn rep (List.mem_cons_of_mem _ hr)) c'
    refine ⟨?_, ?_⟩
    · intro k r' hr
      rw [g1 k r' (by omega), h3 k r' (by omega)]
    · intro i rep' hi n hnm
      cases i with
      | zero =>
        injection hi with hi
        subst hi
        rw [Nat.add_zero, g1 _ _ (by omega)]
        exact h4 n hnm
      | succ i =>
        have := g2 i rep' hi n hnm
        rw [h2] at this
        rw [show c.counter + (i + 1) = c.counter + 1 + i by omega]
        exact this

/-! ### Logs -/

theorem logs_flatten {L : Type} (logs : List (List L)) (h : List (LogEvent L)) :
    (h.foldr (fun e l => logStep l e) logs).flatten = allLogs h ++ logs.flatten := by
  induction h with
  | nil => rfl
  | cons e h ih =>
    rw [List.foldr_cons]
    cases e with
    | log l =>
      rw [allLogs, List.cons_append, ← ih]
      show (log _ l).flatten = _
      unfold log
      split
      · rename_i he; rw [he]; rfl
      · rename_i he; rw [he]; rfl
    | newRep => exact ih

/-! ### The interface -/

theorem pushBounded_length {A : Type} (l : List A) (a : A) (h : l.length ≤ 101) : (pushBounded l a).length ≤ 101 := by
  unfold pushBounded
  split
  · rw [List.length_append, List.length_tail, List.length_singleton]; omega
  · rw [List.length_append, List.length_singleton]; omega

theorem addTitles_spec (plots : List String) : ∀ (ts : List String),
    ∃ more, plots.foldl (fun ts p => if p ∈ ts then ts else ts ++ [p]) ts = ts ++ more ∧
      (ts.Nodup → (ts ++ more).Nodup) ∧ ∀ p ∈ plots, p ∈ ts ++ more := by
  induction plots with
  | nil => intro ts; exact ⟨[], by simp, by simp, by simp⟩
  | cons p plots ih =>
    intro ts
    rw [List.foldl_cons]
    by_cases hp : p ∈ ts
    · rw [if_pos hp]
      obtain ⟨more, h1, h2, h3⟩ := ih ts
      refine ⟨more, h1, h2, ?_⟩
      intro q hq
      rcases List.mem_cons.1 hq with rfl | hq
      · exact List.mem_append_left _ hp
      · exact h3 q hq
    · rw [if_neg hp]
      obtain ⟨more, h1, h2, h3⟩ := ih (ts ++ [p])
      refine ⟨p :: more, by rw [h1, List.append_assoc]; rfl, ?_, ?_⟩
      · intro hn
        have := h2 (List.Nodup.append hn (List.nodup_singleton p) (by simpa using hp))
        rw [List.append_assoc] at this
        exact this
      · intro q hq
        rcases List.mem_cons.1 hq with rfl | hq
        · simp
        · have := h3 q hq
          rw [List.append_assoc] at this
          exact this

end Verif.Monitor
