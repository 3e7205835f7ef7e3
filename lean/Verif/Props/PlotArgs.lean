import Verif.Model.PlotArgs
import Verif.Lemmas.HashMap
import Verif.Props.Monitor

/-!
Property C204: the arguments of `plot!`.
-/

namespace Verif.Monitor

variable {σ : Type}

/-- Evaluated once each, in order, and then plotted: what a function would do. -/
def plotOnce (m : Mon) (a : Args σ) (s : σ) : Option Mon :=
  let n := a.name s
  let r := a.serie n.2
  let x := a.x r.2
  let y := a.y x.2
  plot m n.1 r.1 x.1 y.1 (match a.csv with | none => false | some c => (c y.2).1)

/-- An expression that always gives the same value, whatever else it does. -/
def Steady {α : Type} (e : Arg σ α) (v : α) : Prop := ∀ s, (e s).1 = v

theorem lower_steady {e : Arg σ Fl} {v : Fl} (h : Steady e v) (m : Fl) (s : σ) :
    (lower e m s).1 = if v.lt m then v else m := by
  unfold lower
  rw [h s]
  split
  · exact h _
  · rfl

theorem upper_steady {e : Arg σ Fl} {v : Fl} (h : Steady e v) (m : Fl) (s : σ) :
    (upper e m s).1 = if m.lt v then v else m := by
  unfold upper
  rw [h s]
  split
  · exact h _
  · rfl

theorem adjust_const {K V : Type} [DecidableEq K] {m : HMap K V} {k : K} {v : V} (hw : HMap.WF m)
    (h : HMap.get m k = some v) (f : V → V) : HMap.adjust m k (fun _ => f v) = HMap.adjust m k f := by
  unfold HMap.adjust
  refine List.map_congr_left fun e he => ?_
  by_cases hk : (e.1 == k) = true
  · rw [if_pos hk, if_pos hk]
    have h1 := HMap.get_of_mem hw (k := e.1) (v := e.2) he
    rw [eq_of_beq hk, h] at h1
    injection h1 with h1
    rw [h1]
  · rw [if_neg hk, if_neg hk]

theorem pushArgs_steady {a : Args σ} {r : String} {x y : Fl} (hr : Steady a.serie r) (hx : Steady a.x x) (hy : Steady a.y y)
    {ser : HMap String (List (Fl × Fl))} {l : List (Fl × Fl)} (h : HMap.get ser r = some l) (s : σ) :
    ∃ s', pushArgs a ser s = some (HMap.adjust ser r (fun l => l ++ [(x, y)]), s') := by
  unfold pushArgs
  rw [hr s, h, hx, hy]
  exact ⟨_, rfl⟩

theorem seriesArgs_steady {a : Args σ} {r : String} {x y : Fl} (hr : Steady a.serie r) (hx : Steady a.x x) (hy : Steady a.y y)
    (ser : HMap String (List (Fl × Fl))) (s : σ) : ∃ s', seriesArgs a ser s = some (pushPoint ser r (x, y), s') := by
  unfold seriesArgs pushPoint
  rw [hr s, hr]
  cases h : HMap.get ser r with
  | some l =>
    simp only [Option.isSome_some, if_true]
    exact pushArgs_steady hr hx hy h _
  | none =>
    simp only [Option.isSome_none, Bool.false_eq_true, if_false]
    exact pushArgs_steady hr hx hy (l := []) (by rw [HMap.get_insert]; simp) _

theorem push_steady {a : Args σ} {r : String} {x y : Fl} (hr : Steady a.serie r) (hx : Steady a.x x) (hy : Steady a.y y)
    (p : Plot) (s : σ) : ∃ s', p.pushArgs a s = some (p.push r x y, s') := by
  obtain ⟨s0, h0⟩ := seriesArgs_steady hr hx hy p.series s
  unfold Plot.pushArgs Plot.push
  rw [h0]
  dsimp only
  rw [lower_steady hx, upper_steady hx, lower_steady hy, upper_steady hy]
  exact ⟨_, rfl⟩

theorem sendArgs_steady {a : Args σ} {n r : String} {x y : Fl} {c : Bool} (hn : Steady a.name n) (hr : Steady a.serie r)
    (hx : Steady a.x x) (hy : Steady a.y y) (hc : ∀ e, a.csv = some e → Steady e c) (h0 : a.csv = none → c = false)
    (m : Mon) (s : σ) :
    (sendArgs a m s).map Prod.fst =
      if c then (if m.sender then some { m with sent := m.sent ++ [(n, r, x, y)] } else none) else some m := by
  unfold sendArgs
  cases he : a.csv with
  | none => rw [h0 he]; rfl
  | some e =>
    dsimp only
    rw [hc e he s]
    cases c with
    | false => rfl
    | true =>
      simp only [if_true]
      cases m.sender with
      | false => rfl
      | true =>
        simp only [if_true, Option.map_some]
        rw [hn, hr, hx, hy]

/-- **C204**. Full statement: `plot!` does with its arguments what a function would do. Proved for expressions that give the same
values each time they are evaluated, whatever else they do. -/
theorem C204_steady_partial {a : Args σ} {n r : String} {x y : Fl} {c : Bool} (hn : Steady a.name n) (hr : Steady a.serie r)
    (hx : Steady a.x x) (hy : Steady a.y y) (hc : ∀ e, a.csv = some e → Steady e c) (h0 : a.csv = none → c = false)
    {m : Mon} (hw : HMap.WF m.data) (s : σ) :
    (plotArgs m a s).map Prod.fst = plot m n r x y c ∧ plotOnce m a s = plot m n r x y c := by
  constructor
  · unfold plotArgs plot
    rw [hn s, hn]
    cases hp : HMap.get m.data n with
    | none => rfl
    | some p =>
      simp only [Option.isSome_some, if_true]
      obtain ⟨s', h'⟩ := push_steady hr hx hy p (a.name (a.name s).2).2
      rw [h']
      dsimp only
      rw [sendArgs_steady hn hr hx hy hc h0, adjust_const hw hp (fun p => p.push r x y)]
  · unfold plotOnce
    dsimp only
    rw [hn, hr, hx, hy]
    cases he : a.csv with
    | none => rw [h0 he]
    | some e => dsimp only; rw [hc e he]

/-- A plot without points. -/
def onePlot : Mon := { data := [("p", Plot.new "p" "x" "y" false)], names := [], sender := true, sent := [] }

/-- The next number of a sequence, as a random generator gives it. -/
def next : Arg Nat Fl := fun s => (.fin s, s + 1)

/-- Plotting two such numbers. -/
def random : Args Nat where
  name s := ("p", s)
  serie s := ("s", s)
  x := next
  y := next
  csv := some (fun s => (true, s))

/-- C204 is false: the first two numbers are in the chart, which goes from the fourth to the sixth and from the eighth to the tenth and does
not contain them, and the eleventh and twelfth are in the file. -/
theorem C204_random_negation_partial : ∃ m p s,
    plotArgs onePlot random 0 = some (m, s) ∧ HMap.get m.data "p" = some p ∧
    HMap.get p.series "s" = some [(.fin 0, .fin 1)] ∧ p.minX = .fin 3 ∧ p.maxX = .fin 5 ∧
    p.minY = .fin 7 ∧ p.maxY = .fin 9 ∧ m.sent = [("p", "s", .fin 10, .fin 11)] ∧ s = 12 :=
  ⟨_, _, _, rfl, rfl, by decide +kernel⟩

/-- The same with each argument evaluated once: the point is in the chart. -/
example : ∃ m p, plotOnce onePlot random 0 = some m ∧ HMap.get m.data "p" = some p ∧
    HMap.get p.series "s" = some [(.fin 0, .fin 1)] ∧ p.minX = .fin 0 ∧ p.maxX = .fin 0 ∧ m.sent = [("p", "s", .fin 0, .fin 1)] :=
  ⟨_, _, rfl, rfl, by decide +kernel⟩

/-- C204 is false: a name that is another one the second time makes `plot!` panic, though the plot exists, and so does a series. -/
theorem C204_panic_negation_partial :
    plotArgs onePlot { random with name := fun s => (if s = 0 then "p" else "q", s + 1) } 0 = none ∧
    plotArgs onePlot { random with serie := fun s => (if s % 2 = 0 then "s" else "t", s + 1) } 0 = none ∧
    (plotOnce onePlot { random with name := fun s => (if s = 0 then "p" else "q", s + 1) } 0).isSome = true ∧
    (plotOnce onePlot { random with serie := fun s => (if s % 2 = 0 then "s" else "t", s + 1) } 0).isSome = true := by
  decide +kernel

/-- C204: within the point the first number is the one evaluated first, and each is evaluated once: with a step of 1 for the first and
of 100 for the second, the second number is 1, and the bounds come from the later evaluations, in the order of the fields. -/
theorem C204_order_partial : ∃ m p s,
    plotArgs onePlot { random with y := fun s => (.fin s, s + 100) } 0 = some (m, s) ∧ HMap.get m.data "p" = some p ∧
    HMap.get p.series "s" = some [(.fin 0, .fin 1)] ∧ p.minX = .fin 102 ∧ p.maxX = .fin 104 ∧
    p.minY = .fin 205 ∧ p.maxY = .fin 405 ∧ m.sent = [("p", "s", .fin 505, .fin 506)] ∧ s = 606 :=
  ⟨_, _, _, rfl, rfl, by decide +kernel⟩

/-- Steady expressions that do something, here counting: the point is right, the work is done again and again. -/
example : (plotArgs onePlot { random with x := fun s => (.fin 7, s + 1), y := fun s => (.fin 0, s) } 0).map
    (fun r => (r.2, decide (plot onePlot "p" "s" (.fin 7) (.fin 0) true = some r.1))) = some (6, true) := by
  decide +kernel

end Verif.Monitor
