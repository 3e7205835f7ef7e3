import Verif.Model.Plots
import Verif.Props.Monitor

/-!
C234: a plot is there in every repetition and shows the points of that repetition.
-/

namespace Verif.Monitor

open MonitorSpec

/-- The calls of a program: it cannot empty `DATA`. -/
def Calls (cs : List Call) : Prop := .clear ∉ cs

/-- A call of `addplot!` for this name. -/
def Adds (name : String) (cs : List Call) : Prop := ∃ x y s c, Call.add name x y s c ∈ cs

/-- The points of the calls of `plot!` with these names, in the order of the calls. -/
def plotted (name serie : String) : List Call → List (Fl × Fl)
  | [] => []
  | .point n s x y _ :: h => if n = name ∧ s = serie then plotted name serie h ++ [(x, y)] else plotted name serie h
  | _ :: h => plotted name serie h

theorem withTerminal_concat (before : List Call) (rs : List (List Call)) (r : List Call) :
    withTerminal before (rs ++ [r]) = r ++ .clear :: withTerminal before rs := by
  induction rs generalizing before with
  | nil => rfl
  | cons a rs ih => exact ih _

theorem withoutTerminal_concat (before : List Call) (rs : List (List Call)) (r : List Call) :
    withoutTerminal before (rs ++ [r]) = r ++ withoutTerminal before rs := by
  induction rs generalizing before with
  | nil => rfl
  | cons a rs ih => exact ih _

theorem known_cleared (name : String) (r h : List Call) : known name (r ++ .clear :: h) = known name r := by
  induction r with
  | nil => rfl
  | cons c r ih => cases c <;> simp [known, ih]

theorem points_cleared (name : String) (r h : List Call) : points name (r ++ .clear :: h) = points name r := by
  induction r with
  | nil => rfl
  | cons c r ih => cases c <;> simp [points, ih, known_cleared]

theorem known_iff {name : String} {r : List Call} (hr : Calls r) : known name r = true ↔ Adds name r := by
  induction r with
  | nil => exact ⟨fun h => absurd h (by simp [known]), fun ⟨_, _, _, _, h⟩ => absurd h (by simp)⟩
  | cons c r ih =>
    have hr' : Calls r := fun h => hr (List.mem_cons_of_mem _ h)
    cases c with
    | add n x y s k =>
      rw [known, Bool.or_eq_true, ih hr', beq_iff_eq]
      constructor
      · rintro (rfl | ⟨x', y', s', k', h⟩)
        · exact ⟨x, y, s, k, by simp⟩
        · exact ⟨x', y', s', k', by simp [h]⟩
      · rintro ⟨x', y', s', k', h⟩
        rcases List.mem_cons.1 h with h | h
        · injection h with h; exact Or.inl h.symm
        · exact Or.inr ⟨x', y', s', k', h⟩
    | point n s x y k =>
      rw [known, ih hr']
      constructor
      · rintro ⟨x', y', s', k', h⟩
        exact ⟨x', y', s', k', by simp [h]⟩
      · rintro ⟨x', y', s', k', h⟩
        rcases List.mem_cons.1 h with h | h
        · cases h
        · exact ⟨x', y', s', k', h⟩
    | clear => exact absurd (by simp) hr

theorem known_append {name : String} {r h : List Call} (hr : Calls r) (hk : known name h = true) : known name (r ++ h) = true := by
  induction r with
  | nil => exact hk
  | cons c r ih =>
    have := ih (fun h => hr (List.mem_cons_of_mem _ h))
    cases c with
    | add n x y s k => simp [known, this]
    | point n s x y k => simpa [known] using this
    | clear => exact absurd (by simp) hr

theorem series_append {name serie : String} {r h : List Call} (hr : Calls r) (hk : known name h = true) :
    seriesPoints name serie (r ++ h) = seriesPoints name serie h ++ plotted name serie r := by
  induction r with
  | nil => simp [plotted]
  | cons c r ih =>
    have hr' : Calls r := fun h => hr (List.mem_cons_of_mem _ h)
    have ih := ih hr'
    unfold seriesPoints at ih ⊢
    cases c with
    | add n x y s k => exact ih
    | point n s x y k =>
      rw [List.cons_append, points, plotted]
      by_cases hn : n = name
      · rw [if_pos ⟨hn, known_append hr' hk⟩, List.filter_append, List.map_append, ih]
        by_cases hs : s = serie
        · rw [if_pos ⟨hn, hs⟩]
          simp [hs]
        · rw [if_neg (fun h => hs h.2)]
          simp [hs]
      · rw [if_neg (fun h => hn h.1), if_neg (fun h => hn h.1)]
        exact ih
    | clear => exact absurd (by simp) hr

/-- **C234, what holds with the terminal**: a plot added in a repetition, first after the calls `r₀` of it, shows at its end exactly the points
plotted to it in the rest `r` of this repetition, whatever was called before. Full statement: also for plots added before `simulate!`, and without the
terminal; both are false below. -/
theorem C234_repetition_partial {sender : Bool} (before : List Call) (rs : List (List Call)) (r r₀ : List Call) (hr : Calls r) (h₀ : Calls r₀)
    {name x y : String} {s c : Bool} (hn : ¬ Adds name r₀) {m : Mon}
    (hm : execAll (Mon.empty sender) (withTerminal before (rs ++ [r ++ .add name x y s c :: r₀])) = some m) :
    ∃ p, HMap.get m.data name = some p ∧ p.xlabel = x ∧ p.ylabel = y ∧ p.stored = s ∧
      ∀ serie, (HMap.get p.series serie).getD [] = plotted name serie r := by
  have h := (C69_points_partial hm).2
  rw [withTerminal_concat] at h
  have h1 : Calls (.add name x y s c :: r₀) := fun hc => h₀ (by simpa using hc)
  have h2 : Calls (r ++ .add name x y s c :: r₀) := fun hc => by
    rcases List.mem_append.1 hc with hc | hc
    · exact hr hc
    · exact h1 hc
  have h3 : known name (.add name x y s c :: r₀) = true := by simp [known]
  obtain ⟨p, h4, _, h5, h6⟩ := (h name).2 (by rw [known_cleared]; exact (known_iff h2).2 ⟨x, y, s, c, by simp⟩)
  have hu : known name r₀ = false := eq_false_of_ne_true (fun hk => hn ((known_iff h₀).1 hk))
  have hl : ∀ (a b : List Call), labels name (a ++ .clear :: b) = labels name a := by
    intro a b
    induction a with
    | nil => rfl
    | cons c a ih => cases c <;> simp [labels, ih]
  have hl0 : ∀ r₀ : List Call, Calls r₀ → known name r₀ = false → labels name r₀ = none := by
    intro r₀ h₀ hu
    induction r₀ with
    | nil => rfl
    | cons c a ih =>
      have ha : Calls a := fun h => h₀ (List.mem_cons_of_mem _ h)
      cases c with
      | add n x y s k =>
        rw [known, Bool.or_eq_false_iff] at hu
        rw [labels, ih ha hu.2, if_neg (by simpa using hu.1)]
        rfl
      | point n s x y k => exact ih ha hu
      | clear => exact absurd (by simp) h₀
  have hl1 : labels name (r ++ .add name x y s c :: r₀) = some (x, y, s) := by
    clear h h4 h5 h6 h2 hm
    induction r with
    | nil => show (labels name r₀).or (if name = name then some (x, y, s) else none) = _; rw [hl0 r₀ h₀ hu, if_pos rfl]; rfl
    | cons c r ih =>
      have ih := ih (fun h => hr (List.mem_cons_of_mem _ h))
      cases c with
      | add n x' y' s' k => rw [List.cons_append, labels, ih]; rfl
      | point n s x y k => rw [List.cons_append, labels, ih]
      | clear => exact absurd (by simp) hr
  rw [hl, hl1] at h5
  simp only [Option.some.injEq, Prod.mk.injEq] at h5
  refine ⟨p, h4, h5.1.symm, h5.2.1.symm, h5.2.2.symm, fun serie => ?_⟩
  have e : seriesPoints name serie (r ++ Call.add name x y s c :: r₀ ++ Call.clear :: withTerminal before rs) = plotted name serie r := by
    unfold seriesPoints
    rw [points_cleared]
    have := series_append (serie := serie) hr h3
    unfold seriesPoints at this
    rw [this]
    show List.map Prod.snd (List.filter (fun p => p.1 == serie) (points name r₀)) ++ plotted name serie r = _
    rw [points_unknown hu]
    rfl
  rw [h6 serie, e]
  split <;> simp_all

/-- **C234 is false of plots added before `simulate!` with the terminal**: a plot not added again in a repetition does not exist at the end of it, whatever was called before
and whatever was plotted. -/
theorem C234_added_before_negation_partial {sender : Bool} (before : List Call) (rs : List (List Call)) (r : List Call) (hr : Calls r) {m : Mon}
    (hm : execAll (Mon.empty sender) (withTerminal before (rs ++ [r])) = some m) {name : String} (ha : ¬ Adds name r) :
    HMap.get m.data name = none := by
  obtain ⟨_, h⟩ := C69_points_partial hm
  rw [withTerminal_concat] at h
  exact (h name).1 (by rw [known_cleared]; exact eq_false_of_ne_true (fun hk => ha ((known_iff hr).1 hk)))

/-- **C234 is false without the terminal**: a plot that exists before a repetition is there at its end, with all the points it had before it and those of the repetition. -/
theorem C234_piles_up_negation_partial {sender : Bool} (before : List Call) (hb : Calls before) (rs : List (List Call)) (hrs : ∀ r ∈ rs, Calls r) {m : Mon}
    (hm : execAll (Mon.empty sender) (withoutTerminal before rs) = some m) {name : String} (ha : Adds name before) :
    ∃ p, HMap.get m.data name = some p ∧ ∀ serie, (HMap.get p.series serie).getD [] =
      seriesPoints name serie before ++ rs.flatMap (plotted name serie) := by
  have key : ∀ rs : List (List Call), (∀ r ∈ rs, Calls r) → known name (withoutTerminal before rs) = true ∧
      ∀ serie, seriesPoints name serie (withoutTerminal before rs) = seriesPoints name serie before ++ rs.flatMap (plotted name serie) := by
    intro rs
    induction rs using List.reverseRecOn with
    | nil => intro _; exact ⟨(known_iff hb).2 ha, by simp [withoutTerminal]⟩
    | append_singleton rs r ih =>
      intro h
      obtain ⟨h1, h2⟩ := ih (fun r hr => h r (List.mem_append_left _ hr))
      have hr : Calls r := h r (by simp)
      rw [withoutTerminal_concat]
      refine ⟨known_append hr h1, fun serie => ?_⟩
      rw [series_append hr h1, h2]
      simp
  obtain ⟨h1, h2⟩ := key rs hrs
  obtain ⟨_, h⟩ := C69_points_partial hm
  obtain ⟨p, h3, _, _, h4⟩ := (h name).2 h1
  refine ⟨p, h3, fun serie => ?_⟩
  rw [h4 serie, h2 serie]
  split <;> simp_all

/-- A plot added in `main` and two repetitions that plot a point each. -/
def twoReps : List (List Call) := [[.point "a" "s" (.fin 0) (.fin 5) false], [.point "a" "s" (.fin 0) (.fin 7) false]]

/-- Added before `simulate!`: nothing is there with the terminal, and the two points of different repetitions are in one line without. -/
theorem C234_witness_negation_partial :
    (execAll (Mon.empty true) (withTerminal [.add "a" "x" "y" true true] twoReps)).map (fun m => (m.data, m.names)) =
      some ([], [("a", "x", "y")]) ∧
    (execAll (Mon.empty false) (withoutTerminal [.add "a" "x" "y" true true] twoReps)).map (fun m => m.data.map (fun e => e.2.series)) =
      some [[("s", [(.fin 0, .fin 5), (.fin 0, .fin 7)])]] := by
  refine ⟨?_, ?_⟩ <;> decide +kernel

/-- Added in `init`, each repetition shows its own point. -/
example : (execAll (Mon.empty true) (withTerminal [] (twoReps.map (fun r => r ++ [.add "a" "x" "y" true true])))).map (fun m => m.data.map (fun e => e.2.series)) =
      some [[("s", [(.fin 0, .fin 7)])]] ∧
    (∀ r ∈ twoReps.map (fun r => r ++ [.add "a" "x" "y" true true]), Calls r ∧ Adds "a" r) := by
  refine ⟨by decide +kernel, ?_⟩
  intro r hr
  obtain ⟨r', hr', rfl⟩ := List.mem_map.1 hr
  refine ⟨?_, "x", "y", true, true, by simp⟩
  simp [twoReps] at hr'
  rcases hr' with rfl | rfl <;> simp [Calls]

end Verif.Monitor
