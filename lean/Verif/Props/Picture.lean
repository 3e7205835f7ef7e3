import Verif.Model.Picture
import Verif.Spec.Picture
import Mathlib.Data.List.Nodup

/-!
The pictures of the plots (C149).
-/

namespace Verif.Monitor

/-! ### Lemmas -/

theorem colors_get (k : Nat) : colors[k % 6]? = some (nthColor k) := by
  have h : k % 6 < 6 := Nat.mod_lt _ (by decide)
  unfold nthColor
  rcases (by omega : k % 6 = 0 ∨ k % 6 = 1 ∨ k % 6 = 2 ∨ k % 6 = 3 ∨ k % 6 = 4 ∨ k % 6 = 5) with h | h | h | h | h | h <;> rw [h] <;> rfl

theorem markerOf_mod (k : Nat) : markerOf (k % 3) = nthMarker k := by
  unfold nthMarker
  rcases (by omega : k % 3 = 0 ∨ k % 3 = 1 ∨ k % 3 = 2) with h | h | h <;> rw [h] <;> rfl

/-- The `k`-th series as drawn. -/
def drawnAt (k : Nat) (s : String × List (Fl × Fl)) : Drawn :=
  { label := s.1, marker := nthMarker k, markerColor := nthColor k, legend := (nthMarker k, nthColor k), points := s.2,
    lineColor := nthColor k, line := s.2 }

theorem drawSeries_eq : ∀ (l : List (String × List (Fl × Fl))) (k : Nat),
    drawSeries (k % 3) (k % 6) l = some (l.mapIdx (fun i s => drawnAt (k + i) s))
  | [], _ => rfl
  | (name, pts) :: l, k => by
    unfold drawSeries
    rw [colors_get k]
    dsimp only
    have h3 : (k % 3 + 1) % 3 = (k + 1) % 3 := by omega
    have h6 : (k % 6 + 1) % colors.length = (k + 1) % 6 := by
      have : colors.length = 6 := rfl
      rw [this]; omega
    rw [h3, h6, drawSeries_eq l (k + 1), markerOf_mod, Option.map_some, List.mapIdx_cons]
    congr 2
    refine List.mapIdx_eq_mapIdx_iff.2 (fun i h => ?_)
    rw [show k + 1 + i = k + (i + 1) by omega]

/-- The picture of a plot. -/
def pictureOf (p : Plot) : Picture :=
  { caption := p.name, xRange := (p.minX, p.maxX), yRange := (p.minY, p.maxY), xDesc := p.xlabel, yDesc := p.ylabel,
    drawn := p.series.mapIdx drawnAt }

theorem storePlot_eq (ps : Pictures) (p : Plot) (rep : Nat) :
    storePlot ps p rep = some (fun n r => if n = sanitize p.name ∧ r = rep then some (pictureOf p) else ps n r) := by
  unfold storePlot
  have := drawSeries_eq p.series 0
  change drawSeries 0 0 p.series = _ at this
  rw [this]
  simp only [Nat.zero_add, Option.map_some]
  rfl

theorem shows_picture (p : Plot) : Shows (pictureOf p) p := by
  refine ⟨rfl, rfl, rfl, rfl, rfl, by simp [pictureOf], ?_⟩
  intro k name pts h
  refine ⟨drawnAt k (name, pts), ?_, rfl, rfl, rfl, rfl, rfl, rfl, rfl⟩
  simp [pictureOf, List.getElem?_mapIdx, h]

theorem storePlots_ok (rep : Nat) : ∀ (d : HMap String Plot) (ps : Pictures), ∃ ps', storePlots rep ps d = some ps' ∧
    (∀ n r, (r ≠ rep ∨ n ∉ (d.filter (fun e => e.2.stored)).map (fun e => sanitize e.2.name)) → ps' n r = ps n r) ∧
    (FilesDistinct d → ∀ e ∈ d, e.2.stored = true → ps' (sanitize e.2.name) rep = some (pictureOf e.2))
  | [], ps => ⟨ps, rfl, fun _ _ _ => rfl, fun _ e he => absurd he (by simp)⟩
  | (key, p) :: d, ps => by
    cases hs : p.stored with
    | false =>
      obtain ⟨ps', h1, h2, h3⟩ := storePlots_ok rep d ps
      have hf : ((key, p) :: d).filter (fun e => e.2.stored) = d.filter (fun e => e.2.stored) := by
        rw [List.filter_cons]; simp [hs]
      refine ⟨ps', ?_, ?_, ?_⟩
      · unfold storePlots; rw [hs]; exact h1
      · intro n r h; rw [hf] at h; exact h2 n r h
      · intro hd e he hst
        unfold FilesDistinct at hd
        rw [hf] at hd
        rcases List.mem_cons.1 he with rfl | he
        · rw [hs] at hst; exact absurd hst (by simp)
        · exact h3 hd e he hst
    | true =>
      obtain ⟨ps', h1, h2, h3⟩ := storePlots_ok rep d
        (fun n r => if n = sanitize p.name ∧ r = rep then some (pictureOf p) else ps n r)
      have hf : ((key, p) :: d).filter (fun e => e.2.stored) = (key, p) :: d.filter (fun e => e.2.stored) := by
        rw [List.filter_cons]; simp [hs]
      refine ⟨ps', ?_, ?_, ?_⟩
      · unfold storePlots; rw [hs, storePlot_eq]; exact h1
      · intro n r h
        rw [hf, List.map_cons, List.mem_cons] at h
        rw [h2 n r (by tauto)]
        exact if_neg (by tauto)
      · intro hd e he hst
        unfold FilesDistinct at hd
        rw [hf, List.map_cons, List.nodup_cons] at hd
        rcases List.mem_cons.1 he with rfl | he
        · rw [h2 _ _ (Or.inr hd.1)]
          exact if_pos ⟨rfl, rfl⟩
        · exact h3 hd.2 e he hst

theorem storeAll_ok : ∀ (datas : List (HMap String Plot)) (rep : Nat) (ps : Pictures), ∃ ps', storeAll rep ps datas = some ps' ∧
    (∀ n r, r < rep → ps' n r = ps n r) ∧
    ∀ (k : Nat) (d : HMap String Plot), datas[k]? = some d → FilesDistinct d → ∀ e ∈ d, e.2.stored = true →
      ps' (sanitize e.2.name) (rep + k) = some (pictureOf e.2)
  | [], rep, ps => ⟨ps, rfl, fun _ _ _ => rfl, fun k d h => absurd h (by simp)⟩
  | d :: datas, rep, ps => by
    obtain ⟨ps1, h1, h2, h3⟩ := storePlots_ok rep d ps
    obtain ⟨ps2, k1, k2, k3⟩ := storeAll_ok datas (rep + 1) ps1
    refine ⟨ps2, ?_, ?_, ?_⟩
    · unfold storeAll; rw [h1]; exact k1
    · intro n r hr; rw [k2 n r (by omega), h2 n r (Or.inl (by omega))]
    · intro k d' hd hf e he hs
      cases k with
      | zero =>
        obtain rfl := Option.some.inj hd
        rw [Nat.add_zero, k2 _ _ (by omega)]
        exact h3 hf e he hs
      | succ k =>
        have := k3 k d' (by simpa using hd) hf e he hs
        rw [show rep + (k + 1) = rep + 1 + k by omega]; exact this

/-! ### C149 -/

/-- **C149, for plots whose names give different files**: storing never fails, and after all repetitions the file of each plot to be stored and
each repetition shows the plot as it was at the end of the repetition: every series with all its points, in the colours and markers one after the other. Full
statement: every names of plots and number of series; false, see below. -/
theorem C149_pictures_partial (datas : List (HMap String Plot)) (ps : Pictures) :
    ∃ ps', storeAll 0 ps datas = some ps' ∧
      ∀ (r : Nat) (d : HMap String Plot), datas[r]? = some d → FilesDistinct d → ∀ e ∈ d, e.2.stored = true →
        ∃ pic, ps' (sanitize e.2.name) r = some pic ∧ Shows pic e.2 := by
  obtain ⟨ps', h1, _, h3⟩ := storeAll_ok datas 0 ps
  refine ⟨ps', h1, fun r d hd hf e he hs => ⟨_, ?_, shows_picture e.2⟩⟩
  have := h3 r d hd hf e he hs
  rwa [Nat.zero_add] at this

/-- **C149, which series look alike**: in a picture of a plot series `i` and `j` look alike iff `i - j` is a multiple of six. -/
theorem C149_alike_partial (p : Plot) (pic : Picture) (h : Shows pic p) (i j : Nat) (a b : Drawn) (hi : pic.drawn[i]? = some a)
    (hj : pic.drawn[j]? = some b) : Alike a b ↔ i % 6 = j % 6 := by
  obtain ⟨_, _, _, _, _, hl, hs⟩ := h
  have key : ∀ k c, pic.drawn[k]? = some c → c.marker = nthMarker k ∧ c.markerColor = nthColor k ∧ c.lineColor = nthColor k := by
    intro k c hk
    obtain ⟨hk1, _⟩ := List.getElem?_eq_some_iff.1 hk
    obtain ⟨dr, h1, _, _, _, h2, h3, h4, _⟩ := hs k (p.series[k]'(by omega)).1 (p.series[k]'(by omega)).2
      (List.getElem?_eq_getElem (by omega))
    rw [hk] at h1
    obtain rfl := Option.some.inj h1
    exact ⟨h2, h3, h4⟩
  obtain ⟨a1, a2, a3⟩ := key i a hi
  obtain ⟨b1, b2, b3⟩ := key j b hj
  unfold Alike
  rw [a1, a2, a3, b1, b2, b3]
  constructor
  · rintro ⟨_, h, _⟩
    unfold nthColor at h
    rcases (by omega : i % 6 = 0 ∨ i % 6 = 1 ∨ i % 6 = 2 ∨ i % 6 = 3 ∨ i % 6 = 4 ∨ i % 6 = 5) with h1 | h1 | h1 | h1 | h1 | h1 <;>
    rcases (by omega : j % 6 = 0 ∨ j % 6 = 1 ∨ j % 6 = 2 ∨ j % 6 = 3 ∨ j % 6 = 4 ∨ j % 6 = 5) with h2 | h2 | h2 | h2 | h2 | h2 <;>
    first
    | (rw [h1, h2]; done)
    | (rw [h1, h2] at h; exact (nomatch h))
  · intro h
    have h3 : i % 3 = j % 3 := by omega
    refine ⟨?_, ?_, ?_⟩
    · unfold nthMarker; rw [h3]
    · unfold nthColor; rw [h]
    · unfold nthColor; rw [h]

/-- A plot with one series, for the concrete cases. -/
def demoPlot (name : String) (y : Rat) : Plot :=
  { name := name, series := [("s", [(.fin 0, .fin y)])], minX := .fin 0, maxX := .fin 0, minY := .fin y, maxY := .fin y, xlabel := "x",
    ylabel := "y", stored := true }

/-- **C149, false as stated**: the pictures of plots `a/b` and `a-b` are stored in one file, and one of them is lost. -/
theorem C149_one_file_partial : ∃ ps', storeAll 0 (fun _ _ => none) [[("a/b", demoPlot "a/b" 1), ("a-b", demoPlot "a-b" 2)]] = some ps' ∧
    ∀ n r pic, ps' n r = some pic → ¬ Shows pic (demoPlot "a/b" 1) := by
  obtain ⟨ps', h⟩ : ∃ ps', storeAll 0 (fun _ _ => none) [[("a/b", demoPlot "a/b" 1), ("a-b", demoPlot "a-b" 2)]] = some ps' := by
    obtain ⟨ps', h, _⟩ := storeAll_ok [[("a/b", demoPlot "a/b" 1), ("a-b", demoPlot "a-b" 2)]] 0 (fun _ _ => none)
    exact ⟨ps', h⟩
  refine ⟨ps', h, ?_⟩
  have hs1 : sanitize (demoPlot "a/b" 1).name = "a-b" := by decide +kernel
  have hs2 : sanitize (demoPlot "a-b" 2).name = "a-b" := by decide +kernel
  have ht1 : (demoPlot "a/b" 1).stored = true := rfl
  have ht2 : (demoPlot "a-b" 2).stored = true := rfl
  simp only [storeAll, storePlots, storePlot_eq, Option.bind_some, ht1, ht2, if_true, hs1, hs2] at h
  obtain rfl := Option.some.inj h
  intro n r pic hc hshow
  dsimp only at hc
  split at hc
  · have := hshow.1
    rw [← Option.some.inj hc] at this
    exact absurd this (by decide)
  · exact (nomatch hc)

/-- **C149, false as stated**: a plot with seven series shows the first and the seventh alike. -/
theorem C149_seven_series_partial : ∃ (p : Plot) (ps' : Pictures) (pic : Picture) (a b : Drawn), (p.series.map Prod.fst).Nodup ∧
    storeAll 0 (fun _ _ => none) [[("p", p)]] = some ps' ∧ ps' "p" 0 = some pic ∧
    pic.drawn[0]? = some a ∧ pic.drawn[6]? = some b ∧ a.label ≠ b.label ∧ Alike a b := by
  obtain ⟨p, hp⟩ : ∃ p : Plot, p = { demoPlot "p" 0 with
      series := [("a", []), ("b", []), ("c", []), ("d", []), ("e", []), ("f", []), ("g", [])] } := ⟨_, rfl⟩
  obtain ⟨ps', h1, h2⟩ := C149_pictures_partial [[("p", p)]] (fun _ _ => none)
  obtain ⟨pic, h3, h4⟩ := h2 0 [("p", p)] rfl (by unfold FilesDistinct; rw [hp]; decide +kernel) ("p", p) (by simp) (by rw [hp]; rfl)
  have hs : sanitize p.name = "p" := by rw [hp]; decide +kernel
  obtain ⟨a, ha, la, _⟩ := h4.2.2.2.2.2.2 0 "a" [] (by rw [hp]; rfl)
  obtain ⟨b, hb, lb, _⟩ := h4.2.2.2.2.2.2 6 "g" [] (by rw [hp]; rfl)
  rw [hs] at h3
  refine ⟨p, ps', pic, a, b, by rw [hp]; decide, h1, h3, ha, hb, by rw [la, lb]; decide, ?_⟩
  exact (C149_alike_partial p pic h4 0 6 a b ha hb).2 rfl

/-- Two plots, two repetitions; the hypotheses of `C149_pictures_partial` are met. -/
example : FilesDistinct [("a", demoPlot "a" 1), ("b", demoPlot "b" 2)] ∧ (demoPlot "a" 1).stored = true ∧
    [[("a", demoPlot "a" 1), ("b", demoPlot "b" 2)], [("a", demoPlot "a" 3)]][1]? = some [("a", demoPlot "a" 3)] := by
  refine ⟨?_, rfl, rfl⟩
  unfold FilesDistinct
  decide +kernel

theorem storeAll_kept : ∀ (datas : List (HMap String Plot)) (rep : Nat) (ps ps' : Pictures), storeAll rep ps datas = some ps' →
    ∀ n r, (∀ k d, datas[k]? = some d → r = rep + k → ∀ e ∈ d, e.2.stored = true → sanitize e.2.name ≠ n) → ps' n r = ps n r
  | [], rep, ps, ps', h, n, r, _ => by rw [← Option.some.inj h]
  | d :: datas, rep, ps, ps', h, n, r, hk => by
    obtain ⟨ps1, h1, h2, _⟩ := storePlots_ok rep d ps
    unfold storeAll at h
    rw [h1, Option.bind_some] at h
    rw [storeAll_kept datas (rep + 1) ps1 ps' h n r (fun k d' hd hr => hk (k + 1) d' (by simpa using hd) (by omega))]
    refine h2 n r ?_
    by_cases hr : r = rep
    · right
      intro hm
      obtain ⟨e, he, hn⟩ := List.mem_map.1 hm
      obtain ⟨he1, he2⟩ := List.mem_filter.1 he
      exact hk 0 d rfl (by omega) e he1 he2 hn
    · exact Or.inl hr

/-- **C228, the pictures**: of the pictures that earlier calls of `simulate!` have left (`ps`), a later call replaces just those of the
plots and repetitions for which it stores one itself, and those are lost; unlike a csv file, a picture of a plot that the later model does not
have stays. -/
theorem C228_pictures_partial (ps : Pictures) (datas : List (HMap String Plot)) : ∃ ps', storeAll 0 ps datas = some ps' ∧
    (∀ n r, (∀ d, datas[r]? = some d → ∀ e ∈ d, e.2.stored = true → sanitize e.2.name ≠ n) → ps' n r = ps n r) ∧
    (∀ (r : Nat) (d : HMap String Plot), datas[r]? = some d → FilesDistinct d → ∀ e ∈ d, e.2.stored = true →
      ∃ pic, ps' (sanitize e.2.name) r = some pic ∧ Shows pic e.2) := by
  obtain ⟨ps', h1, h2⟩ := C149_pictures_partial datas ps
  refine ⟨ps', h1, ?_, h2⟩
  intro n r h
  refine storeAll_kept datas 0 ps ps' h1 n r ?_
  intro k d hd hr
  obtain rfl : k = r := by omega
  exact h d hd

/-- A second call whose model has the plot `b` only: the picture of `a` stays, that of `b` in the repetition 0 is the new one. -/
example : ((storeAll 0 (fun _ _ => none) [[("a", demoPlot "a" 1), ("b", demoPlot "b" 2)], [("b", demoPlot "b" 3)]]).bind
    (fun ps => storeAll 0 ps [[("b", demoPlot "b" 4)]])).map (fun ps => (ps "a" 0 == some (pictureOf (demoPlot "a" 1)),
      ps "b" 0 == some (pictureOf (demoPlot "b" 4)), ps "b" 1 == some (pictureOf (demoPlot "b" 3)))) = some (true, true, true) := by
  decide +kernel

end Verif.Monitor
