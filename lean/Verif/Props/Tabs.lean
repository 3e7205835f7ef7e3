import Verif.Model.Tabs
import Verif.Props.Charts

/-!
Property C232: every plot has a tab.
-/

namespace Verif.Monitor

theorem titles_draw {u u' : UI} {plots : List String} {n : Nat} (h : u.draw plots n = some u') :
    u'.titles = plots.foldl (fun ts p => if p ∈ ts then ts else ts ++ [p]) u.titles ∧ u'.index = u.index := by
  unfold UI.draw at h
  by_cases h0 : u.index = 0
  · rw [if_pos h0] at h
    by_cases h1 : u.totReps = 0 ∨ u.rep + 1 > u.totReps
    · rw [if_pos h1] at h; cases h
    · rw [if_neg h1] at h
      obtain rfl := Option.some.inj h
      exact ⟨rfl, rfl⟩
  · rw [if_neg h0] at h
    obtain rfl := Option.some.inj h
    exact ⟨rfl, rfl⟩

/-- The selected tab exists, and no two tabs have the same name. -/
structure Tabs (u : UI) : Prop where
  nodup : u.titles.Nodup
  index : u.index < u.titles.length
  home : u.titles[0]? = some "Home"

theorem tabs_step {u u' : UI} {e : UIEvent} (ht : Tabs u) (h : u.step e = some u') :
    Tabs u' ∧ ∃ more, u'.titles = u.titles ++ more := by
  obtain ⟨h1, h2, h3⟩ := ht
  have hs : ∀ v : UI, v.titles = u.titles → v.index = u.index → Tabs v ∧ ∃ more, v.titles = u.titles ++ more := by
    intro v e1 e2
    exact ⟨⟨by rw [e1]; exact h1, by rw [e1, e2]; exact h2, by rw [e1]; exact h3⟩, [], by rw [e1, List.append_nil]⟩
  cases e with
  | up =>
    simp only [UI.step, UI.up] at h
    split at h
    · split at h
      · cases h
      · obtain rfl := Option.some.inj h; exact hs _ rfl rfl
    · obtain rfl := Option.some.inj h; exact hs _ rfl rfl
    · obtain rfl := Option.some.inj h; exact hs _ rfl rfl
  | down =>
    simp only [UI.step, UI.down] at h
    split at h
    · split at h
      · cases h
      · split at h <;> (obtain rfl := Option.some.inj h; exact hs _ rfl rfl)
    · obtain rfl := Option.some.inj h; exact hs _ rfl rfl
  | left =>
    simp only [UI.step, UI.left] at h
    split at h
    · obtain rfl := Option.some.inj h
      exact ⟨⟨h1, show u.index - 1 < u.titles.length by omega, h3⟩, [], (List.append_nil _).symm⟩
    · split at h
      · cases h
      · obtain rfl := Option.some.inj h
        exact ⟨⟨h1, show u.titles.length - 1 < u.titles.length by omega, h3⟩, [], (List.append_nil _).symm⟩
  | right =>
    simp only [UI.step, UI.right] at h
    split at h
    · cases h
    · obtain rfl := Option.some.inj h
      exact ⟨⟨h1, Nat.mod_lt _ (by omega), h3⟩, [], (List.append_nil _).symm⟩
  | key c =>
    obtain rfl := Option.some.inj h
    have : (u.key c).titles = u.titles ∧ (u.key c).index = u.index := by
      unfold UI.key
      split
      · exact ⟨rfl, rfl⟩
      · split
        · exact ⟨rfl, rfl⟩
        · split <;> exact ⟨rfl, rfl⟩
    exact hs _ this.1 this.2
  | tick a b => obtain rfl := Option.some.inj h; exact hs _ rfl rfl
  | rep r s => obtain rfl := Option.some.inj h; exact hs _ rfl rfl
  | draw plots n =>
    obtain ⟨e1, e2⟩ := titles_draw h
    obtain ⟨more, k1, k2, _⟩ := addTitles_spec plots u.titles
    rw [k1] at e1
    refine ⟨⟨by rw [e1]; exact k2 h1, by rw [e1, e2, List.length_append]; omega, ?_⟩, more, e1⟩
    rw [e1, List.getElem?_append_left (by omega)]
    exact h3

theorem tabs_run (es : List UIEvent) : ∀ {u u' : UI}, Tabs u → u.run es = some u' → Tabs u' ∧ ∃ more, u'.titles = u.titles ++ more := by
  induction es with
  | nil => intro u u' ht h; obtain rfl := Option.some.inj h; exact ⟨ht, [], (List.append_nil _).symm⟩
  | cons e es ih =>
    intro u u' ht h
    rw [UI.run, Option.bind_eq_some_iff] at h
    obtain ⟨v, h1, h2⟩ := h
    obtain ⟨t1, m1, k1⟩ := tabs_step ht h1
    obtain ⟨t2, m2, k2⟩ := ih t1 h2
    exact ⟨t2, m1 ++ m2, by rw [k2, k1, List.append_assoc]⟩

theorem tabs_new (r : Nat) : Tabs (UI.new r) := ⟨by simp [UI.new], by simp [UI.new], rfl⟩

theorem right_times (k : Nat) : ∀ {u : UI}, u.index < u.titles.length →
    u.run (List.replicate k .right) = some { u with index := (u.index + k) % u.titles.length } := by
  induction k with
  | zero => intro u h; rw [List.replicate_zero, UI.run, Nat.add_zero, Nat.mod_eq_of_lt h]
  | succ k ih =>
    intro u h
    rw [List.replicate_succ, UI.run, UI.step, UI.right, if_neg (by omega), Option.bind_some]
    have hm : (u.index + 1) % u.titles.length < u.titles.length := Nat.mod_lt _ (by omega)
    rw [ih (u := { u with index := (u.index + 1) % u.titles.length }) hm]
    dsimp only
    rw [Nat.mod_add_mod, Nat.add_assoc, Nat.add_comm 1 k]

/-- **C232**. Full statement: every plot that exists when the interface is drawn has a tab of its own, which the right arrow reaches from wherever one is, which
shows the chart of that plot and keeps its place whatever happens later. Proved for every plot that is not called `Home`, after any events. -/
theorem C232_own_tab_partial (F : F64) (r : Nat) (es : List UIEvent) {u u' : UI} (hu : (UI.new r).run es = some u)
    {plots : List String} {n : Nat} (hd : u.draw plots n = some u') {name : String} (hn : name ∈ plots) (hh : name ≠ "Home") :
    ∃ i, 0 < i ∧ (∀ j, u'.titles[j]? = some name ↔ j = i) ∧
      (∃ k v, u'.run (List.replicate k .right) = some v ∧ v.index = i ∧
        ∀ data p, HMap.get data name = some p → ∃ c, v.page F data = some (.chart c) ∧ c.title = name ∧ c.x.title = p.xlabel ∧
          c.y.title = p.ylabel ∧ c.sets.map (fun s => (s.name, s.data)) = p.series) ∧
      ∀ fs v, u'.run fs = some v → ∀ j, v.titles[j]? = some name ↔ j = i := by
  obtain ⟨t1, _⟩ := tabs_run es (tabs_new r) hu
  obtain ⟨t2, _⟩ := tabs_step (e := .draw plots n) t1 hd
  have hm : name ∈ u'.titles := by
    rw [(titles_draw hd).1]
    obtain ⟨more, k1, _, k3⟩ := addTitles_spec plots u.titles
    rw [k1]
    exact k3 name hn
  obtain ⟨i, hi, he⟩ := List.getElem_of_mem hm
  have hi' : u'.titles[i]? = some name := by rw [List.getElem?_eq_getElem hi, he]
  have uniq : ∀ v : UI, Tabs v → (∃ more, v.titles = u'.titles ++ more) → ∀ j, v.titles[j]? = some name ↔ j = i := by
    rintro v tv ⟨more, hv⟩ j
    have hvi : v.titles[i]? = some name := by rw [hv, List.getElem?_append_left hi]; exact hi'
    constructor
    · intro hj
      have hjl : j < v.titles.length := (List.getElem?_eq_some_iff.1 hj).1
      exact (List.getElem?_inj hjl tv.nodup).1 (hj.trans hvi.symm)
    · rintro rfl; exact hvi
  refine ⟨i, ?_, uniq u' t2 ⟨[], (List.append_nil _).symm⟩, ?_, fun fs v hv => ?_⟩
  · rcases Nat.eq_zero_or_pos i with rfl | h
    · rw [t2.home, Option.some_inj] at hi'
      exact absurd hi'.symm hh
    · exact h
  · refine ⟨u'.titles.length - u'.index + i, _, right_times _ t2.index, ?_, ?_⟩
    · have := t2.index
      show (u'.index + (u'.titles.length - u'.index + i)) % u'.titles.length = i
      rw [show u'.index + (u'.titles.length - u'.index + i) = u'.titles.length + i by omega, Nat.add_mod_left, Nat.mod_eq_of_lt hi]
    · intro data p hp
      have hidx : (u'.index + (u'.titles.length - u'.index + i)) % u'.titles.length = i := by
        have := t2.index
        rw [show u'.index + (u'.titles.length - u'.index + i) = u'.titles.length + i by omega, Nat.add_mod_left, Nat.mod_eq_of_lt hi]
      obtain ⟨c, h1, h2, h3, h4, _, _, _, _, h9, h10⟩ := drawTab_eq F hi' hp
      have hpos : i ≠ 0 := by
        rintro rfl
        rw [t2.home, Option.some_inj] at hi'
        exact absurd hi'.symm hh
      obtain ⟨i0, rfl⟩ := Nat.exists_eq_succ_of_ne_zero hpos
      refine ⟨c, ?_, h2, h3, h4, ?_⟩
      · unfold UI.page
        rw [hidx]
        dsimp only
        rw [h1, Option.map_some]
      · refine List.ext_getElem? (fun k => ?_)
        rw [List.getElem?_map]
        cases hk : p.series[k]? with
        | none =>
          have : p.series.length ≤ k := List.getElem?_eq_none_iff.1 hk
          rw [List.getElem?_eq_none (by omega)]
          rfl
        | some q =>
          obtain ⟨s, m, _, _, h5⟩ := h10 k q.1 q.2 hk
          rw [h5]
          rfl
  · obtain ⟨t3, more, hm3⟩ := tabs_run fs t2 hv
    exact uniq v t3 ⟨more, hm3⟩

/-- C232 is false: a plot called `Home` has no tab. Whatever has happened and whatever keys are pressed, no page is its chart. -/
theorem C232_home_negation_partial (F : F64) (r : Nat) (es : List UIEvent) {u : UI} (hu : (UI.new r).run es = some u)
    (data : HMap String Plot) (c : Chart) (h : u.page F data = some (.chart c)) : c.title ≠ "Home" := by
  obtain ⟨t, _⟩ := tabs_run es (tabs_new r) hu
  unfold UI.page at h
  split at h
  · cases h
  · rename_i i hi
    obtain ⟨o, h1, h2⟩ := Option.map_eq_some_iff.1 h
    have hlt := t.index
    rw [hi] at hlt
    obtain ⟨name, hn⟩ : ∃ name, u.titles[i + 1]? = some name := ⟨_, List.getElem?_eq_getElem hlt⟩
    have hne : name ≠ "Home" := by
      rintro rfl
      have := (List.getElem?_inj hlt t.nodup).1 (hn.trans t.home.symm)
      omega
    unfold drawTab at h1
    rw [hn] at h1
    dsimp only at h1
    cases hg : HMap.get data name with
    | none =>
      rw [hg] at h1
      obtain rfl := Option.some.inj h1
      cases h2
    | some p =>
      obtain ⟨c', k1, k2, _⟩ := drawTab_eq F hn hg
      unfold drawTab at k1
      rw [hn] at k1
      dsimp only at k1
      rw [h1, Option.some_inj] at k1
      subst k1
      injection h2 with h2
      subst h2
      rw [k2]
      exact hne

/-- Two plots, one of them called `Home`: the second has its tab, the page of the first tab is the first page. -/
example : ((UI.new 1).run [.draw ["Home", "p"] 0, .right, .draw ["q", "Home", "p"] 0]).map (fun u => (u.titles, u.index)) =
    some (["Home", "p", "q"], 1) := by decide +kernel

end Verif.Monitor
