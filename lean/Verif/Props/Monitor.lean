import Verif.Lemmas.Monitor
import Mathlib.Data.List.Induction
import Mathlib.Tactic.Ring

/-!
Properties of plots (C69, C99), csv output (C70), logs (C71) and the terminal interface (C72, C100, C101).
-/

namespace Verif.Monitor

open MonitorSpec

/-! ### C69 -/

theorem low_finite {xs : List Fl} {v : Fl} (h : Low maxF64 xs v) (hne : xs ≠ []) (hf : ∀ x ∈ xs, IsFinite x) :
    v ∈ xs ∧ ∀ x ∈ xs, x.lt v = false := by
  rcases h with ⟨rfl, h⟩ | ⟨h1, _, h3⟩
  · refine ⟨?_, h⟩
    cases xs with
    | nil => exact absurd rfl hne
    | cons x xs =>
      obtain ⟨q, rfl, _, h2⟩ := hf x List.mem_cons_self
      have := h (.fin q) List.mem_cons_self
      unfold maxF64 Fl.lt at this
      have h3 := le_antisymm h2 (not_lt.1 (of_decide_eq_false this))
      rw [h3]
      exact List.mem_cons_self
  · exact ⟨h1, h3⟩

theorem high_finite {xs : List Fl} {v : Fl} (h : High Fl.minF64 xs v) (hne : xs ≠ []) (hf : ∀ x ∈ xs, IsFinite x) :
    v ∈ xs ∧ ∀ x ∈ xs, v.lt x = false := by
  rcases h with ⟨rfl, h⟩ | ⟨h1, _, h3⟩
  · refine ⟨?_, h⟩
    cases xs with
    | nil => exact absurd rfl hne
    | cons x xs =>
      obtain ⟨q, rfl, h2, _⟩ := hf x List.mem_cons_self
      have := h (.fin q) List.mem_cons_self
      unfold Fl.minF64 Fl.lt at this
      have h3 := le_antisymm (not_lt.1 (of_decide_eq_false this)) h2
      rw [h3]
      exact List.mem_cons_self
  · exact ⟨h1, h3⟩

/-- C69: after any sequence of calls (newest first) that does not panic, exactly the plots added since the last clearing
exist, with the labels of the first call that added them; each series holds exactly the points plotted to it, in order; the points
sent to the csv thread are those asked for. -/
theorem C69_points_partial {sender : Bool} {h : List Call} {m : Mon} (hm : execAll (Mon.empty sender) h = some m) :
    m.sent = csvPoints h ∧ ∀ name,
      (known name h = false → HMap.get m.data name = none) ∧
      (known name h = true → ∃ p, HMap.get m.data name = some p ∧ p.name = name ∧
        labels name h = some (p.xlabel, p.ylabel, p.stored) ∧
        ∀ serie, HMap.get p.series serie =
          if seriesPoints name serie h = [] then none else some (seriesPoints name serie h)) := by
  have i := inv_execAll sender h hm
  refine ⟨i.sent_eq, fun name => ⟨i.absent name, fun hk => ?_⟩⟩
  obtain ⟨p, h1, h2⟩ := i.present name hk
  exact ⟨p, h1, h2.name_eq, h2.labels_eq, h2.series_eq⟩

/-- C69. Full statement: as above, and the bounds are the least and greatest coordinates plotted. Proved for finite
coordinates. Missing: infinite ones, see `C69_negation_partial`. -/
theorem C69_bounds_partial {sender : Bool} {h : List Call} {m : Mon} (hm : execAll (Mon.empty sender) h = some m) {name : String}
    {p : Plot} (hp : HMap.get m.data name = some p) (hne : points name h ≠ [])
    (hf : ∀ q ∈ points name h, IsFinite q.2.1 ∧ IsFinite q.2.2) :
    (p.minX ∈ (points name h).map (fun q => q.2.1) ∧ ∀ q ∈ points name h, q.2.1.lt p.minX = false) ∧
    (p.maxX ∈ (points name h).map (fun q => q.2.1) ∧ ∀ q ∈ points name h, p.maxX.lt q.2.1 = false) ∧
    (p.minY ∈ (points name h).map (fun q => q.2.2) ∧ ∀ q ∈ points name h, q.2.2.lt p.minY = false) ∧
    (p.maxY ∈ (points name h).map (fun q => q.2.2) ∧ ∀ q ∈ points name h, p.maxY.lt q.2.2 = false) := by
  have i := inv_execAll sender h hm
  have hk : known name h = true := by
    by_contra hk
    rw [i.absent name (eq_false_of_ne_true hk)] at hp
    cases hp
  obtain ⟨p', h1, h2⟩ := i.present name hk
  rw [hp] at h1
  injection h1 with h1
  subst h1
  have fx : ∀ x ∈ (points name h).map (fun q => q.2.1), IsFinite x := by
    intro x hx
    obtain ⟨q, hq, rfl⟩ := List.mem_map.1 hx
    exact (hf q hq).1
  have fy : ∀ x ∈ (points name h).map (fun q => q.2.2), IsFinite x := by
    intro x hx
    obtain ⟨q, hq, rfl⟩ := List.mem_map.1 hx
    exact (hf q hq).2
  obtain ⟨a1, a2⟩ := low_finite h2.minX_ok (by simpa using hne) fx
  obtain ⟨b1, b2⟩ := high_finite h2.maxX_ok (by simpa using hne) fx
  obtain ⟨c1, c2⟩ := low_finite h2.minY_ok (by simpa using hne) fy
  obtain ⟨d1, d2⟩ := high_finite h2.maxY_ok (by simpa using hne) fy
  exact ⟨⟨a1, fun q hq => a2 _ (List.mem_map.2 ⟨q, hq, rfl⟩)⟩, ⟨b1, fun q hq => b2 _ (List.mem_map.2 ⟨q, hq, rfl⟩)⟩,
    ⟨c1, fun q hq => c2 _ (List.mem_map.2 ⟨q, hq, rfl⟩)⟩, ⟨d1, fun q hq => d2 _ (List.mem_map.2 ⟨q, hq, rfl⟩)⟩⟩

/-- C69, false as stated: the only point has the coordinates +∞ and −∞, and the bounds are those of no point. -/
theorem C69_negation_partial :
    ∃ m p, execAll (Mon.empty false) [.point "p" "s" .pinf .ninf false, .add "p" "x" "y" false false] = some m ∧
      HMap.get m.data "p" = some p ∧ p.minX = maxF64 ∧ p.maxY = Fl.minF64 := by
  refine ⟨_, _, rfl, rfl, ?_⟩
  decide +kernel

/-- C69: plotting to an unknown plot changes nothing. -/
theorem C69_unknown_partial {m : Mon} {name : String} (h : HMap.get m.data name = none) (serie : String) (x y : Fl) (csv : Bool) :
    plot m name serie x y csv = some m := by
  unfold plot
  rw [h]
  rfl

/-- C69: adding an existing plot changes nothing. -/
theorem C69_existing_partial {m : Mon} {name : String} {p : Plot} (h : HMap.get m.data name = some p) (x y : String)
    (stored csv : Bool) : addplot m name x y stored csv = m := by
  unfold addplot
  rw [h]
  rfl

/-- The calls of the example: two plots, one added twice; a point too early and one to a second series. -/
def exCalls : List Call := [.point "b" "s" (.fin 3) (.fin (-3)) true, .point "a" "t" (.fin 2) (.fin 4) false,
  .add "a" "other" "other" true true, .point "a" "s" (.fin 1) (.fin 7) true, .add "b" "x" "y" false true,
  .add "a" "x" "y" true false, .point "a" "s" (.fin 0) (.fin 0) true]

example : (execAll (Mon.empty true) exCalls).map (fun m => (m.sent.length, m.names)) = some (2, [("b", "x", "y")]) := by
  decide +kernel

example : (execAll (Mon.empty true) exCalls).map (fun m => m.data.flatMap (fun e => e.2.series)) =
    some [("s", [(.fin 1, .fin 7)]), ("t", [(.fin 2, .fin 4)]), ("s", [(.fin 3, .fin (-3))])] := by
  decide +kernel

example : (execAll (Mon.empty true) exCalls).map (fun m => m.data.map (fun e => (e.2.minX, e.2.maxX, e.2.minY, e.2.maxY))) =
    some [(.fin 1, .fin 2, .fin 4, .fin 7), (.fin 3, .fin 3, .fin (-3), .fin (-3))] := by
  decide +kernel

/-! ### C99 -/

/-- C99. Full statement: plotting works under every driver. Proved where the csv channel exists (`simulate!` with the terminal): no
sequence of calls panics. Missing: see `C99_negation_partial`. -/
theorem C99_terminal_partial (h : List Call) : ∃ m, execAll (Mon.empty true) h = some m := execAll_some_of_sender h

/-- C99: without the channel, plots without `csv: true` work too. -/
theorem C99_no_csv_partial (sender : Bool) {h : List Call} (hc : ∀ c ∈ h, ∀ n s x y, c ≠ .point n s x y true) :
    ∃ m, execAll (Mon.empty sender) h = some m := by
  induction h with
  | nil => exact ⟨_, rfl⟩
  | cons c h ih =>
    obtain ⟨m, hm⟩ := ih (fun c hcm => hc c (List.mem_cons_of_mem _ hcm))
    rw [execAll, hm, Option.bind_some]
    cases c with
    | clear => exact ⟨_, rfl⟩
    | add n x y s c => exact ⟨_, rfl⟩
    | point n s x y c =>
      cases c with
      | true => exact absurd rfl (hc _ List.mem_cons_self n s x y)
      | false =>
        rw [exec]
        unfold plot
        split <;> exact ⟨_, rfl⟩

/-- C99, false as stated: under `simulate!` without the terminal, `simulate_old!`, `simulate_mpi!` and the explorations nothing sets
the channel, and a point of an existing plot with `csv: true` panics. -/
theorem C99_negation_partial {m : Mon} (hs : m.sender = false) {name : String} {p : Plot} (h : HMap.get m.data name = some p)
    (serie : String) (x y : Fl) : plot m name serie x y true = none := by
  unfold plot
  rw [h, hs]
  rfl

/-! ### C70 -/

/-- C70. Full statement: every point plotted with `csv: true` during repetition `r` is written to file `r`, in order. Proved for
every number of repetitions in which no point is plotted in `init` (before the message `Init`), for the plots known when `Init` is
handled, if the names of plots differ after replacing `/` by `-`: file `r` has the header and exactly the points of repetition `r` of that plot.
Missing: see the negations. -/
theorem C70_files_partial (fs : Files) {reps : List (List (String × String × String) ×
      List ((String × String × String × String) × List (String × String × String)) × List (String × String × String))}
    (hn : ∀ rep ∈ reps, (rep.1.map (fun n => sanitize n.1)).Nodup) (q : List (String × String × String))
    {r : Nat} {rep : List (String × String × String) × List ((String × String × String × String) ×
      List (String × String × String)) × List (String × String × String)} (hr : reps[r]? = some rep)
    {n : String × String × String} (hnm : n ∈ rep.1) (hd : ∀ p ∈ rep.2.1, sanitize p.1.1 = sanitize n.1 → p.1.1 = n.1) :
    csvThread fs (reps.flatMap repMsgs ++ [(.quit, q)]) (sanitize n.1) r =
      some (("series", n.2.1, n.2.2) :: (rep.2.1.filter (fun p => decide (p.1.1 = n.1))).map (fun p => p.1.2)) := by
  have hc : csvThread fs (reps.flatMap repMsgs ++ [(.quit, q)]) =
      (csvLoop { counter := 0, writers := [], files := fs } (reps.flatMap repMsgs ++ [(.quit, q)])).files := by
    cases reps with
    | nil => simp at hr
    | cons rep0 reps =>
      rw [List.flatMap_cons]
      unfold repMsgs
      rw [List.cons_append, List.cons_append, csvThread, if_neg (by simp), csvLoop_init]
  rw [hc]
  have := (csvLoop_reps reps hn q { counter := 0, writers := [], files := fs }).2 r rep hr n hnm
  dsimp only at this
  rw [Nat.zero_add] at this
  rw [this]
  congr 3
  apply List.filter_congr
  intro p hp
  by_cases he : p.1.1 = n.1
  · rw [decide_eq_true he, decide_eq_true (by rw [he])]
  · rw [decide_eq_false he, decide_eq_false (fun h => he (hd p hp h))]

/-- C70, false as stated: a point plotted in `init` of the first repetition is lost. -/
theorem C70_first_negation_partial :
    csvThread (fun _ _ => none) [(.point "p" "s" "0" "5", [("p", "x", "y")]), (.init, [("p", "x", "y")]),
      (.point "p" "s" "1" "6", [("p", "x", "y")]), (.endOfSimulation, []), (.quit, [])] "p" 0 =
      some [("series", "x", "y"), ("s", "1", "6")] := by
  decide +kernel

/-- C70, false as stated: a point plotted in `init` of the second repetition is written to the file of the first. -/
theorem C70_second_negation_partial :
    csvThread (fun _ _ => none) [(.init, [("p", "x", "y")]), (.endOfSimulation, []),
      (.point "p" "s" "0" "5", [("p", "x", "y")]), (.init, [("p", "x", "y")]), (.endOfSimulation, []), (.quit, [])] "p" 0 =
      some [("series", "x", "y"), ("s", "0", "5")] ∧
    csvThread (fun _ _ => none) [(.init, [("p", "x", "y")]), (.endOfSimulation, []),
      (.point "p" "s" "0" "5", [("p", "x", "y")]), (.init, [("p", "x", "y")]), (.endOfSimulation, []), (.quit, [])] "p" 1 =
      some [("series", "x", "y")] := by
  decide +kernel

/-- C70, false as stated: a plot added during the steps has no file. -/
theorem C70_late_negation_partial :
    csvThread (fun _ _ => none) [(.init, []), (.point "p" "s" "0" "5", [("p", "x", "y")]), (.endOfSimulation, []), (.quit, [])]
      "p" 0 = none := by
  decide +kernel

/-- C70, false as stated: the points of plot `a-b` are written to the file of plot `a/b`. -/
theorem C70_names_negation_partial :
    csvThread (fun _ _ => none) [(.init, [("a/b", "x", "y")]), (.point "a-b" "s" "0" "5", []), (.endOfSimulation, []), (.quit, [])]
      (sanitize "a/b") 0 = some [("series", "x", "y"), ("s", "0", "5")] := by
  decide +kernel

/-- Two repetitions of two plots. -/
example : csvThread (fun _ _ => none) ([([("p", "x", "y"), ("q/r", "u", "v")],
      [(("p", "s", "1", "2"), []), (("q/r", "t", "3", "4"), []), (("p", "t", "5", "6"), [])], []),
      ([("p", "x", "y")], [(("p", "s", "7", "8"), [])], [])].flatMap repMsgs ++ [(.quit, [])]) "p" 1 =
      some [("series", "x", "y"), ("s", "7", "8")] ∧
    csvThread (fun _ _ => none) ([([("p", "x", "y"), ("q/r", "u", "v")],
      [(("p", "s", "1", "2"), []), (("q/r", "t", "3", "4"), []), (("p", "t", "5", "6"), [])], []),
      ([("p", "x", "y")], [(("p", "s", "7", "8"), [])], [])].flatMap repMsgs ++ [(.quit, [])]) "p" 0 =
      some [("series", "x", "y"), ("s", "1", "2"), ("t", "5", "6")] := by
  decide +kernel

/-! ### C71 -/

/-- C71: after any events (newest first) the logs, one repetition after the other, are all logs, the newest first, followed by what
was there before; no log is lost. -/
theorem C71_order {L : Type} (logs : List (List L)) (h : List (LogEvent L)) :
    (h.foldr (fun e l => logStep l e) logs).flatten = allLogs h ++ logs.flatten :=
  logs_flatten logs h

/-- C71: the first list is that of the current repetition; behind it are the lists as they were when it started, unchanged. -/
theorem C71_current {L : Type} (logs : List (List L)) (cur prev : List (LogEvent L)) (hc : LogEvent.newRep ∉ cur) :
    ((cur ++ .newRep :: prev).foldr (fun e l => logStep l e) logs) =
      currentLogs (cur ++ .newRep :: prev) :: prev.foldr (fun e l => logStep l e) logs := by
  induction cur with
  | nil => rfl
  | cons e cur ih =>
    rw [List.cons_append, List.foldr_cons, ih (fun h => hc (List.mem_cons_of_mem _ h))]
    cases e with
    | log l => rfl
    | newRep => exact absurd List.mem_cons_self hc

/-- C71: the log file holds the logs marked to be stored, in that order. -/
theorem C71_file {L : Type} (stored : L → Bool) (h : List (LogEvent L)) :
    storedLogs stored (h.foldr (fun e l => logStep l e) []) = (allLogs h).filter stored := by
  unfold storedLogs
  rw [logs_flatten, List.flatten_nil, List.append_nil]

example : ([.log 5, .log 4, .newRep, .log 3, .newRep, .log 2, .log 1] : List (LogEvent Nat)).foldr (fun e l => logStep l e) [] =
    [[5, 4], [3], [2, 1]] := by decide

/-! ### C72 -/

/-- What holds of the interface at any time: there is a tab and the selected one exists; the selected log exists; at most 101
samples. -/
structure UIOk (u : UI) : Prop where
  index_lt : u.index < u.titles.length
  logs_pos : 0 < u.totLogs
  selected_lt : ∀ i, u.selected = some i → i < u.totLogs
  processor_le : u.processor.length ≤ 101
  memory_le : u.memory.length ≤ 101
  rep_lt : u.rep < u.totReps

/-- An event that can happen at this state: logs are never removed, and the repetitions reported exist. -/
def Possible (u : UI) : UIEvent → Prop
  | .draw _ n => u.totLogs ≤ n
  | .rep r _ => r < u.totReps
  | _ => True

theorem step_ok {u : UI} (ok : UIOk u) {e : UIEvent} (hp : Possible u e) : ∃ u', u.step e = some u' ∧ UIOk u' := by
  obtain ⟨h1, h2, h3, h4, h5, h6⟩ := ok
  cases e with
  | up =>
    unfold UI.step UI.up
    dsimp only
    split
    · rw [if_neg (by omega)]
      exact ⟨_, rfl, h1, h2, by intro i hi; injection hi with hi; show i < u.totLogs; omega, h4, h5, h6⟩
    · rename_i i hs
      have := h3 _ hs
      exact ⟨_, rfl, h1, h2, by intro j hj; injection hj with hj; show j < u.totLogs; omega, h4, h5, h6⟩
    · exact ⟨_, rfl, h1, h2, by intro i hi; injection hi with hi; show i < u.totLogs; omega, h4, h5, h6⟩
  | down =>
    unfold UI.step UI.down
    dsimp only
    split
    · rename_i i hs
      rw [if_neg (by omega)]
      split
      · exact ⟨_, rfl, h1, h2, by intro i hi; injection hi with hi; show i < u.totLogs; omega, h4, h5, h6⟩
      · exact ⟨_, rfl, h1, h2, by intro i hi; injection hi with hi; show i < u.totLogs; omega, h4, h5, h6⟩
    · exact ⟨_, rfl, h1, h2, by intro i hi; injection hi with hi; show i < u.totLogs; omega, h4, h5, h6⟩
  | left =>
    unfold UI.step UI.left
    dsimp only
    split
    · exact ⟨_, rfl, by show u.index - 1 < u.titles.length; omega, h2, h3, h4, h5, h6⟩
    · rw [if_neg (by omega)]
      exact ⟨_, rfl, by show u.titles.length - 1 < u.titles.length; omega, h2, h3, h4, h5, h6⟩
  | right =>
    unfold UI.step UI.right
    dsimp only
    rw [if_neg (by omega)]
    exact ⟨_, rfl, Nat.mod_lt _ (by omega), h2, h3, h4, h5, h6⟩
  | key c =>
    refine ⟨_, rfl, ?_⟩
    unfold UI.key
    split
    · exact ⟨h1, h2, h3, h4, h5, h6⟩
    · split
      · exact ⟨h1, h2, h3, h4, h5, h6⟩
      · split <;> exact ⟨h1, h2, h3, h4, h5, h6⟩
  | tick a b => exact ⟨_, rfl, h1, h2, h3, pushBounded_length _ _ h4, pushBounded_length _ _ h5, h6⟩
  | rep r s => exact ⟨_, rfl, h1, h2, h3, h4, h5, hp⟩
  | draw ps n =>
    unfold UI.step UI.draw
    dsimp only
    have hp : u.totLogs ≤ n := hp
    obtain ⟨more, hm, _⟩ := addTitles_spec ps u.titles
    rw [hm]
    have hl : u.index < (u.titles ++ more).length := by rw [List.length_append]; omega
    split
    · rw [if_neg (by omega)]
      exact ⟨_, rfl, hl, by show 0 < n; omega, by intro i hi; have := h3 i hi; show i < n; omega, h4, h5, h6⟩
    · exact ⟨_, rfl, hl, h2, h3, h4, h5, h6⟩

/-- C72. Full statement: whatever keys are pressed, the selected tab and log exist, nothing panics, and at most 101 samples are
kept. Proved from the first time the interface has counted a log on: for every further sequence of keys, ticks, repetitions and
drawings in which logs are not removed. Missing: before that, see `C72_negation_partial`. -/
theorem C72_keys_partial (u : UI) (ok : UIOk u) : ∀ (es : List UIEvent),
    (∀ pre e post u', es = pre ++ e :: post → u.run pre = some u' → Possible u' e) → ∃ u', u.run es = some u' ∧ UIOk u' := by
  intro es
  induction es generalizing u with
  | nil => intro _; exact ⟨u, rfl, ok⟩
  | cons e es ih =>
    intro hp
    obtain ⟨u1, h1, ok1⟩ := step_ok ok (hp [] e es u rfl rfl)
    rw [UI.run, h1, Option.bind_some]
    apply ih u1 ok1
    intro pre e' post u' he hr
    refine hp (e :: pre) e' post u' (by rw [he]; rfl) ?_
    rw [UI.run, h1, Option.bind_some]
    exact hr

/-- C72: the first drawing with a log leads to such a state. -/
theorem C72_start_partial {totReps logs : Nat} (hr : 0 < totReps) (hl : 0 < logs) (plots : List String) :
    ∃ u, (UI.new totReps).draw plots logs = some u ∧ UIOk u := by
  obtain ⟨more, hm, _⟩ := addTitles_spec plots ["Home"]
  unfold UI.draw UI.new
  dsimp only
  rw [if_pos rfl, if_neg (by omega), hm]
  refine ⟨_, rfl, ?_, hl, ?_, Nat.zero_le _, Nat.zero_le _, hr⟩
  · show 0 < (["Home"] ++ more).length
    rw [List.length_append]; simp
  · intro i hi; cases hi

/-- C72, false as stated: before the first log, Up twice (or Up, Down) panics. -/
theorem C72_negation_partial :
    (UI.new 1).run [.draw [] 0, .up, .draw [] 0, .up] = none ∧ (UI.new 1).run [.draw [] 0, .up, .draw [] 0, .down] = none := by
  decide +kernel

/-- C72: right then left returns to the same tab. -/
theorem C72_right_left_partial {u : UI} (h : u.index < u.titles.length) : (u.right).bind UI.left = some u := by
  unfold UI.right
  rw [if_neg (by omega), Option.bind_some]
  unfold UI.left
  dsimp only
  by_cases hw : u.index + 1 = u.titles.length
  · rw [hw, Nat.mod_self, if_neg (by omega), if_neg (by omega), show u.titles.length - 1 = u.index by omega]
  · rw [Nat.mod_eq_of_lt (by omega), if_pos (by omega), Nat.add_sub_cancel]

/-- C72: left then right, too. -/
theorem C72_left_right_partial {u : UI} (h : u.index < u.titles.length) : (u.left).bind UI.right = some u := by
  unfold UI.left
  split
  · rw [Option.bind_some]
    unfold UI.right
    dsimp only
    rw [if_neg (by omega), show u.index - 1 + 1 = u.index by omega, Nat.mod_eq_of_lt h]
  · rw [if_neg (by omega), Option.bind_some]
    unfold UI.right
    dsimp only
    rw [if_neg (by omega), show u.titles.length - 1 + 1 = u.titles.length by omega, Nat.mod_self,
      show 0 = u.index by omega]

/-- C72, false as stated: a plot that appears between the two keys takes the place of the tab. -/
theorem C72_tab_negation_partial :
    ((UI.new 1).run [.draw [] 1, .right, .draw ["p"] 1, .left]).map (fun u => u.titles[u.index]?) = some (some "p") ∧
      (UI.new 1).titles[(UI.new 1).index]? = some "Home" := by
  decide +kernel

/-- The events of the example. -/
def exEvents : List UIEvent := [.draw ["a", "b"] 2, .up, .up, .down, .left, .tick 1 2, .rep 1 500, .key 'c', .draw ["a", "c"] 3,
  .right]

example : ((UI.new 3).run exEvents).map (fun u => (u.titles, u.index, u.selected)) =
    some (["Home", "a", "b", "c"], 3, some 0) := by
  decide +kernel

example : ((UI.new 3).run exEvents).map (fun u => (u.totLogs, u.showChart, u.processor)) = some (2, false, [(1, 1)]) := by
  decide +kernel

/-! ### C100 -/

theorem tick_samples (vs : List (Rat × Rat)) : ∀ (u : UI) (k : Nat),
    u.processor.map Prod.fst = List.range' (k - 101 + 1) (min k 101) → u.window = k - 101 →
    u.memory.map Prod.fst = List.range' (k - 101 + 1) (min k 101) →
    (vs.foldl (fun u v => u.tick v.1 v.2) u).processor.map Prod.fst =
        List.range' (k + vs.length - 101 + 1) (min (k + vs.length) 101) ∧
      (vs.foldl (fun u v => u.tick v.1 v.2) u).window = k + vs.length - 101 ∧
      (vs.foldl (fun u v => u.tick v.1 v.2) u).memory.map Prod.fst =
        List.range' (k + vs.length - 101 + 1) (min (k + vs.length) 101) := by
  induction vs with
  | nil => intro u k h1 h2 h3; exact ⟨h1, h2, h3⟩
  | cons v vs ih =>
    intro u k h1 h2 h3
    have hl : u.processor.length = min k 101 := by
      have := congrArg List.length h1
      rwa [List.length_map, List.length_range'] at this
    have hl' : u.memory.length = min k 101 := by
      have := congrArg List.length h3
      rwa [List.length_map, List.length_range'] at this
    have hpos : lastPosition u.processor = k := by
      unfold lastPosition
      rw [← List.getLast?_map]
      by_cases hk : u.processor.length > 100
      · rw [if_pos hk, List.map_tail, h1]
        rw [show min k 101 = 100 + 1 by omega, List.range'_succ, List.tail_cons, List.range'_concat, List.getLast?_append]
        simp
        omega
      · rw [if_neg hk, h1]
        cases k with
        | zero => rfl
        | succ k =>
          rw [show min (k + 1) 101 = k + 1 by omega, List.range'_concat, List.getLast?_append]
          simp
          omega
    have push : ∀ (l : List (Nat × Rat)) (a : Rat), l.length = min k 101 → l.map Prod.fst = List.range' (k - 101 + 1) (min k 101) →
        (pushBounded l (k + 1, a)).map Prod.fst = List.range' (k + 1 - 101 + 1) (min (k + 1) 101) := by
      intro l a hlen hm
      unfold pushBounded
      by_cases hk : l.length > 100
      · rw [if_pos hk, List.map_append, List.map_tail, hm, show min k 101 = 100 + 1 by omega, List.range'_succ, List.tail_cons,
          show min (k + 1) 101 = 100 + 1 by omega, List.range'_concat (n := 100), show k - 101 + 1 + 1 = k + 1 - 101 + 1 by omega]
        congr 1
        simp
        omega
      · rw [if_neg hk, List.map_append, hm, show min k 101 = k by omega, show min (k + 1) 101 = k + 1 by omega,
          List.range'_concat, show k + 1 - 101 + 1 = k - 101 + 1 by omega]
        congr 1
        simp
        omega
    rw [List.foldl_cons]
    have := ih (u.tick v.1 v.2) (k + 1) (by
        show (pushBounded u.processor (lastPosition u.processor + 1, v.1)).map Prod.fst = _
        rw [hpos]
        exact push _ _ hl h1) (by
        show (if u.processor.length > 100 then u.window + 1 else u.window) = _
        split <;> omega) (by
        show (pushBounded u.memory (lastPosition u.processor + 1, v.2)).map Prod.fst = _
        rw [hpos]
        exact push _ _ hl' h3)
    rw [List.length_cons, show k + (vs.length + 1) = k + 1 + vs.length by omega]
    exact this

/-- C100. Full statement: the chart of processor and memory shows the newest samples. What holds: after any number of ticks it holds the
samples of the last 101, at consecutive positions, and all but the last lie in the window. Missing: see `C100_negation_partial`. -/
theorem C100_samples_partial (totReps : Nat) (vs : List (Rat × Rat)) :
    (vs.foldl (fun u v => u.tick v.1 v.2) (UI.new totReps)).processor.map Prod.fst =
        List.range' (vs.length - 101 + 1) (min vs.length 101) ∧
      (vs.foldl (fun u v => u.tick v.1 v.2) (UI.new totReps)).window = vs.length - 101 ∧
      (vs.foldl (fun u v => u.tick v.1 v.2) (UI.new totReps)).memory.map Prod.fst =
        List.range' (vs.length - 101 + 1) (min vs.length 101) := by
  have := tick_samples vs (UI.new totReps) 0 rfl rfl rfl
  rw [Nat.zero_add] at this
  exact this

/-- C100, false as stated: from the 101st sample on the newest sample is at a position beyond the window, which ends at
`window + 100`. -/
theorem C100_negation_partial (totReps : Nat) {vs : List (Rat × Rat)} (h : 101 ≤ vs.length) :
    ∃ p ∈ (vs.foldl (fun u v => u.tick v.1 v.2) (UI.new totReps)).processor,
      (vs.foldl (fun u v => u.tick v.1 v.2) (UI.new totReps)).window + 100 < p.1 := by
  obtain ⟨h1, h2, _⟩ := C100_samples_partial totReps vs
  have hm : vs.length ∈ (vs.foldl (fun u v => u.tick v.1 v.2) (UI.new totReps)).processor.map Prod.fst := by
    rw [h1, List.mem_range'_1]
    omega
  obtain ⟨p, hp, he⟩ := List.mem_map.1 hm
  exact ⟨p, hp, by omega⟩

/-- C100: up to 100 samples all are in the window. -/
theorem C100_few_partial (totReps : Nat) {vs : List (Rat × Rat)} (h : vs.length ≤ 100) :
    ∀ p ∈ (vs.foldl (fun u v => u.tick v.1 v.2) (UI.new totReps)).processor,
      (vs.foldl (fun u v => u.tick v.1 v.2) (UI.new totReps)).window ≤ p.1 ∧
      p.1 ≤ (vs.foldl (fun u v => u.tick v.1 v.2) (UI.new totReps)).window + 100 := by
  obtain ⟨h1, h2, _⟩ := C100_samples_partial totReps vs
  intro p hp
  have hm : p.1 ∈ (vs.foldl (fun u v => u.tick v.1 v.2) (UI.new totReps)).processor.map Prod.fst := List.mem_map.2 ⟨p, hp, rfl⟩
  rw [h1, List.mem_range'_1] at hm
  omega

/-! ### C101 -/

/-- C101. Full statement: the interface can be drawn at any time. Proved for at least one repetition: for every sequence of events in
which the repetitions reported exist, drawing succeeds. Missing: see `C101_negation_partial`. -/
theorem C101_draw_partial {u : UI} (h : u.rep < u.totReps) (plots : List String) (logs : Nat) :
    ∃ u', u.draw plots logs = some u' ∧ ∀ p ∈ plots, p ∈ u'.titles := by
  obtain ⟨more, hm, _, h3⟩ := addTitles_spec plots u.titles
  unfold UI.draw
  rw [hm]
  split
  · rw [if_neg (by omega)]
    exact ⟨_, rfl, h3⟩
  · exact ⟨_, rfl, h3⟩

/-- C101, false as stated: `simulate!(state, steps, 0)` draws a gauge with an infinite ratio, whatever the plots and logs. -/
theorem C101_negation_partial (plots : List String) (logs : Nat) : (UI.new 0).draw plots logs = none := rfl

/-! ### C137 -/

theorem run_append (es fs : List UIEvent) : ∀ u : UI, u.run (es ++ fs) = (u.run es).bind (fun u => u.run fs) := by
  induction es with
  | nil => intro u; rfl
  | cons e es ih =>
    intro u
    rw [List.cons_append, UI.run, UI.run]
    cases u.step e with
    | none => rfl
    | some u1 => exact ih u1

/-- What a step does to the switches and to the repetitions. -/
theorem step_switches {u u' : UI} {e : UIEvent} (h : u.step e = some u') :
    u'.shouldQuit = (u.shouldQuit || isKey ['q', 'Q'] e) ∧ u'.showChart = (u.showChart ^^ isKey ['c', 'C'] e) ∧
    u'.showDescription = (u.showDescription ^^ isKey ['s', 'S'] e) ∧
    u'.reps = ((reported [e]).map (fun r => (r.1 + 1, r.2))).reverse ++ u.reps ∧
    u'.rep = ((reported [e]).getLast?.map Prod.fst).getD u.rep := by
  cases e with
  | key c =>
    obtain rfl := Option.some.inj h
    unfold UI.key isKey
    by_cases hq : c = 'q' ∨ c = 'Q'
    · rw [if_pos hq]
      rcases hq with rfl | rfl <;> simp [reported]
    · rw [if_neg hq]
      by_cases hc : c = 'c' ∨ c = 'C'
      · rw [if_pos hc]
        rcases hc with rfl | rfl <;> simp [reported]
      · rw [if_neg hc]
        by_cases hs : c = 's' ∨ c = 'S'
        · rw [if_pos hs]
          rcases hs with rfl | rfl <;> simp [reported]
        · rw [if_neg hs]
          rw [not_or] at hq hc hs
          simp [reported, hq.1, hq.2, hc.1, hc.2, hs.1, hs.2]
  | tick a b => obtain rfl := Option.some.inj h; simp [UI.tick, isKey, reported]
  | rep r s => obtain rfl := Option.some.inj h; simp [UI.onRep, isKey, reported]
  | up =>
    unfold UI.step UI.up at h
    dsimp only at h
    split at h
    · split at h
      · cases h
      · obtain rfl := Option.some.inj h; simp [isKey, reported]
    · obtain rfl := Option.some.inj h; simp [isKey, reported]
    · obtain rfl := Option.some.inj h; simp [isKey, reported]
  | down =>
    unfold UI.step UI.down at h
    dsimp only at h
    split at h
    · split at h
      · cases h
      · split at h <;> (obtain rfl := Option.some.inj h; simp [isKey, reported])
    · obtain rfl := Option.some.inj h; simp [isKey, reported]
  | left =>
    unfold UI.step UI.left at h
    dsimp only at h
    split at h
    · obtain rfl := Option.some.inj h; simp [isKey, reported]
    · split at h
      · cases h
      · obtain rfl := Option.some.inj h; simp [isKey, reported]
  | right =>
    unfold UI.step UI.right at h
    dsimp only at h
    split at h
    · cases h
    · obtain rfl := Option.some.inj h; simp [isKey, reported]
  | draw ps n =>
    unfold UI.step UI.draw at h
    dsimp only at h
    split at h
    · split at h
      · cases h
      · obtain rfl := Option.some.inj h; simp [isKey, reported]
    · obtain rfl := Option.some.inj h; simp [isKey, reported]

/-- C137 (switches). After any events that do not panic: the interface quits exactly if Q was pressed, in either case; the charts
are shown exactly if C was pressed an even number of times, the description if S was pressed an odd number of times. -/
theorem C137_switches (totReps : Nat) (es : List UIEvent) {u : UI} (h : (UI.new totReps).run es = some u) :
    u.shouldQuit = decide (0 < presses ['q', 'Q'] es) ∧ u.showChart = decide (presses ['c', 'C'] es % 2 = 0) ∧
      u.showDescription = decide (presses ['s', 'S'] es % 2 = 1) := by
  have key : ∀ (es : List UIEvent) (u0 u : UI), u0.run es = some u →
      u.shouldQuit = (u0.shouldQuit || decide (0 < presses ['q', 'Q'] es)) ∧
      u.showChart = (u0.showChart ^^ decide (presses ['c', 'C'] es % 2 = 1)) ∧
      u.showDescription = (u0.showDescription ^^ decide (presses ['s', 'S'] es % 2 = 1)) := by
    intro es
    induction es with
    | nil => intro u0 u h; obtain rfl := Option.some.inj h; simp [presses]
    | cons e es ih =>
      intro u0 u h
      rw [UI.run] at h
      cases h1 : u0.step e with
      | none => rw [h1] at h; cases h
      | some u1 =>
        rw [h1, Option.bind_some] at h
        obtain ⟨a1, a2, a3⟩ := ih u1 u h
        obtain ⟨b1, b2, b3, _, _⟩ := step_switches h1
        rw [a1, a2, a3, b1, b2, b3]
        have parity : ∀ (b : Bool) (n : Nat), (b ^^ decide (n % 2 = 1)) = decide ((n + if b = true then 1 else 0) % 2 = 1) := by
          intro b n
          cases b
          · simp
          · rw [if_pos rfl]
            rcases Nat.mod_two_eq_zero_or_one n with h0 | h0
            · have h2 : (n + 1) % 2 = 1 := by omega
              rw [h0, h2]; rfl
            · have h2 : (n + 1) % 2 = 0 := by omega
              rw [h0, h2]; rfl
        unfold presses
        rw [List.countP_cons, List.countP_cons, List.countP_cons]
        refine ⟨?_, ?_, ?_⟩
        · rw [Bool.or_assoc]
          congr 1
          cases isKey ['q', 'Q'] e <;> simp
        · rw [Bool.xor_assoc, parity]
        · rw [Bool.xor_assoc, parity]
  obtain ⟨h1, h2, h3⟩ := key es _ u h
  refine ⟨?_, ?_, ?_⟩
  · rw [h1]; simp [UI.new]
  · rw [h2]
    show (true ^^ _) = _
    rcases Nat.mod_two_eq_zero_or_one (presses ['c', 'C'] es) with h0 | h0 <;> rw [h0] <;> rfl
  · rw [h3]; simp [UI.new]

/-- C137 (repetitions). The table of the repetitions holds those reported, the newest first, numbered from one; the current one is
the last reported. -/
theorem C137_repetitions (totReps : Nat) (es : List UIEvent) {u : UI} (h : (UI.new totReps).run es = some u) :
    u.reps = ((reported es).map (fun r => (r.1 + 1, r.2))).reverse ∧
      u.rep = ((reported es).getLast?.map Prod.fst).getD 0 := by
  have key : ∀ (es : List UIEvent) (u0 u : UI), u0.run es = some u →
      u.reps = ((reported es).map (fun r => (r.1 + 1, r.2))).reverse ++ u0.reps ∧
      u.rep = ((reported es).getLast?.map Prod.fst).getD u0.rep := by
    intro es
    induction es with
    | nil => intro u0 u h; obtain rfl := Option.some.inj h; simp [reported]
    | cons e es ih =>
      intro u0 u h
      rw [UI.run] at h
      cases h1 : u0.step e with
      | none => rw [h1] at h; cases h
      | some u1 =>
        rw [h1, Option.bind_some] at h
        obtain ⟨a1, a2⟩ := ih u1 u h
        obtain ⟨_, _, _, b1, b2⟩ := step_switches h1
        have e1 : reported (e :: es) = reported [e] ++ reported es := by
          unfold reported
          rw [← List.filterMap_append]; rfl
        rw [a1, a2, b1, b2, e1]
        refine ⟨by simp, ?_⟩
        cases hr : reported es using List.reverseRecOn with
        | nil => simp
        | append_singleton l x => simp
  obtain ⟨h1, h2⟩ := key es _ u h
  exact ⟨by rw [h1]; simp [UI.new], h2⟩

/-- C137 (the selected log). While the number of logs on the screen, which drawing brings up to date, is the same: Up and Down
move the selection by one, from the last to the first and back, and nothing else moves it. -/
theorem C137_selection (es : List UIEvent) (hd : ∀ ps n, UIEvent.draw ps n ∉ es) {u u' : UI} {i : Nat}
    (hs : u.selected = some i) (hi : i < u.totLogs) (h : u.run es = some u') :
    u'.totLogs = u.totLogs ∧ u'.selected = some (((i : Int) + moves es) % u.totLogs).toNat := by
  induction es generalizing u i with
  | nil =>
    obtain rfl := Option.some.inj h
    refine ⟨rfl, ?_⟩
    rw [hs]
    unfold moves
    rw [List.count_nil, List.count_nil]
    have : ((i : Int) + (((0 : Nat) : Int) - ((0 : Nat) : Int))) % (u.totLogs : Int) = i := by
      rw [Int.sub_self, Int.add_zero]
      exact Int.emod_eq_of_lt (by omega) (by omega)
    rw [this]; rfl
  | cons e es ih =>
    rw [UI.run] at h
    cases h1 : u.step e with
    | none => rw [h1] at h; cases h
    | some u1 =>
      rw [h1, Option.bind_some] at h
      have hd' : ∀ ps n, UIEvent.draw ps n ∉ es := fun ps n hm => hd ps n (List.mem_cons_of_mem _ hm)
      have hn : (0 : Int) < u.totLogs := by omega
      have other : u1.selected = u.selected → u1.totLogs = u.totLogs → e ≠ .up → e ≠ .down →
          u'.totLogs = u.totLogs ∧ u'.selected = some (((i : Int) + moves (e :: es)) % u.totLogs).toNat := by
        intro a1 a2 h2 h3
        obtain ⟨c1, c2⟩ := ih hd' (u := u1) (i := i) (by rw [a1, hs]) (by rw [a2]; exact hi) h
        refine ⟨c1.trans a2, ?_⟩
        rw [c2, a2]
        unfold moves
        rw [List.count_cons_of_ne (by simpa using h3), List.count_cons_of_ne (by simpa using h2)]
      cases e with
      | up =>
        have a : u1.totLogs = u.totLogs ∧ u1.selected = some (((i : Int) - 1) % u.totLogs).toNat := by
          unfold UI.step UI.up at h1
          dsimp only at h1
          rw [hs] at h1
          cases i with
          | zero =>
            rw [if_neg (by omega)] at h1
            obtain rfl := Option.some.inj h1
            refine ⟨rfl, ?_⟩
            have : (((0 : Nat) : Int) - 1) % (u.totLogs : Int) = (u.totLogs : Int) - 1 := by
              rw [← Int.add_emod_right]
              rw [Int.emod_eq_of_lt (by omega) (by omega)]
              omega
            rw [this]
            show some (u.totLogs - 1) = _
            congr 1; omega
          | succ i =>
            obtain rfl := Option.some.inj h1
            refine ⟨rfl, ?_⟩
            rw [Int.emod_eq_of_lt (by omega) (by omega)]
            show some i = _
            congr 1; omega
        obtain ⟨a1, a2⟩ := a
        have l1 := Int.emod_nonneg ((i : Int) - 1) (Int.ne_of_gt hn)
        have l2 := Int.emod_lt_of_pos ((i : Int) - 1) hn
        obtain ⟨c1, c2⟩ := ih hd' (u := u1) a2 (by rw [a1]; omega) h
        refine ⟨c1.trans a1, ?_⟩
        rw [c2, a1, Int.toNat_of_nonneg l1, Int.emod_add_emod]
        unfold moves
        rw [List.count_cons_of_ne (by simp), List.count_cons_self]
        congr 3
        push_cast
        ring
      | down =>
        have a : u1.totLogs = u.totLogs ∧ u1.selected = some (((i : Int) + 1) % u.totLogs).toNat := by
          unfold UI.step UI.down at h1
          dsimp only at h1
          rw [hs] at h1
          dsimp only at h1
          rw [if_neg (by omega)] at h1
          split at h1
          · obtain rfl := Option.some.inj h1
            refine ⟨rfl, ?_⟩
            have : (i : Int) + 1 = u.totLogs := by omega
            rw [this, Int.emod_self]; rfl
          · obtain rfl := Option.some.inj h1
            refine ⟨rfl, ?_⟩
            rw [Int.emod_eq_of_lt (by omega) (by omega)]
            show some (i + 1) = _
            congr 1
        obtain ⟨a1, a2⟩ := a
        have l1 := Int.emod_nonneg ((i : Int) + 1) (Int.ne_of_gt hn)
        have l2 := Int.emod_lt_of_pos ((i : Int) + 1) hn
        obtain ⟨c1, c2⟩ := ih hd' (u := u1) a2 (by rw [a1]; omega) h
        refine ⟨c1.trans a1, ?_⟩
        rw [c2, a1, Int.toNat_of_nonneg l1, Int.emod_add_emod]
        unfold moves
        rw [List.count_cons_self, List.count_cons_of_ne (by simp)]
        congr 3
        push_cast
        ring
      | left =>
        unfold UI.step UI.left at h1
        dsimp only at h1
        split at h1
        · obtain rfl := Option.some.inj h1; exact other rfl rfl (by simp) (by simp)
        · split at h1
          · cases h1
          · obtain rfl := Option.some.inj h1; exact other rfl rfl (by simp) (by simp)
      | right =>
        unfold UI.step UI.right at h1
        dsimp only at h1
        split at h1
        · cases h1
        · obtain rfl := Option.some.inj h1; exact other rfl rfl (by simp) (by simp)
      | key c =>
        obtain rfl := Option.some.inj h1
        unfold UI.key at other
        refine other ?_ ?_ (by simp) (by simp)
        · split
          · rfl
          · split
            · rfl
            · split <;> rfl
        · split
          · rfl
          · split
            · rfl
            · split <;> rfl
      | tick a b => obtain rfl := Option.some.inj h1; exact other rfl rfl (by simp) (by simp)
      | rep r s => obtain rfl := Option.some.inj h1; exact other rfl rfl (by simp) (by simp)
      | draw ps n => exact absurd List.mem_cons_self (hd ps n)

/-- C137 (the first log). Without selection both keys select the first log. -/
theorem C137_first {u : UI} (hs : u.selected = none) :
    u.up = some { u with selected := some 0 } ∧ u.down = some { u with selected := some 0 } := by
  unfold UI.up UI.down
  rw [hs]
  exact ⟨rfl, rfl⟩

example : ((UI.new 3).run [.key 'c', .draw [] 4, .up, .up, .up, .rep 0 70, .down, .key 'C', .key 'Q', .down, .rep 1 90, .key 's']).map
      (fun u => ([u.shouldQuit, u.showChart, u.showDescription], u.selected, u.reps, u.rep)) =
    some ([true, true, true], some 0, [(2, 90), (1, 70)], 1) := by decide +kernel

/-! ### The names of the csv files -/

/-- C70 (the names). A csv file is made for a plot exactly if some call that added it asked for one; no name and labels twice. -/
theorem C70_names_partial {sender : Bool} {h : List Call} {m : Mon} (hm : execAll (Mon.empty sender) h = some m) :
    m.names.Nodup ∧ ∀ n x y, (n, x, y) ∈ m.names ↔
      ∃ post s pre, h = post ++ Call.add n x y s true :: pre ∧ known n pre = false := by
  induction h generalizing m with
  | nil =>
    obtain rfl := Option.some.inj hm
    refine ⟨List.nodup_nil, fun n x y => ⟨fun h => (nomatch h), ?_⟩⟩
    rintro ⟨post, s, pre, h, _⟩
    cases post <;> cases h
  | cons c h ih =>
    rw [execAll] at hm
    cases h1 : execAll (Mon.empty sender) h with
    | none => rw [h1] at hm; cases hm
    | some m1 =>
      rw [h1, Option.bind_some] at hm
      obtain ⟨i1, i2⟩ := ih h1
      have hk := fun name => (C69_points_partial h1).2 name
      have same : m.names = m1.names → (∀ n x y s, c = Call.add n x y s true → known n h = true) →
          m.names.Nodup ∧ ∀ n x y, (n, x, y) ∈ m.names ↔
            ∃ post s pre, c :: h = post ++ Call.add n x y s true :: pre ∧ known n pre = false := by
        intro e1 e2
        rw [e1]
        refine ⟨i1, fun n x y => (i2 n x y).trans ⟨?_, ?_⟩⟩
        · rintro ⟨post, s, pre, rfl, hn⟩
          exact ⟨c :: post, s, pre, rfl, hn⟩
        · rintro ⟨post, s, pre, hh, hn⟩
          cases post with
          | nil =>
            obtain ⟨rfl, rfl⟩ := List.cons.inj hh
            rw [e2 n x y s rfl] at hn
            cases hn
          | cons p post =>
            obtain ⟨rfl, rfl⟩ := List.cons.inj hh
            exact ⟨post, s, pre, rfl, hn⟩
      cases c with
      | clear => obtain rfl := Option.some.inj hm; exact same rfl (by intro _ _ _ _ h; cases h)
      | point n s x y b =>
        refine same ?_ (by intro _ _ _ _ h; cases h)
        have hm : plot m1 n s x y b = some m := hm
        unfold plot at hm
        split at hm
        · split at hm
          · split at hm
            · obtain rfl := Option.some.inj hm; rfl
            · cases hm
          · obtain rfl := Option.some.inj hm; rfl
        · obtain rfl := Option.some.inj hm; rfl
      | add n x y s b =>
        obtain rfl := Option.some.inj hm
        by_cases hkn : known n h = true
        · obtain ⟨p, hp, _⟩ := (hk n).2 hkn
          refine same ?_ ?_
          · unfold addplot
            rw [hp]; rfl
          · intro n' x' y' s' he
            injection he with h1 h2 h3 h4 h5
            rw [← h1]; exact hkn
        · have hkf : known n h = false := by simpa using hkn
          have hp := (hk n).1 hkf
          cases b with
          | false =>
            refine same ?_ (by intro _ _ _ _ h; cases h)
            unfold addplot
            rw [hp]; rfl
          | true =>
            have en : (addplot m1 n x y s true).names =
                if (n, x, y) ∈ m1.names then m1.names else m1.names ++ [(n, x, y)] := by
              unfold addplot
              rw [hp]; rfl
            rw [en]
            constructor
            · split
              · exact i1
              · rename_i hni
                exact List.nodup_append.2 ⟨i1, List.nodup_singleton _, by
                  intro a ha b hb
                  rw [List.mem_singleton] at hb
                  rintro rfl
                  exact hni (hb ▸ ha)⟩
            · intro n' x' y'
              have mem : (n', x', y') ∈ (if (n, x, y) ∈ m1.names then m1.names else m1.names ++ [(n, x, y)]) ↔
                  (n', x', y') ∈ m1.names ∨ (n', x', y') = (n, x, y) := by
                split
                · rename_i hi
                  constructor
                  · exact Or.inl
                  · rintro (h | h)
                    · exact h
                    · rw [h]; exact hi
                · rw [List.mem_append, List.mem_singleton]
              rw [mem, i2]
              constructor
              · rintro (⟨post, s', pre, rfl, hn⟩ | he)
                · exact ⟨_ :: post, s', pre, rfl, hn⟩
                · injection he with e1 e2
                  injection e2 with e2 e3
                  subst e1 e2 e3
                  exact ⟨[], s, h, rfl, hkf⟩
              · rintro ⟨post, s', pre, hh, hn⟩
                cases post with
                | nil =>
                  obtain ⟨h1, rfl⟩ := List.cons.inj hh
                  injection h1 with e1 e2 e3 e4 e5
                  subst e1 e2 e3
                  exact Or.inr rfl
                | cons p post =>
                  obtain ⟨_, rfl⟩ := List.cons.inj hh
                  exact Or.inl ⟨post, s', pre, rfl, hn⟩

/-- Two plots, one with a file; after clearing it is added again with another label. -/
example : (execAll (Mon.empty true) [.add "a" "x" "z" true true, .clear, .add "b" "x" "y" true false, .add "a" "x" "q" true true,
    .add "a" "x" "y" true true]).map Mon.names = some [("a", "x", "y"), ("a", "x", "z")] := by decide +kernel

end Verif.Monitor
