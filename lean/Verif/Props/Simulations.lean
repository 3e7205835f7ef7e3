import Verif.Model.Simulations
import Verif.Lemmas.Monitor
import Verif.Props.Monitor

/-!
C228: the files of one call of `simulate!` after another one.
-/

namespace Verif.Monitor

open MonitorSpec

/-- Nothing is written to a file that no writer has. -/
theorem writes_untouched (f : String) (r : Nat) (row : CsvRow) : ∀ (ws : List (String × Nat)) (fs : Files),
    (∀ w ∈ ws, w ≠ (f, r)) → ws.foldl (fun fs w => writeRow fs w row) fs f r = fs f r := by
  intro ws
  induction ws with
  | nil => intro fs _; rfl
  | cons w ws ih =>
    intro fs h
    rw [List.foldl_cons, ih _ (fun x hx => h x (List.mem_cons_of_mem _ hx))]
    unfold writeRow
    cases hw : fs w.1 w.2 with
    | none => rfl
    | some rows =>
      dsimp only
      unfold setFile
      rw [if_neg]
      rintro ⟨h1, h2⟩
      exact h w List.mem_cons_self (by rw [h1, h2])

/-- `open_files` leaves the other files. -/
theorem open_untouched (f : String) (r rep : Nat) : ∀ (names : List (String × String × String)) (fs : Files),
    (r ≠ rep ∨ ∀ n ∈ names, sanitize n.1 ≠ f) →
    names.foldl (fun fs n => setFile fs (sanitize n.1) rep [("series", n.2.1, n.2.2)]) fs f r = fs f r := by
  intro names
  induction names with
  | nil => intro fs _; rfl
  | cons n names ih =>
    intro fs h
    rw [List.foldl_cons, ih _ (h.imp id (fun h x hx => h x (List.mem_cons_of_mem _ hx)))]
    unfold setFile
    rw [if_neg]
    rintro ⟨h1, h2⟩
    rcases h with h | h
    · exact h h2
    · exact h n List.mem_cons_self h1.symm

/-- The loop leaves a file of a repetition that has not come, or of a name that is not in the list. -/
theorem loop_untouched (f : String) (r : Nat) : ∀ (ms : List (Msg × List (String × String × String))) (c : Csv),
    (∀ w ∈ c.writers, w ≠ (f, r)) → (∀ w ∈ c.writers, w.2 ≤ c.counter) →
    ((∀ m ∈ ms, ∀ n ∈ m.2, sanitize n.1 ≠ f) ∨
      c.counter + (ms.countP (fun m => decide (m.1 = .endOfSimulation))) < r) →
    (csvLoop c ms).files f r = c.files f r := by
  intro ms
  induction ms with
  | nil => intro c _ _ _; rfl
  | cons m ms ih =>
    intro c hw hc h
    have hcount : (m :: ms).countP (fun m => decide (m.1 = .endOfSimulation)) =
        ms.countP (fun m => decide (m.1 = .endOfSimulation)) + (if m.1 = .endOfSimulation then 1 else 0) := by
      rw [List.countP_cons]
      congr 1
      by_cases he : m.1 = .endOfSimulation <;> simp [he]
    rw [hcount] at h
    have hrest : ∀ P : Prop, (∀ x ∈ m :: ms, ∀ n ∈ x.2, sanitize n.1 ≠ f) ∨ P →
        (∀ x ∈ ms, ∀ n ∈ x.2, sanitize n.1 ≠ f) ∨ P := fun P h => h.imp (fun h x hx => h x (List.mem_cons_of_mem _ hx)) id
    obtain ⟨m1, names⟩ := m
    unfold csvLoop handle
    cases m1 with
    | init =>
      dsimp only at h ⊢
      rw [if_pos rfl, if_neg (by simp), Nat.add_zero] at *
      have hside : r ≠ c.counter ∨ ∀ n ∈ names, sanitize n.1 ≠ f := by
        rcases h with h | h
        · exact Or.inr (fun n hn => h _ List.mem_cons_self n hn)
        · exact Or.inl (by omega)
      rw [ih (openFiles names c.counter c) ?_ ?_ (hrest _ h)]
      · exact open_untouched f r c.counter names c.files hside
      · intro w hwm he
        obtain ⟨n, hn, rfl⟩ := List.mem_map.1 hwm
        injection he with h1 h2
        rcases hside with h | h
        · exact h h2.symm
        · exact h n hn h1
      · intro w hwm
        obtain ⟨n, hn, rfl⟩ := List.mem_map.1 hwm
        exact Nat.le_refl _
    | point n s x y =>
      dsimp only at h ⊢
      rw [if_pos rfl, if_neg (by simp), Nat.add_zero] at *
      have hx := fun fs : Files => ih { c with files := fs } hw hc (hrest _ h)
      rw [hx]
      exact writes_untouched f r (s, x, y) _ c.files (fun w hwm => hw w (List.mem_of_mem_filter hwm))
    | endOfSimulation =>
      dsimp only at h ⊢
      rw [if_pos rfl] at *
      rw [ih { c with counter := c.counter + 1 } hw (fun w hwm => Nat.le_succ_of_le (hc w hwm)) ?_]
      rcases hrest _ h with h | h
      · exact Or.inl h
      · exact Or.inr (by dsimp only; omega)
    | quit => rfl

/-- One call leaves a csv file whose plot is not in the list of plots, or whose repetition it does not come to. -/
theorem thread_untouched (fs : Files) (ms : List (Msg × List (String × String × String))) (f : String) (r : Nat)
    (h : (∀ m ∈ ms, ∀ n ∈ m.2, sanitize n.1 ≠ f) ∨ ms.countP (fun m => decide (m.1 = .endOfSimulation)) < r) :
    csvThread fs ms f r = fs f r := by
  cases ms with
  | nil => rfl
  | cons m ms =>
    rw [csvThread]
    by_cases hq : m.1 = .quit
    · rw [if_pos hq]
    · rw [if_neg hq]
      have hside : r ≠ 0 ∨ ∀ n ∈ m.2, sanitize n.1 ≠ f := by
        rcases h with h | h
        · exact Or.inr (fun n hn => h m List.mem_cons_self n hn)
        · exact Or.inl (by omega)
      rw [loop_untouched f r ms _ ?_ ?_ ?_]
      · exact open_untouched f r 0 m.2 fs hside
      · intro w hwm he
        obtain ⟨n, hn, rfl⟩ := List.mem_map.1 hwm
        injection he with h1 h2
        rcases hside with h | h
        · exact h h2.symm
        · exact h n hn h1
      · intro w hwm
        obtain ⟨n, hn, rfl⟩ := List.mem_map.1 hwm
        exact Nat.le_refl _
      · rcases h with h | h
        · exact Or.inl (fun x hx => h x (List.mem_cons_of_mem _ hx))
        · rw [List.countP_cons] at h
          exact Or.inr (by show 0 + _ < r; omega)

/-- **C228, the files that stay**: whatever messages the calls of `simulate!` handle, a csv file of before stays as it is if, for each
of the calls, its plot is not in the list of plots, or the call does not come to its repetition. -/
theorem C228_kept_partial (calls : List (List (Msg × List (String × String × String)))) (f : String) (r : Nat)
    (h : ∀ ms ∈ calls, (∀ m ∈ ms, ∀ n ∈ m.2, sanitize n.1 ≠ f) ∨
      ms.countP (fun m => decide (m.1 = .endOfSimulation)) < r) : ∀ fs : Files, simulations fs calls f r = fs f r := by
  induction calls with
  | nil => intro fs; rfl
  | cons ms calls ih =>
    intro fs
    refine (ih (fun x hx => h x (List.mem_cons_of_mem _ hx)) (csvThread fs ms)).trans ?_
    exact thread_untouched fs ms f r (h ms List.mem_cons_self)

/-- The files after the last call. -/
theorem simulations_last (fs : Files) (calls : List (List (Msg × List (String × String × String))))
    (ms : List (Msg × List (String × String × String))) :
    simulations fs (calls ++ [ms]) = csvThread (simulations fs calls) ms := by
  unfold simulations
  rw [List.foldl_append]
  rfl

/-- The files of the repetitions that are not reached. -/
theorem reps_untouched (f : String) (r : Nat) (q : List (String × String × String)) :
    ∀ (reps : List (List (String × String × String) × List ((String × String × String × String) ×
      List (String × String × String)) × List (String × String × String))),
    (∀ rep ∈ reps, (rep.1.map (fun n => sanitize n.1)).Nodup) → ∀ c : Csv, c.counter + reps.length ≤ r →
    (csvLoop c (reps.flatMap repMsgs ++ [(.quit, q)])).files f r = c.files f r := by
  intro reps
  induction reps with
  | nil => intro _ c _; rfl
  | cons rep reps ih =>
    intro hn c h
    rw [List.length_cons] at h
    rw [List.flatMap_cons, List.append_assoc]
    obtain ⟨c', h1, h2, h3, h4⟩ := csvLoop_rep rep (hn rep List.mem_cons_self) (reps.flatMap repMsgs ++ [(.quit, q)]) c
    rw [h1, ih (fun x hx => hn x (List.mem_cons_of_mem _ hx)) c' (by omega), h3 f r (by omega)]

/-- **C228, the later repetitions stay**: a call with `k` repetitions leaves the files of the repetitions from `k` on. -/
theorem C228_later_repetitions_partial (fs : Files) (calls : List (List (Msg × List (String × String × String)))) (f : String) (r : Nat) (q : List (String × String × String))
    (reps : List (List (String × String × String) × List ((String × String × String × String) ×
      List (String × String × String)) × List (String × String × String)))
    (hn : ∀ rep ∈ reps, (rep.1.map (fun n => sanitize n.1)).Nodup) (h : reps.length ≤ r) :
    simulations fs (calls ++ [reps.flatMap repMsgs ++ [(.quit, q)]]) f r = simulations fs calls f r := by
  rw [simulations_last]
  generalize simulations fs calls = fs
  cases reps with
  | nil => rfl
  | cons rep0 reps =>
    have := reps_untouched f r q (rep0 :: reps) hn { counter := 0, writers := [], files := fs } (by simpa using h)
    refine Eq.trans ?_ this
    rw [List.flatMap_cons]
    unfold repMsgs
    rw [List.cons_append, List.cons_append, csvThread, if_neg (by simp), csvLoop_init]

/-- **C228, the names stay**: the list of plots that get csv files only grows, through repetitions and calls of `simulate!`. -/
theorem C228_names_stay_partial (h : List Call) : ∀ (m m' : Mon), execAll m h = some m' → ∀ n ∈ m.names, n ∈ m'.names := by
  induction h with
  | nil =>
    intro m m' he n hn
    obtain rfl := Option.some.inj he
    exact hn
  | cons c h ih =>
    intro m m' he n hn
    rw [execAll] at he
    cases h1 : execAll m h with
    | none => rw [h1] at he; cases he
    | some m1 =>
      rw [h1, Option.bind_some] at he
      have hm1 := ih m m1 h1 n hn
      cases c with
      | add nm x y s c =>
        obtain rfl := Option.some.inj he
        unfold addplot
        by_cases hk : (HMap.get m1.data nm).isSome = true
        · rw [if_pos hk]; exact hm1
        · rw [if_neg hk]
          dsimp only
          by_cases hc : c = true
          · rw [if_pos hc]
            by_cases hi : (nm, x, y) ∈ m1.names
            · rw [if_pos hi]; exact hm1
            · rw [if_neg hi]; exact List.mem_append_left _ hm1
          · rw [if_neg hc]; exact hm1
      | point nm s x y c =>
        unfold exec plot at he
        dsimp only at he
        by_cases hk : (HMap.get m1.data nm).isSome = true
        · rw [if_pos hk] at he
          by_cases hc : c = true
          · rw [if_pos hc] at he
            by_cases hs : m1.sender = true
            · rw [if_pos hs] at he; obtain rfl := Option.some.inj he; exact hm1
            · rw [if_neg hs] at he; cases he
          · rw [if_neg hc] at he; obtain rfl := Option.some.inj he; exact hm1
        · rw [if_neg hk] at he; obtain rfl := Option.some.inj he; exact hm1
      | clear => obtain rfl := Option.some.inj he; exact hm1

/-- **C228, the files that are lost**: take a plot with a csv file in an earlier call (it is in the list `m.names` at its end), and a
call of `simulate!` after it, with whatever plots, whose lists of plots follow from that one. For every repetition `r` the later
call comes to, the file of the plot for `r` is replaced: it has the header and the points the *later* call plots, whatever it had;
just the header if the later model does not know the plot. -/
theorem C228_lost_partial (fs : Files) (calls : List (List (Msg × List (String × String × String)))) (m : Mon) {n : String × String × String} (hn : n ∈ m.names)
    {reps : List (List (String × String × String) ×
      List ((String × String × String × String) × List (String × String × String)) × List (String × String × String))}
    (hlist : ∀ rep ∈ reps, ∃ (h : List Call) (m' : Mon), execAll m h = some m' ∧ rep.1 = m'.names)
    (hd : ∀ rep ∈ reps, (rep.1.map (fun n => sanitize n.1)).Nodup) (q : List (String × String × String))
    {r : Nat} {rep : List (String × String × String) × List ((String × String × String × String) ×
      List (String × String × String)) × List (String × String × String)} (hr : reps[r]? = some rep)
    (hs : ∀ p ∈ rep.2.1, sanitize p.1.1 = sanitize n.1 → p.1.1 = n.1) :
    simulations fs (calls ++ [reps.flatMap repMsgs ++ [(.quit, q)]]) (sanitize n.1) r =
        some (("series", n.2.1, n.2.2) :: (rep.2.1.filter (fun p => decide (p.1.1 = n.1))).map (fun p => p.1.2)) ∧
      ((∀ p ∈ rep.2.1, p.1.1 ≠ n.1) →
        simulations fs (calls ++ [reps.flatMap repMsgs ++ [(.quit, q)]]) (sanitize n.1) r = some [("series", n.2.1, n.2.2)]) := by
  obtain ⟨h, m', h1, h2⟩ := hlist rep (List.mem_of_getElem? hr)
  have hnm : n ∈ rep.1 := by rw [h2]; exact C228_names_stay_partial h m m' h1 n hn
  have hmain := C70_files_partial (simulations fs calls) hd q hr hnm hs
  rw [simulations_last]
  refine ⟨hmain, ?_⟩
  intro hp
  refine hmain.trans ?_
  rw [List.filter_eq_nil_iff.2 (fun p hp' => by simpa using hp p hp')]
  rfl

/-- **C228, false as stated**: a first model with two repetitions stores points of the plot `p`; the second model, run after it for one
repetition, has no plots at all. The file of the first repetition of `p` is emptied, that of the second stays. -/
theorem C228_emptied_partial :
    let first := [([("p", "x", "y")], [(("p", "s", "1", "2"), [])], []), ([("p", "x", "y")], [(("p", "s", "1", "3"), [])], [])]
    let second := [([("p", "x", "y")], [], [])]
    let fs1 := simulations (fun _ _ => none) [first.flatMap repMsgs ++ [(.quit, [])]]
    let fs2 := simulations (fun _ _ => none) [first.flatMap repMsgs ++ [(.quit, [])], second.flatMap repMsgs ++ [(.quit, [])]]
    fs1 "p" 0 = some [("series", "x", "y"), ("s", "1", "2")] ∧ fs2 "p" 0 = some [("series", "x", "y")] ∧
    fs1 "p" 1 = some [("series", "x", "y"), ("s", "1", "3")] ∧ fs2 "p" 1 = fs1 "p" 1 := by
  refine ⟨?_, ?_, ?_, ?_⟩ <;> decide +kernel

/-- The list of plots of the second model above: it is what the first one left, also after the clearing of the plots. -/
example : ((execAll (Mon.empty true) [.add "p" "x" "y" false true]).bind (fun m => execAll m [.clear])).map Mon.names =
    some [("p", "x", "y")] := by decide +kernel

/-- **C228, the logs**: the log file of the later call has the stored logs of both calls, the later ones first. -/
theorem C228_logs_partial {L : Type} (stored : L → Bool) (first second : List (LogEvent L)) :
    storedLogs stored (second.foldr (fun e l => logStep l e) (first.foldr (fun e l => logStep l e) [])) =
      (allLogs second).filter stored ++ (allLogs first).filter stored := by
  unfold storedLogs
  rw [logs_flatten, logs_flatten, List.flatten_nil, List.append_nil, List.filter_append]

example : storedLogs (fun _ => true) (([.log 4, .newRep] : List (LogEvent Nat)).foldr (fun e l => logStep l e)
    (([.log 2, .log 1, .newRep] : List (LogEvent Nat)).foldr (fun e l => logStep l e) [])) = [4, 2, 1] := by decide

end Verif.Monitor
