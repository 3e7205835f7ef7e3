import Verif.Model.CsvBytes
import Verif.Spec.CsvBytes
import Verif.Lemmas.Monitor
import Verif.Props.Monitor

/-!
C235: the characters of the csv files, also where plots share a file.
-/

namespace Verif.Monitor

open CsvBytesSpec

/-! ### Writing at a place -/

theorem writeAt_length (c : List Char) (p : Nat) (b : List Char) (h : p ≤ c.length) :
    (writeAt c p b).length = max c.length (p + b.length) := by
  unfold writeAt
  simp only [List.length_append, List.length_take, List.length_drop, List.length_replicate]
  omega

theorem writeAt_eq (c : List Char) (p : Nat) (b : List Char) (h : p ≤ c.length) :
    writeAt c p b = c.take p ++ b ++ c.drop (p + b.length) := by
  unfold writeAt
  rw [Nat.sub_eq_zero_of_le h, List.replicate_zero, List.append_nil]

theorem writeAt_get (c : List Char) (p : Nat) (b : List Char) (h : p ≤ c.length) (x : Nat) :
    (writeAt c p b)[x]? = (if p ≤ x then b[x - p]? else none).or c[x]? := by
  rw [writeAt_eq c p b h]
  by_cases h1 : p ≤ x
  · rw [if_pos h1]
    by_cases h2 : x - p < b.length
    · rw [List.append_assoc, List.getElem?_append_right (by rw [List.length_take]; omega), List.length_take, Nat.min_eq_left h,
        List.getElem?_append_left h2, List.getElem?_eq_getElem h2]
      rfl
    · rw [List.getElem?_append_right (by rw [List.length_append, List.length_take]; omega), List.length_append, List.length_take,
        Nat.min_eq_left h, List.getElem?_drop, List.getElem?_eq_none (by omega : b.length ≤ x - p), Option.none_or]
      congr 1
      omega
  · rw [if_neg h1, List.append_assoc, List.getElem?_append_left (by rw [List.length_take]; omega), List.getElem?_take,
      if_pos (by omega), Option.none_or]

theorem writeAt_nil (c : List Char) (p : Nat) (h : p ≤ c.length) : writeAt c p [] = c := by
  rw [writeAt_eq c p [] h, List.append_nil, List.length_nil, Nat.add_zero, List.take_append_drop]

/-- Writes one after the other. -/
def put (c : List Char) (ws : List (Nat × List Char)) : List Char := ws.foldl (fun c w => writeAt c w.1 w.2) c

theorem put_append (c : List Char) (a b : List (Nat × List Char)) : put c (a ++ b) = put (put c a) b := by
  unfold put
  rw [List.foldl_append]

theorem put_length_le : ∀ (ws : List (Nat × List Char)) (c : List Char), (∀ w ∈ ws, w.1 ≤ c.length) →
    c.length ≤ (put c ws).length := by
  intro ws
  induction ws with
  | nil => intro c _; exact Nat.le_refl _
  | cons w ws ih =>
    intro c h
    have h1 := writeAt_length c w.1 w.2 (h w List.mem_cons_self)
    refine Nat.le_trans ?_ (ih (writeAt c w.1 w.2) ?_)
    · rw [h1]; omega
    · intro v hv
      have := h v (List.mem_cons_of_mem _ hv)
      rw [h1]; omega

theorem put_reaches : ∀ (ws : List (Nat × List Char)) (c : List Char), (∀ w ∈ ws, w.1 ≤ c.length) →
    ∀ w ∈ ws, w.1 + w.2.length ≤ (put c ws).length := by
  intro ws
  induction ws with
  | nil => intro c _ w hw; cases hw
  | cons w ws ih =>
    intro c h v hv
    have h1 := writeAt_length c w.1 w.2 (h w List.mem_cons_self)
    have h2 : ∀ u ∈ ws, u.1 ≤ (writeAt c w.1 w.2).length := by
      intro u hu
      have := h u (List.mem_cons_of_mem _ hu)
      rw [h1]; omega
    rcases List.mem_cons.1 hv with rfl | hv
    · have := put_length_le ws _ h2
      refine Nat.le_trans ?_ this
      rw [h1]; omega
    · exact ih _ h2 v hv

/-- Nobody leaves a hole. -/
def NoHole : Nat → List (Nat × List Char) → Prop
  | _, [] => True
  | n, w :: ws => w.1 ≤ n ∧ NoHole (max n (w.1 + w.2.length)) ws

theorem put_get : ∀ (ws : List (Nat × List Char)) (c : List Char), NoHole c.length ws → ∀ x,
    (put c ws)[x]? = (lastAt ws x).or c[x]? := by
  intro ws
  induction ws with
  | nil => intro c _ x; rfl
  | cons w ws ih =>
    intro c h x
    obtain ⟨h1, h2⟩ := h
    have := ih (writeAt c w.1 w.2) (by rw [writeAt_length c w.1 w.2 h1]; exact h2) x
    refine Eq.trans this ?_
    rw [writeAt_get c w.1 w.2 h1, lastAt, Option.or_assoc]

theorem noHole_mono : ∀ (ws : List (Nat × List Char)) (m n : Nat), m ≤ n → NoHole m ws → NoHole n ws := by
  intro ws
  induction ws with
  | nil => intro _ _ _ _; trivial
  | cons w ws ih =>
    intro m n h hh
    exact ⟨Nat.le_trans hh.1 h, ih _ _ (by omega) hh.2⟩

theorem noHole_append : ∀ (a b : List (Nat × List Char)) (m n : Nat), NoHole m a → (∀ w ∈ a, w.1 + w.2.length ≤ n) → m ≤ n →
    (∀ k, m ≤ k → (∀ w ∈ a, w.1 + w.2.length ≤ k) → NoHole k b) → NoHole m (a ++ b) := by
  intro a
  induction a with
  | nil =>
    intro b m n _ _ _ h
    exact h m (Nat.le_refl _) (fun w hw => nomatch hw)
  | cons w a ih =>
    intro b m n ha hn hmn h
    refine ⟨ha.1, ih b _ n ha.2 (fun v hv => hn v (List.mem_cons_of_mem _ hv)) ?_ ?_⟩
    · have := hn w List.mem_cons_self
      omega
    · intro k hk hk'
      refine h k (by omega) ?_
      intro v hv
      rcases List.mem_cons.1 hv with rfl | hv
      · omega
      · exact hk' v hv

theorem noHole_all : ∀ (a : List (Nat × List Char)) (m : Nat), (∀ w ∈ a, w.1 ≤ m) → NoHole m a := by
  intro a
  induction a with
  | nil => intro _ _; trivial
  | cons w a ih =>
    intro m h
    refine ⟨h w List.mem_cons_self, ih _ ?_⟩
    intro v hv
    have := h v (List.mem_cons_of_mem _ hv)
    omega

theorem exists_bound : ∀ (a : List (Nat × List Char)) (m : Nat), ∃ n, m ≤ n ∧ ∀ w ∈ a, w.1 + w.2.length ≤ n := by
  intro a
  induction a with
  | nil => intro m; exact ⟨m, Nat.le_refl _, fun w hw => nomatch hw⟩
  | cons w a ih =>
    intro m
    obtain ⟨n, h1, h2⟩ := ih (max m (w.1 + w.2.length))
    refine ⟨n, by omega, ?_⟩
    intro v hv
    rcases List.mem_cons.1 hv with rfl | hv
    · omega
    · exact h2 v hv

theorem noHole_writesOn (hs : List (List Char)) : ∀ (rows : List (List Char)) (s m : Nat), (∀ h ∈ hs, h.length + s ≤ m) →
    NoHole m (writesOn hs s rows) := by
  intro rows
  induction rows with
  | nil => intro s m _; trivial
  | cons r rows ih =>
    intro s m h
    obtain ⟨n, h1, h2⟩ := exists_bound (hs.map (fun h => (h.length + s, r))) m
    refine noHole_append _ _ m n (noHole_all _ _ ?_) h2 h1 ?_
    · intro w hw
      obtain ⟨x, hx, rfl⟩ := List.mem_map.1 hw
      exact h x hx
    · intro k _ hk
      refine ih _ _ ?_
      intro x hx
      have := hk _ (List.mem_map.2 ⟨x, hx, rfl⟩)
      dsimp only at this
      omega

theorem noHole_writes (hs rows : List (List Char)) : NoHole 0 (writes hs rows) := by
  cases rows with
  | nil =>
    refine noHole_all _ _ ?_
    intro w hw
    obtain ⟨x, _, rfl⟩ := List.mem_map.1 hw
    exact Nat.le_refl _
  | cons r rows =>
    obtain ⟨n, h1, h2⟩ := exists_bound (hs.map (fun h => (0, h ++ r))) 0
    refine noHole_append _ _ 0 n (noHole_all _ _ ?_) h2 h1 ?_
    · intro w hw
      obtain ⟨x, _, rfl⟩ := List.mem_map.1 hw
      exact Nat.le_refl _
    · intro k _ hk
      refine noHole_writesOn hs rows _ _ ?_
      intro x hx
      have := hk _ (List.mem_map.2 ⟨x, hx, rfl⟩)
      dsimp only at this
      rw [List.length_append] at this
      omega

/-! ### The files of the thread -/

/-- Whether a writer has the file. -/
def has (f : String) (r : Nat) (w : BWriter) : Bool := decide (w.name = f ∧ w.rep = r)

/-- Where a writer is and what it holds back. -/
def view (w : BWriter) : Nat × List Char := (w.pos, w.buf)

theorem flushDisk_other (d : Disk) (w : BWriter) {f : String} {r : Nat} (h : has f r w = false) : flushDisk d w f r = d f r := by
  unfold flushDisk setBytes
  rw [if_neg]
  rintro ⟨h1, h2⟩
  simp [has, h1, h2] at h

theorem flushDisk_at (d : Disk) (w : BWriter) {f : String} {r : Nat} (h : has f r w = true) {c : List Char} (hd : d f r = some c) :
    flushDisk d w f r = some (writeAt c w.pos w.buf) := by
  obtain ⟨rfl, rfl⟩ := of_decide_eq_true h
  unfold flushDisk setBytes
  rw [if_pos ⟨rfl, rfl⟩, hd]
  rfl

theorem dropAll_cons (d : Disk) (w : BWriter) (ws : List BWriter) : dropAll d (w :: ws) = dropAll (flushDisk d w) ws := rfl

theorem dropAll_other (f : String) (r : Nat) : ∀ (ws : List BWriter) (d : Disk), (∀ w ∈ ws, has f r w = false) →
    dropAll d ws f r = d f r := by
  intro ws
  induction ws with
  | nil => intro d _; rfl
  | cons w ws ih =>
    intro d h
    rw [dropAll_cons, ih _ (fun v hv => h v (List.mem_cons_of_mem _ hv)), flushDisk_other d w (h w List.mem_cons_self)]

theorem dropAll_at (f : String) (r : Nat) : ∀ (ws : List BWriter) (d : Disk) (c : List Char), d f r = some c →
    dropAll d ws f r = some (put c ((ws.filter (has f r)).map view)) := by
  intro ws
  induction ws with
  | nil => intro d c h; exact h
  | cons w ws ih =>
    intro d c h
    rw [dropAll_cons]
    by_cases hw : has f r w = true
    · rw [ih _ _ (flushDisk_at d w hw h), List.filter_cons_of_pos hw]
      rfl
    · rw [ih _ c ((flushDisk_other d w (eq_false_of_ne_true hw)).trans h), List.filter_cons_of_neg hw]

theorem dropAll_congr (f : String) (r : Nat) : ∀ (ws : List BWriter) (d d' : Disk), d f r = d' f r →
    dropAll d ws f r = dropAll d' ws f r := by
  intro ws
  induction ws with
  | nil => intro d d' h; exact h
  | cons w ws ih =>
    intro d d' h
    rw [dropAll_cons, dropAll_cons]
    apply ih
    by_cases hw : has f r w = true
    · obtain ⟨rfl, rfl⟩ := of_decide_eq_true hw
      unfold flushDisk setBytes
      rw [if_pos ⟨rfl, rfl⟩, if_pos ⟨rfl, rfl⟩, h]
    · rw [flushDisk_other d w (eq_false_of_ne_true hw), flushDisk_other d' w (eq_false_of_ne_true hw), h]

theorem openDisk_other (f : String) (r rep : Nat) (h : r ≠ rep) : ∀ (names : List (String × String × String)) (d : Disk),
    openDisk names rep d f r = d f r := by
  intro names
  induction names with
  | nil => intro d; rfl
  | cons n names ih =>
    intro d
    refine (ih (setBytes d (sanitize n.1) rep [])).trans ?_
    unfold setBytes
    rw [if_neg (fun hh => h hh.2)]

theorem openDisk_keeps (f : String) (rep : Nat) : ∀ (names : List (String × String × String)) (d : Disk), d f rep = some [] →
    openDisk names rep d f rep = some [] := by
  intro names
  induction names with
  | nil => intro d h; exact h
  | cons n names ih =>
    intro d h
    refine ih (setBytes d (sanitize n.1) rep []) ?_
    unfold setBytes
    by_cases hh : f = sanitize n.1 ∧ rep = rep
    · rw [if_pos hh]
    · rw [if_neg hh, h]

theorem openDisk_at (f : String) (rep : Nat) : ∀ (names : List (String × String × String)) (d : Disk),
    (∃ n ∈ names, sanitize n.1 = f) → openDisk names rep d f rep = some [] := by
  intro names
  induction names with
  | nil => rintro d ⟨n, hn, _⟩; cases hn
  | cons n names ih =>
    rintro d ⟨m, hm, hf⟩
    rcases List.mem_cons.1 hm with rfl | hm
    · refine openDisk_keeps f rep names (setBytes d (sanitize m.1) rep []) ?_
      unfold setBytes
      rw [if_pos ⟨hf.symm, rfl⟩]
    · exact ih _ ⟨m, hm, hf⟩

/-- A writer after a row. -/
def advance (b : List Char) (w : BWriter) : BWriter := ⟨w.name, w.rep, w.pos + (w.buf ++ b).length, []⟩

theorem has_advance (f : String) (r : Nat) (b : List Char) (w : BWriter) : has f r (advance b w) = has f r w := rfl

theorem writePoint_other {g f : String} (hg : g ≠ f) (r : Nat) (b : List Char) : ∀ (ws : List BWriter) (d : Disk),
    (writePoint g b d ws).1 f r = d f r ∧ (writePoint g b d ws).2.filter (has f r) = ws.filter (has f r) := by
  intro ws
  induction ws with
  | nil => intro d; exact ⟨rfl, rfl⟩
  | cons w ws ih =>
    intro d
    rw [writePoint]
    by_cases h : g = w.name
    · rw [if_pos h]
      dsimp only
      have hw : has f r w = false := by
        unfold has
        rw [decide_eq_false]
        rintro ⟨h1, _⟩
        exact hg (h.trans h1)
      obtain ⟨h1, h2⟩ := ih (flushDisk d ⟨w.name, w.rep, w.pos, w.buf ++ b⟩)
      refine ⟨h1.trans (flushDisk_other d _ hw), ?_⟩
      rw [List.filter_cons_of_neg (by rw [show has f r ⟨w.name, w.rep, w.pos + (w.buf ++ b).length, []⟩ = has f r w from rfl, hw]; simp),
        List.filter_cons_of_neg (by rw [hw]; simp), h2]
    · rw [if_neg h]
      obtain ⟨h1, h2⟩ := ih d
      refine ⟨h1, ?_⟩
      by_cases hw : has f r w = true
      · rw [List.filter_cons_of_pos hw, List.filter_cons_of_pos hw, h2]
      · rw [List.filter_cons_of_neg hw, List.filter_cons_of_neg hw, h2]

theorem writePoint_at (f : String) (r : Nat) (b : List Char) : ∀ (ws : List BWriter) (d : Disk) (c : List Char), d f r = some c →
    (writePoint f b d ws).1 f r = some (put c ((ws.filter (has f r)).map (fun w => (w.pos, w.buf ++ b)))) ∧
      (writePoint f b d ws).2.filter (has f r) = (ws.filter (has f r)).map (advance b) := by
  intro ws
  induction ws with
  | nil => intro d c h; exact ⟨h, rfl⟩
  | cons w ws ih =>
    intro d c hd
    rw [writePoint]
    by_cases h : f = w.name
    · rw [if_pos h]
      dsimp only
      by_cases hw : has f r w = true
      · obtain ⟨h1, h2⟩ := ih (flushDisk d ⟨w.name, w.rep, w.pos, w.buf ++ b⟩) _ (flushDisk_at d ⟨w.name, w.rep, w.pos, w.buf ++ b⟩ hw hd)
        refine ⟨h1.trans ?_, ?_⟩
        · rw [List.filter_cons_of_pos hw]
          rfl
        · rw [List.filter_cons_of_pos (by exact hw), List.filter_cons_of_pos hw, h2]
          rfl
      · have hw' := eq_false_of_ne_true hw
        obtain ⟨h1, h2⟩ := ih (flushDisk d ⟨w.name, w.rep, w.pos, w.buf ++ b⟩) c
          ((flushDisk_other d ⟨w.name, w.rep, w.pos, w.buf ++ b⟩ hw').trans hd)
        refine ⟨h1.trans ?_, ?_⟩
        · rw [List.filter_cons_of_neg hw]
        · rw [List.filter_cons_of_neg (by exact hw), List.filter_cons_of_neg hw, h2]
    · rw [if_neg h]
      have hw : ¬ has f r w = true := by
        intro hh
        exact h (of_decide_eq_true hh).1.symm
      obtain ⟨h1, h2⟩ := ih d c hd
      refine ⟨h1.trans ?_, ?_⟩
      · rw [List.filter_cons_of_neg hw]
      · rw [List.filter_cons_of_neg hw, List.filter_cons_of_neg hw, h2]

theorem writePoint_rep (g : String) (b : List Char) : ∀ (ws : List BWriter) (d : Disk),
    (writePoint g b d ws).2.map BWriter.rep = ws.map BWriter.rep := by
  intro ws
  induction ws with
  | nil => intro d; rfl
  | cons w ws ih =>
    intro d
    rw [writePoint]
    by_cases h : g = w.name
    · rw [if_pos h, List.map_cons, List.map_cons, ih]
    · rw [if_neg h, List.map_cons, List.map_cons, ih]

/-- The state after the points of a repetition. -/
def pointsState (text : CsvRow → List Char) (c : BCsv)
    (ps : List ((String × String × String × String) × List (String × String × String))) : BCsv :=
  ps.foldl (fun c p => ⟨c.counter, (writePoint (sanitize p.1.1) (text p.1.2) c.disk c.writers).2,
    (writePoint (sanitize p.1.1) (text p.1.2) c.disk c.writers).1⟩) c

theorem bytesLoop_points (text : CsvRow → List Char) : ∀ (ps : List ((String × String × String × String) × List (String × String × String)))
    (c : BCsv) (ms : List (Msg × List (String × String × String))),
    bytesLoop text c (ps.map pointMsg ++ ms) = bytesLoop text (pointsState text c ps) ms := by
  intro ps
  induction ps with
  | nil => intro c ms; rfl
  | cons p ps ih =>
    intro c ms
    rw [List.map_cons, List.cons_append, bytesLoop]
    exact ih _ ms

theorem pointsState_counter (text : CsvRow → List Char) : ∀ (ps : List ((String × String × String × String) × List (String × String × String)))
    (c : BCsv), (pointsState text c ps).counter = c.counter ∧
      (pointsState text c ps).writers.map BWriter.rep = c.writers.map BWriter.rep := by
  intro ps
  induction ps with
  | nil => intro c; exact ⟨rfl, rfl⟩
  | cons p ps ih =>
    intro c
    obtain ⟨h1, h2⟩ := ih ⟨c.counter, (writePoint (sanitize p.1.1) (text p.1.2) c.disk c.writers).2,
      (writePoint (sanitize p.1.1) (text p.1.2) c.disk c.writers).1⟩
    exact ⟨h1, h2.trans (writePoint_rep _ _ _ _)⟩

/-- The rows for a file. -/
def rowsFor (text : CsvRow → List Char) (f : String)
    (ps : List ((String × String × String × String) × List (String × String × String))) : List (List Char) :=
  (ps.filter (fun p => decide (sanitize p.1.1 = f))).map (fun p => text p.1.2)

/-- The headers of the writers of a file. -/
def headersFor (text : CsvRow → List Char) (f : String) (names : List (String × String × String)) : List (List Char) :=
  (names.filter (fun n => decide (sanitize n.1 = f))).map (fun n => text ("series", n.2.1, n.2.2))

theorem put_nothing (s : Nat) : ∀ (hs : List (List Char)) (c : List Char), (∀ h ∈ hs, h.length + s ≤ c.length) →
    put c (hs.map (fun h => (h.length + s, []))) = c := by
  intro hs
  induction hs with
  | nil => intro c _; rfl
  | cons h hs ih =>
    intro c hh
    have : put c ((h :: hs).map (fun h => (h.length + s, []))) =
        put (writeAt c (h.length + s) []) (hs.map (fun h => (h.length + s, []))) := rfl
    rw [this, writeAt_nil c _ (hh h List.mem_cons_self)]
    exact ih c (fun x hx => hh x (List.mem_cons_of_mem _ hx))

theorem points_on (text : CsvRow → List Char) (f : String) (r : Nat) (hs : List (List Char)) :
    ∀ (ps : List ((String × String × String × String) × List (String × String × String))) (c : BCsv) (b : List Char) (s : Nat),
    c.disk f r = some b → (c.writers.filter (has f r)).map view = hs.map (fun h => (h.length + s, [])) →
    (∀ h ∈ hs, h.length + s ≤ b.length) →
    dropAll (pointsState text c ps).disk (pointsState text c ps).writers f r = some (put b (writesOn hs s (rowsFor text f ps))) := by
  intro ps
  induction ps with
  | nil =>
    intro c b s h1 h2 h3
    refine (dropAll_at f r c.writers c.disk b h1).trans ?_
    rw [h2, put_nothing s hs b h3]
    rfl
  | cons p ps ih =>
    intro c b s h1 h2 h3
    by_cases hp : sanitize p.1.1 = f
    · subst hp
      obtain ⟨w1, w2⟩ := writePoint_at (sanitize p.1.1) r (text p.1.2) c.writers c.disk b h1
      have e1 : (c.writers.filter (has (sanitize p.1.1) r)).map (fun w => (w.pos, w.buf ++ text p.1.2)) =
          hs.map (fun h => (h.length + s, text p.1.2)) := by
        have := congrArg (List.map (fun v : Nat × List Char => (v.1, v.2 ++ text p.1.2))) h2
        rw [List.map_map, List.map_map] at this
        exact this
      have e2 : ((c.writers.filter (has (sanitize p.1.1) r)).map (advance (text p.1.2))).map view =
          hs.map (fun h => (h.length + (s + (text p.1.2).length), [])) := by
        have := congrArg (List.map (fun v : Nat × List Char => (v.1 + (v.2 ++ text p.1.2).length, ([] : List Char)))) h2
        rw [List.map_map, List.map_map] at this
        rw [List.map_map]
        refine Eq.trans this (List.map_congr_left ?_)
        intro h _
        dsimp only [Function.comp]
        rw [List.nil_append, Nat.add_assoc]
      rw [e1] at w1
      refine (ih ⟨c.counter, (writePoint (sanitize p.1.1) (text p.1.2) c.disk c.writers).2,
        (writePoint (sanitize p.1.1) (text p.1.2) c.disk c.writers).1⟩ _ (s + (text p.1.2).length) w1
        ((congrArg (List.map view) w2).trans e2) ?_).trans ?_
      · intro h hh
        have := put_reaches (hs.map (fun h => (h.length + s, text p.1.2))) b
          (by intro w hw; obtain ⟨x, hx, rfl⟩ := List.mem_map.1 hw; exact h3 x hx) _ (List.mem_map.2 ⟨h, hh, rfl⟩)
        dsimp only at this
        omega
      · unfold rowsFor
        rw [List.filter_cons_of_pos (by simp), List.map_cons, writesOn, put_append]
    · obtain ⟨w1, w2⟩ := writePoint_other hp r (text p.1.2) c.writers c.disk
      refine (ih ⟨c.counter, (writePoint (sanitize p.1.1) (text p.1.2) c.disk c.writers).2,
        (writePoint (sanitize p.1.1) (text p.1.2) c.disk c.writers).1⟩ b s (w1.trans h1)
        ((congrArg (List.map view) w2).trans h2) h3).trans ?_
      unfold rowsFor
      rw [List.filter_cons_of_neg (by simpa using hp)]

theorem points_first (text : CsvRow → List Char) (f : String) (r : Nat) (hs : List (List Char)) :
    ∀ (ps : List ((String × String × String × String) × List (String × String × String))) (c : BCsv),
    c.disk f r = some [] → (c.writers.filter (has f r)).map view = hs.map (fun h => (0, h)) →
    dropAll (pointsState text c ps).disk (pointsState text c ps).writers f r = some (put [] (writes hs (rowsFor text f ps))) := by
  intro ps
  induction ps with
  | nil =>
    intro c h1 h2
    refine (dropAll_at f r c.writers c.disk [] h1).trans ?_
    rw [h2]
    rfl
  | cons p ps ih =>
    intro c h1 h2
    by_cases hp : sanitize p.1.1 = f
    · subst hp
      obtain ⟨w1, w2⟩ := writePoint_at (sanitize p.1.1) r (text p.1.2) c.writers c.disk [] h1
      have e1 : (c.writers.filter (has (sanitize p.1.1) r)).map (fun w => (w.pos, w.buf ++ text p.1.2)) =
          hs.map (fun h => (0, h ++ text p.1.2)) := by
        have := congrArg (List.map (fun v : Nat × List Char => (v.1, v.2 ++ text p.1.2))) h2
        rw [List.map_map, List.map_map] at this
        exact this
      have e2 : ((c.writers.filter (has (sanitize p.1.1) r)).map (advance (text p.1.2))).map view =
          hs.map (fun h => (h.length + (text p.1.2).length, [])) := by
        have := congrArg (List.map (fun v : Nat × List Char => (v.1 + (v.2 ++ text p.1.2).length, ([] : List Char)))) h2
        rw [List.map_map, List.map_map] at this
        rw [List.map_map]
        refine Eq.trans this (List.map_congr_left ?_)
        intro h _
        dsimp only [Function.comp]
        rw [List.length_append, Nat.zero_add]
      rw [e1] at w1
      refine (points_on text (sanitize p.1.1) r hs ps ⟨c.counter, (writePoint (sanitize p.1.1) (text p.1.2) c.disk c.writers).2,
        (writePoint (sanitize p.1.1) (text p.1.2) c.disk c.writers).1⟩ _ (text p.1.2).length w1
        ((congrArg (List.map view) w2).trans e2) ?_).trans ?_
      · intro h hh
        have := put_reaches (hs.map (fun h => (0, h ++ text p.1.2))) []
          (by intro w hw; obtain ⟨x, hx, rfl⟩ := List.mem_map.1 hw; exact Nat.le_refl _) _ (List.mem_map.2 ⟨h, hh, rfl⟩)
        dsimp only at this
        rw [List.length_append, Nat.zero_add] at this
        exact this
      · unfold rowsFor
        rw [List.filter_cons_of_pos (by simp), List.map_cons, writes, put_append]
    · obtain ⟨w1, w2⟩ := writePoint_other hp r (text p.1.2) c.writers c.disk
      refine (ih ⟨c.counter, (writePoint (sanitize p.1.1) (text p.1.2) c.disk c.writers).2,
        (writePoint (sanitize p.1.1) (text p.1.2) c.disk c.writers).1⟩ (w1.trans h1)
        ((congrArg (List.map view) w2).trans h2)).trans ?_
      unfold rowsFor
      rw [List.filter_cons_of_neg (by simpa using hp)]

theorem writePoint_away (g f : String) (r : Nat) (b : List Char) : ∀ (ws : List BWriter) (d : Disk), (∀ w ∈ ws, w.rep ≠ r) →
    (writePoint g b d ws).1 f r = d f r := by
  intro ws
  induction ws with
  | nil => intro d _; rfl
  | cons w ws ih =>
    intro d h
    rw [writePoint]
    by_cases hg : g = w.name
    · rw [if_pos hg]
      refine (ih (flushDisk d ⟨w.name, w.rep, w.pos, w.buf ++ b⟩) (fun v hv => h v (List.mem_cons_of_mem _ hv))).trans ?_
      refine flushDisk_other d ⟨w.name, w.rep, w.pos, w.buf ++ b⟩ ?_
      unfold has
      rw [decide_eq_false]
      rintro ⟨_, h2⟩
      exact h w List.mem_cons_self h2
    · rw [if_neg hg]
      exact ih d (fun v hv => h v (List.mem_cons_of_mem _ hv))

theorem rep_ne_of_map {ws ws' : List BWriter} (h : ws'.map BWriter.rep = ws.map BWriter.rep) {P : Nat → Prop} (hw : ∀ w ∈ ws, P w.rep) :
    ∀ w ∈ ws', P w.rep := by
  intro w hw'
  have : w.rep ∈ ws.map BWriter.rep := h ▸ List.mem_map.2 ⟨w, hw', rfl⟩
  obtain ⟨v, hv, e⟩ := List.mem_map.1 this
  rw [← e]
  exact hw v hv

theorem points_away (text : CsvRow → List Char) (f : String) (r : Nat) :
    ∀ (ps : List ((String × String × String × String) × List (String × String × String))) (c : BCsv),
    (∀ w ∈ c.writers, w.rep ≠ r) → (pointsState text c ps).disk f r = c.disk f r := by
  intro ps
  induction ps with
  | nil => intro c _; rfl
  | cons p ps ih =>
    intro c h
    refine (ih ⟨c.counter, (writePoint (sanitize p.1.1) (text p.1.2) c.disk c.writers).2,
      (writePoint (sanitize p.1.1) (text p.1.2) c.disk c.writers).1⟩ ?_).trans (writePoint_away _ f r _ _ _ h)
    exact rep_ne_of_map (P := fun x => x ≠ r) (writePoint_rep _ _ _ _) h

/-- The state after `Init` (src/lib.rs:982-984). -/
def initState (text : CsvRow → List Char) (c : BCsv) (names : List (String × String × String)) : BCsv :=
  ⟨c.counter, openWriters text names c.counter, dropAll (openDisk names c.counter c.disk) c.writers⟩

/-- The state after a repetition. -/
def repState (text : CsvRow → List Char) (c : BCsv) (rep : List (String × String × String) ×
    List ((String × String × String × String) × List (String × String × String)) × List (String × String × String)) : BCsv :=
  ⟨(pointsState text (initState text c rep.1) rep.2.1).counter + 1, (pointsState text (initState text c rep.1) rep.2.1).writers,
    (pointsState text (initState text c rep.1) rep.2.1).disk⟩

theorem bytesLoop_rep (text : CsvRow → List Char) (c : BCsv) (rep : List (String × String × String) ×
    List ((String × String × String × String) × List (String × String × String)) × List (String × String × String))
    (ms : List (Msg × List (String × String × String))) :
    bytesLoop text c (repMsgs rep ++ ms) = bytesLoop text (repState text c rep) ms := by
  unfold repMsgs
  rw [List.cons_append, List.append_assoc]
  refine (bytesLoop_points text rep.2.1 (initState text c rep.1) ([(.endOfSimulation, rep.2.2)] ++ ms)).trans ?_
  rfl

theorem view_open (text : CsvRow → List Char) (f : String) (k : Nat) : ∀ names : List (String × String × String),
    ((openWriters text names k).filter (has f k)).map view = (headersFor text f names).map (fun h => (0, h)) := by
  intro names
  induction names with
  | nil => rfl
  | cons n names ih =>
    unfold openWriters headersFor at ih ⊢
    rw [List.map_cons]
    by_cases hn : sanitize n.1 = f
    · rw [List.filter_cons_of_pos (by simp [has, hn]), List.filter_cons_of_pos (by simp [hn]), List.map_cons, List.map_cons, List.map_cons,
        ih]
      rfl
    · rw [List.filter_cons_of_neg (by simp [has, hn]), List.filter_cons_of_neg (by simp [hn])]
      exact ih

theorem repState_facts (text : CsvRow → List Char) (c : BCsv) (rep : List (String × String × String) ×
    List ((String × String × String × String) × List (String × String × String)) × List (String × String × String))
    (hc : ∀ w ∈ c.writers, w.rep < c.counter) :
    (repState text c rep).counter = c.counter + 1 ∧ (∀ w ∈ (repState text c rep).writers, w.rep = c.counter) ∧
    (∀ f, (∃ n ∈ rep.1, sanitize n.1 = f) → dropAll (repState text c rep).disk (repState text c rep).writers f c.counter =
      some (put [] (writes (headersFor text f rep.1) (rowsFor text f rep.2.1)))) ∧
    (∀ f r, r ≠ c.counter → dropAll (repState text c rep).disk (repState text c rep).writers f r = dropAll c.disk c.writers f r) := by
  obtain ⟨p1, p2⟩ := pointsState_counter text rep.2.1 (initState text c rep.1)
  have hopen : ∀ w ∈ (initState text c rep.1).writers, w.rep = c.counter := by
    intro w hw
    obtain ⟨n, _, rfl⟩ := List.mem_map.1 hw
    rfl
  have hw : ∀ w ∈ (repState text c rep).writers, w.rep = c.counter := rep_ne_of_map (P := fun x => x = c.counter) p2 hopen
  have hno : ∀ f r, r ≠ c.counter → ∀ w ∈ (repState text c rep).writers, has f r w = false := by
    intro f r hr w hww
    unfold has
    rw [decide_eq_false]
    rintro ⟨_, h2⟩
    exact hr (h2.symm.trans (hw w hww))
  refine ⟨congrArg (· + 1) p1, hw, ?_, ?_⟩
  · intro f hf
    refine points_first text f c.counter (headersFor text f rep.1) rep.2.1 (initState text c rep.1) ?_ (view_open text f c.counter rep.1)
    refine (dropAll_other f c.counter c.writers _ ?_).trans (openDisk_at f c.counter rep.1 c.disk hf)
    intro w hww
    unfold has
    rw [decide_eq_false]
    rintro ⟨_, h2⟩
    exact absurd (hc w hww) (by omega)
  · intro f r hr
    rw [dropAll_other f r _ _ (hno f r hr)]
    refine (points_away text f r rep.2.1 (initState text c rep.1) (fun w hww => by rw [hopen w hww]; exact Ne.symm hr)).trans ?_
    exact dropAll_congr f r c.writers _ _ (openDisk_other f r c.counter hr rep.1 c.disk)

theorem reps_facts (text : CsvRow → List Char) : ∀ (reps : List (List (String × String × String) ×
    List ((String × String × String × String) × List (String × String × String)) × List (String × String × String))) (c : BCsv)
    (q : List (String × String × String)), (∀ w ∈ c.writers, w.rep < c.counter) →
    (∀ f r, r < c.counter → (bytesLoop text c (reps.flatMap repMsgs ++ [(.quit, q)])).disk f r = dropAll c.disk c.writers f r) ∧
    (∀ j rep, reps[j]? = some rep → ∀ f, (∃ n ∈ rep.1, sanitize n.1 = f) →
      (bytesLoop text c (reps.flatMap repMsgs ++ [(.quit, q)])).disk f (c.counter + j) =
        some (put [] (writes (headersFor text f rep.1) (rowsFor text f rep.2.1)))) := by
  intro reps
  induction reps with
  | nil => intro c q _; exact ⟨fun f r _ => rfl, fun j rep h => by simp at h⟩
  | cons rep reps ih =>
    intro c q hc
    rw [List.flatMap_cons, List.append_assoc, bytesLoop_rep]
    obtain ⟨h1, h2, h3, h4⟩ := repState_facts text c rep hc
    obtain ⟨i1, i2⟩ := ih (repState text c rep) q (fun w hw => by rw [h2 w hw, h1]; exact Nat.lt_succ_self _)
    refine ⟨?_, ?_⟩
    · intro f r hr
      rw [i1 f r (by omega), h4 f r (by omega)]
    · intro j rp hj f hf
      cases j with
      | zero =>
        obtain rfl := Option.some.inj hj
        rw [Nat.add_zero, i1 f c.counter (by omega), h3 f hf]
      | succ j =>
        have := i2 j rp hj f hf
        rw [h1] at this
        rw [← this]
        congr 1
        omega

theorem thread_bytes (text : CsvRow → List Char) (d : Disk) {reps : List (List (String × String × String) ×
    List ((String × String × String × String) × List (String × String × String)) × List (String × String × String))}
    (q : List (String × String × String)) {r : Nat} {rep : List (String × String × String) × List ((String × String × String × String) ×
      List (String × String × String)) × List (String × String × String)} (hr : reps[r]? = some rep) {f : String}
    (hf : ∃ n ∈ rep.1, sanitize n.1 = f) :
    bytesThread text d (reps.flatMap repMsgs ++ [(.quit, q)]) f r =
      some (put [] (writes (headersFor text f rep.1) (rowsFor text f rep.2.1))) := by
  have hc : bytesThread text d (reps.flatMap repMsgs ++ [(.quit, q)]) =
      (bytesLoop text ⟨0, [], d⟩ (reps.flatMap repMsgs ++ [(.quit, q)])).disk := by
    cases reps with
    | nil => simp at hr
    | cons rep0 reps => rfl
  rw [hc]
  have := (reps_facts text reps ⟨0, [], d⟩ q (fun w hw => nomatch hw)).2 r rep hr f hf
  rw [Nat.zero_add] at this
  exact this

/-! ### What the writes come to -/

theorem put_same (a : Nat) (r : List Char) : ∀ (n : Nat) (c : List Char), c.length = a →
    put c ((List.replicate (n + 1) (a, r))) = c ++ r := by
  intro n
  induction n with
  | zero =>
    intro c h
    show writeAt c a r = c ++ r
    rw [writeAt_eq c a r (by omega), List.take_of_length_le (by omega), List.drop_eq_nil_of_le (by omega), List.append_nil]
  | succ n ih =>
    intro c h
    rw [List.replicate_succ']
    rw [put_append, ih c h]
    show writeAt (c ++ r) a r = c ++ r
    rw [writeAt_eq _ a r (by rw [List.length_append]; omega), List.take_left' h,
      List.drop_eq_nil_of_le (by rw [List.length_append]; omega), List.append_nil]

theorem writesOn_equal (hs : List (List Char)) (a : Nat) (hne : hs ≠ []) (he : ∀ h ∈ hs, h.length = a) :
    ∀ (rows : List (List Char)) (s : Nat) (c : List Char), c.length = a + s → put c (writesOn hs s rows) = c ++ rows.flatten := by
  intro rows
  induction rows with
  | nil => intro s c _; exact (List.append_nil c).symm
  | cons r rows ih =>
    intro s c hcl
    have hmap : hs.map (fun h => (h.length + s, r)) = List.replicate ((hs.length - 1) + 1) (a + s, r) := by
      have : (hs.length - 1) + 1 = hs.length := by
        have := List.length_pos_of_ne_nil hne
        omega
      rw [this]
      refine List.eq_replicate_iff.2 ⟨by simp, ?_⟩
      intro w hw
      obtain ⟨h, hh, rfl⟩ := List.mem_map.1 hw
      rw [he h hh]
    rw [writesOn, put_append, hmap, put_same (a + s) r _ c hcl, ih _ _ (by rw [List.length_append]; omega), List.flatten_cons,
      List.append_assoc]

theorem put_cover : ∀ (hs : List (List Char)) (a : Nat) (x : List Char) (c : List Char), (∀ h ∈ hs, h.length = a) → x.length = a →
    (c.length = a ∨ c = []) → put c ((hs ++ [x]).map (fun h => (0, h))) = x := by
  intro hs
  induction hs with
  | nil =>
    intro a x c _ hx hc
    show writeAt c 0 x = x
    rw [writeAt_eq c 0 x (Nat.zero_le _), List.take_zero, List.nil_append, List.drop_eq_nil_of_le, List.append_nil]
    rcases hc with hc | rfl
    · omega
    · exact Nat.zero_le _
  | cons h hs ih =>
    intro a x c he hx hc
    show put (writeAt c 0 h) ((hs ++ [x]).map (fun h => (0, h))) = x
    refine ih a x _ (fun y hy => he y (List.mem_cons_of_mem _ hy)) hx (Or.inl ?_)
    have hh := he h List.mem_cons_self
    rw [writeAt_length c 0 h (Nat.zero_le _)]
    rcases hc with hc | rfl
    · omega
    · rw [List.length_nil]; omega

theorem writes_equal (hs : List (List Char)) (x : List Char) (he : ∀ h ∈ hs, h.length = x.length) (rows : List (List Char)) :
    put [] (writes (hs ++ [x]) rows) = x ++ rows.flatten := by
  cases rows with
  | nil => exact (put_cover hs x.length x [] he rfl (Or.inr rfl)).trans (List.append_nil x).symm
  | cons r rows =>
    have e : (hs ++ [x]).map (fun h => (0, h ++ r)) = (hs.map (· ++ r) ++ [x ++ r]).map (fun h => (0, h)) := by
      rw [List.map_append, List.map_append, List.map_map]
      rfl
    rw [writes, put_append, e, put_cover (hs.map (· ++ r)) (x ++ r).length (x ++ r) [] ?_ rfl (Or.inr rfl),
      writesOn_equal (hs ++ [x]) x.length (by simp) ?_ rows _ _ (by rw [List.length_append]), List.flatten_cons, List.append_assoc]
    · intro h hh
      rcases List.mem_append.1 hh with hh | hh
      · exact he h hh
      · rw [List.mem_singleton.1 hh]
    · intro h hh
      obtain ⟨y, hy, rfl⟩ := List.mem_map.1 hh
      rw [List.length_append, List.length_append, he y hy]

theorem writesOn_longer (h1 h2 : List Char) (hl : h2.length ≤ h1.length) : ∀ (rows : List (List Char)) (done : List Char),
    put (h2 ++ done ++ (h1 ++ done).drop (h2 ++ done).length) (writesOn [h1, h2] done.length rows) =
      h2 ++ (done ++ rows.flatten) ++ (h1 ++ (done ++ rows.flatten)).drop (h2 ++ (done ++ rows.flatten)).length := by
  intro rows
  induction rows with
  | nil => intro done; rw [List.flatten_nil, List.append_nil]; rfl
  | cons r rows ih =>
    intro done
    have hlen : (h2 ++ done ++ (h1 ++ done).drop (h2 ++ done).length).length = h1.length + done.length := by
      simp only [List.length_append, List.length_drop]
      omega
    have step : put (h2 ++ done ++ (h1 ++ done).drop (h2 ++ done).length)
        [(h1.length + done.length, r), (h2.length + done.length, r)] =
        h2 ++ (done ++ r) ++ (h1 ++ (done ++ r)).drop (h2 ++ (done ++ r)).length := by
      show writeAt (writeAt _ (h1.length + done.length) r) (h2.length + done.length) r = _
      have w1 : writeAt (h2 ++ done ++ (h1 ++ done).drop (h2 ++ done).length) (h1.length + done.length) r =
          h2 ++ done ++ ((h1 ++ done).drop (h2 ++ done).length ++ r) := by
        rw [← List.append_assoc]
        generalize h2 ++ done ++ (h1 ++ done).drop (h2 ++ done).length = c at hlen
        rw [writeAt_eq _ _ r (by rw [hlen]), List.take_of_length_le (by rw [hlen]), List.drop_eq_nil_of_le (by rw [hlen]; omega),
          List.append_nil]
      rw [w1, writeAt_eq _ _ r (by simp only [List.length_append, List.length_drop]; omega),
        List.take_left' (by rw [List.length_append])]
      have hl' : h2.length + done.length + r.length = (h2 ++ done).length + r.length := by rw [List.length_append]
      rw [hl', ← List.drop_drop, List.drop_left, ← List.drop_append_of_le_length (by simp only [List.length_append]; omega),
        List.drop_drop]
      simp only [List.append_assoc, List.length_append, Nat.add_assoc]
    rw [show writesOn [h1, h2] done.length (r :: rows) = [(h1.length + done.length, r), (h2.length + done.length, r)] ++
      writesOn [h1, h2] (done.length + r.length) rows from rfl, put_append, step]
    rw [← List.length_append (as := done) (bs := r), ih (done ++ r), List.flatten_cons, List.append_assoc done r]

theorem writes_longer (h1 h2 : List Char) (hl : h2.length ≤ h1.length) (rows : List (List Char)) :
    put [] (writes [h1, h2] rows) = h2 ++ rows.flatten ++ (h1 ++ rows.flatten).drop (h2 ++ rows.flatten).length := by
  have two : ∀ a b : List Char, put [] [(0, a), (0, b)] = b ++ a.drop b.length := by
    intro a b
    show writeAt (writeAt [] 0 a) 0 b = _
    rw [writeAt_eq [] 0 a (Nat.zero_le _), writeAt_eq _ 0 b (Nat.zero_le _)]
    simp
  cases rows with
  | nil =>
    rw [List.flatten_nil, List.append_nil, List.append_nil]
    exact two h1 h2
  | cons r rows =>
    rw [show writes [h1, h2] (r :: rows) = [(0, h1 ++ r), (0, h2 ++ r)] ++ writesOn [h1, h2] r.length rows from rfl, put_append, two,
      writesOn_longer h1 h2 hl rows r, List.flatten_cons]

theorem mixed_cons (d : Nat) (r r' : List Char) (rs : List (List Char)) :
    mixed d (r :: r' :: rs) = r.take (r.length - d) ++ r'.take d ++ mixed d (r' :: rs) := rfl

theorem writesOn_shorter (h1 h2 : List Char) (d : Nat) (hl : h2.length = h1.length + d) : ∀ (rows : List (List Char)) (r front : List Char)
    (s : Nat), (∀ x ∈ r :: rows, d ≤ x.length) → front.length + r.length = h2.length + s →
    put (front ++ r) (writesOn [h1, h2] s rows) = front ++ mixed d (r :: rows) := by
  intro rows
  induction rows with
  | nil => intro r front s _ _; rfl
  | cons r' rows ih =>
    intro r front s hd hlen
    have h0 := hd r List.mem_cons_self
    have h0' := hd r' (by simp)
    have step : put (front ++ r) [(h1.length + s, r'), (h2.length + s, r')] =
        (front ++ r.take (r.length - d) ++ r'.take d) ++ r' := by
      show writeAt (writeAt (front ++ r) (h1.length + s) r') (h2.length + s) r' = _
      have w1 : writeAt (front ++ r) (h1.length + s) r' = front ++ r.take (r.length - d) ++ r' := by
        rw [writeAt_eq _ _ _ (by rw [List.length_append]; omega), List.drop_eq_nil_of_le (by rw [List.length_append]; omega),
          List.append_nil, List.take_append, List.take_of_length_le (by omega)]
        congr 3
        omega
      have hL : (front ++ r.take (r.length - d)).length = h1.length + s := by
        rw [List.length_append, List.length_take]
        omega
      rw [w1, writeAt_eq _ _ _ (by rw [List.length_append, hL]; omega),
        List.drop_eq_nil_of_le (by rw [List.length_append, hL]; omega), List.append_nil, List.take_append,
        List.take_of_length_le (by rw [hL]; omega), hL]
      congr 3
      omega
    rw [show writesOn [h1, h2] s (r' :: rows) = [(h1.length + s, r'), (h2.length + s, r')] ++ writesOn [h1, h2] (s + r'.length) rows
      from rfl, put_append, step, ih r' _ _ (fun x hx => hd x (List.mem_cons_of_mem _ hx)) ?_, mixed_cons]
    · simp only [List.append_assoc]
    · simp only [List.length_append, List.length_take]
      omega

theorem writes_shorter (h1 h2 : List Char) (d : Nat) (hl : h2.length = h1.length + d) (rows : List (List Char))
    (hd : ∀ x ∈ rows, d ≤ x.length) : put [] (writes [h1, h2] rows) = h2 ++ mixed d rows := by
  have two : ∀ a b : List Char, a.length ≤ b.length → put [] [(0, a), (0, b)] = b := by
    intro a b h
    show writeAt (writeAt [] 0 a) 0 b = _
    rw [writeAt_eq [] 0 a (Nat.zero_le _), writeAt_eq _ 0 b (Nat.zero_le _)]
    simpa using h
  cases rows with
  | nil => exact (two h1 h2 (by omega)).trans (List.append_nil h2).symm
  | cons r rows =>
    rw [show writes [h1, h2] (r :: rows) = [(0, h1 ++ r), (0, h2 ++ r)] ++ writesOn [h1, h2] r.length rows from rfl, put_append,
      two _ _ (by rw [List.length_append, List.length_append]; omega),
      writesOn_shorter h1 h2 d hl rows r h2 r.length hd rfl]

/-! ### C235 -/

/-- **C235, what is in a file.** Full statement: the file of a plot is its header and its points, one line each. For all repetitions
without points in `init` and all plots that share the file `f` (`/` and `-` are the same in a file name, and the labels do not
count): every character of file `f` of repetition `r` is that of the last of the writes which put something there, where each of the
plots writes its header and all rows of all of them, from the beginning of the file on. -/
theorem C235_bytes_partial (text : CsvRow → List Char) (d : Disk) {reps : List (List (String × String × String) ×
    List ((String × String × String × String) × List (String × String × String)) × List (String × String × String))}
    (q : List (String × String × String)) {r : Nat} {rep : List (String × String × String) × List ((String × String × String × String) ×
      List (String × String × String)) × List (String × String × String)} (hr : reps[r]? = some rep) {f : String}
    (hf : ∃ n ∈ rep.1, sanitize n.1 = f) :
    ∃ file, bytesThread text d (reps.flatMap repMsgs ++ [(.quit, q)]) f r = some file ∧
      ∀ x, file[x]? = lastAt (writes (headersFor text f rep.1) (rowsFor text f rep.2.1)) x := by
  refine ⟨_, thread_bytes text d q hr hf, ?_⟩
  intro x
  rw [put_get _ [] (noHole_writes _ _) x]
  simp

/-- **C235, plots with a file of their own, and plots with headers of one length.** If the headers of the plots of a file are equally
long (one plot alone, for instance), the file is the header of the last of them, followed by all rows of all of them, each once. -/
theorem C235_same_length_partial (text : CsvRow → List Char) (d : Disk) {reps : List (List (String × String × String) ×
    List ((String × String × String × String) × List (String × String × String)) × List (String × String × String))}
    (q : List (String × String × String)) {r : Nat} {rep : List (String × String × String) × List ((String × String × String × String) ×
      List (String × String × String)) × List (String × String × String)} (hr : reps[r]? = some rep) {f : String}
    {ns : List (String × String × String)} {n : String × String × String}
    (hf : rep.1.filter (fun n => decide (sanitize n.1 = f)) = ns ++ [n])
    (hl : ∀ m ∈ ns, (text ("series", m.2.1, m.2.2)).length = (text ("series", n.2.1, n.2.2)).length) :
    bytesThread text d (reps.flatMap repMsgs ++ [(.quit, q)]) f r =
      some (text ("series", n.2.1, n.2.2) ++
        ((rep.2.1.filter (fun p => decide (sanitize p.1.1 = f))).map (fun p => text p.1.2)).flatten) := by
  have hm : n ∈ rep.1.filter (fun n => decide (sanitize n.1 = f)) := by rw [hf]; simp
  have hm' := List.mem_filter.1 hm
  rw [thread_bytes text d q hr ⟨n, hm'.1, of_decide_eq_true hm'.2⟩]
  unfold headersFor
  rw [hf, List.map_append, List.map_singleton, writes_equal]
  · rfl
  · intro h hh
    obtain ⟨m, hm, rfl⟩ := List.mem_map.1 hh
    exact hl m hm

/-- **C235, the rows of C70**: for plots that have a file each, the file of characters is that of rows written out. -/
theorem C235_rows_partial (text : CsvRow → List Char) (d : Disk) (fs : Files) {reps : List (List (String × String × String) ×
    List ((String × String × String × String) × List (String × String × String)) × List (String × String × String))}
    (hn : ∀ rep ∈ reps, (rep.1.map (fun n => sanitize n.1)).Nodup) (q : List (String × String × String)) {r : Nat}
    {rep : List (String × String × String) × List ((String × String × String × String) ×
      List (String × String × String)) × List (String × String × String)} (hr : reps[r]? = some rep)
    {n : String × String × String} (hnm : n ∈ rep.1) (hd : ∀ p ∈ rep.2.1, sanitize p.1.1 = sanitize n.1 → p.1.1 = n.1) :
    bytesThread text d (reps.flatMap repMsgs ++ [(.quit, q)]) (sanitize n.1) r =
      (csvThread fs (reps.flatMap repMsgs ++ [(.quit, q)]) (sanitize n.1) r).map (fun rows => (rows.map text).flatten) := by
  have hone : rep.1.filter (fun m => decide (sanitize m.1 = sanitize n.1)) = [] ++ [n] := by
    have hnd := hn rep (List.mem_of_getElem? hr)
    generalize rep.1 = names at hnm hnd
    clear hn hr hd
    induction names with
    | nil => cases hnm
    | cons m names ih =>
      rw [List.map_cons, List.nodup_cons] at hnd
      rcases List.mem_cons.1 hnm with rfl | hm
      · rw [List.filter_cons_of_pos (by simp), List.filter_eq_nil_iff.2]
        · rfl
        · intro k hk hs
          exact hnd.1 (List.mem_map.2 ⟨k, hk, of_decide_eq_true hs⟩)
      · rw [List.filter_cons_of_neg, ih hm hnd.2]
        intro hs
        exact hnd.1 (List.mem_map.2 ⟨n, hm, (of_decide_eq_true hs).symm⟩)
  rw [C235_same_length_partial text d q hr hone (fun m hm => nomatch hm), C70_files_partial fs hn q hr hnm hd, Option.map_some,
    List.map_cons, List.flatten_cons, List.map_map]
  congr 4
  apply List.filter_congr
  intro p hp
  by_cases h : p.1.1 = n.1
  · simp [h]
  · simp only [h, decide_false, decide_eq_false_iff_not]
    exact fun hs => h (hd p hp hs)

/-- **C235, the longer header first**: of two plots with one file whose first one has the longer header, the file is the header of the
second, all rows of both, and the end of the last row once more, as long as the headers differ. -/
theorem C235_longer_first_partial (text : CsvRow → List Char) (d : Disk) {reps : List (List (String × String × String) ×
    List ((String × String × String × String) × List (String × String × String)) × List (String × String × String))}
    (q : List (String × String × String)) {r : Nat} {rep : List (String × String × String) × List ((String × String × String × String) ×
      List (String × String × String)) × List (String × String × String)} (hr : reps[r]? = some rep) {f : String}
    {n1 n2 : String × String × String} (hf : rep.1.filter (fun n => decide (sanitize n.1 = f)) = [n1, n2])
    (hl : (text ("series", n2.2.1, n2.2.2)).length ≤ (text ("series", n1.2.1, n1.2.2)).length) :
    bytesThread text d (reps.flatMap repMsgs ++ [(.quit, q)]) f r =
      some ((text ("series", n2.2.1, n2.2.2) ++ (rowsFor text f rep.2.1).flatten) ++
        (text ("series", n1.2.1, n1.2.2) ++ (rowsFor text f rep.2.1).flatten).drop
          (text ("series", n2.2.1, n2.2.2) ++ (rowsFor text f rep.2.1).flatten).length) := by
  have hm : n1 ∈ rep.1.filter (fun n => decide (sanitize n.1 = f)) := by rw [hf]; simp
  have hm' := List.mem_filter.1 hm
  rw [thread_bytes text d q hr ⟨n1, hm'.1, of_decide_eq_true hm'.2⟩]
  unfold headersFor
  rw [hf]
  exact congrArg some (writes_longer _ _ hl _)

theorem mixed_lines (d : Nat) (hd : 0 < d) : ∀ (rows : List (List Char)), rows ≠ [] →
    (∀ x ∈ rows, d < x.length ∧ ∃ y, x = y ++ ['\n'] ∧ '\n' ∉ y) → (mixed d rows).count '\n' = 1 := by
  intro rows
  induction rows with
  | nil => intro h; exact absurd rfl h
  | cons r rows ih =>
    intro _ h
    have notake : ∀ x ∈ r :: rows, ∀ k, k < x.length → (x.take k).count '\n' = 0 := by
      intro x hx k hk
      obtain ⟨_, y, rfl, hy⟩ := h x hx
      rw [List.length_append, List.length_singleton] at hk
      rw [List.take_append_of_le_length (by omega)]
      exact List.count_eq_zero.2 (fun hh => hy (List.mem_of_mem_take hh))
    cases rows with
    | nil =>
      obtain ⟨_, y, rfl, hy⟩ := h r List.mem_cons_self
      rw [mixed, List.count_append, List.count_eq_zero.2 hy]
      rfl
    | cons r' rows =>
      have h1 := (h r List.mem_cons_self).1
      have h2 := (h r' (by simp)).1
      rw [mixed_cons, List.count_append, List.count_append, notake r List.mem_cons_self _ (by omega), notake r' (by simp) _ h2,
        ih (by simp) (fun x hx => h x (List.mem_cons_of_mem _ hx))]

/-- **C235, false as stated, the shorter header first**: of two plots with one file whose second one has a header longer by `d`, each row
but the last has its last `d` characters replaced by the first `d` of the next one, if no row is shorter. With the line ends gone, the
file has two lines, however many points there are. -/
theorem C235_shorter_first_negation_partial (text : CsvRow → List Char) (disk : Disk) {reps : List (List (String × String × String) ×
    List ((String × String × String × String) × List (String × String × String)) × List (String × String × String))}
    (q : List (String × String × String)) {r : Nat} {rep : List (String × String × String) × List ((String × String × String × String) ×
      List (String × String × String)) × List (String × String × String)} (hr : reps[r]? = some rep) {f : String}
    {n1 n2 : String × String × String} (hf : rep.1.filter (fun n => decide (sanitize n.1 = f)) = [n1, n2]) {d : Nat}
    (hl : (text ("series", n2.2.1, n2.2.2)).length = (text ("series", n1.2.1, n1.2.2)).length + d)
    (hlong : ∀ x ∈ rowsFor text f rep.2.1, d ≤ x.length) :
    bytesThread text disk (reps.flatMap repMsgs ++ [(.quit, q)]) f r =
        some (text ("series", n2.2.1, n2.2.2) ++ mixed d (rowsFor text f rep.2.1)) ∧
      (0 < d → rowsFor text f rep.2.1 ≠ [] → (∀ x ∈ rowsFor text f rep.2.1, x.length ≠ d) →
        (∀ row, ∃ y, text row = y ++ ['\n'] ∧ '\n' ∉ y) →
        (text ("series", n2.2.1, n2.2.2) ++ mixed d (rowsFor text f rep.2.1)).count '\n' = 2) := by
  have hm : n1 ∈ rep.1.filter (fun n => decide (sanitize n.1 = f)) := by rw [hf]; simp
  have hm' := List.mem_filter.1 hm
  refine ⟨?_, ?_⟩
  · rw [thread_bytes text disk q hr ⟨n1, hm'.1, of_decide_eq_true hm'.2⟩]
    unfold headersFor
    rw [hf]
    exact congrArg some (writes_shorter _ _ d hl _ hlong)
  · intro h0 hne hnd ht
    rw [List.count_append, mixed_lines d h0 _ hne]
    · obtain ⟨y, e, hy⟩ := ht ("series", n2.2.1, n2.2.2)
      rw [e, List.count_append, List.count_eq_zero.2 hy]
      rfl
    · intro x hx
      refine ⟨Nat.lt_of_le_of_ne (hlong x hx) (Ne.symm (hnd x hx)), ?_⟩
      obtain ⟨p, _, rfl⟩ := List.mem_map.1 hx
      exact ht p.1.2

/-- How the crate csv writes a record none of whose fields needs quotes. -/
def plainText (row : CsvRow) : List Char := row.1.toList ++ ',' :: (row.2.1.toList ++ ',' :: (row.2.2.toList ++ ['\n']))

/-- Three points of the plot `p`, which has been added with the label `x` and, in a later call of `simulate!`, with `time`; `PLOT_NAMES`
in this order. -/
def sharedMsgs (names : List (String × String × String)) : List (Msg × List (String × String × String)) :=
  [(names, [(("p", "s", "1", "5"), []), (("p", "s", "2", "6"), []), (("p", "s", "3", "7"), [])], [])].flatMap repMsgs ++ [(.quit, [])]

/-- **C235, false as stated**: the same program leaves a readable file with a piece of a line at its end, or one without the first two
points as lines, depending on the order of a hash set. -/
theorem C235_order_negation_partial :
    bytesThread plainText (fun _ _ => none) (sharedMsgs [("p", "time", "y"), ("p", "x", "y")]) "p" 0 =
      some "series,x,y\ns,1,5\ns,2,6\ns,3,7\n,7\n".toList ∧
    bytesThread plainText (fun _ _ => none) (sharedMsgs [("p", "x", "y"), ("p", "time", "y")]) "p" 0 =
      some "series,time,y\ns,1s,2s,2s,3s,3,7\n".toList := by
  refine ⟨?_, ?_⟩ <;> decide +kernel

/-- How the plots come about: a model whose plot has another label in the second call. -/
example : ((execAll (Mon.empty true) [.add "p" "x" "y" false true]).bind
    (fun m => execAll m [.add "p" "time" "y" false true, .clear])).map Mon.names = some [("p", "x", "y"), ("p", "time", "y")] := by
  decide +kernel

/-- Two plots whose names differ in `/` and `-`, with labels of one length: every point is in the file once. -/
example : bytesThread plainText (fun _ _ => none) ([([("a/b", "x", "y"), ("a-b", "u", "v")],
    [(("a/b", "s", "1", "5"), []), (("a-b", "s", "2", "6"), [])], [])].flatMap repMsgs ++ [(.quit, [])]) "a-b" 0 =
    some "series,u,v\ns,1,5\ns,2,6\n".toList := by
  decide +kernel

end Verif.Monitor
