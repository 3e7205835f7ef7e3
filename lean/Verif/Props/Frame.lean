import Verif.Model.Frame
import Verif.Spec.Frame
import Mathlib.Data.List.Nodup
import Mathlib.Data.List.Perm.Basic

/-!
The rows that explorations return: columns and names fit (C147), rows travel between processes without loss (C148).
-/

namespace Verif.Frame

/-! ### Lemmas -/

theorem lookup_zip {V : Type} : ∀ (names : List String) (args : List V), names.Nodup → names.length = args.length →
    ∀ (k : Nat) (h1 : k < names.length) (h2 : k < args.length), (names.zip args).lookup names[k] = some args[k]
  | [], _, _, _, k, h1, _ => absurd h1 (by simp)
  | n :: names, [], _, hl, _, _, _ => absurd hl (by simp)
  | n :: names, a :: args, hn, hl, k, h1, h2 => by
    cases k with
    | zero => simp
    | succ k =>
      have hm : names[k]'(by simpa using h1) ∈ names := List.getElem_mem _
      have hne : (names[k]'(by simpa using h1) == n) = false := by
        rw [beq_eq_false_iff_ne]
        intro he
        exact (List.nodup_cons.1 hn).1 (he ▸ hm)
      simp only [List.zip_cons_cons, List.getElem_cons_succ, List.lookup_cons, hne]
      exact lookup_zip names args (List.nodup_cons.1 hn).2 (by simpa using hl) k (by simpa using h1) (by simpa using h2)

theorem mapM_some {X Y : Type} (f : X → Option Y) (g : X → Y) : ∀ (l : List X), (∀ x ∈ l, f x = some (g x)) →
    l.mapM f = some (l.map g)
  | [], _ => rfl
  | x :: l, h => by
    rw [List.mapM_cons, h x (by simp), mapM_some f g l (fun y hy => h y (by simp [hy]))]
    rfl

theorem lookup_map {V : Type} (g : String → V) : ∀ (l : List String) (x : String), x ∈ l →
    (l.map (fun f => (f, g f))).lookup x = some (g x)
  | [], _, h => absurd h (by simp)
  | a :: l, x, h => by
    rw [List.map_cons, List.lookup_cons]
    cases hb : x == a with
    | true => rw [eq_of_beq hb]
    | false =>
      refine lookup_map g l x ?_
      rcases List.mem_cons.1 h with h | h
      · rw [h] at hb; simp at hb
      · exact h

/-- Building a struct from variables and reading fields from it. -/
theorem build_read {V : Type} (fields params order : List String) (args : List V) (hn : params.Nodup)
    (hl : params.length = args.length) (hf : ∀ f, f ∈ fields ↔ f ∈ params) (ho : ∀ f ∈ order, f ∈ params) :
    ∃ s, build fields (params.zip args) = some s ∧ s.map Prod.fst = fields ∧
      ∀ (pretty : V → String), order.mapM (fun f => (s.lookup f).map pretty) =
        order.mapM (fun f => ((params.zip args).lookup f).map pretty) := by
  have hall : ∀ f ∈ params, ∃ v, (params.zip args).lookup f = some v := by
    intro f hfm
    obtain ⟨k, hk, rfl⟩ := List.getElem_of_mem hfm
    exact ⟨_, lookup_zip params args hn hl k hk (by omega)⟩
  cases args with
  | nil =>
    have hp : params = [] := by simpa using hl
    subst hp
    have hfe : fields = [] := by
      cases fields with
      | nil => rfl
      | cons f fs => exact absurd ((hf f).1 (by simp)) (by simp)
    subst hfe
    exact ⟨[], rfl, rfl, fun _ => rfl⟩
  | cons a0 as =>
    let g : String → V := fun f => ((params.zip (a0 :: as)).lookup f).getD a0
    have hg : ∀ f ∈ params, (params.zip (a0 :: as)).lookup f = some (g f) := by
      intro f hfm
      obtain ⟨v, hv⟩ := hall f hfm
      simp only [g, hv, Option.getD_some]
    refine ⟨fields.map (fun f => (f, g f)), ?_, ?_, ?_⟩
    · refine mapM_some _ _ _ (fun f hfm => ?_)
      rw [hg f ((hf f).1 hfm)]; rfl
    · rw [List.map_map]; exact (List.map_congr_left (fun f _ => rfl)).trans (List.map_id _)
    · intro pretty
      rw [mapM_some _ (fun f => pretty (g f)) order, mapM_some _ (fun f => pretty (g f)) order]
      · intro f hfm; rw [hg f (ho f hfm)]; rfl
      · intro f hfm; rw [lookup_map g fields f ((hf f).2 (ho f hfm))]; rfl

theorem read_params {V : Type} (params : List String) (args : List V) (hn : params.Nodup) (hl : params.length = args.length)
    (pretty : V → String) : params.mapM (fun f => ((params.zip args).lookup f).map pretty) = some (args.map pretty) := by
  have hall : ∀ (k : Nat) (h : k < params.length), ((params.zip args).lookup params[k]).map pretty =
      some (pretty (args[k]'(by omega))) := by
    intro k h
    rw [lookup_zip params args hn hl k h (by omega)]; rfl
  have key : ∀ (ps : List String) (as : List V) (F : String → Option String), ps.length = as.length →
      (∀ (k : Nat) (h : k < ps.length) (h2 : k < as.length), F ps[k] = some (pretty as[k])) →
      ps.mapM F = some (as.map pretty) := by
    intro ps
    induction ps with
    | nil => intro as F hl _; cases as with
      | nil => rfl
      | cons a as => exact absurd hl (by simp)
    | cons p ps ih =>
      intro as F hl h
      cases as with
      | nil => exact absurd hl (by simp)
      | cons a as =>
        rw [List.mapM_cons, ih as F (by simpa using hl) (fun k h1 h2 => by
          have := h (k + 1) (by simpa using h1) (by simpa using h2)
          simpa using this)]
        have := h 0 (by simp) (by simp)
        simp only [List.getElem_cons_zero] at this
        rw [this]; rfl
  exact key params args _ hl (fun k h1 h2 => hall k h1)

theorem writeCsv_ok {A : Type} (names : List String) (f : A → List String) : ∀ (rows : List A),
    (∀ a ∈ rows, (f a).length = names.length) → Search.writeCsv names f rows = some (rows.map f)
  | [], _ => rfl
  | a :: rows, h => by
    unfold Search.writeCsv
    rw [if_pos (h a (by simp)), writeCsv_ok names f rows (fun b hb => h b (by simp [hb]))]
    rfl

/-! ### C147 -/

/-- **C147.** For every declaration with distinct names of fields (the compiler requires that), `new` with one value for each of its parameters
gives a struct whose `to_string` shows the values in the order of the parameters, and `field_names` are the headings of the parameters in
the same order: column `k` shows argument `k` below the name of parameter `k`. -/
theorem C147_row {V : Type} (pretty : V → String) (d : Decl) (args : List V) (hn : d.params.Nodup)
    (hl : args.length = d.params.length) :
    ∃ s, new d args = some s ∧ s.map Prod.fst = d.fields ∧ toStrings pretty d s = some (args.map pretty) ∧
      fieldNames d = d.params.map heading := by
  have hperm : ∀ f, f ∈ d.fields ↔ f ∈ d.params := by
    intro f; simp only [Decl.fields, Decl.params, List.mem_append]; tauto
  obtain ⟨s, h1, h2, h3⟩ := build_read d.fields d.params d.params args hn hl.symm hperm (fun f hf => hf)
  refine ⟨s, h1, h2, (h3 pretty).trans (read_params d.params args hn hl.symm pretty), ?_⟩
  have hother : ∀ l : List String, (∀ f ∈ l, f ≠ "conf_num" ∧ f ≠ "conf_rep" ∧ f ≠ "run_duration" ∧ f ≠ "step_per_sec") →
      l.map heading = l := by
    intro l hl
    refine (List.map_congr_left (fun f hf => ?_)).trans (List.map_id l)
    obtain ⟨a, b, c, e⟩ := hl f hf
    simp [heading, a, b, c, e]
  have hnot : ∀ f, f ∈ d.input ++ d.inputVec ++ d.output →
      f ≠ "conf_num" ∧ f ≠ "conf_rep" ∧ f ≠ "run_duration" ∧ f ≠ "step_per_sec" := by
    intro f hf
    have hassoc : d.params = ["conf_num", "conf_rep"] ++ ((d.input ++ d.inputVec ++ d.output) ++ ["run_duration", "step_per_sec"]) := by
      simp [Decl.params]
    rw [hassoc, List.nodup_append] at hn
    have h4 := hn.2.2
    have h5 := (List.nodup_append.1 hn.2.1).2.2
    refine ⟨?_, ?_, ?_, ?_⟩
    · exact (h4 _ (by simp) f (List.mem_append_left _ hf)).symm
    · exact (h4 _ (by simp) f (List.mem_append_left _ hf)).symm
    · exact h5 f hf _ (by simp)
    · exact h5 f hf _ (by simp)
  unfold fieldNames Decl.params
  simp only [List.map_append]
  rw [hother d.input (fun f hf => hnot f (by simp [hf])), hother d.inputVec (fun f hf => hnot f (by simp [hf])),
    hother d.output (fun f hf => hnot f (by simp [hf]))]
  rfl

/-- **C147.** The file that `write_csv` makes of such rows: writing succeeds, and in the record of row `r` the value of field `f`
stands below its heading. -/
theorem C147_file {V : Type} (pretty : V → String) (d : Decl) (rows : List (List V)) (hn : d.params.Nodup)
    (hl : ∀ args ∈ rows, args.length = d.params.length) :
    ∃ structs, rows.mapM (new d) = some structs ∧
    ∃ records, Search.writeCsv (fieldNames d) (fun s => (toStrings pretty d s).getD []) structs = some records ∧
      records.length = rows.length ∧
      ∀ (r : Nat) (args : List V), rows[r]? = some args → ∀ (k : Nat) (f : String), d.params[k]? = some f →
        (fieldNames d)[k]? = some (heading f) ∧
        (records[r]?).bind (fun rec => rec[k]?) = (valueOf d.params args f).map pretty := by
  have hrow : ∀ args ∈ rows, ∃ s, new d args = some s ∧ toStrings pretty d s = some (args.map pretty) := by
    intro args ha
    obtain ⟨s, h1, _, h3, _⟩ := C147_row pretty d args hn (hl args ha)
    exact ⟨s, h1, h3⟩
  have hstr : ∃ structs, rows.mapM (new d) = some structs ∧
      structs.map (fun s => (toStrings pretty d s).getD []) = rows.map (List.map pretty) := by
    clear hl
    induction rows with
    | nil => exact ⟨[], rfl, rfl⟩
    | cons args rows ih =>
      obtain ⟨s, h1, h2⟩ := hrow args (by simp)
      obtain ⟨ss, h3, h4⟩ := ih (fun a ha => hrow a (by simp [ha]))
      refine ⟨s :: ss, ?_, ?_⟩
      · rw [List.mapM_cons, h1, h3]; rfl
      · rw [List.map_cons, List.map_cons, h4, h2]; rfl
  obtain ⟨structs, h1, h2⟩ := hstr
  have hnames : fieldNames d = d.params.map heading := by
    cases rows with
    | nil =>
      obtain ⟨_, _, _, _, h⟩ := C147_row (fun _ : String => "") d d.params hn rfl
      exact h
    | cons args rows =>
      obtain ⟨_, _, _, _, h⟩ := C147_row pretty d args hn (hl args (by simp))
      exact h
  have hw := writeCsv_ok (fieldNames d) (fun s => (toStrings pretty d s).getD []) structs (by
    intro s hs
    have : (toStrings pretty d s).getD [] ∈ rows.map (List.map pretty) := by rw [← h2]; exact List.mem_map_of_mem hs
    obtain ⟨args, ha, he⟩ := List.mem_map.1 this
    rw [← he, hnames, List.length_map, List.length_map, hl args ha])
  refine ⟨structs, h1, _, hw, by rw [h2, List.length_map], ?_⟩
  intro r args hr k f hk
  refine ⟨by rw [hnames, List.getElem?_map, hk]; rfl, ?_⟩
  rw [h2, List.getElem?_map, hr]
  dsimp only [Option.map_some, Option.bind_some]
  obtain ⟨hk1, hk2⟩ := List.getElem?_eq_some_iff.1 hk
  have hla := hl args (List.mem_of_getElem? hr)
  unfold valueOf
  rw [← hk2, lookup_zip d.params args hn hla.symm k hk1 (by omega), List.getElem?_map, List.getElem?_eq_getElem (by omega)]

/-- **C147.** The same for the structs of `build_dataframe_explore!`. -/
theorem C147_explore_row {V : Type} (pretty : V → String) (input vecs : List String) (args : List V) (hn : (input ++ vecs).Nodup)
    (hl : args.length = (input ++ vecs).length) :
    ∃ s, exploreNew input vecs args = some s ∧ s.map Prod.fst = exploreNames input vecs ∧
      exploreStrings pretty input vecs s = some (args.map pretty) := by
  obtain ⟨s, h1, h2, h3⟩ := build_read (input ++ vecs) (input ++ vecs) (input ++ vecs) args hn hl.symm (fun f => Iff.rfl) (fun f hf => hf)
  exact ⟨s, h1, h2, (h3 pretty).trans (read_params _ args hn hl.symm pretty)⟩

/-- A declaration with two inputs, a vector and an output; the order of the fields is not that of the columns. -/
example : (⟨["rate", "size"], ["seeds"], ["dead"]⟩ : Decl).params.Nodup ∧
    (⟨["rate", "size"], ["seeds"], ["dead"]⟩ : Decl).fields ≠ (⟨["rate", "size"], ["seeds"], ["dead"]⟩ : Decl).params ∧
    (new ⟨["rate", "size"], ["seeds"], ["dead"]⟩ [0, 1, 10, 20, 30, 40, 7, 8]).bind
      (toStrings (fun n : Nat => toString n) ⟨["rate", "size"], ["seeds"], ["dead"]⟩)
      = some ["0", "1", "10", "20", "30", "40", "7", "8"] ∧
    fieldNames ⟨["rate", "size"], ["seeds"], ["dead"]⟩ =
      ["Simulation", "Run", "rate", "size", "seeds", "dead", "Run Duration", "Step per sec"] := by
  refine ⟨by decide, by decide, by decide +kernel, by decide⟩

/-! ### C148 -/

theorem zipWith_replicate_one : ∀ (l : List Nat) (n : Nat), n = l.length → List.zipWith (· * ·) (List.replicate n 1) l = l
  | [], _, _ => by simp
  | a :: l, n, h => by
    subst h
    rw [List.length_cons, List.replicate_succ, List.zipWith_cons_cons, zipWith_replicate_one l _ rfl, Nat.one_mul]

theorem structured_ones {n : Nat} {ds bs : List Nat} (h1 : n = ds.length) (h2 : ds.length = bs.length) :
    structured (List.replicate n 1) ds bs = some (ds.zip bs) := by
  unfold structured
  rw [if_pos ⟨by rw [List.length_replicate]; exact h1, h2⟩, zipWith_replicate_one bs n (h1.trans h2)]

theorem receive_block {B : Type} {blocks : List (Nat × Nat)} {sent old : Nat → B} {o l : Nat} (hm : (o, l) ∈ blocks) {b : Nat}
    (hb : b < l) : receive blocks sent old (o + b) = sent (o + b) := by
  unfold receive
  refine if_pos ?_
  rw [List.any_eq_true]
  exact ⟨(o, l), hm, by simp; omega⟩

theorem receive_outside {B : Type} {blocks : List (Nat × Nat)} {sent old : Nat → B} {a : Nat}
    (h : ∀ o l, (o, l) ∈ blocks → a < o ∨ o + l ≤ a) : receive blocks sent old a = old a := by
  unfold receive
  refine if_neg ?_
  rw [List.any_eq_true]
  rintro ⟨⟨o, l⟩, hm, hb⟩
  rcases h o l hm with h | h <;> simp at hb <;> omega

/-- **C148.** A row sent by a process arrives complete: the MPI type of a data frame can be built for every declaration, and every byte of
every field of the struct (the types being those of the declaration) has at the receiver the value it had at the sender; bytes outside
of the fields stay. -/
theorem C148_row_received {B : Type} (offset : String → Nat) (d : Decl) (inputTy outputTy : List Nat) (vecTy : List (Nat × Nat))
    (hi : inputTy.length = d.input.length) (ho : outputTy.length = d.output.length) (hv : vecTy.length = d.inputVec.length)
    (sent old : Nat → B) :
    ∃ blocks, datatype offset d inputTy outputTy vecTy = some blocks ∧
      (typed d inputTy outputTy vecTy).map Prod.fst = d.fields ∧
      (∀ f t, (f, t) ∈ typed d inputTy outputTy vecTy → ∀ b < t.bytes,
        receive blocks sent old (offset f + b) = sent (offset f + b)) ∧
      (∀ a, (∀ f t, (f, t) ∈ typed d inputTy outputTy vecTy → a < offset f ∨ offset f + t.bytes ≤ a) →
        receive blocks sent old a = old a) := by
  have hst := structured_ones (n := d.input.length + d.output.length + d.inputVec.length + 4)
    (ds := [offset "conf_num", offset "conf_rep"] ++ d.input.map offset ++ d.inputVec.map offset ++ d.output.map offset
      ++ [offset "run_duration", offset "step_per_sec"])
    (bs := [4, 4] ++ inputTy ++ vecTy.map (fun t => t.2 * t.1) ++ outputTy ++ [4, 4])
    (by simp; omega) (by simp; omega)
  have hmem : ∀ p, p ∈ ([offset "conf_num", offset "conf_rep"] ++ d.input.map offset ++ d.inputVec.map offset
      ++ d.output.map offset ++ [offset "run_duration", offset "step_per_sec"]).zip
        ([4, 4] ++ inputTy ++ vecTy.map (fun t => t.2 * t.1) ++ outputTy ++ [4, 4]) ↔
      ∃ q ∈ typed d inputTy outputTy vecTy, (offset q.1, q.2.bytes) = p := by
    intro p
    have e1 : (d.input.map offset).zip inputTy = (d.input.zip (inputTy.map Ty.scalar)).map (fun q => (offset q.1, q.2.bytes)) := by
      rw [List.zip_map_left, List.zip_map_right, List.map_map]; rfl
    have e2 : (d.output.map offset).zip outputTy = (d.output.zip (outputTy.map Ty.scalar)).map (fun q => (offset q.1, q.2.bytes)) := by
      rw [List.zip_map_left, List.zip_map_right, List.map_map]; rfl
    have e3 : (d.inputVec.map offset).zip (vecTy.map (fun t => t.2 * t.1)) =
        (d.inputVec.zip (vecTy.map (fun t => Ty.array t.1 t.2))).map (fun q => (offset q.1, q.2.bytes)) := by
      rw [List.zip_map_left, List.zip_map_right, List.zip_map_right, List.map_map, List.map_map]
      refine List.map_congr_left (fun q _ => ?_)
      simp [Ty.bytes, Nat.mul_comm]
      rfl
    rw [List.zip_append (by simp; omega), List.zip_append (by simp; omega), List.zip_append (by simp; omega),
      List.zip_append (by simp), e1, e2, e3, ← List.mem_map]
    unfold typed
    simp only [List.map_append, List.mem_append]
    have c1 : ([offset "conf_num", offset "conf_rep"].zip [4, 4]) =
      [("conf_num", Ty.scalar 4), ("conf_rep", Ty.scalar 4)].map (fun q => (offset q.1, q.2.bytes)) := rfl
    have c2 : ([offset "run_duration", offset "step_per_sec"].zip [4, 4]) =
      [("run_duration", Ty.scalar 4), ("step_per_sec", Ty.scalar 4)].map (fun q => (offset q.1, q.2.bytes)) := rfl
    rw [c1, c2]
    tauto
  refine ⟨_, hst, ?_, ?_, ?_⟩
  · unfold typed Decl.fields
    simp only [List.map_append]
    rw [List.map_fst_zip (by simp; omega), List.map_fst_zip (by simp; omega), List.map_fst_zip (by simp; omega)]
    rfl
  · intro f t hm b hb
    exact receive_block ((hmem _).2 ⟨(f, t), hm, rfl⟩) hb
  · intro a ha
    refine receive_outside (fun o l hm => ?_)
    obtain ⟨⟨f, t⟩, hm', he⟩ := (hmem (o, l)).1 hm
    obtain ⟨rfl, rfl⟩ := Prod.mk.inj he
    exact ha f t hm'

/-- **C148.** The same for the individuals of the distributed genetic search. -/
theorem C148_individual_received {B : Type} (offset : String → Nat) (input : List String) (inputTy : List Nat)
    (hi : inputTy.length = input.length) (sent old : Nat → B) :
    ∃ blocks, exploreDatatype offset input inputTy = some blocks ∧
      ∀ f t, (f, t) ∈ input.zip inputTy → ∀ b < t, receive blocks sent old (offset f + b) = sent (offset f + b) := by
  refine ⟨_, structured_ones (by simp) (by simp [hi]), fun f t hm b hb => receive_block ?_ hb⟩
  rw [List.zip_map_left]
  exact List.mem_map.2 ⟨(f, t), hm, rfl⟩

/-- A frame with one input of 8 bytes, a vector of three `f32` and an output of 4 bytes, and its blocks for a layout. -/
example : datatype (fun f => if f = "rate" then 0 else if f = "seeds" then 8 else if f = "dead" then 20 else if f = "conf_num" then 24
      else if f = "conf_rep" then 28 else if f = "run_duration" then 32 else 36) ⟨["rate"], ["seeds"], ["dead"]⟩ [8] [4] [(4, 3)] =
    some [(24, 4), (28, 4), (0, 8), (8, 12), (20, 4), (32, 4), (36, 4)] := by decide +kernel

end Verif.Frame
