import Verif.Lemmas.DBDashMap
import Verif.Spec.ParGrid
import Mathlib.Data.List.Nodup
import Mathlib.Data.List.Basic
import Mathlib.Data.List.Induction

/-! Lemmas about the grids under the feature `parallel`. -/

set_option linter.unusedSectionVars false

namespace Verif.ParGrid

open Grid DBDashMap ParGridSpec

variable {T O I : Type} [DecidableEq I]

section
variable {K V : Type} [DecidableEq K]

theorem getRead_abs {db : DB K V} (hi : Inv db) (k : K) : getRead db k = some ((abs db).read k) := by
  obtain ⟨s, hs, _, hg⟩ := rshard_exists hi k
  simp [getRead, hs, hg]

theorem getWrite_abs {db : DB K V} (hi : Inv db) (k : K) : getWrite db k = some ((abs db).write k) := by
  obtain ⟨s, hs, _, hg⟩ := shard_exists hi k
  simp [getWrite, hs, hg]

theorem lazyUpdate_sim {db : DB K V} (hi : Inv db) :
    Inv (DBDashMap.lazyUpdate db) ∧ abs (DBDashMap.lazyUpdate db) = ⟨(abs db).write, fun _ => none⟩ := by
  obtain ⟨db', o, h1, h2, h3, _⟩ := exec_sim hi .lazyUpdate
  simp only [exec, Option.some.injEq, Prod.mk.injEq] at h1
  rw [← h1.1] at h2 h3
  refine ⟨h2, ?_⟩
  generalize abs (DBDashMap.lazyUpdate db) = p at h3
  cases h3
  rfl

end

/-! ### Number grids -/

/-- What a number grid holds. -/
structure NShows (g : NGrid T) (r w : Loc → Option T) : Prop where
  inv : Inv g.locs
  read : (abs g.locs).read = r
  write : (abs g.locs).write = w

theorem nshows_exec {g : NGrid T} {r w : Loc → Option T} (h : NShows g r w) (op : NOp T) :
    ∃ g', g.exec op = some g' ∧ g'.width = g.width ∧ g'.height = g.height ∧
      match op with
      | .set v l => NShows g' r (fun l' => if l' = l then some v else w l')
      | .update => NShows g' (fun l => (w l).or (r l)) w
      | .lazyUpdate => NShows g' w (fun _ => none)
      | .apply f .READ => NShows g' r (fun l => ((r l).map f).or (w l))
      | .apply f .WRITE => NShows g' r (fun l => (w l).map f)
      | .apply f .READWRITE => NShows g' r (fun l => match r l with | none => w l | some v => some (f ((w l).getD v))) := by
  obtain ⟨hi, rfl, rfl⟩ := h
  cases op with
  | set v l =>
    obtain ⟨db', h1, h2, _, h3⟩ := insert_sim hi l v
    refine ⟨{ g with locs := db' }, by simp [NGrid.exec, NGrid.setValueLocation, h1], rfl, rfl, h2, ?_, ?_⟩
    · show (abs db').read = _
      rw [h3]
    · show (abs db').write = _
      rw [h3]
      rfl
  | update =>
    refine ⟨_, rfl, rfl, rfl, (update_sim hi).1, ?_, ?_⟩
    · show (abs (DBDashMap.update g.locs)).read = _
      rw [(update_sim hi).2]
    · show (abs (DBDashMap.update g.locs)).write = _
      rw [(update_sim hi).2]
  | lazyUpdate =>
    refine ⟨_, rfl, rfl, rfl, (lazyUpdate_sim hi).1, ?_, ?_⟩
    · show (abs (DBDashMap.lazyUpdate g.locs)).read = _
      rw [(lazyUpdate_sim hi).2]
    · show (abs (DBDashMap.lazyUpdate g.locs)).write = _
      rw [(lazyUpdate_sim hi).2]
  | apply f o =>
    cases o with
    | READ =>
      obtain ⟨db', h1, h2, h3⟩ := applyAll_fold f _ g.locs hi hi.r.wf_flatten
      refine ⟨{ g with locs := db' }, ?_, rfl, rfl, h2, ?_, ?_⟩
      · simp only [NGrid.exec, NGrid.applyToAllValues, DBDashMap.applyToAllValues, h1, Option.map_some]
      · show (abs db').read = _
        rw [h3]
      · show (abs db').write = _
        rw [h3]
        funext l
        dsimp only
        rw [hi.r.get_flatten]
        rfl
    | WRITE =>
      refine ⟨_, rfl, rfl, rfl, (applyW_sim hi f).1, ?_, ?_⟩
      · show (abs (DBDashMap.applyToAllValuesWrite g.locs f)).read = _
        rw [(applyW_sim hi f).2]
      · show (abs (DBDashMap.applyToAllValuesWrite g.locs f)).write = _
        rw [(applyW_sim hi f).2]
    | READWRITE =>
      refine ⟨_, rfl, rfl, rfl, (applyRW_sim hi f).1, ?_, ?_⟩
      · show (abs (DBDashMap.applyToAllValuesReadWrite g.locs f)).read = _
        rw [(applyRW_sim hi f).2]
      · show (abs (DBDashMap.applyToAllValuesReadWrite g.locs f)).write = _
        rw [(applyRW_sim hi f).2]
        rfl

theorem nshows_run {g0 : NGrid T} (h0 : NShows g0 (fun _ => none) (fun _ => none)) (h : List (NOp T))
    (hp : ∀ op ∈ h, NPlain op) :
    ∃ g, NGrid.run g0 h = some g ∧ NShows g (published h) (written h) := by
  induction h with
  | nil => exact ⟨g0, rfl, h0⟩
  | cons op h ih =>
    obtain ⟨g, h1, h2⟩ := ih (fun o ho => hp o (List.mem_cons_of_mem _ ho))
    obtain ⟨g', h3, _, _, h4⟩ := nshows_exec h2 op
    refine ⟨g', by rw [NGrid.run, h1]; exact h3, ?_⟩
    have := hp op List.mem_cons_self
    cases op with
    | apply f o => exact absurd this (by simp [NPlain])
    | set v l => exact h4
    | update => exact h4
    | lazyUpdate => exact h4

theorem nshows_new {cpus : Nat} (hc : shardAmount cpus ≤ 2 ^ 64) (hash : Loc → Nat) (w h : Int) :
    NShows (NGrid.newDense cpus hash w h : NGrid T) (fun _ => none) (fun _ => none) ∧
      NShows (NGrid.newSparse cpus hash w h : NGrid T) (fun _ => none) (fun _ => none) := by
  refine ⟨⟨inv_new hc hash, ?_, ?_⟩, ⟨inv_new hc hash, ?_, ?_⟩⟩
  all_goals
    simp only [NGrid.newDense, NGrid.newSparse, abs_new]
    rfl

/-! ### Object grids -/

/-- What an object grid holds: published and written locations, published and written bags. -/
structure OShows (g : OGrid O I) (rl wl : I → Option (O × Loc)) (rb wb : Loc → Option (List O)) : Prop where
  invO : Inv g.obj2loc
  invL : Inv g.loc2objs
  readO : (abs g.obj2loc).read = rl
  writeO : (abs g.obj2loc).write = wl
  readL : (abs g.loc2objs).read = rb
  writeL : (abs g.loc2objs).write = wb

theorem oshows_self {g : OGrid O I} (h1 : Inv g.obj2loc) (h2 : Inv g.loc2objs) :
    OShows g (abs g.obj2loc).read (abs g.obj2loc).write (abs g.loc2objs).read (abs g.loc2objs).write :=
  ⟨h1, h2, rfl, rfl, rfl, rfl⟩

theorem putInBag_sim (ident : O → I) {g : OGrid O I} (hi : Inv g.loc2objs) (o : O) (l : Loc) :
    ∃ m, g.putInBag ident o l = some m ∧ Inv m ∧ (abs m).read = (abs g.loc2objs).read ∧
      (abs m).write = fun l' => if l' = l then
        some (pushObject ident o (((abs g.loc2objs).write l).getD [])) else (abs g.loc2objs).write l' := by
  unfold OGrid.putInBag
  rw [getWrite_abs hi, Option.bind_some]
  cases hb : (abs g.loc2objs).write l with
  | none =>
    obtain ⟨db', h1, h2, _, h3⟩ := insert_sim hi l [o]
    refine ⟨db', by simp [h1], h2, by rw [h3], ?_⟩
    rw [h3]
    rfl
  | some b =>
    obtain ⟨db', h1, h2, h3⟩ := modifyWrite_sim hi l (pushObject ident o)
    refine ⟨db', h1, h2, by rw [h3], ?_⟩
    rw [h3, hb]
    rfl

theorem oshows_place (ident : O → I) {g : OGrid O I} {rl wl : I → Option (O × Loc)} {rb wb : Loc → Option (List O)}
    (h : OShows g rl wl rb wb) (o : O) (l : Loc) :
    ∃ g', g.setObjectLocation ident o l = some g' ∧ g'.width = g.width ∧ g'.height = g.height ∧
      OShows g' rl (fun i => if i = ident o then some (o, l) else wl i) rb
        (fun l' => if l' = l then some (pushObject ident o ((wb l).getD [])) else wb l') := by
  obtain ⟨hO, hL, rfl, rfl, rfl, rfl⟩ := h
  obtain ⟨m, h1, h2, h3, h4⟩ := putInBag_sim ident hL o l
  obtain ⟨db', k1, k2, _, k3⟩ := insert_sim hO (ident o) (o, l)
  refine ⟨{ g with loc2objs := m, obj2loc := db' }, ?_, rfl, rfl, k2, h2, ?_, ?_, h3, h4⟩
  · unfold OGrid.setObjectLocation
    rw [h1, Option.bind_some, k1]
    rfl
  · show (abs db').read = _
    rw [k3]
  · show (abs db').write = _
    rw [k3]
    rfl

theorem oshows_update {g : OGrid O I} {rl wl : I → Option (O × Loc)} {rb wb : Loc → Option (List O)}
    (h : OShows g rl wl rb wb) : OShows g.update (fun i => (wl i).or (rl i)) wl (fun l => (wb l).or (rb l)) wb := by
  obtain ⟨hO, hL, rfl, rfl, rfl, rfl⟩ := h
  refine ⟨(update_sim hO).1, (update_sim hL).1, ?_, ?_, ?_, ?_⟩
  · show (abs (DBDashMap.update g.obj2loc)).read = _
    rw [(update_sim hO).2]
  · show (abs (DBDashMap.update g.obj2loc)).write = _
    rw [(update_sim hO).2]
  · show (abs (DBDashMap.update g.loc2objs)).read = _
    rw [(update_sim hL).2]
  · show (abs (DBDashMap.update g.loc2objs)).write = _
    rw [(update_sim hL).2]

theorem oshows_lazy {g : OGrid O I} {rl wl : I → Option (O × Loc)} {rb wb : Loc → Option (List O)}
    (h : OShows g rl wl rb wb) : OShows g.lazyUpdate wl (fun _ => none) wb (fun _ => none) := by
  obtain ⟨hO, hL, rfl, rfl, rfl, rfl⟩ := h
  refine ⟨(lazyUpdate_sim hO).1, (lazyUpdate_sim hL).1, ?_, ?_, ?_, ?_⟩
  · show (abs (DBDashMap.lazyUpdate g.obj2loc)).read = _
    rw [(lazyUpdate_sim hO).2]
  · show (abs (DBDashMap.lazyUpdate g.obj2loc)).write = _
    rw [(lazyUpdate_sim hO).2]
  · show (abs (DBDashMap.lazyUpdate g.loc2objs)).read = _
    rw [(lazyUpdate_sim hL).2]
  · show (abs (DBDashMap.lazyUpdate g.loc2objs)).write = _
    rw [(lazyUpdate_sim hL).2]

theorem oshows_new {cpus : Nat} (hc : shardAmount cpus ≤ 2 ^ 64) (hashO : I → Nat) (hashL : Loc → Nat) (w h : Int) :
    OShows (OGrid.new cpus hashO hashL w h : OGrid O I) (fun _ => none) (fun _ => none) (fun _ => none) (fun _ => none) := by
  refine ⟨inv_new hc hashO, inv_new hc hashL, ?_, ?_, ?_, ?_⟩
  all_goals
    simp only [OGrid.new, abs_new]
    rfl

theorem OShows.congr {g : OGrid O I} {rl wl rl' wl' : I → Option (O × Loc)} {rb wb rb' wb' : Loc → Option (List O)}
    (h : OShows g rl wl rb wb) (h1 : rl' = rl) (h2 : wl' = wl) (h3 : rb' = rb) (h4 : wb' = wb) : OShows g rl' wl' rb' wb' := by
  subst h1 h2 h3 h4
  exact h

/-! The bag left by a list of placements. -/

/-- Placing one object after the other. -/
def bagOf (ident : O → I) (os : List O) : List O := os.foldl (fun b o => pushObject ident o b) []

theorem bagOf_snoc (ident : O → I) (os : List O) (o : O) : bagOf ident (os ++ [o]) = pushObject ident o (bagOf ident os) := by
  unfold bagOf
  rw [List.foldl_append]
  rfl

theorem bagOf_isBag (ident : O → I) (os : List O) : IsBag ident os (bagOf ident os) := by
  induction os using List.reverseRecOn with
  | nil =>
    refine ⟨List.Sublist.refl _, List.nodup_nil, fun x => ?_⟩
    constructor
    · intro h; cases h
    · rintro ⟨pre, post, h, _⟩
      exact absurd h (by simp)
  | append_singleton os o ih =>
    rw [bagOf_snoc]
    unfold pushObject
    refine ⟨?_, ?_, ?_⟩
    · exact List.Sublist.append (List.filter_sublist.trans ih.sublist) (List.Sublist.refl _)
    · rw [List.map_append, List.nodup_append]
      refine ⟨ih.once.sublist (List.filter_sublist.map _), by simp, ?_⟩
      intro a ha b hb
      obtain ⟨x, hx, rfl⟩ := List.mem_map.1 ha
      obtain ⟨y, hy, rfl⟩ := List.mem_map.1 hb
      rw [List.mem_singleton] at hy
      subst hy
      exact of_decide_eq_true (List.mem_filter.1 hx).2
    · intro x
      rw [List.mem_append, List.mem_filter, List.mem_singleton, ih.latest]
      constructor
      · rintro (⟨⟨pre, post, rfl, hp⟩, hx⟩ | rfl)
        · refine ⟨pre, post ++ [o], by simp, ?_⟩
          intro y hy
          rcases List.mem_append.1 hy with hy | hy
          · exact hp y hy
          · rw [List.mem_singleton] at hy
            subst hy
            exact fun hc => (of_decide_eq_true hx) hc.symm
        · exact ⟨os, [], rfl, by simp⟩
      · rintro ⟨pre, post, he, hp⟩
        rcases List.eq_nil_or_concat post with rfl | ⟨post', z, rfl⟩
        · right
          have := List.append_inj_right' he rfl
          simpa using this.symm
        · rw [List.concat_eq_append] at he hp
          rw [← List.cons_append, ← List.append_assoc] at he
          have h1 := List.append_inj_left' he rfl
          have h2 := List.append_inj_right' he rfl
          injection h2 with h2
          subst h2
          left
          refine ⟨⟨pre, post', h1, fun y hy => hp y (by simp [hy])⟩, ?_⟩
          exact decide_eq_true (fun hc => hp o (by simp) hc.symm)

theorem bagOf_once (ident : O → I) {os : List O} (h : (os.map ident).Nodup) : bagOf ident os = os := by
  induction os using List.reverseRecOn with
  | nil => rfl
  | append_singleton os o ih =>
    rw [List.map_append, List.nodup_append] at h
    rw [bagOf_snoc, ih h.1]
    unfold pushObject
    congr 1
    rw [List.filter_eq_self]
    intro x hx
    exact decide_eq_true (h.2.2 _ (List.mem_map.2 ⟨x, hx, rfl⟩) _ (by simp))

theorem bagOf_nil_iff (ident : O → I) (os : List O) : bagOf ident os = [] ↔ os = [] := by
  constructor
  · intro h
    rcases List.eq_nil_or_concat os with rfl | ⟨os', o, rfl⟩
    · rfl
    · rw [List.concat_eq_append, bagOf_snoc] at h
      exact absurd h (by simp [pushObject])
  · rintro rfl; rfl

/-- The written bag at a location, as the map holds it. -/
def heldBag (ident : O → I) (os : List O) : Option (List O) := if os = [] then none else some (bagOf ident os)

theorem placedAt_snoc (ps : List (O × Loc)) (o : O) (l l' : Loc) :
    placedAt (ps ++ [(o, l)]) l' = if l' = l then placedAt ps l' ++ [o] else placedAt ps l' := by
  unfold placedAt
  rw [List.filter_append, List.map_append]
  by_cases h : l' = l
  · subst h; simp
  · have : ¬ l = l' := fun hc => h hc.symm
    simp [h, this]

theorem heldBag_getD (ident : O → I) (os : List O) : (heldBag ident os).getD [] = bagOf ident os := by
  unfold heldBag
  split
  · rename_i h; rw [h]; rfl
  · rfl

theorem latest_snoc (ident : O → I) (ps : List (O × Loc)) (o : O) (l : Loc) (i : I) :
    latest ident (ps ++ [(o, l)]) i = if i = ident o then some (o, l) else latest ident ps i := by
  unfold latest
  rw [List.reverse_append]
  by_cases h : i = ident o
  · subst h; simp
  · have : ¬ ident o = i := fun hc => h hc.symm
    simp [h, this]

theorem oshows_run (ident : O → I) {g0 : OGrid O I}
    (h0 : OShows g0 (fun _ => none) (fun _ => none) (fun _ => none) (fun _ => none)) (h : List (POp O))
    (hp : ∀ op ∈ h, OPlain op) :
    ∃ g, OGrid.run ident g0 h = some g ∧ g.width = g0.width ∧ g.height = g0.height ∧
      OShows g (publishedOf ident h) (latest ident (placements h)) (fun l => heldBag ident (publishedAt h l))
        (fun l => heldBag ident (placedAt (placements h) l)) := by
  induction h with
  | nil => exact ⟨g0, rfl, rfl, rfl, h0⟩
  | cons op h ih =>
    obtain ⟨g, h1, hw, hh, h2⟩ := ih (fun o ho => hp o (List.mem_cons_of_mem _ ho))
    have := hp op List.mem_cons_self
    cases op with
    | remove o => exact absurd this (by simp [OPlain])
    | removeAt o l => exact absurd this (by simp [OPlain])
    | apply f o => exact absurd this (by simp [OPlain])
    | update =>
      refine ⟨g.update, by rw [OGrid.run, h1]; rfl, hw, hh, ?_⟩
      refine (oshows_update h2).congr rfl rfl ?_ rfl
      funext l
      show heldBag ident (if placedAt (placements h) l = [] then publishedAt h l else placedAt (placements h) l) = _
      unfold heldBag
      by_cases he : placedAt (placements h) l = []
      · rw [if_pos he, if_pos he]
        rfl
      · rw [if_neg he, if_neg he]
        rfl
    | lazyUpdate =>
      refine ⟨g.lazyUpdate, by rw [OGrid.run, h1]; rfl, hw, hh, ?_⟩
      exact oshows_lazy h2
    | place o l =>
      obtain ⟨g', h3, hw', hh', h4⟩ := oshows_place ident h2 o l
      refine ⟨g', by rw [OGrid.run, h1]; exact h3, hw'.trans hw, hh'.trans hh, ?_⟩
      refine h4.congr rfl ?_ rfl ?_
      · funext i
        exact latest_snoc ident _ o l i
      · funext l'
        show heldBag ident (placedAt (placements h ++ [(o, l)]) l') = _
        rw [placedAt_snoc]
        by_cases he : l' = l
        · subst he
          rw [if_pos rfl, if_pos rfl, heldBag_getD, ← bagOf_snoc]
          unfold heldBag
          rw [if_neg (by simp)]
        · rw [if_neg he, if_neg he]

/-! ### Every call keeps the shape -/

/-- The two maps are well formed and an object is stored under its identity. -/
structure OWf (ident : O → I) (g : OGrid O I) : Prop where
  invO : Inv g.obj2loc
  invL : Inv g.loc2objs
  keyR : ∀ i e, (abs g.obj2loc).read i = some e → ident e.1 = i
  keyW : ∀ i e, (abs g.obj2loc).write i = some e → ident e.1 = i

/-- What one published entry does to the written locations. -/
def moveObject (ident : O → I) (f : Loc → O → Option O) (w : I → Option (O × Loc)) (e : I × (O × Loc)) : I → Option (O × Loc) :=
  match f e.2.2 e.2.1 with
  | none => w
  | some x => DBDashMap.set (DBDashMap.set w e.1 none) (ident x) (some (x, e.2.2))

theorem applyObjects_fold (ident : O → I) (f : Loc → O → Option O) (l : List (I × (O × Loc))) :
    ∀ (db : DB I (O × Loc)), Inv db →
    ∃ db', l.foldlM (applyObject ident f) db = some db' ∧ Inv db' ∧
      abs db' = ⟨(abs db).read, l.foldl (moveObject ident f) (abs db).write⟩ := by
  induction l with
  | nil => intro db hi; exact ⟨db, rfl, hi, rfl⟩
  | cons e l ih =>
    intro db hi
    cases hf : f e.2.2 e.2.1 with
    | none =>
      obtain ⟨db', h1, h2, h3⟩ := ih db hi
      refine ⟨db', ?_, h2, ?_⟩
      · rw [List.foldlM_cons, applyObject, hf]; exact h1
      · rw [h3, List.foldl_cons, moveObject, hf]
    | some x =>
      obtain ⟨db1, h1, hi1, _, ha1⟩ := remove_sim hi e.1
      obtain ⟨db2, h2, hi2, _, ha2⟩ := insert_sim hi1 (ident x) (x, e.2.2)
      obtain ⟨db3, h3, hi3, ha3⟩ := ih db2 hi2
      refine ⟨db3, ?_, hi3, ?_⟩
      · rw [List.foldlM_cons, applyObject, hf]
        simp only [h1, Option.bind_some, h2, Option.map_some]
        exact h3
      · rw [ha3, ha2, ha1, List.foldl_cons, moveObject, hf]

theorem moveObjects_keyed (ident : O → I) (f : Loc → O → Option O) (l : List (I × (O × Loc))) :
    ∀ (w : I → Option (O × Loc)), (∀ i e, w i = some e → ident e.1 = i) →
      ∀ i e, l.foldl (moveObject ident f) w i = some e → ident e.1 = i := by
  induction l with
  | nil => intro w hw; exact hw
  | cons e l ih =>
    intro w hw
    rw [List.foldl_cons]
    refine ih _ ?_
    intro i e' he'
    unfold moveObject at he'
    cases hx : f e.2.2 e.2.1 with
    | none =>
      rw [hx] at he'
      exact hw i e' he'
    | some x =>
      rw [hx] at he'
      dsimp only at he'
      unfold DBDashMap.set at he'
      split at he'
      · rename_i hi
        injection he' with he'
        rw [← he', hi]
      · split at he'
        · exact absurd he' (by simp)
        · exact hw i e' he'

theorem moveObjects_get (ident : O → I) (f : Loc → O → Option O) (hf : ∀ l o x, f l o = some x → ident x = ident o)
    (l : List (I × (O × Loc))) :
    ∀ (w : I → Option (O × Loc)), HMap.WF l → (∀ e ∈ l, ident e.2.1 = e.1) → ∀ i,
      l.foldl (moveObject ident f) w i =
        (((HMap.get l i).bind (fun e => (f e.2 e.1).map (fun x => (x, e.2)))).or (w i)) := by
  induction l with
  | nil => intro w _ _ i; simp
  | cons e l ih =>
    intro w hw hk i
    rw [HMap.WF_cons] at hw
    rw [List.foldl_cons, ih _ hw.2 (fun e' he' => hk e' (List.mem_cons_of_mem _ he')), HMap.get_cons]
    have hke := hk e List.mem_cons_self
    unfold moveObject
    cases hx : f e.2.2 e.2.1 with
    | none =>
      by_cases h : e.1 = i
      · subst h
        simp [HMap.get_eq_none_iff.2 hw.1, hx]
      · simp [h]
    | some x =>
      have hix : ident x = e.1 := (hf _ _ _ hx).trans hke
      unfold DBDashMap.set
      by_cases h : e.1 = i
      · subst h
        simp [HMap.get_eq_none_iff.2 hw.1, hx, hix]
      · simp [h, Ne.symm h, hix]

theorem apply_sim (ident : O → I) {g : OGrid O I} (hg : OWf ident g) (f : Loc → O → Option O) (opt : GridOption) :
    ∃ g', g.applyToAllValues ident f opt = some g' ∧ OWf ident g' ∧ g'.loc2objs = g.loc2objs ∧ g'.width = g.width ∧
      g'.height = g.height ∧ (abs g'.obj2loc).read = (abs g.obj2loc).read ∧
      (abs g'.obj2loc).write = g.obj2loc.rShards.flatten.foldl (moveObject ident f) (abs g.obj2loc).write := by
  obtain ⟨db', h1, h2, h3⟩ := applyObjects_fold ident f g.obj2loc.rShards.flatten g.obj2loc hg.invO
  refine ⟨{ g with obj2loc := db' }, ?_, ⟨h2, hg.invL, ?_, ?_⟩, rfl, rfl, rfl, ?_, ?_⟩
  · cases opt <;> simp only [OGrid.applyToAllValues, h1, Option.map_some]
  · show ∀ i e, (abs db').read i = some e → _
    rw [h3]
    exact hg.keyR
  · show ∀ i e, (abs db').write i = some e → _
    rw [h3]
    exact moveObjects_keyed ident f _ _ hg.keyW
  · show (abs db').read = _
    rw [h3]
  · show (abs db').write = _
    rw [h3]

theorem removeFromBag_sim (ident : O → I) {g : OGrid O I} (hg : OWf ident g) (o : O) :
    (g.removeFromBag ident o = none ↔
      ∃ e, (abs g.obj2loc).read (ident o) = some e ∧ (abs g.loc2objs).write e.2 = none) ∧
    ∀ m, g.removeFromBag ident o = some m → Inv m ∧ (abs m).read = (abs g.loc2objs).read ∧
      (abs m).write = fun l => if ((abs g.obj2loc).read (ident o)).map Prod.snd = some l then
        ((abs g.loc2objs).write l).map (fun b => b.filter (fun x => decide (ident x ≠ ident o)))
      else (abs g.loc2objs).write l := by
  unfold OGrid.removeFromBag
  rw [getRead_abs hg.invO, Option.bind_some]
  cases hr : (abs g.obj2loc).read (ident o) with
  | none =>
    refine ⟨by simp, ?_⟩
    intro m hm
    injection hm with hm
    subst hm
    exact ⟨hg.invL, rfl, by simp⟩
  | some e =>
    dsimp only
    rw [getWrite_abs hg.invL, Option.bind_some]
    cases hb : (abs g.loc2objs).write e.2 with
    | none => exact ⟨by simp [hb], by simp⟩
    | some b =>
      obtain ⟨db', h1, h2, h3⟩ := modifyWrite_sim hg.invL e.2 (fun bag => bag.filter (fun x => decide (ident x ≠ ident o)))
      refine ⟨?_, ?_⟩
      · rw [h1]; simp [hb]
      · intro m hm
        rw [h1] at hm
        injection hm with hm
        subst hm
        refine ⟨h2, by rw [h3], ?_⟩
        rw [h3]
        funext l
        show DBDashMap.set _ _ _ l = _
        unfold DBDashMap.set
        by_cases h : l = e.2
        · subst h; simp
        · simp [h, Ne.symm h]

theorem remove_object_sim (ident : O → I) {g : OGrid O I} (hg : OWf ident g) (o : O) :
    (g.removeObject ident o = none ↔
      ∃ e, (abs g.obj2loc).read (ident o) = some e ∧ (abs g.loc2objs).write e.2 = none) ∧
    ∀ g', g.removeObject ident o = some g' → OWf ident g' ∧ g'.width = g.width ∧ g'.height = g.height ∧
      (abs g'.obj2loc).read = (abs g.obj2loc).read ∧
      (abs g'.obj2loc).write = (fun i => if i = ident o then none else (abs g.obj2loc).write i) ∧
      (abs g'.loc2objs).read = (abs g.loc2objs).read ∧
      (abs g'.loc2objs).write = fun l => if ((abs g.obj2loc).read (ident o)).map Prod.snd = some l then
        ((abs g.loc2objs).write l).map (fun b => b.filter (fun x => decide (ident x ≠ ident o)))
      else (abs g.loc2objs).write l := by
  obtain ⟨h1, h2⟩ := removeFromBag_sim ident hg o
  obtain ⟨db', k1, k2, _, k3⟩ := remove_sim hg.invO (ident o)
  unfold OGrid.removeObject
  rw [← h1]
  cases hm : g.removeFromBag ident o with
  | none => exact ⟨by simp, by simp⟩
  | some m =>
    refine ⟨by simp [k1], ?_⟩
    intro g' hg'
    rw [Option.bind_some, k1] at hg'
    injection hg' with hg'
    subst hg'
    obtain ⟨m1, m2, m3⟩ := h2 m hm
    have e1 : (abs db').read = (abs g.obj2loc).read := by rw [k3]
    have e2 : (abs db').write = (fun i => if i = ident o then none else (abs g.obj2loc).write i) := by rw [k3]; rfl
    refine ⟨⟨k2, m1, ?_, ?_⟩, rfl, rfl, e1, e2, m2, m3⟩
    · show ∀ i e, (abs db').read i = some e → _
      rw [e1]; exact hg.keyR
    · show ∀ i e, (abs db').write i = some e → _
      rw [e2]
      intro i e he
      dsimp only at he
      split at he
      · exact absurd he (by simp)
      · exact hg.keyW i e he

theorem removeAt_sim (ident : O → I) {g : OGrid O I} (hg : OWf ident g) (o : O) (l : Loc) :
    ∃ g', g.removeObjectLocation ident o l = some g' ∧ OWf ident g' ∧ g'.width = g.width ∧ g'.height = g.height ∧
      g'.obj2loc = g.obj2loc ∧ (abs g'.loc2objs).read = (abs g.loc2objs).read ∧
      (abs g'.loc2objs).write = fun l' => if l' = l then
        ((abs g.loc2objs).write l).map (fun b => b.filter (fun x => decide (ident x ≠ ident o)))
      else (abs g.loc2objs).write l' := by
  obtain ⟨db', h1, h2, h3⟩ := modifyWrite_sim hg.invL l (fun bag => bag.filter (fun x => decide (ident x ≠ ident o)))
  refine ⟨{ g with loc2objs := db' }, by rw [OGrid.removeObjectLocation, h1]; rfl, ⟨hg.invO, h2, hg.keyR, hg.keyW⟩, rfl, rfl, rfl, ?_, ?_⟩
  · show (abs db').read = _
    rw [h3]
  · show (abs db').write = _
    rw [h3]
    rfl

theorem owf_exec (ident : O → I) {g g' : OGrid O I} (hg : OWf ident g) (op : POp O) (h : g.exec ident op = some g') :
    OWf ident g' ∧ g'.width = g.width ∧ g'.height = g.height := by
  cases op with
  | place o l =>
    obtain ⟨g1, h1, h2, h3, h4⟩ := oshows_place ident (oshows_self hg.invO hg.invL) o l
    have : g1 = g' := by
      have := h1.symm.trans h
      simpa using this
    subst this
    refine ⟨⟨h4.invO, h4.invL, ?_, ?_⟩, h2, h3⟩
    · rw [h4.readO]; exact hg.keyR
    · rw [h4.writeO]
      intro i e he
      dsimp only at he
      split at he
      · rename_i hi
        injection he with he
        rw [← he, hi]
      · exact hg.keyW i e he
  | remove o =>
    have := (remove_object_sim ident hg o).2 g' h
    exact ⟨this.1, this.2.1, this.2.2.1⟩
  | removeAt o l =>
    obtain ⟨g1, h1, h2, h3, h4, _⟩ := removeAt_sim ident hg o l
    have : g1 = g' := by
      have := h1.symm.trans h
      simpa using this
    subst this
    exact ⟨h2, h3, h4⟩
  | update =>
    injection h with h
    subst h
    have h4 := oshows_update (oshows_self hg.invO hg.invL)
    refine ⟨⟨h4.invO, h4.invL, ?_, ?_⟩, rfl, rfl⟩
    · rw [h4.readO]
      intro i e he
      dsimp only at he
      cases hw : (abs g.obj2loc).write i with
      | none =>
        rw [hw, Option.none_or] at he
        exact hg.keyR i e he
      | some e' =>
        rw [hw] at he
        injection he with he
        subst he
        exact hg.keyW i e' hw
    · rw [h4.writeO]; exact hg.keyW
  | lazyUpdate =>
    injection h with h
    subst h
    have h4 := oshows_lazy (oshows_self hg.invO hg.invL)
    refine ⟨⟨h4.invO, h4.invL, ?_, ?_⟩, rfl, rfl⟩
    · rw [h4.readO]; exact hg.keyW
    · rw [h4.writeO]; simp
  | apply f opt =>
    obtain ⟨g1, h1, h2, _, h3, h4, _⟩ := apply_sim ident hg f opt
    have : g1 = g' := by
      have := h1.symm.trans h
      simpa using this
    subst this
    exact ⟨h2, h3, h4⟩

theorem owf_run (ident : O → I) {g0 : OGrid O I} (h0 : OWf ident g0) (h : List (POp O)) :
    ∀ g, OGrid.run ident g0 h = some g → OWf ident g ∧ g.width = g0.width ∧ g.height = g0.height := by
  induction h with
  | nil =>
    intro g hg
    injection hg with hg
    subst hg
    exact ⟨h0, rfl, rfl⟩
  | cons op h ih =>
    intro g hg
    rw [OGrid.run] at hg
    cases hr : OGrid.run ident g0 h with
    | none => rw [hr] at hg; exact absurd hg (by simp)
    | some g1 =>
      rw [hr] at hg
      obtain ⟨k1, k2, k3⟩ := ih g1 hr
      obtain ⟨j1, j2, j3⟩ := owf_exec ident k1 op hg
      exact ⟨j1, j2.trans k2, j3.trans k3⟩

theorem owf_new {cpus : Nat} (hc : shardAmount cpus ≤ 2 ^ 64) (ident : O → I) (hashO : I → Nat) (hashL : Loc → Nat) (w h : Int) :
    OWf ident (OGrid.new cpus hashO hashL w h : OGrid O I) := by
  have hs := oshows_new (O := O) hc hashO hashL w h
  refine ⟨hs.invO, hs.invL, ?_, ?_⟩
  · rw [hs.readO]; simp
  · rw [hs.writeO]; simp

/-! ### Concurrent placements -/

theorem threadStep_sim (ident : O → I) {g : OGrid O I} (hO : Inv g.obj2loc) (hL : Inv g.loc2objs) (t : Thread O) :
    ∃ g' pc', threadStep ident g t = some (g', pc') ∧ Inv g'.obj2loc ∧ Inv g'.loc2objs ∧
      (abs g'.obj2loc).read = (abs g.obj2loc).read ∧ (abs g'.loc2objs).read = (abs g.loc2objs).read ∧
      match t.pc with
      | .start =>
        (abs g'.obj2loc).write = (abs g.obj2loc).write ∧
        (((abs g.loc2objs).write t.loc = none ∧ pc' = .missing ∧ (abs g'.loc2objs).write = (abs g.loc2objs).write) ∨
          ∃ b, (abs g.loc2objs).write t.loc = some b ∧ pc' = .placed ∧
            (abs g'.loc2objs).write = fun l => if l = t.loc then some (pushObject ident t.object b)
              else (abs g.loc2objs).write l)
      | .missing =>
        (abs g'.obj2loc).write = (abs g.obj2loc).write ∧ pc' = .placed ∧
          (abs g'.loc2objs).write = fun l => if l = t.loc then some [t.object] else (abs g.loc2objs).write l
      | .placed =>
        (abs g'.loc2objs).write = (abs g.loc2objs).write ∧ pc' = .done ∧
          (abs g'.obj2loc).write = fun i => if i = ident t.object then some (t.object, t.loc) else (abs g.obj2loc).write i
      | .done => g' = g ∧ pc' = .done := by
  unfold threadStep
  cases hp : t.pc with
  | start =>
    dsimp only
    rw [getWrite_abs hL, Option.bind_some]
    cases hb : (abs g.loc2objs).write t.loc with
    | none => exact ⟨g, .missing, rfl, hO, hL, rfl, rfl, rfl, Or.inl ⟨rfl, rfl, rfl⟩⟩
    | some b =>
      obtain ⟨db', h1, h2, h3⟩ := modifyWrite_sim hL t.loc (pushObject ident t.object)
      refine ⟨{ g with loc2objs := db' }, .placed, ?_, hO, h2, rfl, ?_, rfl, Or.inr ⟨b, rfl, rfl, ?_⟩⟩
      · dsimp only
        rw [h1]
        rfl
      · show (abs db').read = _
        rw [h3]
      · show (abs db').write = _
        rw [h3, hb]
        rfl
  | missing =>
    obtain ⟨db', h1, h2, _, h3⟩ := insert_sim hL t.loc [t.object]
    refine ⟨{ g with loc2objs := db' }, .placed, ?_, hO, h2, rfl, ?_, rfl, rfl, ?_⟩
    · dsimp only
      rw [h1]
      rfl
    · show (abs db').read = _
      rw [h3]
    · show (abs db').write = _
      rw [h3]
      rfl
  | placed =>
    obtain ⟨db', h1, h2, _, h3⟩ := insert_sim hO (ident t.object) (t.object, t.loc)
    refine ⟨{ g with obj2loc := db' }, .done, ?_, h2, hL, ?_, rfl, rfl, rfl, ?_⟩
    · dsimp only
      rw [h1]
      rfl
    · show (abs db').read = _
      rw [h3]
    · show (abs db').write = _
      rw [h3]
      rfl
  | done => exact ⟨g, .done, rfl, hO, hL, rfl, rfl, rfl, rfl⟩

/-- A location at which concurrent placements are safe: its bag exists before, or one thread only goes there. -/
def Safe (w0 : Loc → Option (List O)) (ts : List (Thread O)) (l : Loc) : Prop :=
  (∃ b, w0 l = some b) ∨ ∀ (j k : Nat) (t u : Thread O), ts[j]? = some t → ts[k]? = some u → t.loc = l → u.loc = l → j = k

/-- What holds at every moment of concurrent placements that started with the written maps `w0` and `o0`. -/
structure CInv (ident : O → I) (r0 : Loc → Option (List O)) (w0 : Loc → Option (List O)) (ro0 : I → Option (O × Loc))
    (o0 : I → Option (O × Loc)) (c : Conc O I) : Prop where
  invO : Inv c.grid.obj2loc
  invL : Inv c.grid.loc2objs
  readO : (abs c.grid.obj2loc).read = ro0
  readL : (abs c.grid.loc2objs).read = r0
  distinct : ∀ (j k : Nat) (t u : Thread O), c.threads[j]? = some t → c.threads[k]? = some u → ident t.object = ident u.object → j = k
  locDone : ∀ (j : Nat) (t : Thread O), c.threads[j]? = some t → t.pc = .done → (abs c.grid.obj2loc).write (ident t.object) = some (t.object, t.loc)
  locOther : ∀ i, (∀ (j : Nat) (t : Thread O), c.threads[j]? = some t → t.pc = .done → ident t.object ≠ i) →
    (abs c.grid.obj2loc).write i = o0 i
  missing : ∀ (j : Nat) (t : Thread O), c.threads[j]? = some t → t.pc = .missing → w0 t.loc = none
  bagKept : ∀ l b0, w0 l = some b0 → ∃ b, (abs c.grid.loc2objs).write l = some b ∧
    ∀ x ∈ b0, (∀ (j : Nat) (t : Thread O), c.threads[j]? = some t → ident t.object ≠ ident x) → x ∈ b
  bagDone : ∀ (j : Nat) (t : Thread O), c.threads[j]? = some t → Safe w0 c.threads t.loc → t.pc = .placed ∨ t.pc = .done →
    ∃ b, (abs c.grid.loc2objs).write t.loc = some b ∧ t.object ∈ b
  bagOnly : ∀ l b x, (abs c.grid.loc2objs).write l = some b → x ∈ b →
    (∃ b0, w0 l = some b0 ∧ x ∈ b0) ∨ ∃ (j : Nat) (t : Thread O), c.threads[j]? = some t ∧ t.loc = l ∧ t.object = x

theorem set_lookup {ts : List (Thread O)} {i : Nat} {t : Thread O} (hi : ts[i]? = some t) (pc' : Pc) (j : Nat) (u : Thread O) :
    (ts.set i { t with pc := pc' })[j]? = some u ↔ (j = i ∧ u = { t with pc := pc' }) ∨ (j ≠ i ∧ ts[j]? = some u) := by
  have hlt : i < ts.length := by
    rw [List.getElem?_eq_some_iff] at hi
    exact hi.1
  rw [List.getElem?_set]
  by_cases h : i = j
  · subst h
    simp only [if_pos, hlt, Option.some.injEq, true_and, ne_eq, not_true_eq_false, false_and, or_false]
    exact eq_comm
  · simp [h, Ne.symm h]

theorem safe_set {w0 : Loc → Option (List O)} {ts : List (Thread O)} {i : Nat} {t : Thread O} (hi : ts[i]? = some t) (pc' : Pc)
    (l : Loc) (h : Safe w0 (ts.set i { t with pc := pc' }) l) : Safe w0 ts l := by
  rcases h with h | h
  · exact Or.inl h
  · right
    intro j k a b ha hb hla hlb
    have key : ∀ (j : Nat) (a : Thread O), ts[j]? = some a → ∃ a', (ts.set i { t with pc := pc' })[j]? = some a' ∧ a'.loc = a.loc := by
      intro j a ha
      by_cases hj : j = i
      · subst hj
        have : a = t := by
          have := ha.symm.trans hi
          simpa using this
        subst this
        exact ⟨_, (set_lookup hi pc' j _).2 (Or.inl ⟨rfl, rfl⟩), rfl⟩
      · exact ⟨a, (set_lookup hi pc' j a).2 (Or.inr ⟨hj, ha⟩), rfl⟩
    obtain ⟨a', h1, h2⟩ := key j a ha
    obtain ⟨b', h3, h4⟩ := key k b hb
    exact h j k a' b' h1 h3 (h2.trans hla) (h4.trans hlb)

theorem mem_push (ident : O → I) {o x : O} {b : List O} :
    x ∈ pushObject ident o b ↔ (x ∈ b ∧ ident x ≠ ident o) ∨ x = o := by
  unfold pushObject
  rw [List.mem_append, List.mem_filter, List.mem_singleton, decide_eq_true_iff]

theorem cinv_step (ident : O → I) {r0 w0 : Loc → Option (List O)} {ro0 o0 : I → Option (O × Loc)} {c : Conc O I}
    (hc : CInv ident r0 w0 ro0 o0 c) (i : Nat) :
    ∃ c', c.step ident i = some c' ∧ CInv ident r0 w0 ro0 o0 c' := by
  unfold Conc.step
  cases hi : c.threads[i]? with
  | none => exact ⟨c, rfl, hc⟩
  | some t =>
    obtain ⟨g', pc', h1, hO, hL, hrO, hrL, h2⟩ := threadStep_sim ident hc.invO hc.invL t
    refine ⟨{ grid := g', threads := c.threads.set i { t with pc := pc' } }, by dsimp only; rw [h1]; rfl, ?_⟩
    have look := set_lookup hi pc'
    have hdist : ∀ (j k : Nat) (t' u : Thread O), (c.threads.set i { t with pc := pc' })[j]? = some t' →
        (c.threads.set i { t with pc := pc' })[k]? = some u → ident t'.object = ident u.object → j = k := by
      intro j k a b ha hb hab
      have key : ∀ (j : Nat) (a : Thread O), (c.threads.set i { t with pc := pc' })[j]? = some a →
          ∃ a', c.threads[j]? = some a' ∧ a'.object = a.object := by
        intro j a ha
        rcases (look j a).1 ha with ⟨rfl, rfl⟩ | ⟨_, ha⟩
        · exact ⟨t, hi, rfl⟩
        · exact ⟨a, ha, rfl⟩
      obtain ⟨a', k1, k2⟩ := key j a ha
      obtain ⟨b', k3, k4⟩ := key k b hb
      exact hc.distinct j k a' b' k1 k3 (by rw [k2, k4, hab])
    have back : ∀ (j : Nat) (a : Thread O), c.threads[j]? = some a →
        ∃ a', (c.threads.set i { t with pc := pc' })[j]? = some a' ∧ a'.object = a.object ∧ a'.loc = a.loc := by
      intro j a ha
      by_cases hj : j = i
      · subst hj
        have : a = t := by
          have := ha.symm.trans hi
          simpa using this
        subst this
        exact ⟨_, (look j _).2 (Or.inl ⟨rfl, rfl⟩), rfl, rfl⟩
      · exact ⟨a, (look j a).2 (Or.inr ⟨hj, ha⟩), rfl, rfl⟩
    have dist2 : ∀ (j : Nat) (a : Thread O), j ≠ i → c.threads[j]? = some a → ident a.object ≠ ident t.object :=
      fun j a hj ha he => hj (hc.distinct j i a t ha hi he)
    cases hpc : t.pc with
    | start =>
      rw [hpc] at h2
      obtain ⟨ho, h2⟩ := h2
      have hnd : pc' ≠ .done := by
        rcases h2 with ⟨_, h, _⟩ | ⟨b, _, h, _⟩ <;> rw [h] <;> decide
      refine ⟨hO, hL, hrO.trans hc.readO, hrL.trans hc.readL, hdist, ?_, ?_, ?_, ?_, ?_, ?_⟩
      · intro j a ha hd
        rcases (look j a).1 ha with ⟨rfl, rfl⟩ | ⟨_, ha⟩
        · exact absurd hd hnd
        · rw [ho]; exact hc.locDone j a ha hd
      · intro k hk
        rw [ho]
        refine hc.locOther k ?_
        intro j a ha hd
        by_cases hj : j = i
        · subst hj
          have : a = t := by
            have := ha.symm.trans hi
            simpa using this
          subst this
          rw [hpc] at hd
          exact absurd hd (by simp)
        · exact hk j a ((look j a).2 (Or.inr ⟨hj, ha⟩)) hd
      · intro j a ha hd
        rcases (look j a).1 ha with ⟨rfl, rfl⟩ | ⟨_, ha⟩
        · rcases h2 with ⟨hb, h, _⟩ | ⟨b, _, h, _⟩
          · cases hw : w0 t.loc with
            | none => rfl
            | some b0 =>
              obtain ⟨b, hb', _⟩ := hc.bagKept _ _ hw
              rw [hb] at hb'
              exact absurd hb' (by simp)
          · rw [h] at hd
            exact absurd hd (by simp)
        · exact hc.missing j a ha hd
      · intro l b0 hb0
        obtain ⟨b, hb, hx⟩ := hc.bagKept l b0 hb0
        have hx' : ∀ x ∈ b0, (∀ (j : Nat) (a : Thread O), (c.threads.set i { t with pc := pc' })[j]? = some a → ident a.object ≠ ident x) → x ∈ b := by
          intro x hxb hall
          refine hx x hxb ?_
          intro j a ha
          obtain ⟨a', k1, k2, _⟩ := back j a ha
          rw [← k2]
          exact hall j a' k1
        rcases h2 with ⟨_, _, hw⟩ | ⟨b1, hb1, _, hw⟩
        · exact ⟨b, by rw [hw]; exact hb, hx'⟩
        · by_cases hl : l = t.loc
          · subst hl
            rw [hb] at hb1
            injection hb1 with hb1
            subst hb1
            refine ⟨pushObject ident t.object b, by rw [hw]; simp, ?_⟩
            intro x hxb hall
            rw [mem_push]
            left
            refine ⟨hx' x hxb hall, ?_⟩
            have := hall i _ ((look i _).2 (Or.inl ⟨rfl, rfl⟩))
            exact fun h => this h.symm
          · exact ⟨b, by rw [hw]; simp [hl, hb], hx'⟩
      · intro j a ha hs hd
        rcases (look j a).1 ha with ⟨rfl, rfl⟩ | ⟨hj, ha'⟩
        · rcases h2 with ⟨_, h, _⟩ | ⟨b, hb, h, hw⟩
          · rw [h] at hd
            exact absurd hd (by simp)
          · exact ⟨pushObject ident t.object b, by rw [hw]; simp, by rw [mem_push]; exact Or.inr rfl⟩
        · obtain ⟨b, hb, hm⟩ := hc.bagDone j a ha' (safe_set hi pc' _ hs) hd
          rcases h2 with ⟨_, _, hw⟩ | ⟨b1, hb1, _, hw⟩
          · exact ⟨b, by rw [hw]; exact hb, hm⟩
          · by_cases hl : a.loc = t.loc
            · rw [hl] at hb
              rw [hb] at hb1
              injection hb1 with hb1
              subst hb1
              refine ⟨pushObject ident t.object b, by rw [hw]; simp [hl], ?_⟩
              rw [mem_push]
              exact Or.inl ⟨hm, dist2 j a hj ha'⟩
            · exact ⟨b, by rw [hw]; simp [hl, hb], hm⟩
      · intro l b x hb hx
        have old : ∀ b1, (abs c.grid.loc2objs).write l = some b1 → x ∈ b1 → (∃ b0, w0 l = some b0 ∧ x ∈ b0) ∨
            ∃ (j : Nat) (a : Thread O), (c.threads.set i { t with pc := pc' })[j]? = some a ∧ a.loc = l ∧ a.object = x := by
          intro b1 hb1 hx1
          rcases hc.bagOnly l b1 x hb1 hx1 with h | ⟨j, a, ha, hl, hxa⟩
          · exact Or.inl h
          · obtain ⟨a', k1, k2, k3⟩ := back j a ha
            exact Or.inr ⟨j, a', k1, k3.trans hl, k2.trans hxa⟩
        rcases h2 with ⟨_, _, hw⟩ | ⟨b1, hb1, _, hw⟩
        · rw [hw] at hb
          exact old b hb hx
        · rw [hw] at hb
          dsimp only at hb
          split at hb
          · rename_i hl
            injection hb with hb
            subst hb
            rcases (mem_push ident).1 hx with ⟨hx, _⟩ | hx
            · exact old b1 (by rw [hl]; exact hb1) hx
            · exact Or.inr ⟨i, _, (look i _).2 (Or.inl ⟨rfl, rfl⟩), hl.symm, hx.symm⟩
          · exact old b hb hx
    | missing =>
      rw [hpc] at h2
      obtain ⟨ho, hpc', hw⟩ := h2
      have hw0 := hc.missing i t hi hpc
      refine ⟨hO, hL, hrO.trans hc.readO, hrL.trans hc.readL, hdist, ?_, ?_, ?_, ?_, ?_, ?_⟩
      · intro j a ha hd
        rcases (look j a).1 ha with ⟨rfl, rfl⟩ | ⟨_, ha⟩
        · rw [hpc'] at hd
          exact absurd hd (by simp)
        · rw [ho]; exact hc.locDone j a ha hd
      · intro k hk
        rw [ho]
        refine hc.locOther k ?_
        intro j a ha hd
        by_cases hj : j = i
        · subst hj
          have : a = t := by
            have := ha.symm.trans hi
            simpa using this
          subst this
          rw [hpc] at hd
          exact absurd hd (by simp)
        · exact hk j a ((look j a).2 (Or.inr ⟨hj, ha⟩)) hd
      · intro j a ha hd
        rcases (look j a).1 ha with ⟨rfl, rfl⟩ | ⟨_, ha⟩
        · exact hw0
        · exact hc.missing j a ha hd
      · intro l b0 hb0
        obtain ⟨b, hb, hx⟩ := hc.bagKept l b0 hb0
        have hl : l ≠ t.loc := by
          rintro rfl
          rw [hw0] at hb0
          exact absurd hb0 (by simp)
        refine ⟨b, by rw [hw]; simp [hl, hb], ?_⟩
        intro x hxb hall
        refine hx x hxb ?_
        intro j a ha
        obtain ⟨a', k1, k2, _⟩ := back j a ha
        rw [← k2]
        exact hall j a' k1
      · intro j a ha hs hd
        rcases (look j a).1 ha with ⟨rfl, rfl⟩ | ⟨hj, ha'⟩
        · exact ⟨[t.object], by rw [hw]; simp, by simp⟩
        · have hs' := safe_set hi pc' _ hs
          obtain ⟨b, hb, hm⟩ := hc.bagDone j a ha' hs' hd
          have hl : a.loc ≠ t.loc := by
            intro hl
            rcases hs' with ⟨b0, hb0⟩ | hs'
            · rw [hl, hw0] at hb0
              exact absurd hb0 (by simp)
            · exact hj (hs' j i a t ha' hi rfl hl.symm)
          exact ⟨b, by rw [hw]; simp [hl, hb], hm⟩
      · intro l b x hb hx
        rw [hw] at hb
        dsimp only at hb
        split at hb
        · rename_i hl
          injection hb with hb
          subst hb
          rw [List.mem_singleton] at hx
          exact Or.inr ⟨i, _, (look i _).2 (Or.inl ⟨rfl, rfl⟩), hl.symm, hx.symm⟩
        · rcases hc.bagOnly l b x hb hx with h | ⟨j, a, ha, hl, hxa⟩
          · exact Or.inl h
          · obtain ⟨a', k1, k2, k3⟩ := back j a ha
            exact Or.inr ⟨j, a', k1, k3.trans hl, k2.trans hxa⟩
    | placed =>
      rw [hpc] at h2
      obtain ⟨hw, hpc', ho⟩ := h2
      refine ⟨hO, hL, hrO.trans hc.readO, hrL.trans hc.readL, hdist, ?_, ?_, ?_, ?_, ?_, ?_⟩
      · intro j a ha hd
        rcases (look j a).1 ha with ⟨rfl, rfl⟩ | ⟨hj, ha⟩
        · rw [ho]; simp
        · rw [ho]
          simp only [dist2 j a hj ha, if_false]
          exact hc.locDone j a ha hd
      · intro k hk
        have hne : ident t.object ≠ k := hk i { t with pc := pc' } ((look i _).2 (Or.inl ⟨rfl, rfl⟩)) hpc'
        rw [ho]
        dsimp only
        rw [if_neg (Ne.symm hne)]
        refine hc.locOther k ?_
        intro j a ha hd
        obtain ⟨a', k1, k2, _⟩ := back j a ha
        by_cases hj : j = i
        · subst hj
          have : a = t := by
            have := ha.symm.trans hi
            simpa using this
          subst this
          exact hne
        · exact hk j a ((look j a).2 (Or.inr ⟨hj, ha⟩)) hd
      · intro j a ha hd
        rcases (look j a).1 ha with ⟨rfl, rfl⟩ | ⟨_, ha⟩
        · rw [hpc'] at hd
          exact absurd hd (by simp)
        · exact hc.missing j a ha hd
      · intro l b0 hb0
        obtain ⟨b, hb, hx⟩ := hc.bagKept l b0 hb0
        refine ⟨b, by rw [hw]; exact hb, ?_⟩
        intro x hxb hall
        refine hx x hxb ?_
        intro j a ha
        obtain ⟨a', k1, k2, _⟩ := back j a ha
        rw [← k2]
        exact hall j a' k1
      · intro j a ha hs hd
        rw [hw]
        rcases (look j a).1 ha with ⟨rfl, rfl⟩ | ⟨_, ha'⟩
        · exact hc.bagDone j t hi (safe_set hi pc' _ hs) (Or.inl hpc)
        · exact hc.bagDone j a ha' (safe_set hi pc' _ hs) hd
      · intro l b x hb hx
        rw [hw] at hb
        rcases hc.bagOnly l b x hb hx with h | ⟨j, a, ha, hl, hxa⟩
        · exact Or.inl h
        · obtain ⟨a', k1, k2, k3⟩ := back j a ha
          exact Or.inr ⟨j, a', k1, k3.trans hl, k2.trans hxa⟩
    | done =>
      rw [hpc] at h2
      obtain ⟨rfl, hpc'⟩ := h2
      have hsame : c.threads.set i { t with pc := pc' } = c.threads := by
        rw [hpc', ← hpc]
        apply List.ext_getElem?
        intro j
        rw [List.getElem?_set]
        split
        · rename_i hj
          subst hj
          rw [hi]
          have hlt : i < c.threads.length := by
            rw [List.getElem?_eq_some_iff] at hi
            exact hi.1
          simp [hlt]
        · rfl
      rw [hsame]
      exact hc

theorem cinv_run (ident : O → I) {r0 w0 : Loc → Option (List O)} {ro0 o0 : I → Option (O × Loc)} (sched : List Nat) :
    ∀ {c : Conc O I}, CInv ident r0 w0 ro0 o0 c →
      ∃ c', c.runAll ident sched = some c' ∧ CInv ident r0 w0 ro0 o0 c' := by
  induction sched with
  | nil => intro c hc; exact ⟨c, rfl, hc⟩
  | cons i sched ih =>
    intro c hc
    obtain ⟨c1, h1, h2⟩ := cinv_step ident hc i
    obtain ⟨c2, h3, h4⟩ := ih h2
    exact ⟨c2, by rw [Conc.runAll, h1]; exact h3, h4⟩

theorem step_threads (ident : O → I) {c c' : Conc O I} {i : Nat} (h : c.step ident i = some c') :
    c'.threads.map (fun t => (t.object, t.loc)) = c.threads.map (fun t => (t.object, t.loc)) := by
  unfold Conc.step at h
  cases hi : c.threads[i]? with
  | none =>
    rw [hi] at h
    injection h with h
    rw [h]
  | some t =>
    rw [hi] at h
    dsimp only at h
    cases hs : threadStep ident c.grid t with
    | none => rw [hs] at h; exact absurd h (by simp)
    | some r =>
      rw [hs] at h
      injection h with h
      subst h
      show (c.threads.set i _).map _ = _
      rw [List.map_set]
      apply List.ext_getElem?
      intro j
      rw [List.getElem?_set]
      split
      · rename_i hj
        subst hj
        have hlt : i < c.threads.length := by
          rw [List.getElem?_eq_some_iff] at hi
          exact hi.1
        rw [List.getElem?_map, hi]
        simp [hlt]
      · rfl

theorem run_threads (ident : O → I) (sched : List Nat) : ∀ {c c' : Conc O I}, c.runAll ident sched = some c' →
    c'.threads.map (fun t => (t.object, t.loc)) = c.threads.map (fun t => (t.object, t.loc)) := by
  induction sched with
  | nil =>
    intro c c' h
    injection h with h
    rw [h]
  | cons i sched ih =>
    intro c c' h
    rw [Conc.runAll] at h
    cases hs : c.step ident i with
    | none => rw [hs] at h; exact absurd h (by simp)
    | some c1 =>
      rw [hs] at h
      rw [ih h, step_threads ident hs]

/-- An upper bound of the steps a thread still needs. -/
def remaining : Pc → Nat
  | .start => 3
  | .missing => 2
  | .placed => 1
  | .done => 0

theorem remaining_step (ident : O → I) {g g' : OGrid O I} {t : Thread O} {pc' : Pc} (h : threadStep ident g t = some (g', pc')) :
    remaining pc' ≤ remaining t.pc - 1 := by
  unfold threadStep at h
  cases hp : t.pc with
  | start =>
    rw [hp] at h
    dsimp only at h
    cases hb : getWrite g.loc2objs t.loc with
    | none => rw [hb] at h; exact absurd h (by simp)
    | some b =>
      rw [hb, Option.bind_some] at h
      cases b with
      | none =>
        injection h with h
        injection h with _ h
        rw [← h]
        decide
      | some b =>
        rw [Option.map_eq_some_iff] at h
        obtain ⟨_, _, h⟩ := h
        injection h with _ h
        rw [← h]
        decide
  | missing =>
    rw [hp] at h
    rw [Option.map_eq_some_iff] at h
    obtain ⟨_, _, h⟩ := h
    injection h with _ h
    rw [← h]
    decide
  | placed =>
    rw [hp] at h
    rw [Option.map_eq_some_iff] at h
    obtain ⟨_, _, h⟩ := h
    injection h with _ h
    rw [← h]
    decide
  | done =>
    rw [hp] at h
    injection h with h
    injection h with _ h
    rw [← h]
    decide

theorem run_finishes (ident : O → I) (sched : List Nat) : ∀ {c c' : Conc O I}, c.runAll ident sched = some c' →
    (∀ (j : Nat) (t : Thread O), c.threads[j]? = some t → remaining t.pc ≤ sched.count j) → ∀ (j : Nat) (t : Thread O), c'.threads[j]? = some t → t.pc = .done := by
  induction sched with
  | nil =>
    intro c c' h hr j t ht
    injection h with h
    subst h
    have := hr j t ht
    cases hp : t.pc <;> rw [hp] at this <;> simp [remaining] at this
  | cons i sched ih =>
    intro c c' h hr
    rw [Conc.runAll] at h
    cases hs : c.step ident i with
    | none => rw [hs] at h; exact absurd h (by simp)
    | some c1 =>
      rw [hs] at h
      refine ih h ?_
      intro j t ht
      unfold Conc.step at hs
      cases hi : c.threads[i]? with
      | none =>
        rw [hi] at hs
        injection hs with hs
        subst hs
        have h1 := hr j t ht
        have : i ≠ j := by
          rintro rfl
          rw [hi] at ht
          exact absurd ht (by simp)
        rw [List.count_cons_of_ne this] at h1
        exact h1
      | some u =>
        rw [hi] at hs
        dsimp only at hs
        rw [Option.map_eq_some_iff] at hs
        obtain ⟨r, hs1, hs2⟩ := hs
        subst hs2
        rcases (set_lookup hi r.2 j t).1 ht with ⟨rfl, rfl⟩ | ⟨hj, ht⟩
        · have h1 := hr j u hi
          have h2 := remaining_step ident (g' := r.1) (pc' := r.2) hs1
          rw [List.count_cons_self] at h1
          show remaining r.2 ≤ _
          omega
        · have h1 := hr j t ht
          rw [List.count_cons_of_ne (Ne.symm hj)] at h1
          exact h1

end Verif.ParGrid
