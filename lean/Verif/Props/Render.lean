import Verif.Spec.Render
import Verif.Props.Visual
import Mathlib.Analysis.SpecialFunctions.Complex.Arg

/-!
Textures (C159) and arrows (C160).
-/

namespace Verif.Visual

/-! ### C159 -/

/-- There is exactly one entity for each of the fields, in the middle. -/
def OneEach (c : Screen) (d : Desc) (n : Nat) : Prop :=
  c.texs.map Tex.marker = List.range n ∧ ∀ e ∈ c.texs, (e.place.1, e.place.2.1) = (d.centerX - 1 / 2, d.centerY)

theorem renderAll_one {S : Type} (d : Desc) (s : S) (bs : List (Batch S)) : ∀ (t : Nat) (c : Screen), OneEach c d t →
    OneEach (Screen.renderAll d s t bs c) d (t + bs.length) := by
  induction bs with
  | nil => intro t c h; exact h
  | cons b bs ih =>
    intro t c h
    have := ih (t + 1) (c.render d b t s) ⟨by simp [Screen.render, h.1, List.range_succ], by
      intro e he
      rcases List.mem_append.1 he with he | he
      · exact h.2 e he
      · obtain rfl := List.mem_singleton.1 he
        rfl⟩
    rw [List.length_cons, show t + (bs.length + 1) = t + 1 + bs.length by omega]
    exact this

theorem filter_marker_one {l : List Tex} {n t : Nat} (h : l.map Tex.marker = List.range n) (ht : t < n) :
    ∃ e, l.filter (fun e => e.marker == t) = [e] := by
  have hlen : (l.filter (fun e => e.marker == t)).length = 1 := by
    have : (l.map Tex.marker).count t = 1 := by
      rw [h]
      exact List.count_eq_one_of_mem List.nodup_range (List.mem_range.2 ht)
    rw [List.count_eq_length_filter, List.filter_map, List.length_map] at this
    exact this
  exact List.length_eq_one_iff.1 hlen

theorem batchRender_one {S : Type} {c : Screen} {d : Desc} {n t : Nat} (b : Batch S) (s : S) (h : OneEach c d n) (ht : t < n) :
    ∃ c', c.batchRender b t s = some c' ∧ OneEach c' d n ∧ ShowsField c' d t (b.image s) ∧
      ∀ u im, u ≠ t → ShowsField c d u im → ShowsField c' d u im := by
  obtain ⟨e, he⟩ := filter_marker_one h.1 ht
  have hem : e ∈ c.texs ∧ e.marker = t := by
    have : e ∈ c.texs.filter (fun e => e.marker == t) := by rw [he]; exact List.mem_singleton_self e
    simpa using this
  refine ⟨_, if_pos (by rw [he]; rfl), ⟨?_, ?_⟩, ?_, ?_⟩
  · rw [List.map_map, ← h.1]
    refine List.map_congr_left (fun x _ => ?_)
    simp only [Function.comp]
    split <;> rfl
  · intro x hx
    obtain ⟨y, hy, rfl⟩ := List.mem_map.1 hx
    have := h.2 y hy
    split <;> exact this
  · refine ⟨{ e with handle := c.assets.length }, ?_, h.2 e hem.1, by simp⟩
    rw [List.filter_map]
    have : ((fun e : Tex => e.marker == t) ∘ fun e => if e.marker == t then { e with handle := c.assets.length } else e) =
        fun e => e.marker == t := by
      funext x
      simp only [Function.comp]
      split <;> simp_all
    rw [this, he]
    simp [hem.2]
  · rintro u im hu ⟨x, hx, hp, ha⟩
    refine ⟨x, ?_, hp, ?_⟩
    · rw [List.filter_map]
      have : ((fun e : Tex => e.marker == u) ∘ fun e => if e.marker == t then { e with handle := c.assets.length } else e) =
          fun e => e.marker == u := by
        funext y
        simp only [Function.comp]
        split <;> simp_all
      rw [this, hx]
      have hm : x.marker = u := by
        have : x ∈ c.texs.filter (fun e => e.marker == u) := by rw [hx]; exact List.mem_singleton_self x
        simpa using (List.mem_filter.1 this).2
      simp [hm, hu]
    · show (c.assets ++ _)[x.handle]? = _
      obtain ⟨hl, _⟩ := List.getElem?_eq_some_iff.1 ha
      rw [List.getElem?_append_left hl]
      exact ha

theorem frame_one {S : Type} (d : Desc) (s : S) (n : Nat) (bs : List (Batch S)) : ∀ (t : Nat) (c : Screen), OneEach c d n →
    t + bs.length ≤ n → ∃ c', Screen.frame s t bs c = some c' ∧ OneEach c' d n ∧
      (∀ (i : Nat) (b : Batch S), bs[i]? = some b → ShowsField c' d (t + i) (b.image s)) ∧
      ∀ u im, u < t → ShowsField c d u im → ShowsField c' d u im := by
  induction bs with
  | nil => intro t c h _; exact ⟨c, rfl, h, by simp, fun _ _ _ h => h⟩
  | cons b bs ih =>
    intro t c h hn
    rw [List.length_cons] at hn
    obtain ⟨c1, h1, h2, h3, h4⟩ := batchRender_one (t := t) b s h (by omega)
    obtain ⟨c2, g1, g2, g3, g4⟩ := ih (t + 1) c1 h2 (by omega)
    refine ⟨c2, by unfold Screen.frame; rw [h1]; exact g1, g2, ?_, ?_⟩
    · intro i b' hb
      cases i with
      | zero =>
        obtain rfl := Option.some.inj hb
        exact g4 _ _ (Nat.lt_succ_self t) h3
      | succ i =>
        have := g3 i b' (by simpa using hb)
        rwa [show t + 1 + i = t + (i + 1) by omega] at this
    · intro u im hu hs
      exact g4 u im (by omega) (h4 u im (by omega) hs)

variable {T A S R : Type} [LinearOrder T]

theorem bevent_one (d : VSim T A S R) (desc : Desc) (bs : List (Batch S)) (p : BApp T A S R) (e : BEvent)
    (h : OneEach p.screen desc bs.length) : ∃ p', p.event d desc bs e = some p' ∧ OneEach p'.screen desc bs.length := by
  have hstop : OneEach (Screen.renderAll desc (p.app.event d .stop).world.state 0 bs { p.screen with texs := [] }) desc bs.length := by
    have := renderAll_one desc (p.app.event d .stop).world.state bs 0 { p.screen with texs := [] } ⟨rfl, by simp⟩
    rwa [Nat.zero_add] at this
  cases e with
  | app e =>
    cases e with
    | stop => exact ⟨_, rfl, hstop⟩
    | tick => exact ⟨_, rfl, h⟩
    | start => exact ⟨_, rfl, h⟩
    | pause => exact ⟨_, rfl, h⟩
  | frame =>
    obtain ⟨c', h1, h2, _⟩ := frame_one desc p.app.world.state bs.length bs 0 p.screen h (by omega)
    exact ⟨⟨p.app, c'⟩, by unfold BApp.event; rw [h1]; rfl, h2⟩

theorem brun_one (d : VSim T A S R) (desc : Desc) (bs : List (Batch S)) (es : List BEvent) : ∀ (p : BApp T A S R),
    OneEach p.screen desc bs.length → ∃ p', p.run d desc bs es = some p' ∧ OneEach p'.screen desc bs.length := by
  induction es with
  | nil => intro p h; exact ⟨p, rfl, h⟩
  | cons e es ih =>
    intro p h
    obtain ⟨p1, h1, h2⟩ := bevent_one d desc bs p e h
    obtain ⟨p2, g1, g2⟩ := ih p1 h2
    exact ⟨p2, by unfold BApp.run; rw [h1]; exact g1, g2⟩

theorem brun_app (d : VSim T A S R) (desc : Desc) (bs : List (Batch S)) (es : List BEvent) : ∀ (p p' : BApp T A S R),
    p.run d desc bs es = some p' → p'.app = p.app.run d (appEvents es) := by
  induction es with
  | nil => intro p p' h; obtain rfl := Option.some.inj h; rfl
  | cons e es ih =>
    intro p p' h
    unfold BApp.run at h
    rw [Option.bind_eq_some_iff] at h
    obtain ⟨p1, h1, h2⟩ := h
    rw [ih p1 p' h2]
    cases e with
    | app e =>
      have : p1.app = p.app.event d e := by
        cases e <;> (unfold BApp.event at h1; obtain rfl := Option.some.inj h1; rfl)
      rw [this]
      rfl
    | frame =>
      unfold BApp.event at h1
      obtain ⟨c, _, rfl⟩ := Option.map_eq_some_iff.1 h1
      rfl

/-- **C159.** Whatever buttons are pressed and however time steps and frames alternate, drawing never panics, and after every frame the screen has
exactly one texture for each field, in the middle of the simulation area; read row by row from the top it shows the field as it is in the current state
of the simulation. -/
theorem C159_textures_are_current (d : VSim T A S R) (desc : Desc) (bs : List (Batch S)) (s : S) (es : List BEvent) :
    ∃ p, (BApp.new d desc bs s).run d desc bs (es ++ [.frame]) = some p ∧ p.app = (App.new d s).run d (appEvents es) ∧
      p.screen.texs.map Tex.marker = List.range bs.length ∧
      ∀ (t : Nat) (b : Batch S), bs[t]? = some b → ∃ im, ShowsField p.screen desc t im ∧
        im.width = b.width p.app.world.state ∧ im.height = b.height p.app.world.state ∧
        ∀ x y, x < b.width p.app.world.state → y < b.height p.app.world.state →
          im.raw[(y * b.width p.app.world.state + x) * 4]? =
            some (b.pixel p.app.world.state x (b.height p.app.world.state - 1 - y)).r ∧
          im.raw[(y * b.width p.app.world.state + x) * 4 + 1]? =
            some (b.pixel p.app.world.state x (b.height p.app.world.state - 1 - y)).g ∧
          im.raw[(y * b.width p.app.world.state + x) * 4 + 2]? =
            some (b.pixel p.app.world.state x (b.height p.app.world.state - 1 - y)).b ∧
          im.raw[(y * b.width p.app.world.state + x) * 4 + 3]? =
            some (b.pixel p.app.world.state x (b.height p.app.world.state - 1 - y)).a := by
  have hnew : OneEach (BApp.new d desc bs s).screen desc bs.length := by
    have := renderAll_one desc (App.new d s).world.state bs 0 ⟨[], []⟩ ⟨rfl, by simp⟩
    rwa [Nat.zero_add] at this
  obtain ⟨p1, h1, h2⟩ := brun_one d desc bs es _ hnew
  obtain ⟨c', g1, g2, g3, _⟩ := frame_one desc p1.app.world.state bs.length bs 0 p1.screen h2 (by omega)
  have hrun : ∀ (es : List BEvent) (p p1 : BApp T A S R), p.run d desc bs es = some p1 →
      p.run d desc bs (es ++ [.frame]) = p1.event d desc bs .frame := by
    intro es
    induction es with
    | nil =>
      intro p p1 h
      obtain rfl := Option.some.inj h
      show (p.event d desc bs .frame).bind (fun p => some p) = _
      cases p.event d desc bs .frame <;> rfl
    | cons e es ih =>
      intro p p1 h
      unfold BApp.run at h
      rw [Option.bind_eq_some_iff] at h
      obtain ⟨p2, h3, h4⟩ := h
      rw [List.cons_append]
      unfold BApp.run
      rw [h3]
      exact ih p2 p1 h4
  refine ⟨⟨p1.app, c'⟩, ?_, brun_app d desc bs es _ _ h1, g2.1, ?_⟩
  · rw [hrun es _ _ h1]
    unfold BApp.event
    rw [g1]
    rfl
  · intro t b hb
    have := g3 t b hb
    rw [Nat.zero_add] at this
    exact ⟨_, this, rfl, rfl, fun x y hx hy => C128_pixels _ _ _ hx hy⟩

theorem render_shows {S : Type} {d : Desc} {t : Nat} {c : Screen} (b : Batch S) (s : S) (h : OneEach c d t) :
    ShowsField (c.render d b t s) d t (b.image s) ∧
      ∀ u im, u < t → ShowsField c d u im → ShowsField (c.render d b t s) d u im := by
  have hnot : c.texs.filter (fun e => e.marker == t) = [] := by
    rw [List.filter_eq_nil_iff]
    intro e he hm
    have : e.marker ∈ List.range t := h.1 ▸ List.mem_map_of_mem he
    rw [List.mem_range] at this
    have : e.marker = t := by simpa using hm
    omega
  refine ⟨⟨⟨t, c.assets.length, ((texturePlace d).1, (texturePlace d).2, b.layer s)⟩, ?_, rfl, ?_⟩, ?_⟩
  · show (c.texs ++ _).filter _ = _
    rw [List.filter_append, hnot]
    simp
  · show (c.assets ++ _)[c.assets.length]? = _
    simp
  · rintro u im hu ⟨x, hx, hp, ha⟩
    refine ⟨x, ?_, hp, ?_⟩
    · show (c.texs ++ _).filter _ = _
      rw [List.filter_append, hx]
      have : ¬ t = u := by omega
      simp [this]
    · show (c.assets ++ _)[x.handle]? = _
      obtain ⟨hl, _⟩ := List.getElem?_eq_some_iff.1 ha
      rw [List.getElem?_append_left hl]
      exact ha

theorem renderAll_shows {S : Type} (d : Desc) (s : S) (bs : List (Batch S)) : ∀ (t : Nat) (c : Screen), OneEach c d t →
    (∀ (i : Nat) (b : Batch S), bs[i]? = some b → ShowsField (Screen.renderAll d s t bs c) d (t + i) (b.image s)) ∧
      ∀ u im, u < t → ShowsField c d u im → ShowsField (Screen.renderAll d s t bs c) d u im := by
  induction bs with
  | nil => intro t c _; exact ⟨by simp, fun _ _ _ h => h⟩
  | cons b bs ih =>
    intro t c h
    have h1 : OneEach (c.render d b t s) d (t + 1) := renderAll_one d s [b] t c h
    obtain ⟨k1, k2⟩ := render_shows b s h
    obtain ⟨g1, g2⟩ := ih (t + 1) (c.render d b t s) h1
    refine ⟨?_, fun u im hu hs => g2 u im (by omega) (k2 u im hu hs)⟩
    intro i b' hb
    cases i with
    | zero =>
      obtain rfl := Option.some.inj hb
      exact g2 _ _ (Nat.lt_succ_self t) k1
    | succ i =>
      have := g1 i b' (by simpa using hb)
      rwa [show t + 1 + i = t + (i + 1) by omega] at this

/-- **C159.** At the beginning and right after every Stop, before any frame, the screen already shows all fields as they are in the initial state;
after any events whatsoever each field is shown by some image. -/
theorem C159_drawn_at_once (d : VSim T A S R) (desc : Desc) (bs : List (Batch S)) (s : S) (es : List BEvent) :
    (∀ (t : Nat) (b : Batch S), bs[t]? = some b →
      ShowsField (BApp.new d desc bs s).screen desc t (b.image (App.new d s).world.state)) ∧
    ∃ p, (BApp.new d desc bs s).run d desc bs es = some p ∧
      (∀ (t : Nat) (b : Batch S), bs[t]? = some b → ∃ s', ShowsField p.screen desc t (b.image s')) ∧
      ∃ p', p.event d desc bs (.app .stop) = some p' ∧
        ∀ (t : Nat) (b : Batch S), bs[t]? = some b → ShowsField p'.screen desc t (b.image p'.app.world.state) := by
  have hnew : OneEach (BApp.new d desc bs s).screen desc bs.length := by
    have := renderAll_one desc (App.new d s).world.state bs 0 ⟨[], []⟩ ⟨rfl, by simp⟩
    rwa [Nat.zero_add] at this
  have hfirst : ∀ (t : Nat) (b : Batch S), bs[t]? = some b →
      ShowsField (BApp.new d desc bs s).screen desc t (b.image (App.new d s).world.state) := by
    intro t b hb
    have := (renderAll_shows desc (App.new d s).world.state bs 0 ⟨[], []⟩ ⟨rfl, by simp⟩).1 t b hb
    rwa [Nat.zero_add] at this
  have hstop : ∀ (p : BApp T A S R), ∀ (t : Nat) (b : Batch S), bs[t]? = some b →
      ShowsField (Screen.renderAll desc (p.app.event d .stop).world.state 0 bs { p.screen with texs := [] }) desc t
        (b.image (p.app.event d .stop).world.state) := by
    intro p t b hb
    have := (renderAll_shows desc (p.app.event d .stop).world.state bs 0 { p.screen with texs := [] } ⟨rfl, by simp⟩).1 t b hb
    rwa [Nat.zero_add] at this
  have key : ∀ (es : List BEvent) (p : BApp T A S R), OneEach p.screen desc bs.length →
      (∀ (t : Nat) (b : Batch S), bs[t]? = some b → ∃ s', ShowsField p.screen desc t (b.image s')) →
      ∃ p', p.run d desc bs es = some p' ∧
        ∀ (t : Nat) (b : Batch S), bs[t]? = some b → ∃ s', ShowsField p'.screen desc t (b.image s') := by
    intro es
    induction es with
    | nil => intro p _ h; exact ⟨p, rfl, h⟩
    | cons e es ih =>
      intro p h1 h2
      have step : ∃ p', p.event d desc bs e = some p' ∧
          ∀ (t : Nat) (b : Batch S), bs[t]? = some b → ∃ s', ShowsField p'.screen desc t (b.image s') := by
        cases e with
        | app e =>
          cases e with
          | stop => exact ⟨_, rfl, fun t b hb => ⟨_, hstop p t b hb⟩⟩
          | tick => exact ⟨_, rfl, h2⟩
          | start => exact ⟨_, rfl, h2⟩
          | pause => exact ⟨_, rfl, h2⟩
        | frame =>
          obtain ⟨c', k1, _, k3, _⟩ := frame_one desc p.app.world.state bs.length bs 0 p.screen h1 (by omega)
          refine ⟨⟨p.app, c'⟩, by unfold BApp.event; rw [k1]; rfl, ?_⟩
          intro t b hb
          have := k3 t b hb
          rw [Nat.zero_add] at this
          exact ⟨_, this⟩
      obtain ⟨p1, e1, e2⟩ := step
      obtain ⟨p1', e3, e4⟩ := bevent_one d desc bs p e h1
      obtain rfl := Option.some.inj (e1.symm.trans e3)
      obtain ⟨p2, e5, e6⟩ := ih p1 e4 e2
      exact ⟨p2, by unfold BApp.run; rw [e1]; exact e5, e6⟩
  obtain ⟨p, h1, h2⟩ := key es _ hnew (fun t b hb => ⟨_, hfirst t b hb⟩)
  exact ⟨hfirst, p, h1, h2, _, rfl, hstop p⟩

/-- Two fields, the first with one pixel. -/
def twoFields : List (Batch Nat) :=
  [⟨fun _ => 1, fun _ => 1, fun s _ _ => ⟨s, 0, 0, 255⟩, fun _ => 0⟩, ⟨fun _ => 2, fun _ => 1, fun s x _ => ⟨s, x, 0, 255⟩, fun _ => 1⟩]

/-- Two fields, the first with one pixel that tells the state, and the handles and images after two steps, a Stop and a step; without the Stop's
removal of the entities the third frame would panic. -/
example : (((BApp.new plain (Desc.setup 600 300 100 50) twoFields 0).run plain (Desc.setup 600 300 100 50) twoFields
      [.app .start, .app .tick, .app .tick, .frame, .app .stop, .frame, .app .start, .app .tick, .frame]).map
      (fun p => p.screen.texs.map (fun e => (p.screen.assets[e.handle]?).map Img.data))) =
    some [some [⟨1, 0, 0, 255⟩], some [⟨1, 0, 0, 255⟩, ⟨1, 1, 0, 255⟩]] := by
  decide +kernel

/-- Two fields of the same type: the first frame panics. -/
example : twoFields.map (fun b => (((⟨[], []⟩ : Screen).render (Desc.setup 6 3 1 1) b 0 7).render (Desc.setup 6 3 1 1) b 0 7).batchRender b 0 7) =
    [none, none] := by
  decide +kernel

/-! ### C160 -/

/-- The arrow with the functions of real numbers. -/
noncomputable def Arrow.realPath (a : Arrow ℝ) : List (ℝ × ℝ) := a.path Real.cos Real.sin (fun y x => Complex.arg ⟨x, y⟩)

/-- **C160.** The path of an arrow (in exact arithmetic) is the line from its start to its end and from there two strokes of the given length, which
make the given angle with the line on either side of it (scalar products and oriented areas are those of that angle; `n` is the length of the line). -/
theorem C160_arrow (a : Arrow ℝ) (hne : a.start ≠ a.stop) : ∃ one two n, a.realPath = [a.start, a.stop, one, a.stop, two] ∧
    0 < n ∧ n ^ 2 = dist2 a.start a.stop ∧ dist2 a.stop one = a.length ^ 2 ∧ dist2 a.stop two = a.length ^ 2 ∧
    dot a.stop a.start one = n * a.length * Real.cos a.angle ∧ dot a.stop a.start two = n * a.length * Real.cos a.angle ∧
    cross a.stop a.start one = -(n * a.length * Real.sin a.angle) ∧ cross a.stop a.start two = n * a.length * Real.sin a.angle := by
  have hz : (⟨a.stop.1 - a.start.1, a.stop.2 - a.start.2⟩ : ℂ) ≠ 0 := by
    intro h
    apply hne
    have h1 := congrArg Complex.re h
    have h2 := congrArg Complex.im h
    simp only [Complex.zero_re, Complex.zero_im] at h1 h2
    exact Prod.ext (by linarith) (by linarith)
  have hc := Complex.cos_arg hz
  have hs := Complex.sin_arg (⟨a.stop.1 - a.start.1, a.stop.2 - a.start.2⟩ : ℂ)
  have hn : 0 < ‖(⟨a.stop.1 - a.start.1, a.stop.2 - a.start.2⟩ : ℂ)‖ := norm_pos_iff.2 hz
  have hn2 : ‖(⟨a.stop.1 - a.start.1, a.stop.2 - a.start.2⟩ : ℂ)‖ ^ 2 = (a.stop.1 - a.start.1) ^ 2 + (a.stop.2 - a.start.2) ^ 2 := by
    rw [Complex.sq_norm, Complex.normSq_mk]
    ring
  generalize hN : ‖(⟨a.stop.1 - a.start.1, a.stop.2 - a.start.2⟩ : ℂ)‖ = n at *
  generalize hT : Complex.arg ⟨a.stop.1 - a.start.1, a.stop.2 - a.start.2⟩ = t at *
  dsimp only at hc hs
  have hx : a.stop.1 - a.start.1 = n * Real.cos t := by rw [hc]; field_simp
  have hy : a.stop.2 - a.start.2 = n * Real.sin t := by rw [hs]; field_simp
  have e1 := Real.cos_sub t a.angle
  have e2 := Real.sin_sub t a.angle
  have e3 := Real.cos_add t a.angle
  have e4 := Real.sin_add t a.angle
  have p1 := Real.sin_sq_add_cos_sq (t - a.angle)
  have p2 := Real.sin_sq_add_cos_sq (t + a.angle)
  have p3 := Real.sin_sq_add_cos_sq t
  refine ⟨(a.stop.1 - a.length * Real.cos (t - a.angle), a.stop.2 - a.length * Real.sin (t - a.angle)),
    (a.stop.1 - a.length * Real.cos (t + a.angle), a.stop.2 - a.length * Real.sin (t + a.angle)), n, ?_, hn, ?_, ?_, ?_, ?_, ?_, ?_, ?_⟩
  · unfold Arrow.realPath Arrow.path
    dsimp only
    rw [hT]
  · unfold dist2
    rw [hn2]
    ring
  · unfold dist2
    dsimp only
    linear_combination a.length ^ 2 * p1
  · unfold dist2
    dsimp only
    linear_combination a.length ^ 2 * p2
  · unfold dot
    dsimp only
    rw [show a.start.1 - a.stop.1 = -(n * Real.cos t) by linarith, show a.start.2 - a.stop.2 = -(n * Real.sin t) by linarith, e1, e2]
    linear_combination n * a.length * Real.cos a.angle * p3
  · unfold dot
    dsimp only
    rw [show a.start.1 - a.stop.1 = -(n * Real.cos t) by linarith, show a.start.2 - a.stop.2 = -(n * Real.sin t) by linarith, e3, e4]
    linear_combination n * a.length * Real.cos a.angle * p3
  · unfold cross
    dsimp only
    rw [show a.start.1 - a.stop.1 = -(n * Real.cos t) by linarith, show a.start.2 - a.stop.2 = -(n * Real.sin t) by linarith, e1, e2]
    linear_combination -(n * a.length * Real.sin a.angle * p3)
  · unfold cross
    dsimp only
    rw [show a.start.1 - a.stop.1 = -(n * Real.cos t) by linarith, show a.start.2 - a.stop.2 = -(n * Real.sin t) by linarith, e3, e4]
    linear_combination n * a.length * Real.sin a.angle * p3

/-- An arrow to the right: the head points back, up and down. -/
example : ((⟨(0, 0), (3, 0), 1, 2⟩ : Arrow ℝ).start ≠ (⟨(0, 0), (3, 0), 1, 2⟩ : Arrow ℝ).stop) := by
  intro h
  have := congrArg Prod.fst h
  norm_num at this

/-- An arrow without length has a head, too, whose place depends on what `atan2(0, 0)` is. -/
example (c s : Int → Int) (t : Int → Int → Int) : (⟨(1, 1), (1, 1), 2, 0⟩ : Arrow Int).path c s t =
    [(1, 1), (1, 1), (1 - 2 * c (t 0 0 - 0), 1 - 2 * s (t 0 0 - 0)), (1, 1), (1 - 2 * c (t 0 0 + 0), 1 - 2 * s (t 0 0 + 0))] := rfl

end Verif.Visual
