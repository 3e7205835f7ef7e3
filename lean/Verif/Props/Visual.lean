import Verif.Spec.Visual
import Verif.Props.Driver
import Verif.Lemmas.HashMap
import Mathlib.Data.List.Nodup
import Mathlib.Tactic.Linarith
import Mathlib.Tactic.Ring
import Mathlib.Tactic.FieldSimp

/-!
Properties of the visualization (src/visualization): C128 to C136.
-/

namespace Verif.Visual

/-! ### C128: textures -/

theorem getElem?_flatMap_const {α β : Type} (g : α → List β) (w : Nat) (hg : ∀ a, (g a).length = w) (x : Nat) (hx : x < w) :
    ∀ (L : List α) (y : Nat), (L.flatMap g)[y * w + x]? = (L[y]?).bind (fun a => (g a)[x]?) := by
  intro L
  induction L with
  | nil => intro y; simp
  | cons a L ih =>
    intro y
    rw [List.flatMap_cons]
    cases y with
    | zero =>
      rw [List.getElem?_append_left (by rw [hg]; omega)]
      simp
    | succ y =>
      rw [List.getElem?_append_right (by rw [hg, Nat.succ_mul]; omega), hg]
      have e : (y + 1) * w + x - w = y * w + x := by rw [Nat.succ_mul]; omega
      rw [e, ih]
      rfl

theorem fromFn_at (w h : Nat) (f : Nat → Nat → Pixel) {x y : Nat} (hx : x < w) (hy : y < h) :
    (Img.fromFn w h f).data[y * w + x]? = some (f x y) := by
  show ((List.range h).flatMap (fun y => (List.range w).map (fun x => f x y)))[y * w + x]? = _
  rw [getElem?_flatMap_const _ w (by simp) x hx]
  simp [hy, hx]

theorem at_fromFn (w h : Nat) (f : Nat → Nat → Pixel) {x y : Nat} (hx : x < w) (hy : y < h) :
    (Img.fromFn w h f).at x y = f x y := by
  show (Img.fromFn w h f).data.getD (y * w + x) _ = _
  rw [List.getD_eq_getElem?_getD, fromFn_at w h f hx hy]
  rfl

theorem texture_data (w h : Nat) (f : Nat → Nat → Pixel) {x y : Nat} (hx : x < w) (hy : y < h) :
    (texture w h f).data[y * w + x]? = some (f x (h - 1 - y)) := by
  have e1 := fromFn_at w h (fun x y => (flipHorizontal (Img.fromFn w h f)).at (w - 1 - x) (h - 1 - y)) hx hy
  have e2 := at_fromFn w h (fun x y => (Img.fromFn w h f).at (w - 1 - x) y) (x := w - 1 - x) (y := h - 1 - y)
    (by omega) (by omega)
  have e3 := at_fromFn w h f (x := w - 1 - (w - 1 - x)) (y := h - 1 - y) (by omega) (by omega)
  have e4 : w - 1 - (w - 1 - x) = x := by omega
  rw [e4] at e3
  refine e1.trans (congrArg some ?_)
  exact e2.trans (by rw [e4]; exact e3)

/-- C128 (every cell is in the texture, the first row at the bottom). The bytes of the texture, row by row from the top, are
those of the cells: the four bytes at column `x` of row `y` are the pixel of the cell `(x, h - 1 - y)`. -/
theorem C128_pixels (w h : Nat) (f : Nat → Nat → Pixel) {x y : Nat} (hx : x < w) (hy : y < h) :
    (texture w h f).raw[(y * w + x) * 4]? = some (f x (h - 1 - y)).r ∧
    (texture w h f).raw[(y * w + x) * 4 + 1]? = some (f x (h - 1 - y)).g ∧
    (texture w h f).raw[(y * w + x) * 4 + 2]? = some (f x (h - 1 - y)).b ∧
    (texture w h f).raw[(y * w + x) * 4 + 3]? = some (f x (h - 1 - y)).a := by
  have hd := texture_data w h f hx hy
  have key : ∀ c, c < 4 → (texture w h f).raw[(y * w + x) * 4 + c]? =
      [(f x (h - 1 - y)).r, (f x (h - 1 - y)).g, (f x (h - 1 - y)).b, (f x (h - 1 - y)).a][c]? := by
    intro c hc
    show ((texture w h f).data.flatMap _)[_]? = _
    rw [getElem?_flatMap_const (fun p : Pixel => [p.r, p.g, p.b, p.a]) 4 (fun _ => rfl) c hc, hd]
    rfl
  exact ⟨key 0 (by omega), key 1 (by omega), key 2 (by omega), key 3 (by omega)⟩

/-- C128 (size). The texture has the dimensions of the field and four bytes for each cell. -/
theorem C128_size (w h : Nat) (f : Nat → Nat → Pixel) :
    (texture w h f).width = w ∧ (texture w h f).height = h ∧ (texture w h f).raw.length = w * h * 4 := by
  refine ⟨rfl, rfl, ?_⟩
  have e : ∀ (h : Nat) (g : Nat → Nat → Pixel), (Img.fromFn w h g).data.length = w * h := by
    intro h g
    show ((List.range h).flatMap (fun y => (List.range w).map (fun x => g x y))).length = _
    rw [List.length_flatMap]
    simp [Nat.mul_comm]
  show ((texture w h f).data.flatMap _).length = _
  rw [List.length_flatMap]
  have e2 : (texture w h f).data.length = w * h := e h _
  simp [e2]

/-- A field of three cells in two rows: the upper row comes first. -/
example : (texture 3 2 (fun x y => ⟨x, y, 7, 255⟩)).data =
    [⟨0, 1, 7, 255⟩, ⟨1, 1, 7, 255⟩, ⟨2, 1, 7, 255⟩, ⟨0, 0, 7, 255⟩, ⟨1, 0, 7, 255⟩, ⟨2, 0, 7, 255⟩] := by decide

/-! ### C129: the run under the visualization -/

variable {T A S R : Type} [LinearOrder T]

theorem run_cons (d : VSim T A S R) (p : App T A S R) (e : Event) (es : List Event) :
    p.run d (e :: es) = (p.event d e).run d es := rfl

theorem run_progress (d : VSim T A S R) (w0 : Schedule.World T A S) (es : List Event) :
    (∀ s, fresh d (d.reset s) = w0) ∨ .stop ∉ es → ∀ (p : App T A S R) (n : Nat),
    p.world = (Schedule.step d.sim.model)^[n] w0 →
    (p.run d es).paused = !(progress (!p.paused) n es).1 ∧
      (p.run d es).world = (Schedule.step d.sim.model)^[(progress (!p.paused) n es).2] w0 := by
  induction es with
  | nil => intro _ p n hp; exact ⟨by simp [App.run, progress], hp⟩
  | cons e es ih =>
    intro hr p n hp
    have hr' : (∀ s, fresh d (d.reset s) = w0) ∨ .stop ∉ es := by
      rcases hr with hr | hr
      · exact Or.inl hr
      · exact Or.inr (fun h => hr (List.mem_cons_of_mem _ h))
    rw [run_cons]
    cases e with
    | tick =>
      show ((p.tick d).run d es).paused = _ ∧ ((p.tick d).run d es).world = _
      unfold App.tick progress
      cases hpa : p.paused with
      | true =>
        rw [if_pos rfl]
        have := ih hr' p n hp
        rw [hpa] at this
        exact this
      | false =>
        rw [if_neg (by simp)]
        have h2 := ih hr' ⟨Schedule.step d.sim.model p.world, false, renderer d.vis false
          (Schedule.step d.sim.model p.world).state (Schedule.step d.sim.model p.world).sched.step p.sprites⟩ (n + 1)
          (by rw [Function.iterate_succ_apply', ← hp])
        exact h2
    | start => exact ih hr' { p with paused := false } n hp
    | pause => exact ih hr' { p with paused := true } n hp
    | stop =>
      rcases hr with hr | hr
      · exact ih hr' (p.stop d) 0 (hr _)
      · exact absurd (List.mem_cons_self) hr

/-- C129 (the run). Whatever buttons are pressed and whenever, the simulation is where as many steps as there were fixed time
steps while it was running take it from its beginning; Stop takes it back to the beginning, provided that `reset` lets
`init` and `on_init` make the same beginning again. -/
theorem C129_run (d : VSim T A S R) (s : S) (hr : ∀ s', fresh d (d.reset s') = fresh d s) (es : List Event) :
    ((App.new d s).run d es).paused = !(progress false 0 es).1 ∧
      ((App.new d s).run d es).world = (Schedule.step d.sim.model)^[(progress false 0 es).2] (fresh d s) :=
  run_progress d (fresh d s) es (Or.inl hr) (App.new d s) 0 rfl

/-- C129 (without Stop) nothing is asked of `reset`. -/
theorem C129_run_without_stop (d : VSim T A S R) (s : S) (es : List Event) (he : .stop ∉ es) :
    ((App.new d s).run d es).paused = !(progress false 0 es).1 ∧
      ((App.new d s).run d es).world = (Schedule.step d.sim.model)^[(progress false 0 es).2] (fresh d s) :=
  run_progress d (fresh d s) es (Or.inr he) (App.new d s) 0 rfl

theorem fresh_counter (d : VSim T A S R) (s : S) : (fresh d s).sched.step = 0 := by
  unfold fresh doInit
  rw [(Schedule.execAll_sched_step _ _).1]
  exact Driver.start_counter d.sim s

theorem run_counter (d : VSim T A S R) (es : List Event) : ∀ (p : App T A S R),
    (p.run d es).world.sched.step = (progress (!p.paused) p.world.sched.step es).2 := by
  induction es with
  | nil => intro p; rfl
  | cons e es ih =>
    intro p
    rw [run_cons, ih]
    cases e with
    | tick =>
      show (progress (!(p.tick d).paused) (p.tick d).world.sched.step es).2 =
        (progress (!p.paused) (if (!p.paused) = true then p.world.sched.step + 1 else p.world.sched.step) es).2
      unfold App.tick
      cases hpa : p.paused with
      | true => rw [if_pos rfl, hpa]; simp
      | false =>
        rw [if_neg (by simp)]
        dsimp only
        rw [Driver.step_counter]
        simp
    | start => rfl
    | pause => rfl
    | stop =>
      show (progress false (fresh d (d.reset p.world.state)).sched.step es).2 = _
      rw [fresh_counter]
      rfl

/-- C129 (the counter shown). The step number of the panel is the number of these time steps since the last Stop, whatever
`reset` does. -/
theorem C129_counter (d : VSim T A S R) (s : S) (es : List Event) :
    ((App.new d s).run d es).world.sched.step = (progress false 0 es).2 := by
  rw [run_counter]
  show (progress false (fresh d s).sched.step es).2 = _
  rw [fresh_counter]

/-- C129 (pause). While the simulation is paused time changes nothing, neither the simulation nor the sprites. -/
theorem C129_paused (d : VSim T A S R) (p : App T A S R) (hp : p.paused = true) (n : Nat) :
    p.run d (List.replicate n .tick) = p := by
  induction n with
  | zero => rfl
  | succ n ih =>
    rw [List.replicate_succ, run_cons]
    have : p.event d .tick = p := by show p.tick d = p; unfold App.tick; rw [if_pos hp]
    rw [this]; exact ih

/-- C129 (stop). After Stop the simulation is paused at the beginning that `init` and `on_init` make from the reset state, with
a new schedule, and drawn anew. -/
theorem C129_stop (d : VSim T A S R) (p : App T A S R) :
    (p.event d .stop).paused = true ∧ (p.event d .stop).world = fresh d (d.reset p.world.state) ∧
      (p.event d .stop).sprites = setupGraphics d.vis (fresh d (d.reset p.world.state)).sched.getAllEvents
        (fresh d (d.reset p.world.state)).state := ⟨rfl, rfl, rfl⟩

/-! ### C130: the end condition -/

/-- C130 (as far as it goes). Up to the step at which the end condition holds the visualized simulation is that of
`simulate!`, if `on_init` and `end_condition` change nothing. -/
theorem C130_until_the_end_partial (d : VSim T A S R) (s : S) (hi : ∀ w, doInit d w = w)
    (hc : ∀ w, (Driver.check d.sim w).2 = w) (n : Nat)
    (hn : ∀ k, k + 1 < n → (Driver.check d.sim ((Schedule.step d.sim.model)^[k + 1] (Driver.start d.sim s))).1 = false) :
    ((App.new d s).run d (.start :: List.replicate n .tick)).world = Driver.runRep d.sim n s := by
  have hr := (C129_run_without_stop d s (.start :: List.replicate n .tick) (by simp [List.mem_replicate])).2
  have hp : ∀ (n m : Nat), (progress true m (List.replicate n .tick)) = (true, m + n) := by
    intro n
    induction n with
    | zero => intro m; rfl
    | succ n ih =>
      intro m
      show progress true (m + 1) (List.replicate n .tick) = _
      rw [ih]; congr 1; omega
  have hp2 : (progress false 0 (.start :: List.replicate n .tick)).2 = n := by
    show (progress true 0 (List.replicate n .tick)).2 = n
    rw [hp]; simp
  rw [hr, hp2]
  have hf : fresh d s = Driver.start d.sim s := hi _
  rw [hf]
  have key : ∀ (n : Nat) (w : Schedule.World T A S),
      (∀ k, k + 1 < n → (Driver.check d.sim ((Schedule.step d.sim.model)^[k + 1] w)).1 = false) →
      (Schedule.step d.sim.model)^[n] w = Driver.loop d.sim n w := by
    intro n
    induction n with
    | zero => intro w _; rfl
    | succ n ih =>
      intro w hn
      rw [Function.iterate_succ_apply, Driver.loop]
      cases n with
      | zero =>
        rw [hc]
        simp [Driver.loop]
      | succ n =>
        have h1 := hn 0 (by omega)
        rw [Function.iterate_one] at h1
        rw [h1, hc]
        simp only [Bool.false_eq_true, if_false]
        exact ih _ (fun k hk => by
          have := hn (k + 1) (by omega)
          rw [Function.iterate_succ_apply] at this
          exact this)
  exact key n _ hn

/-- A visualized simulation without agents: its state counts the steps and it ends when the count is a multiple of three. -/
def plain : VSim Nat Unit Nat Unit where
  sim := Driver.counting
  reset := fun _ => 0
  onInit := fun w => (w.state, [])
  vis := { agentRender := fun _ _ => none, agent := fun _ _ => none, sprite := fun _ _ _ => "", location := fun _ _ _ => (0, 0, 0),
           scale := fun _ _ _ => (1, 1), rotation := fun _ _ _ => 0, update := fun r _ _ p b => (r, p, b) }

/-- C130, the negation. The systems never ask `end_condition`: the simulation that `simulate!` ends after three steps runs on. -/
theorem C130_end_ignored_partial :
    (Driver.runRep plain.sim 5 0).sched.step = 3 ∧
      ((App.new plain 0).run plain (.start :: List.replicate 5 .tick)).world.sched.step = 5 := by decide

/-- Start, two steps, a pause, another step, Stop, Start and one step. -/
example : ((App.new plain 0).run plain [.tick, .start, .tick, .tick, .pause, .tick, .start, .tick]).world.state = 3 ∧
    ((App.new plain 0).run plain [.start, .tick, .tick, .stop, .tick, .start, .tick]).world.state = 1 ∧
    progress false 0 [.start, .tick, .tick, .stop, .tick, .start, .tick] = (true, 1) := by decide

example : (∀ s', fresh plain (plain.reset s') = fresh plain 0) ∧ (∀ w, doInit plain w = w) ∧
    (∀ w, (Driver.check plain.sim w).2 = w) := ⟨fun _ => rfl, fun _ => rfl, fun _ => rfl⟩

/-! ### C131: the agents are drawn -/

/-- C131 (the beginning). At the beginning, and after Stop, there is one sprite for every scheduled agent that has a render,
in the order of the schedule, and it is drawn for this agent, with the scale and the rotation of its render. -/
theorem C131_beginning_partial (d : VSim T A S R) (w : Schedule.World T A S) :
    (App.of d w).sprites.map Sprite.render = w.sched.getAllEvents.filterMap (fun a => d.vis.agentRender a w.state) ∧
    ∀ e ∈ (App.of d w).sprites, ∃ a ∈ w.sched.getAllEvents, d.vis.agentRender a w.state = some e.render ∧
      DrawnFor d.vis w.state e a ∧ (e.place.scaleX, e.place.scaleY) = d.vis.scale e.render a w.state ∧
      e.place.rotation = d.vis.rotation e.render a w.state := by
  constructor
  · show (setupGraphics d.vis w.sched.getAllEvents w.state).map Sprite.render = _
    unfold setupGraphics
    rw [List.map_filterMap]
    congr 1
    funext a
    cases d.vis.agentRender a w.state <;> rfl
  · intro e he
    obtain ⟨a, ha, h⟩ := List.mem_filterMap.1 he
    cases hr : d.vis.agentRender a w.state with
    | none => rw [hr] at h; cases h
    | some r =>
      rw [hr] at h
      obtain rfl := Option.some.inj h
      exact ⟨a, ha, hr, ⟨rfl, rfl, rfl, rfl, rfl⟩, rfl, rfl⟩

/-- C131 (the frames). With renders that behave as documented: after every time step in which the simulation ran, each sprite
whose agent the user's `get_agent` still finds is drawn for this agent, and every other is hidden; the sprites are still
those of the same renders. -/
theorem C131_frames_partial (d : VSim T A S R) (hv : Faithful d.vis) (p : App T A S R) (hp : p.paused = false) :
    (p.event d .tick).sprites.map Sprite.render = p.sprites.map Sprite.render ∧
    ∀ e ∈ (p.event d .tick).sprites, match d.vis.agent e.render (p.event d .tick).world.state with
      | some a => DrawnFor d.vis (p.event d .tick).world.state e a
      | none => e.visible = false := by
  have e1 : p.event d .tick = ⟨Schedule.step d.sim.model p.world, false,
      p.sprites.map (renderOne d.vis (Schedule.step d.sim.model p.world).state
        (Schedule.step d.sim.model p.world).sched.step)⟩ := by
    show p.tick d = _
    unfold App.tick renderer
    rw [hp]
    rfl
  rw [e1]
  have hstep : (Schedule.step d.sim.model p.world).sched.step ≠ 0 := by rw [Driver.step_counter]; omega
  generalize Schedule.step d.sim.model p.world = w at hstep
  have hk : ∀ e : Sprite R, (renderOne d.vis w.state w.sched.step e).render = e.render := by
    intro e
    unfold renderOne
    cases d.vis.agent e.render w.state with
    | some a => exact hv.keeps _ _ _ _ _
    | none =>
      dsimp only
      split <;> rfl
  constructor
  · show (p.sprites.map _).map Sprite.render = _
    rw [List.map_map]
    exact List.map_congr_left (fun e _ => hk e)
  · intro e' he'
    obtain ⟨e, _, rfl⟩ := List.mem_map.1 he'
    dsimp only
    rw [hk]
    unfold renderOne
    cases ha : d.vis.agent e.render w.state with
    | none =>
      dsimp only
      rw [if_neg hstep]
    | some a =>
      have h1 := hv.keeps e.render a w.state e.place e.visible
      have h2 := hv.moves e.render a w.state e.place e.visible
      rw [Prod.mk.injEq, Prod.mk.injEq] at h2
      refine ⟨rfl, ?_, ?_, ?_, rfl⟩
      · dsimp only; rw [h1]; exact h2.1
      · dsimp only; rw [h1, h2.2.1]
      · dsimp only; rw [h1]; exact h2.2.2

/-- The number of sprites is that of the beginning as long as Stop is not pressed. -/
theorem sprites_length (d : VSim T A S R) (es : List Event) (he : .stop ∉ es) : ∀ p : App T A S R,
    (p.run d es).sprites.length = p.sprites.length := by
  induction es with
  | nil => intro p; rfl
  | cons e es ih =>
    intro p
    rw [run_cons, ih (fun h => he (List.mem_cons_of_mem _ h))]
    cases e with
    | tick =>
      show (p.tick d).sprites.length = _
      unfold App.tick
      split
      · rfl
      · show (renderer d.vis p.paused _ _ p.sprites).length = _
        unfold renderer
        split
        · rfl
        · exact List.length_map _
    | start => rfl
    | pause => rfl
    | stop => exact absurd List.mem_cons_self he

/-- C131 (agents that come later). Whatever the simulation does, no sprite is made while it runs. -/
theorem C131_no_new_sprite_partial (d : VSim T A S R) (p : App T A S R) (es : List Event) (he : .stop ∉ es) :
    (p.run d es).sprites.length = p.sprites.length := sprites_length d es he p

/-- A simulation with one agent at the beginning that gets a companion at every step; every agent has a render. -/
def growing : VSim Nat Nat Nat Nat where
  sim := { model := { update := fun _ s => s, beforeStep := fun s _ => (s + 1, [.scheduleRepeating (s + 1) 1 0]),
                      afterStep := fun s _ => (s, []), aBefore := fun a s => (a, s), aStep := fun a s => (a, s),
                      aAfter := fun a s => (a, s), isStopped := fun a s => (false, a, s), adv := fun t => t + 1,
                      tb := fun _ _ => 0 }
           zero := 0
           init := fun s => (s, [.scheduleRepeating s 0 0])
           endCondition := fun w => (false, w.state, []) }
  reset := fun _ => 0
  onInit := fun w => (w.state, [])
  vis := { agentRender := fun a _ => some a, agent := fun r _ => some r, sprite := fun _ _ _ => "bird",
           location := fun _ a _ => (a, 0, 0), scale := fun _ _ _ => (1, 1), rotation := fun _ _ _ => 0,
           update := fun r a _ p b => (r, { p with x := a, y := 0, z := 0 }, b) }

/-- C131, the negation: after two steps three agents are scheduled, all with a render, and one is drawn. -/
theorem C131_newcomers_not_drawn_partial :
    ((App.new growing 0).run growing [.start, .tick, .tick]).world.sched.getAllEvents.length = 3 ∧
    (∀ a s, (growing.vis.agentRender a s).isSome = true) ∧
    ((App.new growing 0).run growing [.start, .tick, .tick]).sprites.length = 1 := by
  refine ⟨by decide +kernel, fun _ _ => rfl, ?_⟩
  rw [sprites_length growing _ (by decide)]
  decide +kernel

example : Faithful growing.vis := ⟨fun _ _ _ _ _ => rfl, fun _ _ _ _ _ => rfl⟩

example : ((App.new growing 0).run growing [.start, .tick, .tick]).sprites.map
    (fun e => (e.render, e.visible, e.place.x, e.place.y, e.image)) = [(0, true, 0, 1 / 2, "bird")] := by decide +kernel

/-! ### C132: what `update` sets is drawn -/

/-- C132 (what is kept). The place that `update` leaves is drawn, except for the height, which is half a unit more. -/
theorem C132_place_partial (v : Vis A S R) (s : S) (n : Nat) (e : Sprite R) (a : A) (ha : v.agent e.render s = some a) :
    (renderOne v s n e).place =
      { (v.update e.render a s e.place e.visible).2.1 with y := (v.update e.render a s e.place e.visible).2.1.y + 1 / 2 } ∧
    (renderOne v s n e).render = (v.update e.render a s e.place e.visible).1 := by
  unfold renderOne
  rw [ha]
  exact ⟨rfl, rfl⟩

/-- C132, the negation for the visibility: a sprite whose agent is found is made visible, whatever `update` says. -/
theorem C132_visibility_ignored_partial (v : Vis A S R) (s : S) (n : Nat) (e : Sprite R) (a : A)
    (ha : v.agent e.render s = some a) : (renderOne v s n e).visible = true := by
  unfold renderOne
  rw [ha]

/-- Renders whose `update` leaves the place alone and hides the sprite. -/
def lazyVis : Vis Unit Unit Unit where
  agentRender := fun _ _ => some ()
  agent := fun _ _ => some ()
  sprite := fun _ _ _ => "rock"
  location := fun _ _ _ => (3, 4, 0)
  scale := fun _ _ _ => (1, 1)
  rotation := fun _ _ _ => 0
  update := fun r _ _ p _ => (r, p, false)

/-- C132, the negation for the place. An agent that never moves, with an `update` that therefore leaves the place as it is,
climbs half a unit in every frame, without end; and it is visible although `update` hides it. -/
theorem C132_drift_partial (n : Nat) :
    ((renderOne lazyVis () 1)^[n] (setupAgent lazyVis () () ())).place.y = 4 + 1 / 2 + (n : Rat) / 2 ∧
    (0 < n → ((renderOne lazyVis () 1)^[n] (setupAgent lazyVis () () ())).visible = true) := by
  constructor
  · induction n with
    | zero => norm_num [setupAgent, lazyVis]
    | succ n ih =>
      rw [Function.iterate_succ_apply', (C132_place_partial lazyVis () 1 _ () rfl).1]
      show ((renderOne lazyVis () 1)^[n] (setupAgent lazyVis () () ())).place.y + 1 / 2 = _
      rw [ih]
      push_cast
      ring
  · intro hn
    obtain ⟨m, rfl⟩ : ∃ m, n = m + 1 := ⟨n - 1, by omega⟩
    rw [Function.iterate_succ_apply']
    exact C132_visibility_ignored_partial lazyVis () 1 _ () rfl

/-! ### C133: objects of a grid -/

/-- C133 (a frame). An object of the beginning that still has a location is drawn there, half a unit up, with its emoji and its
rotation. -/
theorem C133_present_partial {O : Type} (v : GridVis O S) (s : S) (e : ObjSprite O) (l : Int × Int)
    (hl : v.loc s e.obj = some l) :
    renderObj v s e = { e with x := l.1, y := l.2 + 1 / 2, rotation := v.rotation s e.obj, image := v.emoji s e.obj } := by
  unfold renderObj
  rw [hl]

/-- C133 (the objects). The sprites are those of the beginning: objects that come later have none. -/
theorem C133_objects_partial {O : Type} (v : GridVis O S) (objs : List O) (s0 : S) (es : List (ObjSprite O))
    (h0 : initGrid v objs s0 = some es) (ss : List S) :
    (ss.foldl (fun es s => renderGrid v s es) es).map ObjSprite.obj = objs := by
  have h1 : es.map ObjSprite.obj = objs := by
    unfold initGrid at h0
    clear ss
    induction objs generalizing es with
    | nil =>
      rw [List.mapM_nil] at h0
      obtain rfl := Option.some.inj h0
      rfl
    | cons o objs ih =>
      rw [List.mapM_cons] at h0
      cases hl : v.loc s0 o with
      | none => rw [hl] at h0; cases h0
      | some l =>
        rw [hl] at h0
        cases hm : objs.mapM (fun o => (v.loc s0 o).map
            (fun l => (⟨o, l.1, l.2 - 1 / 2, v.rotation s0 o, v.scale o, v.emoji s0 o⟩ : ObjSprite O))) with
        | none => rw [hm] at h0; cases h0
        | some es' =>
          rw [hm] at h0
          obtain rfl := Option.some.inj h0
          rw [List.map_cons, ih es' hm]
  have h2 : ∀ s (es : List (ObjSprite O)), (renderGrid v s es).map ObjSprite.obj = es.map ObjSprite.obj := by
    intro s es
    unfold renderGrid
    rw [List.map_map]
    refine List.map_congr_left (fun e _ => ?_)
    show (renderObj v s e).obj = e.obj
    unfold renderObj
    cases v.loc s e.obj <;> rfl
  clear h0
  induction ss generalizing es with
  | nil => exact h1
  | cons s ss ih => exact ih _ ((h2 s es).trans h1)

/-- C133, the negation (the beginning). Every object is first drawn one unit below the place where the first frame puts it,
although it has not moved. -/
theorem C133_first_place_partial {O : Type} (v : GridVis O S) (objs : List O) (s : S) (es : List (ObjSprite O))
    (h0 : initGrid v objs s = some es) : ∀ e ∈ es, (renderObj v s e).y = e.y + 1 ∧ (renderObj v s e).x = e.x := by
  unfold initGrid at h0
  induction objs generalizing es with
  | nil =>
    rw [List.mapM_nil] at h0
    obtain rfl := Option.some.inj h0
    intro e he; cases he
  | cons o objs ih =>
    rw [List.mapM_cons] at h0
    cases hl : v.loc s o with
    | none => rw [hl] at h0; cases h0
    | some l =>
      rw [hl] at h0
      cases hm : objs.mapM (fun o => (v.loc s o).map
          (fun l => (⟨o, l.1, l.2 - 1 / 2, v.rotation s o, v.scale o, v.emoji s o⟩ : ObjSprite O))) with
      | none => rw [hm] at h0; cases h0
      | some es' =>
        rw [hm] at h0
        obtain rfl := Option.some.inj h0
        intro e he
        rcases List.mem_cons.1 he with rfl | he
        · rw [C133_present_partial v s _ l hl]
          exact ⟨by dsimp only; ring, rfl⟩
        · exact ih es' hm e he

/-- C133, the negation (removed objects). An object without location stays drawn where it was. -/
theorem C133_removed_stays_partial {O : Type} (v : GridVis O S) (s : S) (e : ObjSprite O) (hl : v.loc s e.obj = none) :
    renderObj v s e = e := by
  unfold renderObj
  rw [hl]

/-- Two objects; in the second state the second is gone and a third has come. -/
def twoObjects : GridVis Nat Bool where
  loc := fun s o => match s, o with
    | false, 0 => some (2, 3)
    | false, 1 => some (5, 5)
    | true, 0 => some (2, 4)
    | true, 2 => some (7, 7)
    | _, _ => none
  emoji := fun _ _ => "ant"
  rotation := fun _ _ => 0
  scale := fun _ => (1, 1)

example : (initGrid twoObjects [0, 1] false).map (List.map (fun e => (e.obj, e.x, e.y))) =
      some [(0, 2, 5 / 2), (1, 5, 9 / 2)] ∧
    ((initGrid twoObjects [0, 1] false).map (renderGrid twoObjects true)).map (List.map (fun e => (e.obj, e.x, e.y))) =
      some [(0, 2, 9 / 2), (1, 5, 9 / 2)] := by decide +kernel

/-! ### C134: edges of a network -/

/-- The frames, each with the locations of the nodes. -/
def frames (l : Line) (locs : List (Nat → Rat × Rat)) : Line := locs.foldl (fun l loc => renderLine loc l) l

theorem renderLine_same (loc : Nat → Rat × Rat) (l : Line) :
    (renderLine loc l).u = l.u ∧ (renderLine loc l).v = l.v ∧ (renderLine loc l).source = l.source ∧
      (renderLine loc l).target = l.target ∧ (renderLine loc l).static = l.static := by
  unfold renderLine
  split
  · exact ⟨rfl, rfl, rfl, rfl, rfl⟩
  · split <;> exact ⟨rfl, rfl, rfl, rfl, rfl⟩

theorem frames_same (locs : List (Nat → Rat × Rat)) : ∀ l : Line,
    (frames l locs).u = l.u ∧ (frames l locs).v = l.v ∧ (frames l locs).source = l.source ∧
      (frames l locs).target = l.target ∧ (frames l locs).static = l.static := by
  induction locs with
  | nil => intro l; exact ⟨rfl, rfl, rfl, rfl, rfl⟩
  | cons loc locs ih =>
    intro l
    obtain ⟨a1, a2, a3, a4, a5⟩ := ih (renderLine loc l)
    obtain ⟨b1, b2, b3, b4, b5⟩ := renderLine_same loc l
    exact ⟨a1.trans b1, a2.trans b2, a3.trans b3, a4.trans b4, a5.trans b5⟩

/-- C134 (one line for each edge). At the beginning every listed edge has a line that joins the locations given for it. -/
theorem C134_beginning_partial (info : Nat × Nat → (Rat × Rat) × (Rat × Rat) × Bool) (edges : List (Nat × Nat)) :
    (initNetwork info edges).map (fun l => (l.u, l.v)) = edges ∧
    ∀ l ∈ initNetwork info edges, l.path = (l.source, l.target) ∧ l.source = (info (l.u, l.v)).1 ∧
      l.target = (info (l.u, l.v)).2.1 := by
  constructor
  · unfold initNetwork
    rw [List.map_map]
    exact List.map_id' _
  · intro l hl
    obtain ⟨e, _, rfl⟩ := List.mem_map.1 hl
    exact ⟨rfl, rfl, rfl⟩

/-- C134 (when it holds). After any frames, a line that is not static joins the current locations of its nodes if one of them
is not where it was at the beginning, or if so far both always were. -/
theorem C134_current_partial (l : Line) (hs : l.static = false) (h0 : l.path = (l.source, l.target))
    (locs : List (Nat → Rat × Rat)) (loc : Nat → Rat × Rat) (h : Away loc l ∨ ∀ x ∈ locs, ¬Away x l) :
    Joins loc (frames l (locs ++ [loc])) := by
  have hstay : ∀ (locs : List (Nat → Rat × Rat)) (l : Line), (∀ x ∈ locs, ¬Away x l) → frames l locs = l := by
    intro locs
    induction locs with
    | nil => intro l _; rfl
    | cons x locs ih =>
      intro l hx
      have e : renderLine x l = l := by
        unfold renderLine
        split
        · rfl
        · exact if_neg (hx x (by simp))
      show frames (renderLine x l) locs = l
      rw [e]
      exact ih l (fun y hy => hx y (by simp [hy]))
  have hlast : frames l (locs ++ [loc]) = renderLine loc (frames l locs) := by
    unfold frames; rw [List.foldl_append]; rfl
  obtain ⟨a1, a2, a3, a4, a5⟩ := frames_same locs l
  by_cases ha : Away loc l
  · rw [hlast]
    unfold Joins renderLine
    rw [a5, hs]
    have ha' : loc (frames l locs).u ≠ (frames l locs).source ∨ loc (frames l locs).v ≠ (frames l locs).target := by
      rw [a1, a2, a3, a4]; exact ha
    simp only [Bool.false_eq_true, if_false]
    rw [if_pos ha']
  · rcases h with h | h
    · exact absurd h ha
    · rw [hstay (locs ++ [loc]) l (by
        intro x hx
        rw [List.mem_append, List.mem_singleton] at hx
        rcases hx with hx | rfl
        · exact h x hx
        · exact ha)]
      unfold Joins
      rw [h0]
      unfold Away at ha
      rw [not_or, not_not, not_not] at ha
      rw [ha.1, ha.2]

/-- C134, the negation. A node that went away and has come back where it was: the line stays where it was last drawn away from
there, for every line that is not static. -/
theorem C134_return_partial (l : Line) (hs : l.static = false) (away home : Nat → Rat × Rat) (ha : Away away l)
    (hh : ¬Away home l) (hd : (away l.u, away l.v) ≠ (home l.u, home l.v)) : ¬Joins home (frames l [away, home]) := by
  have e1 : renderLine away l = { l with path := (away l.u, away l.v) } := by
    unfold renderLine
    rw [hs]
    simp only [Bool.false_eq_true, if_false]
    exact if_pos ha
  have e2 : renderLine home { l with path := (away l.u, away l.v) } = { l with path := (away l.u, away l.v) } := by
    unfold renderLine
    dsimp only
    rw [hs]
    simp only [Bool.false_eq_true, if_false]
    exact if_neg hh
  show ¬Joins home (renderLine home (renderLine away l))
  rw [e1, e2]
  exact hd

/-- C134, the negation (static). A static edge keeps its line wherever its nodes go. -/
theorem C134_static (l : Line) (hs : l.static = true) (locs : List (Nat → Rat × Rat)) : frames l locs = l := by
  induction locs with
  | nil => rfl
  | cons x locs ih =>
    show frames (renderLine x l) locs = l
    have : renderLine x l = l := by unfold renderLine; rw [if_pos hs]
    rw [this]; exact ih

example : Away (fun n => if n = 0 then (1, 1) else (2, 0)) ⟨0, 1, (0, 0), (2, 0), false, ((0, 0), (2, 0))⟩ ∧
    ¬Away (fun n => if n = 0 then (0, 0) else (2, 0)) ⟨0, 1, (0, 0), (2, 0), false, ((0, 0), (2, 0))⟩ ∧
    (frames ⟨0, 1, (0, 0), (2, 0), false, ((0, 0), (2, 0))⟩
      [fun n => if n = 0 then (1, 1) else (2, 0), fun n => if n = 0 then (0, 0) else (2, 0)]).path = ((1, 1), (2, 0)) := by
  decide +kernel

/-! ### C135: the camera -/

/-- C135 (the window is filled). In a window wider than the panel, the points of the simulation area are exactly those that
appear right of the panel. -/
theorem C135_fills (winW winH simW simH w h : Rat) (hw : 300 < w) (hh : 0 < h) (hsw : 0 < simW) (hsh : 0 < simH) (x y : Rat) :
    (0 ≤ x ∧ x ≤ simW ∧ 0 ≤ y ∧ y ≤ simH) ↔
      (300 ≤ (project (camera (Desc.setup winW winH simW simH) w h) x y).1 ∧
        (project (camera (Desc.setup winW winH simW simH) w h) x y).1 ≤ w ∧
        0 ≤ (project (camera (Desc.setup winW winH simW simH) w h) x y).2 ∧
        (project (camera (Desc.setup winW winH simW simH) w h) x y).2 ≤ h) := by
  have hd : (0 : Rat) < w + -300 := by linarith
  have e1 : (project (camera (Desc.setup winW winH simW simH) w h) x y).1 = x * ((w + -300) / simW) + 300 := by
    show (x - -300 * (simW / (w + -300))) / (simW / (w + -300)) = _
    field_simp
    ring
  have e2 : (project (camera (Desc.setup winW winH simW simH) w h) x y).2 = y * (h / simH) := by
    show y / (simH / h) = _
    field_simp
  rw [e1, e2]
  have p1 : 0 < (w + -300) / simW := div_pos hd hsw
  have p2 : 0 < h / simH := div_pos hh hsh
  have q1 : simW * ((w + -300) / simW) = w + -300 := by field_simp
  have q2 : simH * (h / simH) = h := by field_simp
  constructor
  · rintro ⟨h1, h2, h3, h4⟩
    refine ⟨?_, ?_, ?_, ?_⟩
    · have := mul_nonneg h1 p1.le; linarith
    · have := mul_le_mul_of_nonneg_right h2 p1.le; linarith
    · exact mul_nonneg h3 p2.le
    · have := mul_le_mul_of_nonneg_right h4 p2.le; linarith
  · rintro ⟨h1, h2, h3, h4⟩
    refine ⟨?_, ?_, ?_, ?_⟩
    · by_contra hc
      have := mul_neg_of_neg_of_pos (not_le.1 hc) p1
      linarith
    · by_contra hc
      have := mul_lt_mul_of_pos_right (not_le.1 hc) p1
      linarith
    · by_contra hc
      have := mul_neg_of_neg_of_pos (not_le.1 hc) p2
      linarith
    · by_contra hc
      have := mul_lt_mul_of_pos_right (not_le.1 hc) p2
      linarith

/-- C135 (agents and cells). If the field is as large as the simulation area, the pixel of the texture that shows the cell
`(i, k)` has its centre where an agent at the location `(i, k)` is drawn, whatever the size of the window. -/
theorem C135_aligned (winW winH : Rat) (w h i k : Nat) (hk : k < h) :
    pixelCentre (Desc.setup winW winH w h) w h i (h - 1 - k) = ((i : Rat), (k : Rat) + 1 / 2) := by
  have e : ((h - 1 - k : Nat) : Rat) = (h : Rat) - 1 - k := by
    rw [Nat.cast_sub (by omega), Nat.cast_sub (by omega)]
    norm_num
  unfold pixelCentre texturePlace Desc.setup
  dsimp only
  rw [e]
  refine Prod.ext ?_ ?_
  · dsimp only; ring
  · dsimp only; ring

/-- A simulation of 100 by 50 in a window of 900 by 400. -/
example : camera (Desc.setup 600 300 100 50) 900 400 = ⟨-50, 1 / 6, 1 / 8⟩ ∧
    project (camera (Desc.setup 600 300 100 50) 900 400) 100 50 = (900, 400) ∧
    project (camera (Desc.setup 600 300 100 50) 900 400) 0 0 = (300, 0) := by decide +kernel

/-! ### C136: emojis -/

variable {H : Type}

theorem emojiPath_inj {a b : String} (h : emojiPath a = emojiPath b) : a = b := by
  unfold emojiPath at h
  have h2 := congrArg String.toList h
  simp only [String.toList_append, List.append_assoc] at h2
  have h3 := List.append_cancel_left h2
  have h4 := List.append_cancel_right h3
  exact String.ext h4

/-- The cache holds one handle for each code asked, made by the request for its path. -/
structure Cache (load : Nat → String → H) (f : Factory H) : Prop where
  wf : HMap.WF f.loaders
  loads : f.loads = f.loaders.keys.map emojiPath
  handles : ∀ c h, HMap.get f.loaders c = some h → ∃ n, f.loads[n]? = some (emojiPath c) ∧ h = load n (emojiPath c)

theorem cache_new (load : Nat → String → H) : Cache load Factory.new :=
  ⟨HMap.WF_nil, rfl, by intro c h hc; cases hc⟩

theorem cache_get {load : Nat → String → H} {f : Factory H} (hf : Cache load f) (c : String) :
    Cache load (f.get load c).1 ∧ HMap.get (f.get load c).1.loaders c = some (f.get load c).2 ∧
      ∀ c' h, HMap.get f.loaders c' = some h → HMap.get (f.get load c).1.loaders c' = some h := by
  unfold Factory.get
  cases hc : HMap.get f.loaders c with
  | some h => exact ⟨hf, hc, fun _ _ h' => h'⟩
  | none =>
    dsimp only
    have e : (HMap.insert f.loaders c (load f.loads.length (emojiPath c))).1 =
        f.loaders ++ [(c, load f.loads.length (emojiPath c))] := by rw [HMap.insert_absent hc]
    refine ⟨⟨HMap.WF_insert hf.wf _ _, ?_, ?_⟩, by rw [HMap.get_insert, if_pos rfl], ?_⟩
    · dsimp only
      rw [e, hf.loads]
      simp [HMap.keys]
    · intro c' h' hg
      dsimp only at hg ⊢
      rw [HMap.get_insert] at hg
      by_cases hcc : c' = c
      · subst hcc
        rw [if_pos rfl] at hg
        refine ⟨f.loads.length, ?_, (Option.some.inj hg).symm⟩
        simp
      · rw [if_neg (by tauto)] at hg
        obtain ⟨n, h1, h2⟩ := hf.handles c' h' hg
        refine ⟨n, ?_, h2⟩
        rw [List.getElem?_append_left]
        · exact h1
        · exact (List.getElem?_eq_some_iff.1 h1).1
    · intro c' h' hg
      rw [HMap.get_insert]
      by_cases hcc : c' = c
      · subst hcc; rw [hc] at hg; cases hg
      · rw [if_neg (by tauto)]; exact hg

theorem cache_gets {load : Nat → String → H} (cs : List String) : ∀ {f : Factory H}, Cache load f →
    Cache load (f.gets load cs).1 ∧
    (∀ c h, HMap.get f.loaders c = some h → HMap.get (f.gets load cs).1.loaders c = some h) ∧
    ∀ (i : Nat) (c : String) (h : H), cs[i]? = some c → (f.gets load cs).2[i]? = some h → HMap.get (f.gets load cs).1.loaders c = some h := by
  induction cs with
  | nil => intro f hf; exact ⟨hf, fun _ _ h => h, by intro i c h h1; simp at h1⟩
  | cons c cs ih =>
    intro f hf
    obtain ⟨h1, h2, h3⟩ := cache_get hf c
    obtain ⟨h4, h5, h6⟩ := ih h1
    refine ⟨h4, fun c' h' hc => h5 _ _ (h3 _ _ hc), ?_⟩
    intro i c' h' hi hh
    cases i with
    | zero =>
      simp only [List.getElem?_cons_zero, Option.some.injEq] at hi
      subst hi
      have : (f.get load c).2 = h' := by
        have := hh
        unfold Factory.gets at this
        simpa using this
      rw [← this]
      exact h5 _ _ h2
    | succ i =>
      rw [List.getElem?_cons_succ] at hi
      have : (Factory.gets load (f.get load c).1 cs).2[i]? = some h' := by
        have := hh
        unfold Factory.gets at this
        rwa [List.getElem?_cons_succ] at this
      exact h6 i c' h' hi this

theorem gets_length (load : Nat → String → H) (cs : List String) : ∀ f : Factory H, (f.gets load cs).2.length = cs.length := by
  induction cs with
  | nil => intro f; rfl
  | cons c cs ih => intro f; unfold Factory.gets; rw [List.length_cons, List.length_cons, ih]

/-- C136 (once). However often emojis are asked for, no file is loaded twice. -/
theorem C136_loaded_once (load : Nat → String → H) (cs : List String) :
    ((Factory.new (H := H)).gets load cs).1.loads.Nodup := by
  obtain ⟨h, _, _⟩ := cache_gets (load := load) cs (cache_new load)
  rw [h.loads]
  exact List.Nodup.map (fun a b => emojiPath_inj) h.wf

/-- C136 (the right one). Every request is answered, by the handle made when the file of this emoji was loaded; so equal
requests have equal answers. -/
theorem C136_answers (load : Nat → String → H) (cs : List String) (i : Nat) (c : String) (hi : cs[i]? = some c) :
    ∃ h n, ((Factory.new (H := H)).gets load cs).2[i]? = some h ∧
      ((Factory.new (H := H)).gets load cs).1.loads[n]? = some ("emojis/" ++ c ++ ".png") ∧
      h = load n ("emojis/" ++ c ++ ".png") := by
  obtain ⟨h1, _, h3⟩ := cache_gets (load := load) cs (cache_new load)
  have hl : i < ((Factory.new (H := H)).gets load cs).2.length := by
    rw [gets_length]; exact (List.getElem?_eq_some_iff.1 hi).1
  obtain ⟨n, h4, h5⟩ := h1.handles c _ (h3 i c _ hi (List.getElem?_eq_getElem hl))
  exact ⟨_, n, List.getElem?_eq_getElem hl, h4, h5⟩

example : ((Factory.new (H := Nat × String)).gets (fun n p => (n, p)) ["ant", "bird", "ant"]).2 =
    [(0, "emojis/ant.png"), (1, "emojis/bird.png"), (0, "emojis/ant.png")] := by decide +kernel

end Verif.Visual
