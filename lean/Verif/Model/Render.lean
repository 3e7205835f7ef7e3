import Verif.Model.Visual

/-!
Model of the fields drawn as one texture (src/visualization/fields/number_grid_2d.rs:60-107) and of the arrows
(src/visualization/utils/arrow.rs:7-41).

Simplifications: handles of assets are numbers, assets that no handle refers to any more are kept. The user's `on_init` calls `render` once for each
field to be drawn, in order, with the state it leaves; the type of the field (for which there is one `Marker`) is its number. The user inserts
`batch_render` of each of them into the application, as the comments in the source ask for.
-/

namespace Verif.Visual

/-! ### Textures -/

/-- An entity with a texture: its `Marker`, the handle of the image, the place (src/visualization/fields/number_grid_2d.rs:69-80). -/
structure Tex where
  marker : Nat
  handle : Nat
  place : Rat × Rat × Rat
deriving DecidableEq, Repr

/-- The assets (a handle is a position in the list) and the entities with a texture (src/visualization/fields/number_grid_2d.rs:61-100). -/
structure Screen where
  assets : List Img
  texs : List Tex
deriving DecidableEq, Repr

/-- The user's `BatchRender` of a field: the dimensions, the pixels and the layer, all taken from the state
(src/visualization/fields/number_grid_2d.rs:18-29, 82-84). -/
structure Batch (S : Type) where
  width : S → Nat
  height : S → Nat
  pixel : S → Nat → Nat → Pixel
  layer : S → Rat

/-- `get_texture_from_state`, as its comment asks for (src/visualization/fields/number_grid_2d.rs:82-84). -/
def Batch.image {S : Type} (b : Batch S) (s : S) : Img := texture (b.width s) (b.height s) (b.pixel s)

/-- `BatchRender::render` (src/visualization/fields/number_grid_2d.rs:61-80). -/
def Screen.render {S : Type} (d : Desc) (b : Batch S) (t : Nat) (s : S) (c : Screen) : Screen :=
  { assets := c.assets ++ [b.image s]
    texs := c.texs ++ [⟨t, c.assets.length, ((texturePlace d).1, (texturePlace d).2, b.layer s)⟩] }

/-- `BatchRender::batch_render` (src/visualization/fields/number_grid_2d.rs:87-100): `single_mut` panics unless there is exactly one entity with the
marker. -/
def Screen.batchRender {S : Type} (b : Batch S) (t : Nat) (s : S) (c : Screen) : Option Screen :=
  if (c.texs.filter (fun e => e.marker == t)).length = 1 then
    some { assets := c.assets ++ [b.image s]
           texs := c.texs.map (fun e => if e.marker == t then { e with handle := c.assets.length } else e) }
  else none

/-- The calls of `render` in `on_init`, for the fields from number `t` on (src/visualization/systems/init_system.rs:54-60). -/
def Screen.renderAll {S : Type} (d : Desc) (s : S) : Nat → List (Batch S) → Screen → Screen
  | _, [], c => c
  | t, b :: bs, c => Screen.renderAll d s (t + 1) bs (c.render d b t s)

/-- The systems `batch_render` of a frame, for the fields from number `t` on (src/visualization/fields/number_grid_2d.rs:86-100). -/
def Screen.frame {S : Type} (s : S) : Nat → List (Batch S) → Screen → Option Screen
  | _, [], c => some c
  | t, b :: bs, c => (c.batchRender b t s).bind (fun c => Screen.frame s (t + 1) bs c)

variable {T A S R : Type} [LinearOrder T]

/-- What happens on the screen at an event; a fixed time step and a frame are different things (src/visualization/visualization.rs:124-130,
src/visualization/systems/ui_system.rs:63-110). -/
inductive BEvent where
  | app (e : Event)
  | frame
deriving DecidableEq, Repr

/-- The application with its textures (src/visualization/systems/init_system.rs:20-67). -/
structure BApp (T A S R : Type) where
  app : App T A S R
  screen : Screen

/-- `init_system` (src/visualization/systems/init_system.rs:20-67). -/
def BApp.new (d : VSim T A S R) (desc : Desc) (bs : List (Batch S)) (s : S) : BApp T A S R :=
  ⟨App.new d s, Screen.renderAll desc (App.new d s).world.state 0 bs ⟨[], []⟩⟩

/-- One event; Stop removes all entities and calls `on_init` again (src/visualization/systems/ui_system.rs:73-106). -/
def BApp.event (d : VSim T A S R) (desc : Desc) (bs : List (Batch S)) (p : BApp T A S R) : BEvent → Option (BApp T A S R)
  | .app .stop => some ⟨p.app.event d .stop, Screen.renderAll desc (p.app.event d .stop).world.state 0 bs { p.screen with texs := [] }⟩
  | .app e => some ⟨p.app.event d e, p.screen⟩
  | .frame => (Screen.frame p.app.world.state 0 bs p.screen).map (fun c => ⟨p.app, c⟩)

/-- Events in order (src/visualization/visualization.rs:67-75). -/
def BApp.run (d : VSim T A S R) (desc : Desc) (bs : List (Batch S)) (p : BApp T A S R) : List BEvent → Option (BApp T A S R)
  | [] => some p
  | e :: es => (p.event d desc bs e).bind (fun p => BApp.run d desc bs p es)

/-! ### Arrows -/

/-- `Arrow` (src/visualization/utils/arrow.rs:8-9): start, end, length and angle of the head. -/
structure Arrow (K : Type) where
  start : K × K
  stop : K × K
  length : K
  angle : K

/-- `add_geometry` (src/visualization/utils/arrow.rs:12-40): the points of the path in order. Numbers and functions are parameters. -/
def Arrow.path {K : Type} [Add K] [Sub K] [Mul K] (cos sin : K → K) (atan2 : K → K → K) (a : Arrow K) : List (K × K) :=
  let angle := atan2 (a.stop.2 - a.start.2) (a.stop.1 - a.start.1)
  let first := angle - a.angle
  let second := angle + a.angle
  let one := (a.stop.1 - a.length * cos first, a.stop.2 - a.length * sin first)
  let two := (a.stop.1 - a.length * cos second, a.stop.2 - a.length * sin second)
  [a.start, a.stop, one, a.stop, two]

end Verif.Visual
