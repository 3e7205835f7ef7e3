import Verif.Model.Driver
import Verif.Model.HashMap
import Mathlib.Data.Rat.Floor
import Mathlib.Algebra.Order.Ring.Rat

/-!
Model of `src/visualization`: what the systems do to the simulation, the textures, the camera and the sprites, as far as the
code of the framework decides it. Bevy runs the systems and draws; `f32` is exact rational arithmetic; the user's trait
methods are parameters.
-/

namespace Verif.Visual

/-! ### Textures -/

/-- `[u8; 4]` (src/visualization/fields/number_grid_2d.rs:24). -/
structure Pixel where
  r : Nat
  g : Nat
  b : Nat
  a : Nat
deriving DecidableEq, Repr

/-- `ImageBuffer`: the pixels row by row, from the top (src/visualization/fields/number_grid_2d.rs:34). -/
structure Img where
  width : Nat
  height : Nat
  data : List Pixel
deriving DecidableEq, Repr

/-- `ImageBuffer::from_fn` (src/visualization/fields/number_grid_2d.rs:34-41). -/
def Img.fromFn (w h : Nat) (f : Nat → Nat → Pixel) : Img :=
  ⟨w, h, (List.range h).flatMap (fun y => (List.range w).map (fun x => f x y))⟩

/-- `get_pixel` of the image (used by src/visualization/fields/number_grid_2d.rs:44-45). It panics outside the image; the
operations below stay inside, and the default is never used. -/
def Img.at (im : Img) (x y : Nat) : Pixel := im.data.getD (y * im.width + x) ⟨0, 0, 0, 0⟩

/-- `image::imageops::flip_horizontal`: the columns from right to left (src/visualization/fields/number_grid_2d.rs:44). -/
def flipHorizontal (im : Img) : Img := Img.fromFn im.width im.height (fun x y => im.at (im.width - 1 - x) y)

/-- `image::imageops::rotate180` (src/visualization/fields/number_grid_2d.rs:45). -/
def rotate180 (im : Img) : Img :=
  Img.fromFn im.width im.height (fun x y => im.at (im.width - 1 - x) (im.height - 1 - y))

/-- `into_raw` (src/visualization/fields/number_grid_2d.rs:54). -/
def Img.raw (im : Img) : List Nat := im.data.flatMap (fun p => [p.r, p.g, p.b, p.a])

/-- `BatchRender::texture` (src/visualization/fields/number_grid_2d.rs:32-58). -/
def texture (w h : Nat) (getPixel : Nat → Nat → Pixel) : Img := rotate180 (flipHorizontal (Img.fromFn w h getPixel))

/-! ### Assets -/

/-- `AssetHandleFactory` (src/visualization/asset_handle_factory.rs:14-24), with a record of the paths asked from the asset
server. -/
structure Factory (H : Type) where
  loaders : HMap String H
  loads : List String

/-- `AssetHandleFactory::new` (src/visualization/asset_handle_factory.rs:19-23). -/
def Factory.new {H : Type} : Factory H := ⟨[], []⟩

/-- `Path::new("emojis").join(format!("{}.png", emoji_code))` (src/visualization/asset_handle_factory.rs:38-44, 53). A code that
starts with a slash would replace the directory; that is left out. -/
def emojiPath (code : String) : String := "emojis/" ++ code ++ ".png"

/-- `get_material_handle` (src/visualization/asset_handle_factory.rs:48-63, 84-87). `load` is the asset server: the answer to the
`n`-th request. -/
def Factory.get {H : Type} (load : Nat → String → H) (f : Factory H) (code : String) : Factory H × H :=
  match HMap.get f.loaders code with
  | some h => (f, h)
  | none =>
    (⟨(HMap.insert f.loaders code (load f.loads.length (emojiPath code))).1, f.loads ++ [emojiPath code]⟩,
      load f.loads.length (emojiPath code))

/-- A sequence of requests and their answers (src/visualization/asset_handle_factory.rs:48-63). -/
def Factory.gets {H : Type} (load : Nat → String → H) (f : Factory H) : List String → Factory H × List H
  | [] => (f, [])
  | c :: cs => ((Factory.gets load (f.get load c).1 cs).1, (f.get load c).2 :: (Factory.gets load (f.get load c).1 cs).2)

/-! ### Camera and positions -/

/-- `SimulationDescriptor` (src/visualization/simulation_descriptor.rs:6-14), the numbers. -/
structure Desc where
  width : Rat
  height : Rat
  centerX : Rat
  centerY : Rat
  uiWidth : Rat
deriving DecidableEq, Repr

/-- The descriptor made by `Visualization::setup` (src/visualization/visualization.rs:108-119) for a window and a simulation of
the given sizes. -/
def Desc.setup (winW winH simW simH : Rat) : Desc :=
  { width := simW, height := simH, centerX := winW * (1 / 2) - (winW - simW) / 2,
    centerY := winH * (1 / 2) - (winH - simH) / 2, uiWidth := 300 }

/-- The camera: horizontal translation and the scales. -/
structure Cam where
  x : Rat
  scaleX : Rat
  scaleY : Rat
deriving DecidableEq, Repr

/-- The camera set by `init_system` and after every resize by `camera_system`
(src/visualization/systems/init_system.rs:31-40, src/visualization/systems/camera_system.rs:16-28). -/
def camera (d : Desc) (winW winH : Rat) : Cam :=
  { x := -d.uiWidth * (d.width / (winW + -d.uiWidth)), scaleX := d.width / (winW + -d.uiWidth), scaleY := d.height / winH }

/-- Where a point of the world appears in the window, from its lower left corner: the origin of the viewport is (0, 0) and one
unit is one pixel (src/visualization/systems/init_system.rs:42-52). -/
def project (c : Cam) (x y : Rat) : Rat × Rat := ((x - c.x) / c.scaleX, y / c.scaleY)

/-- The centre of the texture (src/visualization/fields/number_grid_2d.rs:71). -/
def texturePlace (d : Desc) : Rat × Rat := (d.centerX - 1 / 2, d.centerY)

/-- The centre of the area that the pixel of column `i` and row `j` from the top covers, for a sprite of `w` by `h` pixels, one
unit each (src/visualization/fields/number_grid_2d.rs:71-76). -/
def pixelCentre (d : Desc) (w h i j : Nat) : Rat × Rat :=
  ((texturePlace d).1 - w / 2 + i + 1 / 2, (texturePlace d).2 + h / 2 - j - 1 / 2)

/-! ### Sprites of agents -/

/-- `Transform` as far as it is used (src/visualization/visualization_state.rs:65-68). -/
structure Place where
  x : Rat
  y : Rat
  z : Rat
  scaleX : Rat
  scaleY : Rat
  rotation : Rat
deriving DecidableEq, Repr

/-- An entity made by `setup_agent_graphics` (src/visualization/visualization_state.rs:70-74). `image` is the emoji code. -/
structure Sprite (R : Type) where
  render : R
  place : Place
  visible : Bool
  image : String

/-- The user's `VisualizationState` and `AgentRender` (src/visualization/visualization_state.rs:15-86,
src/visualization/agent_render.rs:7-46). -/
structure Vis (A S R : Type) where
  agentRender : A → S → Option R
  agent : R → S → Option A
  sprite : R → A → S → String
  location : R → A → S → Rat × Rat × Rat
  scale : R → A → S → Rat × Rat
  rotation : R → A → S → Rat
  update : R → A → S → Place → Bool → R × Place × Bool

/-- `setup_agent_graphics` (src/visualization/visualization_state.rs:52-75). -/
def setupAgent {A S R : Type} (v : Vis A S R) (a : A) (r : R) (s : S) : Sprite R :=
  { render := r
    place := { x := (v.location r a s).1, y := (v.location r a s).2.1 + 1 / 2, z := (v.location r a s).2.2,
               scaleX := (v.scale r a s).1, scaleY := (v.scale r a s).2, rotation := v.rotation r a s }
    visible := true
    image := v.sprite r a s }

/-- `setup_graphics` (src/visualization/visualization_state.rs:24-50) for the agents of the schedule. -/
def setupGraphics {A S R : Type} (v : Vis A S R) (agents : List A) (s : S) : List (Sprite R) :=
  agents.filterMap (fun a => (v.agentRender a s).map (fun r => setupAgent v a r s))

/-- One entity in `renderer_system` (src/visualization/systems/renderer_system.rs:38-63). -/
def renderOne {A S R : Type} (v : Vis A S R) (s : S) (step : Nat) (e : Sprite R) : Sprite R :=
  match v.agent e.render s with
  | some a =>
    { render := (v.update e.render a s e.place e.visible).1
      place := { (v.update e.render a s e.place e.visible).2.1 with
                 y := (v.update e.render a s e.place e.visible).2.1.y + 1 / 2 }
      visible := true
      image := v.sprite (v.update e.render a s e.place e.visible).1 a s }
  | none => if step = 0 then e else { e with visible := false }

/-- `renderer_system` (src/visualization/systems/renderer_system.rs:14-65); `before_render` does nothing, as by default. -/
def renderer {A S R : Type} (v : Vis A S R) (paused : Bool) (s : S) (step : Nat) (es : List (Sprite R)) : List (Sprite R) :=
  if paused then es else es.map (renderOne v s step)

/-! ### The application -/

/-- The user's part: the simulation, `reset`, `on_init` and the graphics (src/engine/state.rs:9-29,
src/visualization/visualization_state.rs:15-22). -/
structure VSim (T A S R : Type) where
  sim : Driver.Sim T A S
  reset : S → S
  onInit : Schedule.World T A S → S × List (Schedule.Cmd T A)
  vis : Vis A S R

/-- `ActiveState`, `ActiveSchedule`, `paused` and the entities of the agents (src/visualization/wrappers.rs:9-14,
src/visualization/visualization.rs:108-127). -/
structure App (T A S R : Type) where
  world : Schedule.World T A S
  paused : Bool
  sprites : List (Sprite R)

variable {T A S R : Type} [LinearOrder T]

/-- `on_init` (src/visualization/systems/init_system.rs:54-60). -/
def doInit (d : VSim T A S R) (w : Schedule.World T A S) : Schedule.World T A S :=
  Schedule.World.execAll { w with state := (d.onInit w).1 } (d.onInit w).2

/-- A new schedule, `init` and `on_init` (src/visualization/visualization.rs:89-91, src/visualization/systems/ui_system.rs:82-100). -/
def fresh (d : VSim T A S R) (s : S) : Schedule.World T A S := doInit d (Driver.start d.sim s)

/-- The world and its sprites, paused (src/visualization/systems/init_system.rs:54-66). -/
def App.of (d : VSim T A S R) (w : Schedule.World T A S) : App T A S R :=
  { world := w, paused := true, sprites := setupGraphics d.vis w.sched.getAllEvents w.state }

/-- `setup` and `init_system` (src/visualization/visualization.rs:78-134, src/visualization/systems/init_system.rs:20-67). -/
def App.new (d : VSim T A S R) (s : S) : App T A S R := App.of d (fresh d s)

/-- What can happen: a fixed time step, and the buttons (src/visualization/visualization.rs:128-130,
src/visualization/systems/ui_system.rs:63-110). -/
inductive Event where
  | tick
  | start
  | stop
  | pause
deriving DecidableEq, Repr

/-- A fixed time step: `simulation_system`, then `renderer_system` (src/visualization/systems/simulation_system.rs:11-23,
src/visualization/systems/renderer_system.rs:14-65). -/
def App.tick (d : VSim T A S R) (p : App T A S R) : App T A S R :=
  if p.paused then p
  else { p with world := Schedule.step d.sim.model p.world,
                sprites := renderer d.vis p.paused (Schedule.step d.sim.model p.world).state
                  (Schedule.step d.sim.model p.world).sched.step p.sprites }

/-- The button Stop (src/visualization/systems/ui_system.rs:73-106): all entities are removed, the state is reset and everything
is made anew. -/
def App.stop (d : VSim T A S R) (p : App T A S R) : App T A S R := App.of d (fresh d (d.reset p.world.state))

/-- One event (src/visualization/systems/ui_system.rs:63-110). -/
def App.event (d : VSim T A S R) (p : App T A S R) : Event → App T A S R
  | .tick => p.tick d
  | .start => { p with paused := false }
  | .stop => p.stop d
  | .pause => { p with paused := true }

/-- A sequence of events (src/visualization/visualization.rs:67-75). -/
def App.run (d : VSim T A S R) (p : App T A S R) (es : List Event) : App T A S R := es.foldl (App.event d) p

/-! ### Objects of a grid -/

/-- The user's `RenderObjectGrid2D` (src/visualization/fields/object_grid_2d.rs:82-89). -/
structure GridVis (O S : Type) where
  loc : S → O → Option (Int × Int)
  emoji : S → O → String
  rotation : S → O → Rat
  scale : O → Rat × Rat

/-- An entity of an object (src/visualization/fields/object_grid_2d.rs:42-55). -/
structure ObjSprite (O : Type) where
  obj : O
  x : Rat
  y : Rat
  rotation : Rat
  scale : Rat × Rat
  image : String

/-- `init_graphics_grid` for the objects of the grid, sparse or dense (src/visualization/fields/object_grid_2d.rs:21-79): panics
if one has no location. -/
def initGrid {O S : Type} (v : GridVis O S) (objs : List O) (s : S) : Option (List (ObjSprite O)) :=
  objs.mapM (fun o => (v.loc s o).map (fun l => ⟨o, l.1, l.2 - 1 / 2, v.rotation s o, v.scale o, v.emoji s o⟩))

/-- `render` for one entity (src/visualization/fields/object_grid_2d.rs:100-124). -/
def renderObj {O S : Type} (v : GridVis O S) (s : S) (e : ObjSprite O) : ObjSprite O :=
  match v.loc s e.obj with
  | none => e
  | some l => { e with x := l.1, y := l.2 + 1 / 2, rotation := v.rotation s e.obj, image := v.emoji s e.obj }

/-- `render` (src/visualization/fields/object_grid_2d.rs:92-125). -/
def renderGrid {O S : Type} (v : GridVis O S) (s : S) (es : List (ObjSprite O)) : List (ObjSprite O) := es.map (renderObj v s)

/-! ### Edges of a network -/

/-- An entity of an edge: its ends, where they were at the beginning, whether it is static, and the line drawn
(src/visualization/fields/network.rs:47-58, 82-95). -/
structure Line where
  u : Nat
  v : Nat
  source : Rat × Rat
  target : Rat × Rat
  static : Bool
  path : (Rat × Rat) × (Rat × Rat)
deriving DecidableEq, Repr

/-- `init_network_graphics` (src/visualization/fields/network.rs:70-98) for the published edges; `get_edge_info` gives the
locations of the ends and whether the edge is static. -/
def initNetwork (info : Nat × Nat → (Rat × Rat) × (Rat × Rat) × Bool) (edges : List (Nat × Nat)) : List Line :=
  edges.map (fun e => ⟨e.1, e.2, (info e).1, (info e).2.1, (info e).2.2, ((info e).1, (info e).2.1)⟩)

/-- `render` for one entity (src/visualization/fields/network.rs:104-112); static edges are not in the query. -/
def renderLine (loc : Nat → Rat × Rat) (l : Line) : Line :=
  if l.static then l
  else if loc l.u ≠ l.source ∨ loc l.v ≠ l.target then { l with path := (loc l.u, loc l.v) }
  else l

/-- `render` (src/visualization/fields/network.rs:101-114). -/
def renderNetwork (loc : Nat → Rat × Rat) (ls : List Line) : List Line := ls.map (renderLine loc)

end Verif.Visual
