import Verif.Model.Visual

/-!
Model of the builder of a visualization and of what `setup` does with the settings (src/visualization/visualization.rs:28-147). Sizes and colors are exact numbers; the name of the
package is a parameter.
-/

namespace Verif.Builder

/-- `Visualization` (src/visualization/visualization.rs:28-35). -/
structure Config where
  window : Rat × Rat
  simulation : Rat × Rat
  name : String
  color : Rat × Rat × Rat
  deriving DecidableEq

/-- A call of a method of the builder (src/visualization/visualization.rs:39-63). -/
inductive Call where
  | window (width height : Rat)
  | simulation (width height : Rat)
  | name (text : String)
  | color (rgb : Rat × Rat × Rat)

/-- `Visualization::default()` (src/visualization/visualization.rs:136-147). -/
def default (package : String) : Config := ⟨(600, 300), (300, 300), package, (1, 1, 1)⟩

/-- The methods of the builder (src/visualization/visualization.rs:39-63). -/
def apply (c : Config) : Call → Config
  | .window w h => { c with window := (w, h) }
  | .simulation w h => { c with simulation := (w, h) }
  | .name t => { c with name := t }
  | .color k => { c with color := k }

/-- A chain of calls (src/visualization/visualization.rs:39-63). -/
def build (package : String) (calls : List Call) : Config := calls.foldl apply (default package)

/-- What the settings become: what Bevy is told about the window (`none`: nothing, it takes its own size, 1280 times 720, its own title and no
smallest size), the heading of the panel, the descriptor that all systems read, the background. -/
structure App where
  windowSize : Option (Rat × Rat)
  smallest : Option (Rat × Rat)
  windowTitle : Option String
  heading : String
  desc : Visual.Desc
  clear : Rat × Rat × Rat

/-- `Visualization::setup` (src/visualization/visualization.rs:77-133). `window_constraints` is filled in and dropped (83-85); `DefaultPlugins` is
changed in the render plugin only (92-99); the title goes to the descriptor (108-111), from where it is shown as a heading
(src/visualization/systems/ui_system.rs:34). -/
def setup (c : Config) : App :=
  ⟨none, none, none, c.name, Visual.Desc.setup c.window.1 c.window.2 c.simulation.1 c.simulation.2, c.color⟩

end Verif.Builder
