/-!
Model of the popup of the terminal monitor: `centered_rect` and `show_popup` (src/utils/monitoring/ui.rs:224-276).

Simplifications: `Layout::split` of the crate `tui` is a parameter, for one direction at a time: it gets the start and the length of
the area and the percentages, and gives the start and the length of every piece (the other direction is that of the area). `u16` is
`Nat`; `none` is a panic (a subtraction below zero, or a piece that does not exist). Colours, borders and the wrapping of the text
are left out.
-/

namespace Verif.Popup

/-- `Rect` of `tui` (src/utils/monitoring/ui.rs:224). -/
structure Rect where
  x : Nat
  y : Nat
  width : Nat
  height : Nat
deriving DecidableEq, Repr

/-- `Layout::split` in one direction (used in src/utils/monitoring/ui.rs:235, 247): start, length, percentages. -/
abbrev Split := Nat → Nat → List Nat → Option (List (Nat × Nat))

/-- The constraints `[(100 - p) / 2, p, (100 - p) / 2]` (src/utils/monitoring/ui.rs:227-234, 239-246); `100 - p` on `u16`. -/
def constraints (p : Nat) : Option (List Nat) := if 100 < p then none else some [(100 - p) / 2, p, (100 - p) / 2]

/-- `.split(area)[1]` (src/utils/monitoring/ui.rs:225-235, 247). -/
def middle (split : Split) (p start length : Nat) : Option (Nat × Nat) :=
  match constraints p with
  | none => none
  | some ps =>
    match split start length ps with
    | none => none
    | some pieces => pieces[1]?

/-- `centered_rect` (src/utils/monitoring/ui.rs:224-248). -/
def centeredRect (split : Split) (percentX percentY : Nat) (r : Rect) : Option Rect :=
  match middle split percentY r.y r.height with
  | none => none
  | some v =>
    match middle split percentX r.x r.width with
    | none => none
    | some h => some ⟨h.1, v.1, h.2, v.2⟩

/-- The area of the popup (src/utils/monitoring/ui.rs:251-252). -/
def popupArea (split : Split) (size : Rect) : Option Rect := centeredRect split 60 20 size

/-- What `draw` paints last: the popup with the description, if it is switched on and there is a description
(src/utils/monitoring/ui.rs:311-316). The outer `none` is a panic. -/
def popup (split : Split) (size : Rect) (showDescription : Bool) (descr : String) : Option (Option (Rect × String)) :=
  if showDescription = true ∧ descr ≠ "" then (popupArea split size).map (fun a => some (a, descr)) else some none

end Verif.Popup
