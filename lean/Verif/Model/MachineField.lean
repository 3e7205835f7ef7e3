import Verif.Model.Machine
import Verif.Model.DenseI32
import Verif.Model.Field2D

/-!
`Field2D`, sequential variant (src/engine/fields/field_2d.rs:266-922), with the machine arithmetic of the code: `f32` with infinities and NaN
(`Verif.Model.Machine`), saturating casts, and `i32` arithmetic that panics in a debug build and wraps around in a release build (`DenseI32.Mode`). `none` is a
panic.

Simplifications: memory is unbounded up to the `capacity overflow` panic of a vector; `RefCell` borrow failures and the overflow of `density_estimation*2`
(src/engine/fields/field_2d.rs:390) are not modelled; the counter `nagents` does not overflow.
-/

namespace Verif.Machine

open Grid
open DenseI32 (Mode fit vecGet vecSet)

/-- `Real2D` (src/engine/location.rs:17-20). -/
structure PosF where
  x : F
  y : F
  deriving DecidableEq

/-- `toroidal_transform` (src/engine/fields/field_2d.rs:1004-1016). -/
def transform (rnd : Rat → Rat) (val dim : F) : F :=
  if le (.fin 0) val && lt val dim then val
  else if lt (rem val dim) (.fin 0) then add rnd (rem val dim) dim else rem val dim

/-- The difference of the transformed values (src/engine/fields/field_2d.rs:993). -/
def apart (rnd : Rat → Rat) (val1 val2 dim : F) : F := sub rnd (transform rnd val1 dim) (transform rnd val2 dim)

/-- `toroidal_distance` (src/engine/fields/field_2d.rs:988-1002). -/
def toroidalDist (rnd : Rat → Rat) (val1 val2 dim : F) : F :=
  if le (abs (sub rnd val1 val2)) (div rnd dim (.fin 2)) then sub rnd val1 val2
  else if lt dim (mul rnd (apart rnd val1 val2 dim) (.fin 2)) then sub rnd (apart rnd val1 val2 dim) dim
  else if lt (mul rnd (apart rnd val1 val2 dim) (.fin 2)) (neg dim) then add rnd (apart rnd val1 val2 dim) dim
  else apart rnd val1 val2 dim

/-- One coordinate of the difference in `distance` (src/engine/fields/field_2d.rs:978-984). -/
def coordDiff (rnd : Rat → Rat) (tor : Bool) (val1 val2 dim : F) : F := if tor then toroidalDist rnd val1 val2 dim else sub rnd val1 val2

/-- `distance` (src/engine/fields/field_2d.rs:974-986). -/
def dist (rnd root : Rat → Rat) (loc1 loc2 : PosF) (dim1 dim2 : F) (tor : Bool) : F :=
  sqrt root (add rnd (mul rnd (coordDiff rnd tor loc1.x loc2.x dim1) (coordDiff rnd tor loc1.x loc2.x dim1))
    (mul rnd (coordDiff rnd tor loc1.y loc2.y dim2) (coordDiff rnd tor loc1.y loc2.y dim2)))

/-- The lower end of a cell along one axis (src/engine/fields/field_2d.rs:943-946). -/
def lowEnd (rnd : Rat → Rat) (i : Int) (d : F) : F := mul rnd (ofRat rnd i) d

/-- The upper end of a cell along one axis (src/engine/fields/field_2d.rs:947-954). -/
def highEnd (rnd : Rat → Rat) (i : Int) (d dim : F) : F := min (add rnd (lowEnd rnd i d) d) dim

/-- `check_circle` (src/engine/fields/field_2d.rs:934-972). -/
def checkCircle (rnd root : Rat → Rat) (bag : Loc) (d width height : F) (loc : PosF) (dis : F) (tor : Bool) : Int :=
  if le (dist rnd root ⟨lowEnd rnd bag.x d, lowEnd rnd bag.y d⟩ loc width height tor) dis &&
      le (dist rnd root ⟨lowEnd rnd bag.x d, highEnd rnd bag.y d height⟩ loc width height tor) dis &&
      le (dist rnd root ⟨highEnd rnd bag.x d width, lowEnd rnd bag.y d⟩ loc width height tor) dis &&
      le (dist rnd root ⟨highEnd rnd bag.x d width, highEnd rnd bag.y d height⟩ loc width height tor) dis then 1
  else if lt dis (dist rnd root ⟨lowEnd rnd bag.x d, lowEnd rnd bag.y d⟩ loc width height tor) &&
      lt dis (dist rnd root ⟨lowEnd rnd bag.x d, highEnd rnd bag.y d height⟩ loc width height tor) &&
      lt dis (dist rnd root ⟨highEnd rnd bag.x d width, lowEnd rnd bag.y d⟩ loc width height tor) &&
      lt dis (dist rnd root ⟨highEnd rnd bag.x d width, highEnd rnd bag.y d height⟩ loc width height tor) then -1
  else 0

/-- `t_transform` (src/engine/fields/field_2d.rs:926-932); `i32::MIN % -1` panics in every build. -/
def tTransform (m : Mode) (n size : Int) : Option Int :=
  if size = 0 ∨ (n = -2 ^ 31 ∧ size = -1) then none else if n ≥ 0 then some (n.tmod size) else fit m (n.tmod size + size)

/-- `Field2D` (src/engine/fields/field_2d.rs:269-283). `rbags` and `bags` are `bags[read]` and `bags[write]`. -/
structure FieldF (O : Type) where
  rbags : List (List O)
  bags : List (List O)
  nagents : Nat
  width : F
  height : F
  discretization : F
  toroidal : Bool
  dh : Int
  dw : Int
  density : Nat
  densityCheck : Bool
  deriving DecidableEq

variable {O : Type} [BEq O]

/-- `(w/d).ceil()` (src/engine/fields/field_2d.rs:307-319, 396-397). -/
def cellsAlong (rnd : Rat → Rat) (w d : F) : F := ceil (div rnd w d)

/-- The number of bags asked for by `new` (src/engine/fields/field_2d.rs:307-309). -/
def bagsMade (rnd : Rat → Rat) (w h d : F) : Nat :=
  toUsize (mul rnd (add rnd (cellsAlong rnd w d) (.fin 1)) (add rnd (cellsAlong rnd h d) (.fin 1)))

/-- A vector of `n` empty vectors, of 24 bytes each: the allocation panics from `isize::MAX` bytes on (src/engine/fields/field_2d.rs:307-309, 914). -/
def emptyBags (O : Type) (n : Nat) : Option (List (List O)) := if 24 * n < 2 ^ 63 then some (List.replicate n []) else none

/-- `new` (src/engine/fields/field_2d.rs:304-324). -/
def new (rnd : Rat → Rat) (m : Mode) (w h d : F) (t : Bool) : Option (FieldF O) :=
  match emptyBags O (bagsMade rnd w h d), fit m (toI32 (cellsAlong rnd h d) + 1), fit m (toI32 (cellsAlong rnd w d) + 1) with
  | some b, some dh, some dw =>
    some { rbags := b, bags := b, nagents := 0, width := w, height := h, discretization := d, toroidal := t, dh := dh, dw := dw, density := 0,
           densityCheck := false }
  | _, _, _ => none

/-- `discretize` (src/engine/fields/field_2d.rs:328-339). -/
def discretize (rnd : Rat → Rat) (d : F) (loc : PosF) : Loc := ⟨toI32 (floor (div rnd loc.x d)), toI32 (floor (div rnd loc.y d))⟩

/-- `lo..hi` (src/engine/fields/field_2d.rs:416-417). -/
def upTo (lo hi : Int) : List Int := (List.range (hi - lo).toNat).map (fun (k : Nat) => lo + k)

/-- First and last cell searched along one axis (src/engine/fields/field_2d.rs:399-414). -/
def window (m : Mode) (toroidal : Bool) (c discDist maxC : Int) : Option (Int × Int) :=
  match fit m (c - discDist), fit m (c + discDist) with
  | some lo, some hi =>
    if toroidal then (fit m (maxC - 1)).map (fun e => (Max.max 0 lo, Min.min hi e)) else some (lo, hi)
  | _, _ => none

/-- The pairs `(i, j)` of the loops over the windows; `max_j+1` is evaluated only if there is an `i` (src/engine/fields/field_2d.rs:416-417). -/
def pairs (m : Mode) (wx wy : Int × Int) : Option (List Loc) :=
  match fit m (wx.2 + 1) with
  | none => none
  | some ex =>
    if ex ≤ wx.1 then some []
    else (fit m (wy.2 + 1)).map (fun ey => (upTo wx.1 ex).flatMap (fun i => (upTo wy.1 ey).map (fun j => ⟨i, j⟩)))

/-- The pairs `(i, j)` of the search, in loop order (src/engine/fields/field_2d.rs:394-417). -/
def searchCells (rnd : Rat → Rat) (m : Mode) (f : FieldF O) (loc : PosF) (dis : F) : Option (List Loc) :=
  match window m f.toroidal (discretize rnd f.discretization loc).x (toI32 (floor (div rnd dis f.discretization)))
      (toI32 (cellsAlong rnd f.width f.discretization)),
    window m f.toroidal (discretize rnd f.discretization loc).y (toI32 (floor (div rnd dis f.discretization)))
      (toI32 (cellsAlong rnd f.height f.discretization)) with
  | some wx, some wy => pairs m wx wy
  | _, _ => none

/-- `bag_id` (src/engine/fields/field_2d.rs:418-421). -/
def bagId (rnd : Rat → Rat) (m : Mode) (f : FieldF O) (c : Loc) : Option Loc :=
  match tTransform m c.x (toI32 (cellsAlong rnd f.width f.discretization)), tTransform m c.y (toI32 (cellsAlong rnd f.height f.discretization)) with
  | some x, some y => some ⟨x, y⟩
  | _, _ => none

/-- The search loop (src/engine/fields/field_2d.rs:416-438). -/
def scan (rnd : Rat → Rat) (m : Mode) (f : FieldF O) (keep : Loc → O → Bool) : List Loc → Option (List O)
  | [] => some []
  | c :: cs =>
    match bagId rnd m f c with
    | none => none
    | some b =>
      match vecGet m f.rbags f.dh b with
      | none => none
      | some bag => (scan rnd m f keep cs).map (fun r => bag.filter (keep b) ++ r)

/-- The test of the exact search (src/engine/fields/field_2d.rs:423-432). -/
def keepExact (rnd root : Rat → Rat) (f : FieldF O) (locOf : O → PosF) (loc : PosF) (dis : F) (b : Loc) (elem : O) : Bool :=
  decide (checkCircle rnd root b f.discretization f.width f.height loc dis f.toroidal = 0) &&
      le (dist rnd root loc (locOf elem) f.width f.height f.toroidal) dis ||
    decide (checkCircle rnd root b f.discretization f.width f.height loc dis f.toroidal = 1)

/-- `get_neighbors_within_distance` (src/engine/fields/field_2d.rs:386-440). -/
def getNeighborsWithinDistance (rnd root : Rat → Rat) (m : Mode) (f : FieldF O) (locOf : O → PosF) (loc : PosF) (dis : F) : Option (List O) :=
  if le dis (.fin 0) then some [] else (searchCells rnd m f loc dis).bind (scan rnd m f (keepExact rnd root f locOf loc dis))

/-- `get_neighbors_within_relax_distance` (src/engine/fields/field_2d.rs:472-517). -/
def getNeighborsWithinRelaxDistance (rnd : Rat → Rat) (m : Mode) (f : FieldF O) (loc : PosF) (dis : F) : Option (List O) :=
  if le dis (.fin 0) then some [] else (searchCells rnd m f loc dis).bind (scan rnd m f (fun _ _ => true))

/-- `get_objects` (src/engine/fields/field_2d.rs:544-549). -/
def getObjects (rnd : Rat → Rat) (m : Mode) (f : FieldF O) (loc : PosF) : Option (List O) := vecGet m f.rbags f.dh (discretize rnd f.discretization loc)

/-- `get_objects_unbuffered` (src/engine/fields/field_2d.rs:577-582). -/
def getObjectsUnbuffered (rnd : Rat → Rat) (m : Mode) (f : FieldF O) (loc : PosF) : Option (List O) :=
  vecGet m f.bags f.dh (discretize rnd f.discretization loc)

/-- `num_objects_at_location` (src/engine/fields/field_2d.rs:803-808). -/
def numObjectsAtLocation (rnd : Rat → Rat) (m : Mode) (f : FieldF O) (loc : PosF) : Option Nat :=
  (vecGet m f.rbags f.dh (discretize rnd f.discretization loc)).map List.length

/-- `set_object_location` (src/engine/fields/field_2d.rs:838-846). -/
def setObjectLocation (rnd : Rat → Rat) (m : Mode) (f : FieldF O) (object : O) (loc : PosF) : Option (FieldF O) :=
  match vecGet m f.bags f.dh (discretize rnd f.discretization loc) with
  | none => none
  | some b =>
    (vecSet m f.bags f.dh (discretize rnd f.discretization loc) (b ++ [object])).map (fun v =>
      { f with bags := v, nagents := if f.densityCheck then f.nagents else f.nagents + 1 })

/-- `a - b` on `usize` (src/engine/fields/field_2d.rs:895). -/
def usub : Mode → Nat → Nat → Option Nat
  | .debug, a, b => if a < b then none else some (a - b)
  | .release, a, b => some (if a < b then a + 2 ^ 64 - b else a - b)

/-- `remove_object_location` (src/engine/fields/field_2d.rs:885-898). -/
def removeObjectLocation (rnd : Rat → Rat) (m : Mode) (f : FieldF O) (object : O) (loc : PosF) : Option (FieldF O) :=
  match vecGet m f.bags f.dh (discretize rnd f.discretization loc) with
  | none => none
  | some b =>
    if b.isEmpty then some f
    else if f.densityCheck then
      (vecSet m f.bags f.dh (discretize rnd f.discretization loc) (b.filter (fun x => x != object))).map (fun v => { f with bags := v })
    else
      match usub m f.nagents (b.length - (b.filter (fun x => x != object)).length) with
      | none => none
      | some n =>
        (vecSet m f.bags f.dh (discretize rnd f.discretization loc) (b.filter (fun x => x != object))).map (fun v => { f with bags := v, nagents := n })

/-- `(self.dw * self.dh) as usize`: a negative product becomes a huge one (src/engine/fields/field_2d.rs:912, 914). -/
def area (m : Mode) (f : FieldF O) : Option Nat := (fit m (f.dw * f.dh)).map (fun a => if a < 0 then (a + 2 ^ 64).toNat else a.toNat)

/-- `lazy_update` (src/engine/fields/field_2d.rs:905-921). -/
def lazyUpdate (m : Mode) (f : FieldF O) : Option (FieldF O) :=
  if f.densityCheck then some { f with rbags := f.bags, bags := f.rbags.map (fun _ => []) }
  else
    match area m f with
    | none => none
    | some a =>
      if a = 0 then none
      else (emptyBags O a).map (fun v => { f with rbags := f.bags, bags := v, density := f.nagents / a, densityCheck := true })

/-- The calls of a program that change a field; `update` (src/engine/fields/field_2d.rs:902) does nothing. -/
inductive OpF (O : Type) where
  | place (o : O) (l : PosF)
  | remove (o : O) (l : PosF)
  | update
  | lazyUpdate

/-- One call (the methods of src/engine/fields/field_2d.rs:838-921). -/
def exec (rnd : Rat → Rat) (m : Mode) (f : FieldF O) : OpF O → Option (FieldF O)
  | .place o l => setObjectLocation rnd m f o l
  | .remove o l => removeObjectLocation rnd m f o l
  | .update => some f
  | .lazyUpdate => lazyUpdate m f

/-- A program on a field; the calls are listed newest first (the methods of src/engine/fields/field_2d.rs:838-921). -/
def run (rnd : Rat → Rat) (m : Mode) (f : FieldF O) : List (OpF O) → Option (FieldF O)
  | [] => some f
  | op :: before => (run rnd m f before).bind (fun f' => exec rnd m f' op)

end Verif.Machine
