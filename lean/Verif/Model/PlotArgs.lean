import Verif.Model.Monitor

/-!
Model of `plot!` (src/lib.rs:1241-1280) with arguments that are expressions: a macro writes the expression wherever the argument is named, so
it is evaluated anew each time. An expression takes the state of the program to a value and a new state; expressions that panic, or
that lock `DATA` (for which see Model/Locks), are left out.
-/

namespace Verif.Monitor

variable {σ : Type}

/-- An expression (src/lib.rs:1242). -/
abbrev Arg (σ α : Type) := σ → α × σ

/-- The arguments (src/lib.rs:1242); the last is optional. -/
structure Args (σ : Type) where
  name : Arg σ String
  serie : Arg σ String
  x : Arg σ Fl
  y : Arg σ Fl
  csv : Option (Arg σ Bool)

/-- `if $x < m { m = $x }` (src/lib.rs:1253-1255, 1259-1261). -/
def lower (e : Arg σ Fl) (m : Fl) (s : σ) : Fl × σ := if (e s).1.lt m then e (e s).2 else (m, (e s).2)

/-- `if $x > m { m = $x }` (src/lib.rs:1256-1258, 1262-1264). -/
def upper (e : Arg σ Fl) (m : Fl) (s : σ) : Fl × σ := if m.lt (e s).1 then e (e s).2 else (m, (e s).2)

/-- `pdata.series.get_mut(&$serie).unwrap().push(($x, $y))` (src/lib.rs:1250-1251). -/
def pushArgs (a : Args σ) (ser : HMap String (List (Fl × Fl))) (s : σ) : Option (HMap String (List (Fl × Fl)) × σ) :=
  match HMap.get ser (a.serie s).1 with
  | none => none
  | some _ =>
    some (HMap.adjust ser (a.serie s).1
      (fun l => l ++ [((a.x (a.serie s).2).1, (a.y (a.x (a.serie s).2).2).1)]), (a.y (a.x (a.serie s).2).2).2)

/-- The series is created if it is missing (src/lib.rs:1247-1251). -/
def seriesArgs (a : Args σ) (ser : HMap String (List (Fl × Fl))) (s : σ) : Option (HMap String (List (Fl × Fl)) × σ) :=
  if (HMap.get ser (a.serie s).1).isSome then pushArgs a ser (a.serie s).2
  else pushArgs a (HMap.insert ser (a.serie (a.serie s).2).1 []).1 (a.serie (a.serie s).2).2

/-- The changes of the plot (src/lib.rs:1247-1264). -/
def Plot.pushArgs (a : Args σ) (p : Plot) (s : σ) : Option (Plot × σ) :=
  match seriesArgs a p.series s with
  | none => none
  | some (ser, s0) =>
    match lower a.x p.minX s0 with
    | (minX, s1) =>
      match upper a.x p.maxX s1 with
      | (maxX, s2) =>
        match lower a.y p.minY s2 with
        | (minY, s3) =>
          match upper a.y p.maxY s3 with
          | (maxY, s4) => some ({ p with series := ser, minX := minX, maxX := maxX, minY := minY, maxY := maxY }, s4)

/-- The message to the csv thread (src/lib.rs:1266-1277). -/
def sendArgs (a : Args σ) (m : Mon) (s : σ) : Option (Mon × σ) :=
  match a.csv with
  | none => some (m, s)
  | some c =>
    if (c s).1 then
      if m.sender then
        match a.name (c s).2 with
        | (n, s1) =>
          match a.serie s1 with
          | (r, s2) =>
            match a.x s2 with
            | (x, s3) =>
              match a.y s3 with
              | (y, s4) => some ({ m with sent := m.sent ++ [(n, r, x, y)] }, s4)
      else none
    else some (m, (c s).2)

/-- `plot!` (src/lib.rs:1241-1280). -/
def plotArgs (m : Mon) (a : Args σ) (s : σ) : Option (Mon × σ) :=
  if (HMap.get m.data (a.name s).1).isSome then
    match HMap.get m.data (a.name (a.name s).2).1 with
    | none => none
    | some p =>
      match p.pushArgs a (a.name (a.name s).2).2 with
      | none => none
      | some (p', s') => sendArgs a { m with data := HMap.adjust m.data (a.name (a.name s).2).1 (fun _ => p') } s'
  else some (m, (a.name s).2)

end Verif.Monitor
