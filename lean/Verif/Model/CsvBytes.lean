import Verif.Model.Monitor

/-!
Model of the csv thread of `simulate!` (src/lib.rs:949-1004) down to the characters of its files, where two writers may have the
same file. `Verif.Monitor.csvThread` is the same thread with files of rows, for one writer each.

Simplifications: `text` is how the crate csv writes a record; characters stand for bytes; a header fits the buffer of a writer
(8 KiB); no other program changes the files. The order of `names` is that of the hash set `PLOT_NAMES`, which may be any.
-/

namespace Verif.Monitor

/-- The characters of each file (src/lib.rs:951-968). -/
abbrev Disk := String → Nat → Option (List Char)

/-- Replacing one file (src/lib.rs:951-992). -/
def setBytes (d : Disk) (n : String) (r : Nat) (b : List Char) : Disk :=
  fun n' r' => if n' = n ∧ r' = r then some b else d n' r'

/-- A write of `b` by a handle whose position is `pos` (`flush`, src/lib.rs:989): a hole is filled with zeros. -/
def writeAt (file : List Char) (pos : Nat) (b : List Char) : List Char :=
  (file ++ List.replicate (pos - file.length) (Char.ofNat 0)).take pos ++ b ++ file.drop (pos + b.length)

/-- An entry of `csv_writers` (src/lib.rs:953-965): the name, the file, the position of its handle and the buffer of the writer. -/
structure BWriter where
  name : String
  rep : Nat
  pos : Nat
  buf : List Char
deriving DecidableEq, Repr

/-- `flush`, also when a writer is dropped (src/lib.rs:983, 989). -/
def flushDisk (d : Disk) (w : BWriter) : Disk :=
  setBytes d w.name w.rep (writeAt ((d w.name w.rep).getD []) w.pos w.buf)

/-- Dropping the writers in the order of the vector (src/lib.rs:983, 1004). -/
def dropAll (d : Disk) (ws : List BWriter) : Disk := ws.foldl flushDisk d

/-- The files after `open_files` (src/lib.rs:951-968): `Writer::from_path` makes an empty file; the header is in the buffer. -/
def openDisk (names : List (String × String × String)) (rep : Nat) (d : Disk) : Disk :=
  names.foldl (fun d n => setBytes d (sanitize n.1) rep []) d

/-- The writers of `open_files` (src/lib.rs:951-968). -/
def openWriters (text : CsvRow → List Char) (names : List (String × String × String)) (rep : Nat) : List BWriter :=
  names.map (fun n => ⟨sanitize n.1, rep, 0, text ("series", n.2.1, n.2.2)⟩)

/-- `MessageType::Plot` (src/lib.rs:985-992): every writer of that name writes the row and flushes. -/
def writePoint (f : String) (b : List Char) : Disk → List BWriter → Disk × List BWriter
  | d, [] => (d, [])
  | d, w :: ws =>
    if f = w.name then
      ((writePoint f b (flushDisk d ⟨w.name, w.rep, w.pos, w.buf ++ b⟩) ws).1,
        ⟨w.name, w.rep, w.pos + (w.buf ++ b).length, []⟩ ::
          (writePoint f b (flushDisk d ⟨w.name, w.rep, w.pos, w.buf ++ b⟩) ws).2)
    else ((writePoint f b d ws).1, w :: (writePoint f b d ws).2)

/-- State of the csv thread (src/lib.rs:949-1004). -/
structure BCsv where
  counter : Nat
  writers : List BWriter
  disk : Disk

/-- A message in the loop (src/lib.rs:980-1003): `Init` opens the new files before the old writers are dropped, `Quit` drops all. The
flag is whether the loop goes on. -/
def handleBytes (text : CsvRow → List Char) (c : BCsv) (m : Msg) (names : List (String × String × String)) : BCsv × Bool :=
  match m with
  | .init => (⟨c.counter, openWriters text names c.counter, dropAll (openDisk names c.counter c.disk) c.writers⟩, true)
  | .point n s x y =>
    (⟨c.counter, (writePoint (sanitize n) (text (s, x, y)) c.disk c.writers).2,
      (writePoint (sanitize n) (text (s, x, y)) c.disk c.writers).1⟩, true)
  | .endOfSimulation => (⟨c.counter + 1, c.writers, c.disk⟩, true)
  | .quit => (⟨c.counter, [], dropAll c.disk c.writers⟩, false)

/-- The loop (src/lib.rs:980-1003). -/
def bytesLoop (text : CsvRow → List Char) (c : BCsv) : List (Msg × List (String × String × String)) → BCsv
  | [] => c
  | m :: ms =>
    if (handleBytes text c m.1 m.2).2 then bytesLoop text (handleBytes text c m.1 m.2).1 ms else (handleBytes text c m.1 m.2).1

/-- The csv thread (src/lib.rs:949-1004). -/
def bytesThread (text : CsvRow → List Char) (d : Disk) : List (Msg × List (String × String × String)) → Disk
  | [] => d
  | m :: ms =>
    if m.1 = .quit then d
    else (bytesLoop text ⟨0, openWriters text m.2 0, openDisk m.2 0 d⟩ ms).disk

end Verif.Monitor
