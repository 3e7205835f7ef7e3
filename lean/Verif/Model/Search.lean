import Verif.Model.Fl

/-!
Model of the random search `random_search!` (src/explore/random_search.rs), the bayesian search `bayesian_search!`
(src/explore/bayesian.rs), the parameter generator `gen_param!` and the reader `load_csv!` (src/lib.rs).

Simplifications: printing is left out. The functions of the user, the random generators, the gaussian process and the arithmetic
on floats are parameters; functions that may use a random generator also get the number of the call. Floats are values of `Fl`.
-/

namespace Verif.Search

/-! ### Random search -/

variable {S : Type}

/-- The evaluation of a sample (src/explore/random_search.rs:76-93): `reps` times a simulation on the same state (`run`: a new
schedule, `init` and the steps, see `Driver.runRep`) whose costs are summed and divided by `reps`. Returns the state that is left in
`new_samples`, and the cost. -/
def evalLoop (run : S → S) (cost : S → Fl) (add : Fl → Fl → Fl) : Nat → S → Fl → S × Fl
  | 0, s, c => (s, c)
  | r + 1, s, c => evalLoop run cost add r (run s) (add c (cost (run s)))

/-- See `evalLoop`; `over c r` is `c / r as f32` (src/explore/random_search.rs:76-93). -/
def evalSample (run : S → S) (cost : S → Fl) (add : Fl → Fl → Fl) (over : Fl → Nat → Fl) (reps : Nat) (s : S) : S × Fl :=
  ((evalLoop run cost add reps s (.fin 0)).1, over (evalLoop run cost add reps s (.fin 0)).2 reps)

/-- The samples of iteration `i` after their evaluation (src/explore/random_search.rs:66-95): `gen i j b` is the `j`-th sample
generated from the best state, `eval i j` its evaluation. -/
def batch (gen : Nat → Nat → S → S) (eval : Nat → Nat → S → S × Fl) (batchSize i : Nat) (b : S) : List (S × Fl) :=
  (List.range batchSize).map (fun j => eval i j (gen i j b))

/-- The loop over the results (src/explore/random_search.rs:97-103): `min_cost` and `min_index` (`none` for −1). -/
def minLoop : List (S × Fl) → Nat → Fl × Option Nat → Fl × Option Nat
  | [], _, m => m
  | r :: rs, i, m => minLoop rs (i + 1) (if r.2.lt m.1 then (r.2, some i) else m)

/-- `best = (new_samples.remove(min_index), min_cost)` (src/explore/random_search.rs:105-107). -/
def newBest (l : List (S × Fl)) (m : Fl × Option Nat) (best : S × Fl) : Option (S × Fl) :=
  match m.2 with
  | none => some best
  | some i => (l[i]?).map (fun r => (r.1, m.1))

/-- The iterations (src/explore/random_search.rs:64-113): `k` are left, the next is `i`. Returns `best` and the evaluated samples of
each iteration; `none` is a panic. -/
def iterate (gen : Nat → Nat → S → S) (eval : Nat → Nat → S → S × Fl) (batchSize : Nat) (target : Fl) :
    Nat → Nat → S × Fl → Fl → Option ((S × Fl) × List (List (S × Fl)))
  | 0, _, best, _ => some (best, [])
  | k + 1, i, best, minCost =>
    match newBest (batch gen eval batchSize i best.1) (minLoop (batch gen eval batchSize i best.1) 0 (minCost, none)) best with
    | none => none
    | some best' =>
      if (minLoop (batch gen eval batchSize i best.1) 0 (minCost, none)).1.le target then
        some (best', [batch gen eval batchSize i best.1])
      else
        (iterate gen eval batchSize target k (i + 1) best' (minLoop (batch gen eval batchSize i best.1) 0 (minCost, none)).1).map
          (fun r => (r.1, batch gen eval batchSize i best.1 :: r.2))

/-- `random_search!` (src/explore/random_search.rs:44-118). -/
def randomSearch (gen : Nat → Nat → S → S) (eval : Nat → Nat → S → S × Fl) (init : S) (nIter : Nat) (target : Fl)
    (batchSize : Nat) : Option ((S × Fl) × List (List (S × Fl))) :=
  iterate gen eval batchSize target nIter 0 (init, Fl.maxF32) Fl.maxF32

/-! ### Bayesian search -/

variable {X : Type}

/-- The loop that looks for a maximum from `f64::MIN` and index 0 on (src/explore/bayesian.rs:126-133, 190-197, 277-284). -/
def maxLoop : List Fl → Nat → Fl × Nat → Fl × Nat
  | [], _, m => m
  | y :: ys, i, m => maxLoop ys (i + 1) (if m.1.lt y then (y, i) else m)

/-- `expected_improvement` (src/explore/bayesian.rs:296-329): `mean`, `sd` are the prediction of the process and its standard
deviation;
`formula mean best sd` is lines 323-328. -/
def expectedImprovement (mean sd : X → Fl) (formula : Fl → Fl → Fl → Fl) (xInit : List X) (x : X) : Fl :=
  if sd x = .fin 0 then .fin 0
  else formula (mean x) (maxLoop (xInit.map mean) 0 (Fl.minF64, 0)).1 (sd x)

/-- `acquisition_function` (src/explore/bayesian.rs:268-287); `score` is the expected improvement of a sample. -/
def acquisition (score : X → Fl) (samples : List X) : Option X :=
  samples[(maxLoop (samples.map score) 0 (Fl.minF64, 0)).2]?

/-- The iterations (src/explore/bayesian.rs:140-167, 206-235): `hist` are the points evaluated so far with their values (`x_init` and
the data of the process), `objective k x` the value of the `k`-th call of the objective function; `gen i` generates the samples of iteration `i`
from the points, `score` is the expected improvement given the data. Returns `(x_max, y_max)` and all points evaluated. -/
def bayesLoop (objective : Nat → X → Fl) (gen : Nat → List X → List X) (score : List (X × Fl) → X → Fl) :
    Nat → Nat → List (X × Fl) → X × Fl → Option ((X × Fl) × List (X × Fl))
  | 0, _, hist, best => some (best, hist)
  | k + 1, i, hist, best =>
    match acquisition (score hist) (gen i (hist.map Prod.fst)) with
    | none => none
    | some x =>
      bayesLoop objective gen score k (i + 1) (hist ++ [(x, objective hist.length x)])
        (if best.2.lt (objective hist.length x) then (x, objective hist.length x) else best)

/-- The initial points with their values (src/explore/bayesian.rs:118-122, 181-185). -/
def evalInit (objective : Nat → X → Fl) (xInit : List X) : List (X × Fl) :=
  xInit.zipIdx.map (fun p => (p.1, objective p.2 p.1))

/-- `bayesian_search!` (src/explore/bayesian.rs:104-238); the two forms differ in `gen` only. -/
def bayesianSearch (objective : Nat → X → Fl) (gen : Nat → List X → List X) (score : List (X × Fl) → X → Fl) (xInit : List X)
    (nIter : Nat) : Option ((X × Fl) × List (X × Fl)) :=
  match xInit[(maxLoop ((evalInit objective xInit).map Prod.snd) 0 (Fl.minF64, 0)).2]? with
  | none => none
  | some x => bayesLoop objective gen score nIter 0 (evalInit objective xInit)
      (x, (maxLoop ((evalInit objective xInit).map Prod.snd) 0 (Fl.minF64, 0)).1)

/-- `generate_samples` (src/explore/bayesian.rs:246-259): `u i j` is the result of `gen_range(-1.0..=1.0)` for coordinate `j` of point
`i`, `rnd` the rounding of the product. -/
def generateSamples (u : Nat → Nat → Rat) (rnd : Rat → Rat) (batchSize : Nat) (scale : Rat) (params : Nat) : List (List Rat) :=
  (List.range batchSize).map (fun i => (List.range params).map (fun j => rnd (u i j * scale)))

/-! ### `gen_param!` -/

/-- The bounds (src/lib.rs:1827-1834) for an integer type with largest value `top`: `maximum + 1` may overflow (panic). -/
def boundsInt (top min max : Int) : Option (Int × Int) :=
  if min > max then some (max, min)
  else if min = max then (if max < top then some (min, max + 1) else none)
  else some (min, max)

/-- `gen_param!` for an integer type (src/lib.rs:1819-1850): `u i` is the `i`-th random number, from which the distribution makes a
value of the half-open range. The local `n` is not used: the macro takes `$n` values. -/
def genParamInt (u : Nat → Nat) (top min max : Int) (n : Nat) : Option (List Int) :=
  (boundsInt top min max).map (fun b => (List.range n).map (fun i => b.1 + (u i : Int) % (b.2 - b.1)))

/-- The bounds for a float type: `rnd` is its rounding. `Uniform::from` panics for an empty range or a range whose width is
not finite (`finite`) (src/lib.rs:1827-1834). -/
def boundsFloat (rnd : Rat → Rat) (finite : Rat → Bool) (min max : Rat) : Option (Rat × Rat) :=
  if min > max then (if finite (min - max) then some (max, min) else none)
  else if min = max then (if min < rnd (max + 1) then some (min, rnd (max + 1)) else none)
  else if finite (max - min) then some (min, max) else none

/-- `gen_param!` for a float type: `pick i lo hi` is the `i`-th sample of the distribution on `lo..hi` (src/lib.rs:1819-1850). -/
def genParamFloat (rnd : Rat → Rat) (finite : Rat → Bool) (pick : Nat → Rat → Rat → Rat) (min max : Rat) (n : Nat) :
    Option (List Rat) :=
  (boundsFloat rnd finite min max).map (fun b => (List.range n).map (fun i => pick i b.1 b.2))

/-! ### `load_csv!` -/

/-- The fields of one record, parsed one after the other: `record[i].parse().expect(..)` (src/lib.rs:1885-1889). -/
def parseRecord {V : Type} (record : List String) : Nat → List (String → Option V) → Option (List V)
  | _, [] => some []
  | i, p :: ps =>
    match (record[i]?).bind p, parseRecord record (i + 1) ps with
    | some v, some vs => some (v :: vs)
    | _, _ => none

/-- `$x.push(x)` for each field (src/lib.rs:1887). -/
def pushAll {V : Type} : List (List V) → List V → List (List V)
  | c :: cs, v :: vs => (c ++ [v]) :: pushAll cs vs
  | cs, _ => cs

/-- The loop over the records (src/lib.rs:1882-1890). The reader refuses a record whose length is not that of the header. -/
def readRecords {V : Type} (width : Nat) (parsers : List (String → Option V)) : List (List String) → List (List V) →
    Option (List (List V))
  | [], cols => some cols
  | r :: rs, cols =>
    if r.length = width then
      match parseRecord r 0 parsers with
      | some vs => readRecords width parsers rs (pushAll cols vs)
      | none => none
    else none

/-- `load_csv!(file, x: T, ..)` (src/lib.rs:1874-1894) for a file with the given header and records: `fields` are the names and
parsers of the fields asked for. The names only name local variables. -/
def loadCsv {V : Type} (header : List String) (records : List (List String)) (fields : List (String × (String → Option V))) :
    Option (List (List V)) :=
  readRecords header.length (fields.map Prod.snd) records (fields.map (fun _ => []))

/-- `write_csv` (src/lib.rs:1776-1787): the header and the rows of the file, for rows of the width of the header; the writer
refuses others (an error, `none`). -/
def writeCsv {A : Type} (names : List String) (toStrings : A → List String) : List A → Option (List (List String))
  | [] => some []
  | a :: as =>
    if (toStrings a).length = names.length then (writeCsv names toStrings as).map (fun l => toStrings a :: l) else none

end Verif.Search
