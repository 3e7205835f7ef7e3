import Verif.Model.GeneticAws
import Verif.Model.Fl

/-!
Model of the loop of the cloud genetic search `explore_ga_aws!` (src/explore/aws/genetic.rs) around the generations of
`Verif.Model.GeneticAws`, and of the text in which the functions answer.

Simplifications: as in `Verif.Model.GeneticAws`. The functions of the user get the number of the generation as further argument:
they stand for functions with a hidden state. The JSON text is modelled for what stands between the quotes of an individual and
for the number of a fitness; the rest of the text does not depend on the user.
-/

namespace Verif.GeneticAws

/-- The arguments of the macro (src/explore/aws/genetic.rs:16-27); there is no comparison, a greater fitness is better. -/
structure Callbacks (I : Type) where
  fit : Nat → Nat → Nat → I → Rat
  select : Nat → List (I × Rat) → List (I × Rat)
  mutate : Nat → Nat → I → I
  cross : Nat → List I → List I
  desired : Rat

/-- The variables of the loop (src/explore/aws/genetic.rs:336-350). -/
structure State (I : Type) where
  generation : Nat
  population : List I
  rows : List (Row I)
  best : Rat × Option I
deriving DecidableEq, Repr

variable {I : Type}

/-- Mutation of every selected individual (src/explore/aws/genetic.rs:550-553), from number `k` on. -/
def mutateAll (cb : Callbacks I) (g : Nat) : Nat → List I → List I
  | _, [] => []
  | k, x :: xs => cb.mutate g k x :: mutateAll cb g (k + 1) xs

/-- The result of a round of the loop (src/explore/aws/genetic.rs:354-559). -/
inductive Round (I : Type) where
  | halt (s : State I)
  | next (s : State I)
  | panic
deriving DecidableEq, Repr

/-- One round of the loop (src/explore/aws/genetic.rs:354-559). `arrive g` is the order in which the messages of generation `g`
arrive. The test of `flag` at lines 361-364 is never true, the loop is left at lines 533-535. -/
def round (cb : Callbacks I) (arrive : Nat → List (Option (List (Row I))) → List (Option (List (Row I))))
    (limit reps numFunc : Nat) (s : State I) : Round I :=
  if limit ≠ 0 ∧ s.generation = limit then .halt s
  else
    match generation (cb.fit (s.generation + 1)) (arrive (s.generation + 1)) cb.desired s.population reps numFunc
        (s.generation + 1) s.best with
    | none => .panic
    | some (rows, best, flag) =>
      if flag = true then .halt ⟨s.generation + 1, s.population, s.rows ++ rows, best⟩
      else if (cb.select (s.generation + 1) (rows.map (fun r => (r.individual, r.fitness)))).length ≤ 1 then
        .halt ⟨s.generation + 1, s.population, s.rows ++ rows, best⟩
      else
        .next ⟨s.generation + 1,
          cb.cross (s.generation + 1) (mutateAll cb (s.generation + 1) 0
            ((cb.select (s.generation + 1) (rows.map (fun r => (r.individual, r.fitness)))).map Prod.fst)),
          s.rows ++ rows, best⟩

/-- What has happened after a number of rounds (src/explore/aws/genetic.rs:354-562). -/
inductive Outcome (I : Type) where
  | finished (rows : List (Row I)) (best : Rat × Option I)
  | running (s : State I)
  | panic
deriving DecidableEq, Repr

/-- The loop (src/explore/aws/genetic.rs:354-562), at most `fuel` rounds. -/
def loop (cb : Callbacks I) (arrive : Nat → List (Option (List (Row I))) → List (Option (List (Row I))))
    (limit reps numFunc : Nat) : Nat → State I → Outcome I
  | 0, s => .running s
  | fuel + 1, s =>
    match round cb arrive limit reps numFunc s with
    | .panic => .panic
    | .next s' => loop cb arrive limit reps numFunc fuel s'
    | .halt s' => .finished s'.rows s'.best

/-- `explore_ga_aws!` (src/explore/aws/genetic.rs:328-562), between deployment and clean-up. -/
def gaAws (cb : Callbacks I) (arrive : Nat → List (Option (List (Row I))) → List (Option (List (Row I)))) (init : List I)
    (limit reps numFunc fuel : Nat) : Outcome I :=
  loop cb arrive limit reps numFunc fuel ⟨0, init, [], (0, none)⟩

/-! ### The text of the answers -/

/-- What a function writes for an individual (src/explore/aws/genetic.rs:211): the characters as they are, without escapes, a
quote, and the rest of the message. -/
def written (individual rest : List Char) : List Char := individual ++ '"' :: rest

/-- The character of a short escape of JSON (RFC 8259, section 7; read by `serde_json::from_str`,
src/explore/aws/genetic.rs:492). -/
def unescape (c : Char) : Option Char :=
  if c = '"' then some '"'
  else if c = '\\' then some '\\'
  else if c = '/' then some '/'
  else if c = 'b' then some (Char.ofNat 8)
  else if c = 'f' then some (Char.ofNat 12)
  else if c = 'n' then some '\n'
  else if c = 'r' then some '\r'
  else if c = 't' then some '\t'
  else none

/-- Reading a string of JSON after its opening quote (`serde_json::from_str`, src/explore/aws/genetic.rs:492): its characters and
what follows the closing quote. `unicode` reads the rest of an escape that begins with `\u`. `fuel` is at least the length of the
text. `none` is the error of `from_str`, which `expect` makes a panic. -/
def readString (unicode : List Char → Option (Char × List Char)) : Nat → List Char → Option (List Char × List Char)
  | 0, _ => none
  | _ + 1, [] => none
  | fuel + 1, c :: rest =>
    if c = '"' then some ([], rest)
    else if c = '\\' then
      match rest with
      | [] => none
      | e :: rest' =>
        if e = 'u' then
          match unicode rest' with
          | none => none
          | some (u, rest'') => (readString unicode fuel rest'').map (fun r => (u :: r.1, r.2))
        else
          match unescape e with
          | none => none
          | some u => (readString unicode fuel rest').map (fun r => (u :: r.1, r.2))
    else if c.toNat < 32 then none
    else (readString unicode fuel rest).map (fun r => (c :: r.1, r.2))

/-- The individual the search reads back (src/explore/aws/genetic.rs:211, 492, 502). -/
def readBack (unicode : List Char → Option (Char × List Char)) (individual rest : List Char) :
    Option (List Char × List Char) :=
  readString unicode (written individual rest).length (written individual rest)

/-- The fitness the search reads back (src/explore/aws/genetic.rs:211, 492, 501): `NaN` and `inf` are no numbers of JSON. -/
def readFitness : Fl → Option Rat
  | .fin q => some q
  | _ => none

/-- The answers of a function (src/explore/aws/genetic.rs:178-213) whose fitness function may return any float. -/
def answerFl (fit : Nat → I → Fl) (g : Nat) : Nat → List I → Option (List (Row I))
  | _, [] => some []
  | j, x :: xs =>
    match readFitness (fit j x) with
    | none => none
    | some f => (answerFl fit g (j + 1) xs).map (fun l => ⟨g, j, f, x⟩ :: l)

/-- The messages of all functions (src/explore/aws/genetic.rs:167-221), as in `messages`, with any floats. -/
def messagesFl (fit : Nat → Nat → I → Fl) (g : Nat) : Nat → List (List I) → List (Option (List (Row I)))
  | _, [] => []
  | i, xs :: xss => (if xs.isEmpty then none else answerFl (fit i) g 0 xs) :: messagesFl fit g (i + 1) xss

/-- The rows of a generation (src/explore/aws/genetic.rs:353-521), with any floats. -/
def generationFl (fit : Nat → Nat → I → Fl) (arrive : List (Option (List (Row I))) → List (Option (List (Row I))))
    (pop : List I) (reps numFunc g : Nat) : Option (List (Row I)) :=
  match workload pop reps numFunc with
  | none => none
  | some lists => parse (arrive (messagesFl fit g 0 lists))

end Verif.GeneticAws
