/-!
Model of the choice of a computing mode by `explore!` and `evolutionary_search!` (src/explore/model_exploration.rs:57-152,
src/explore/genetic.rs:203-313). The macros that they expand to are modelled in Model/Explore, Model/ExploreMpi and Model/Genetic.

The conditions `#[cfg(feature = …)]` are part of what the macros expand to, so that they are about the features of the crate that calls the macro, not
about those of the library.
-/

namespace Verif.Dispatch

/-- The features that the macros ask for (src/explore/model_exploration.rs:75, 88, 104). -/
structure Features where
  mpi : Bool
  cloud : Bool
  aws : Bool
  deriving DecidableEq

/-- `ComputingMode` (src/lib.rs:459-466). -/
inductive Mode where
  | parallel
  | distributed
  | cloud
  deriving DecidableEq

/-- What is run: one of the macros, nothing but a warning, or a panic. -/
inductive Run where
  | sequential
  | parallel
  | distributed
  | cloud
  | nothing
  | panic
  deriving DecidableEq

/-- `explore!` (src/explore/model_exploration.rs:57-152); `none`: called without a mode (140-150). `caller` are the features of the calling crate. -/
def explore (caller : Features) : Option Mode → Run
  | none => .sequential
  | some .parallel => if !(caller.mpi || caller.cloud) then .parallel else .panic
  | some .distributed => if caller.mpi then .distributed else .panic
  | some .cloud => if caller.aws then .nothing else .panic

/-- `evolutionary_search!` (src/explore/genetic.rs:203-313), likewise. -/
def search (caller : Features) : Option Mode → Run
  | none => .sequential
  | some .parallel => if !(caller.mpi || caller.cloud) then .parallel else .panic
  | some .distributed => if caller.mpi then .distributed else .panic
  | some .cloud => if caller.aws then .nothing else .panic

end Verif.Dispatch
