import Verif.Model.Dispatch

/-!
Property C208: explorations and searches run in the mode asked for.
-/

namespace Verif.Dispatch

/-- What the documentation says (src/lib.rs:457-465, src/explore/model_exploration.rs:14-20): without a mode sequential; parallel needs no features;
distributed and cloud need a feature of the library. `none`: nothing is promised. -/
def promised (library : Features) : Option Mode → Option Run
  | none => some .sequential
  | some .parallel => some .parallel
  | some .distributed => if library.mpi then some .distributed else none
  | some .cloud => if library.aws then some .cloud else none

/-- A kind of calls for which both macros keep their promise, for a library and a calling crate with the given features. -/
def Kept (library caller : Features) (m : Option Mode) : Prop :=
  ∀ r, promised library m = some r → explore caller m = r ∧ search caller m = r

/-- **C208**. Full statement: `Kept` for all features and modes. Proved: exactly when it holds. Without a mode always; in parallel if the calling crate
has none of the features `distributed_mpi` and `cloud` of its own; distributed if the calling crate has a feature of that name too; in the cloud
never. -/
theorem C208_modes_partial (library caller : Features) :
    Kept library caller none ∧
    (Kept library caller (some .parallel) ↔ caller.mpi = false ∧ caller.cloud = false) ∧
    (Kept library caller (some .distributed) ↔ (library.mpi = true → caller.mpi = true)) ∧
    (Kept library caller (some .cloud) ↔ library.aws = false) := by
  obtain ⟨lm, lc, la⟩ := library
  obtain ⟨cm, cc, ca⟩ := caller
  refine ⟨?_, ?_, ?_, ?_⟩ <;> cases lm <;> cases la <;> cases cm <;> cases cc <;> cases ca <;> simp [Kept, promised, explore, search]

/-- C208: the two macros make the same choice, and each panics, or does nothing, exactly as the features of the calling crate say. -/
theorem C208_otherwise_partial (caller : Features) :
    (∀ m, explore caller m = search caller m) ∧
    (explore caller (some .parallel) = .parallel ↔ caller.mpi = false ∧ caller.cloud = false) ∧
    (explore caller (some .parallel) = .panic ↔ caller.mpi = true ∨ caller.cloud = true) ∧
    (explore caller (some .distributed) = .distributed ↔ caller.mpi = true) ∧
    (explore caller (some .distributed) = .panic ↔ caller.mpi = false) ∧
    (explore caller (some .cloud) = .nothing ↔ caller.aws = true) ∧
    (explore caller (some .cloud) = .panic ↔ caller.aws = false) := by
  obtain ⟨cm, cc, ca⟩ := caller
  refine ⟨?_, ?_, ?_, ?_, ?_, ?_, ?_⟩
  · rintro (_ | _ | _ | _) <;> rfl
  all_goals cases cm <;> cases cc <;> cases ca <;> simp [explore]

/-- C208 is false: the library has the feature for distributed explorations, the calling crate declares no features, and the exploration panics. -/
theorem C208_distributed_negation_partial : ∃ library caller : Features, library.mpi = true ∧
    explore caller (some .distributed) = .panic ∧ search caller (some .distributed) = .panic :=
  ⟨⟨true, false, false⟩, ⟨false, false, false⟩, rfl, rfl, rfl⟩

/-- C208 is false: with the feature for the cloud nothing is run. -/
theorem C208_cloud_negation_partial : ∃ library : Features, library.aws = true ∧ ∀ caller, explore caller (some .cloud) ≠ .cloud ∧
    search caller (some .cloud) ≠ .cloud := by
  refine ⟨⟨false, false, true⟩, rfl, fun ⟨_, _, a⟩ => ?_⟩
  cases a <;> exact ⟨by simp [explore], by simp [search]⟩

/-- Parallel from a crate without features. -/
example : explore ⟨false, false, false⟩ (some .parallel) = .parallel := rfl

end Verif.Dispatch
