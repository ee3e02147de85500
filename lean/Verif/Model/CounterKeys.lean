import Verif.Model.Shell

/-!
# The key files of the counter test program (src/counter.cpp:745-774, src/archive.hpp:20-65)

A run reads or writes `_skey` and `_bkey` in the working directory, then tests with the keys it holds.  It can be stopped at any moment.

Simplifications: as in Model/Crash.lean, the bytes of a file arrive in the order in which they are written, and opening an output file empties it;
`write_to_archive` closes `_skey` before `_bkey` is opened.  The option `--cpu` does not matter here.  An exception that nothing catches ends the run like a kill.
-/

namespace Homfa.Cli

variable {N n l : Nat}

/-- The part of `main` before the tests (src/counter.cpp:753-769), from the files `fs`: the files it leaves, and the keys with which the tests are run unless the run is
stopped before. -/
inductive KeyRun (L : Lib N n l) (fs : Files) : Files → Option (L.Key × L.BKey) → Prop
  /-- both files exist and can be read (src/counter.cpp:759-762) -/
  | read {k b} : (fs "_skey").isSome → (fs "_bkey").isSome → readArchive L.loadKey (fs "_skey") = .ok k →
      readArchive L.loadBKey (fs "_bkey") = .ok b → KeyRun L fs fs (some (k, b))
  /-- both exist, one of them cannot be read: `error_die` in `read_from_archive` -/
  | badKey {e} : (fs "_skey").isSome → (fs "_bkey").isSome → readArchive L.loadKey (fs "_skey") = .error e → KeyRun L fs fs none
  | badBKey {k e} : (fs "_skey").isSome → (fs "_bkey").isSome → readArchive L.loadKey (fs "_skey") = .ok k →
      readArchive L.loadBKey (fs "_bkey") = .error e → KeyRun L fs fs none
  /-- otherwise new keys are made and written (src/counter.cpp:763-768) -/
  | make (r r' : Nat) : ¬((fs "_skey").isSome ∧ (fs "_bkey").isSome) →
      KeyRun L fs ((fs.set "_skey" (L.saveKey (L.newKey r))).set "_bkey" (L.saveBKey (L.newBKey r' (L.newKey r))))
        (some (L.newKey r, L.newBKey r' (L.newKey r)))
  /-- stopped before anything is written -/
  | stopped : KeyRun L fs fs none
  /-- stopped while `_skey` is written, or between the two files -/
  | stoppedKey (r : Nat) {p : List Byte} : ¬((fs "_skey").isSome ∧ (fs "_bkey").isSome) → p <+: L.saveKey (L.newKey r) →
      KeyRun L fs (fs.set "_skey" p) none
  /-- stopped while `_bkey` is written, or after it -/
  | stoppedBKey (r r' : Nat) {p : List Byte} : ¬((fs "_skey").isSome ∧ (fs "_bkey").isSome) →
      p <+: L.saveBKey (L.newBKey r' (L.newKey r)) → KeyRun L fs ((fs.set "_skey" (L.saveKey (L.newKey r))).set "_bkey" p) none

/-- A sequence of runs, one after the other: the files at the end and what each run tested with. -/
inductive KeyRuns (L : Lib N n l) : Files → Files → List (Option (L.Key × L.BKey)) → Prop
  | nil {fs} : KeyRuns L fs fs []
  | next {fs fs1 fs2 o os} : KeyRun L fs fs1 o → KeyRuns L fs1 fs2 os → KeyRuns L fs fs2 (o :: os)

end Homfa.Cli
