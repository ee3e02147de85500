import Verif.Model.Stream

/-!
# The end of an input stream (src/tfhepp_util.hpp:78-115)

Neither class declares a destructor, so the members are destroyed in the reverse order of their declaration
(src/tfhepp_util.hpp:80-85 and 99-104): `current_size_`, `loaded_`, `running_`, `pool_`, `deser_`, `ifs_`; then the storage
of the object is released.  `current_size_`, `loaded_` (arrays of `double`) and `deser_` (a reference) have nothing to
destroy and live as long as their storage.  `running_` comes from a `std::packaged_task`, so its destructor does not wait.
The destructor of `ThreadPool` (thirdparty, not part of the repository) tells its thread to stop and joins it; the thread
stops only when its queue is empty.  The destructor may be reached at any moment between two calls: at the end of the
scope, or early, when the user leaves the scope or an exception passes through it.
-/

namespace Homfa

variable {l N : Nat}

/-- The effects of the destructor. (src/tfhepp_util.hpp:78-115) -/
inductive DropOp where
  /-- `running_` -/
  | dropFuture
  /-- `~ThreadPool`: `stop = true; condition.notify_all()` -/
  | stopPool
  /-- `~ThreadPool`: `worker.join()` -/
  | joinWorker
  /-- `~ifstream` -/
  | closeFile
  /-- the storage of the object is released -/
  | release
  deriving DecidableEq, Repr

/-- The implicit destructors (order of the members: src/tfhepp_util.hpp:80-85 and 99-104). -/
def dropOps : List DropOp := [.dropFuture, .stopPool, .joinWorker, .closeFile, .release]

/-- A stream (src/tfhepp_util.hpp:78-115) with what its destructor changes. -/
structure DropState (l N : Nat) where
  s : StreamState l N
  /-- the destructor: `none` before it is called, then the effects still to come -/
  dtor : Option (List DropOp)
  /-- `running_` exists -/
  future : Bool
  /-- the flag `stop` of the pool -/
  stop : Bool
  /-- the thread of the pool has ended -/
  exited : Bool
  /-- `ifs_` is open -/
  fileOpen : Bool
  /-- the storage of the object has been released -/
  released : Bool

/-- The object just after its constructor (src/tfhepp_util.cpp:101-115 and 144-152). -/
def DropState.ofStream (s : StreamState l N) : DropState l N :=
  { s := s, dtor := none, future := true, stop := false, exited := false, fileOpen := true, released := false }

/-- undefined behaviour: the process is in no meaningful state any more (src/tfhepp_util.cpp:125-128 and 162-168, which use members through `this`) -/
def DropState.ub (d : DropState l N) : DropState l N := { d with s := { d.s with died := some .ub } }

/-- A step of the thread of the pool: it goes on with the task of `start_loading_next`
(src/tfhepp_util.cpp:125-128 and 162-168), or, with an empty queue, ends when it has been told to stop.  Everything it does
needs the object, and every step of a task the open file. -/
def dropLoader (d : DropState l N) : Option (DropState l N) :=
  if d.s.died.isSome || d.exited then none
  else if d.released then some d.ub
  else match d.s.task with
    | some (_ :: _) =>
      if d.fileOpen then (loaderStep d.s).map fun s => { d with s := s } else some d.ub
    | _ => if d.stop then some { d with exited := true } else none

/-- One effect of the destructor (src/tfhepp_util.hpp:78-115); joining waits for the thread. -/
def DropOp.run : DropOp → DropState l N → Option (DropState l N)
  | .dropFuture, d => some { d with future := false }
  | .stopPool, d => some { d with stop := true }
  | .joinWorker, d => if d.exited then some d else none
  | .closeFile, d => some { d with fileOpen := false }
  | .release, d => some { d with released := true }

/-- A step of the user of the stream (src/tfhepp_util.hpp:78-115): the calls of the script, then the destructor. -/
def dropCaller (kind : StreamKind) (d : DropState l N) : Option (DropState l N) :=
  if d.s.died.isSome then none
  else match d.dtor, d.s.pc, d.s.script with
    | none, [], [] => some { d with dtor := some dropOps }
    | none, _, _ => (callerStep kind d.s).map fun s => { d with s := s }
    | some (op :: ops), _, _ => op.run { d with dtor := some ops }
    | some [], _, _ => none

/-- The scheduler picks either thread (src/tfhepp_util.cpp:99-180). -/
def DropStep (kind : StreamKind) (d e : DropState l N) : Prop := dropLoader d = some e ∨ dropCaller kind d = some e

/-- Executions of `n` steps. (src/tfhepp_util.hpp:78-115) -/
inductive DropExec (kind : StreamKind) : Nat → DropState l N → DropState l N → Prop
  | refl (d) : DropExec kind 0 d d
  | step {n d e f} : DropExec kind n d e → DropStep kind e f → DropExec kind (n + 1) d f

end Homfa
