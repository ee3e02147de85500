import Verif.Model.Serial

/-!
# Ciphertext input streams with a background loader (src/tfhepp_util.cpp:99-180)

`TRGSWLvl1InputStreamFromCtxtFile` and `ReversedTRGSWLvl1InputStreamFromCtxtFile` own a one-thread pool that loads
the next ciphertext into the member `loaded_` while the caller works on the previous one.  The object and the two
threads are a small-step machine: every memory access of the loader (assertion, seek, each `double` read) and of the
caller (assertion, waiting on the future, copying each `double` of `loaded_`, updating the size, enqueuing the next
load) is one step, and the scheduler may take a step of either thread whenever it is enabled.

Simplification: micro-steps interleave on a sequentially consistent memory.
-/

namespace Homfa

/-- The two classes. (src/tfhepp_util.hpp:78-115) -/
inductive StreamKind where
  | forward | reversed
  deriving DecidableEq, Repr

variable {l N : Nat}

/-- Steps of the task run by the loader thread. (src/tfhepp_util.cpp:125-128, 162-168) -/
inductive LoadOp (l N : Nat) where
  /-- `assert(!deser_.is_beg())` -/
  | assertNotBeg
  /-- `deser_.seek(-1, std::ios_base::cur)` -/
  | seekBack
  /-- one `load_double(out[i][j][k])` of `deser_.load(loaded_)` -/
  | load (x : Fin (2 * l) × Fin 2 × Fin N)

/-- The lambda enqueued by `start_loading_next` (src/tfhepp_util.cpp:125-128 and 162-168). -/
def StreamKind.task (l N : Nat) : StreamKind → List (LoadOp l N)
  | .forward => (gswIdx l N).map .load
  | .reversed => [.assertNotBeg, .seekBack] ++ (gswIdx l N).map .load ++ [.seekBack]

/-- Effect of a loader step on the input file and on `loaded_`. (src/tfhepp_util.cpp:125-128, 162-168) -/
def LoadOp.run : LoadOp l N → IStream × Gsw l N → Res (IStream × Gsw l N)
  | .assertNotBeg, (is, c) => do cassert (!deserIsBeg is); pure (is, c)
  | .seekBack, (is, c) => pure (deserSeek l N is (-1) .cur, c)
  | .load x, (is, c) => do
    let (w, is) ← loadDouble is
    pure (is, c.set x w)

/-- Steps of a call of `next()`. (src/tfhepp_util.cpp:131-140, 171-180) -/
inductive CallOp (l N : Nat) where
  /-- `assert(current_size_ > 0)` -/
  | assertNonEmpty
  /-- `running_.get()`: blocks until the task has finished, then invalidates the future -/
  | get
  /-- one `double` of `ret = loaded_` -/
  | copy (x : Fin (2 * l) × Fin 2 × Fin N)
  /-- `current_size_--` -/
  | dec
  /-- `if (current_size_ > 0) start_loading_next()` -/
  | startIfNonEmpty
  /-- `if (!deser_.is_beg()) start_loading_next()` -/
  | startIfNotBeg
  /-- `return ret` -/
  | ret

/-- `next()` (src/tfhepp_util.cpp:131-140 and 171-180). -/
def StreamKind.next (l N : Nat) : StreamKind → List (CallOp l N)
  | .forward => [.assertNonEmpty, .get] ++ (gswIdx l N).map .copy ++ [.dec, .startIfNonEmpty, .ret]
  | .reversed => [.assertNonEmpty, .get] ++ (gswIdx l N).map .copy ++ [.startIfNotBeg, .dec, .ret]

/-- The calls a user makes on the object. (src/tfhepp_util.hpp:62-75) -/
inductive StreamCall where
  | next | size
  deriving DecidableEq, Repr

/-- What the user gets back. (src/tfhepp_util.hpp:62-75) -/
inductive StreamOut (l N : Nat) where
  | ctxt (c : Gsw l N)
  | size (n : Nat)

/-- The object, its loader thread and its caller. (src/tfhepp_util.hpp:78-115) -/
structure StreamState (l N : Nat) where
  /-- `ifs_` / `deser_` -/
  is : IStream
  /-- `loaded_` -/
  loaded : Gsw l N
  /-- `running_` together with the queue of the pool: `none` when the future is invalid, otherwise the steps the task
  has not performed yet (all of them if the thread has not picked it up, none if the future is ready) -/
  task : Option (List (LoadOp l N))
  /-- `current_size_` -/
  size : Nat
  /-- the steps left of the call of `next()` in progress -/
  pc : List (CallOp l N)
  /-- the local variable `ret` of that call -/
  ret : Gsw l N
  /-- the calls the user has still to make -/
  script : List StreamCall
  /-- what the calls have returned so far -/
  out : List (StreamOut l N)
  /-- how the process has died, if it has -/
  died : Option Err

/-- `start_loading_next()` (src/tfhepp_util.cpp:122-129 and 159-169). -/
def startLoading (kind : StreamKind) (s : StreamState l N) : StreamState l N :=
  match s.task with
  | none => { s with task := some (kind.task l N) }
  | some _ => { s with died := some .assertFail }

/-- The constructors (src/tfhepp_util.cpp:101-115 and 144-152), followed by a caller that will make the calls
`script`.  `junk` is the initial content of `loaded_` and of `ret`; `file` is `none` when it cannot be opened, and
then the deserializer's `assert(is)` (src/tfhepp_util.cpp:45) aborts. -/
def openStream (kind : StreamKind) (file : Option (List Byte)) (junk : Gsw l N) (script : List StreamCall) :
    Res (StreamState l N) := do
  let bytes ← (match file with
    | some b => .ok b
    | none => .error .assertFail : Res (List Byte))
  let is := deserSeek l N { bytes := bytes, pos := 0, fail := false } 0 .end_
  let size ← deserTell l N is
  let is := match kind with
    | .forward => deserSeek l N is 0 .beg
    | .reversed => is
  let s : StreamState l N :=
    { is := is, loaded := junk, task := none, size := size, pc := [], ret := junk, script := script, out := [],
      died := none }
  pure (match kind with
    | .forward => if size > 0 then startLoading kind s else s
    | .reversed => if !deserIsBeg is then startLoading kind s else s)

/-- A step of the loader thread, if it has something to do. (src/tfhepp_util.cpp:122-129, 159-169) -/
def loaderStep (s : StreamState l N) : Option (StreamState l N) :=
  match s.died, s.task with
  | none, some (op :: ops) =>
    match op.run (s.is, s.loaded) with
    | .ok (is, c) => some { s with is := is, loaded := c, task := some ops }
    | .error e => some { s with died := some e }
  | _, _ => none

/-- One step of a call of `next()`. (src/tfhepp_util.cpp:131-140, 171-180) -/
def CallOp.run (kind : StreamKind) : CallOp l N → StreamState l N → Option (StreamState l N)
  | .assertNonEmpty, s => some (if s.size > 0 then s else { s with died := some .assertFail })
  | .get, s =>
    match s.task with
    | none => some { s with died := some .ub }
    | some [] => some { s with task := none }
    | some (_ :: _) => none
  | .copy x, s => some { s with ret := s.ret.set x (s.loaded x.1 x.2.1 x.2.2) }
  | .dec, s => some { s with size := s.size - 1 }
  | .startIfNonEmpty, s => some (if s.size > 0 then startLoading kind s else s)
  | .startIfNotBeg, s => some (if !deserIsBeg s.is then startLoading kind s else s)
  | .ret, s => some { s with out := s.out ++ [.ctxt s.ret] }

/-- A step of the caller, if it is not blocked: continue the call in progress or begin the next one. (src/tfhepp_util.cpp:117-140, 154-180) -/
def callerStep (kind : StreamKind) (s : StreamState l N) : Option (StreamState l N) :=
  match s.died, s.pc, s.script with
  | some _, _, _ => none
  | none, op :: pc, _ => op.run kind { s with pc := pc }
  | none, [], .next :: script => some { s with pc := kind.next l N, script := script }
  | none, [], .size :: script => some { s with script := script, out := s.out ++ [.size s.size] }
  | none, [], [] => none

/-- The scheduler picks either thread. (src/tfhepp_util.cpp:117-140, 154-180) -/
def StreamStep (kind : StreamKind) (s t : StreamState l N) : Prop :=
  loaderStep s = some t ∨ callerStep kind s = some t

/-- Executions of `n` steps. (src/tfhepp_util.cpp:117-140, 154-180) -/
inductive StreamExec (kind : StreamKind) : Nat → StreamState l N → StreamState l N → Prop
  | refl (s) : StreamExec kind 0 s s
  | step {n s t u} : StreamExec kind n s t → StreamStep kind t u → StreamExec kind (n + 1) s u

end Homfa
