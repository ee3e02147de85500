import Verif.Model.Cpp

/-!
# Parallel loops

`std::for_each(std::execution::par, ...)` and `tbb::parallel_for` run the loop bodies as tasks whose memory accesses may
interleave in any way.  A task is a `Prog`: the sequence of its accesses to the vectors that the loop writes to (and
to the vectors of the same element type that it reads).  The runners use `parFor`, which runs the tasks one after the
other; `ParStep` is the interleaving semantics, and C35 proves that every interleaving gives the result of `parFor`.

Simplification: one access to an element (a whole ciphertext) is atomic.  Since C35 shows that no two tasks ever touch the
same element unless both only read it, splitting the accesses further would not be observable.
-/

namespace Homfa

/-- The vectors a loop works on.  All have the same element type.
(the loops of src/online_dfa.cpp:206, 234, 298, 320, 345, 482, 515-519 and src/backstream_dfa_runner.cpp:60, 86) -/
abbrev Mem (α : Type) := List (List α)

/-- A task of a parallel loop. (the loops of src/online_dfa.cpp:206, 234, 298, 320, 345, 482, 515-519 and src/backstream_dfa_runner.cpp:60, 86) -/
inductive Prog (α : Type) where
  | ret
  | fail (e : Err)
  /-- `x = v.at(i); ...` -/
  | read (v i : Nat) (k : α → Prog α)
  /-- `v.at(i) = x; ...` -/
  | write (v i : Nat) (x : α) (k : Prog α)

/-- a computation without access to the loop's vectors
(the loops of src/online_dfa.cpp:206, 234, 298, 320, 345, 482, 515-519 and src/backstream_dfa_runner.cpp:60, 86) -/
def Prog.local {α β : Type} (r : Res β) (k : β → Prog α) : Prog α :=
  match r with
  | .ok x => k x
  | .error e => .fail e

/-- `m.v.at(i)` (the loops of src/online_dfa.cpp:206, 234, 298, 320, 345, 482, 515-519 and src/backstream_dfa_runner.cpp:60, 86) -/
def mread {α : Type} (m : Mem α) (v i : Nat) : Res α :=
  match m[v]? with
  | some vec => vat vec i
  | none => .error .ub

/-- `m.v.at(i) = x` (the loops of src/online_dfa.cpp:206, 234, 298, 320, 345, 482, 515-519 and src/backstream_dfa_runner.cpp:60, 86) -/
def mwrite {α : Type} (m : Mem α) (v i : Nat) (x : α) : Res (Mem α) :=
  match m[v]? with
  | some vec => do
    let vec ← vset vec i x
    pure (m.set v vec)
  | none => .error .ub

/-- run one task alone (the loops of src/online_dfa.cpp:206, 234, 298, 320, 345, 482, 515-519 and src/backstream_dfa_runner.cpp:60, 86) -/
def Prog.run {α : Type} : Prog α → Mem α → Res (Mem α)
  | .ret, m => .ok m
  | .fail e, _ => .error e
  | .read v i k, m => do
    let x ← mread m v i
    (k x).run m
  | .write v i x k, m => do
    let m ← mwrite m v i x
    k.run m

/-- run the tasks one after the other
(the loops of src/online_dfa.cpp:206, 234, 298, 320, 345, 482, 515-519 and src/backstream_dfa_runner.cpp:60, 86) -/
def parFor {α : Type} (tasks : List (Prog α)) (m : Mem α) : Res (Mem α) :=
  tasks.foldlM (fun m p => p.run m) m

/-- One access of one task. (the loops of src/online_dfa.cpp:206, 234, 298, 320, 345, 482, 515-519 and src/backstream_dfa_runner.cpp:60, 86) -/
inductive TaskStep {α : Type} : Prog α → Mem α → Prog α → Mem α → Prop
  | read {m v i x k} : mread m v i = .ok x → TaskStep (.read v i k) m (k x) m
  | write {m m' v i x k} : mwrite m v i x = .ok m' → TaskStep (.write v i x k) m k m'

/-- One access of any task of the loop.
(the loops of src/online_dfa.cpp:206, 234, 298, 320, 345, 482, 515-519 and src/backstream_dfa_runner.cpp:60, 86) -/
inductive ParStep {α : Type} : List (Prog α) → Mem α → List (Prog α) → Mem α → Prop
  | step {l r p p' m m'} : TaskStep p m p' m' → ParStep (l ++ p :: r) m (l ++ p' :: r) m'

/-- Any number of accesses, in any order.
(the loops of src/online_dfa.cpp:206, 234, 298, 320, 345, 482, 515-519 and src/backstream_dfa_runner.cpp:60, 86) -/
inductive ParExec {α : Type} : List (Prog α) → Mem α → List (Prog α) → Mem α → Prop
  | refl {ts m} : ParExec ts m ts m
  | tail {ts m us n vs k} : ParExec ts m us n → ParStep us n vs k → ParExec ts m vs k

/-- The loop is over: every task has returned.
(the loops of src/online_dfa.cpp:206, 234, 298, 320, 345, 482, 515-519 and src/backstream_dfa_runner.cpp:60, 86) -/
def Done {α : Type} (ts : List (Prog α)) : Prop := ∀ p ∈ ts, p = Prog.ret

/-- A task is about to throw. (the loops of src/online_dfa.cpp:206, 234, 298, 320, 345, 482, 515-519 and src/backstream_dfa_runner.cpp:60, 86) -/
def Throws {α : Type} (ts : List (Prog α)) (m : Mem α) : Prop :=
  ∃ p ∈ ts, (∃ e, p = Prog.fail e) ∨ (∃ v i k, p = Prog.read v i k ∧ ∀ x, mread m v i ≠ .ok x) ∨
    (∃ v i x k, p = Prog.write v i x k ∧ ∀ m', mwrite m v i x ≠ .ok m')

end Homfa
