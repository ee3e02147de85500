import Verif.Model.Counter
import Verif.Model.Text

/-!
# The dumps of the BTT runners and the test program of src/counter.cpp
-/

namespace Homfa

variable {N n l : Nat}

/-- `for (i < k) if (poly[f(i)]) v |= (1 << i);`; `bit i` is `poly[f(i)]`. (src/counter.cpp:357-364) -/
def orBits (bit : Nat → Res Bool) (k : Nat) : Res Nat :=
  (List.range k).foldlM (fun v i => do
    let b ← bit i
    if b then do
      let m ← shl1Int i
      pure (v ||| m)
    else pure v) 0

/-- `Weight::decrypt` (src/counter.cpp:349-371): accept bit, state number, counter info, counters.  The two numbers are `uint64_t`; a set bit 31
sets all the bits above it too (the `int` is negative), a set bit above that is an undefined shift. -/
def Weight.decrypt (w : Weight N) (sk : SecretKey N n) : Res (Bool × Nat × Nat × List (BitVec 64)) := do
  let accept ← trlweSymDecryptAt w.general sk 0
  let stateNo ← orBits (fun i => trlweSymDecryptAt w.general sk (i + 1)) 64
  let info ← orBits (fun i => trlweSymDecryptAt w.general sk (N / 2 + i)) w.counter.length
  let counter ← w.counter.mapM (fun c => c.decrypt sk)
  pure (accept, stateNo, info, counter)

/-- `os << b` for a `bool` (src/counter.cpp:709) -/
def showBool (b : Bool) : List Char := if b then ['1'] else ['0']

/-- The loop that prints the counters (src/counter.cpp:503-504, 649-650). -/
def dumpCounters (vs : List Nat) : List Char :=
  (vs.zipIdx.map fun (v, i) => "cnt".toList ++ showNat i ++ ": ".toList ++ showNat v ++ ['\n']).flatten

/-- `BTTRunner::dump` (src/counter.cpp:497-505).  It looks at the state only: inputs that are queued are not counted. -/
def BttRunner.dump (r : BttRunner N l) (sk : SecretKey N n) : Res (List Char) := do
  let (accept, stateNo, info, counter) ← r.state.decrypt sk
  let q ← vat r.live stateNo
  pure ("acc:  ".toList ++ showBool accept ++ ['\n'] ++ "st#:  ".toList ++ showNat q ++ ['\n'] ++
    "info: ".toList ++ showNat info ++ ['\n'] ++ dumpCounters (counter.map (·.toNat)))

/-- `BTTPlaintextRunner::dump` (src/counter.cpp:645-651). -/
def BttPlain.dump (p : BttPlain) : List Char :=
  "acc:  ".toList ++ showBool p.accept ++ ['\n'] ++ "st#:  ".toList ++ showNat p.cur ++ ['\n'] ++ dumpCounters p.counter

/-! ## `test` and `main` (src/counter.cpp:653-774)

`test` runs five tests in parallel.  Each feeds random bits to both runners and compares their results after every bit.  The tests share the
atomic flag `should_abort`; `error_message` has one entry per test, read after all tests have returned.  The BTT, the number of tests and
the number of inputs are parameters here; in the code they are constants.  Not modelled: the test numbers printed to standard error at
the start. The key files that `main` reads or writes are in Verif.Model.CounterKeys. -/

/-- The variables of one test (src/counter.cpp:690-694, `i` in 695).  `sent` is not a variable of the program: the ciphertexts given to the runner so far, with the orders
of the parallel reductions. -/
structure CTest (N l : Nat) where
  done : Nat
  plain : BttPlain
  enc : BttRunner N l
  history : List Bool
  sent : List (Gsw l N × (Nat → RedTree))

/-- The error text (src/counter.cpp:705-714). -/
def ctestMessage (history : List Bool) (result : Bool) (dump : List Char) (expected : Bool) (pdump : List Char) : List Char :=
  "======= TEST ERROR =======\n".toList ++
    (history.zipIdx.map fun (x, i) => "Input ".toList ++ showNat i ++ ":\t".toList ++ showBool x ++ ['\n']).flatten ++
    "\nRunner result:\t".toList ++ showBool result ++ ['\n'] ++ dump ++
    "\nPRunner result:\t".toList ++ showBool expected ++ ['\n'] ++ pdump ++ "==========================\n".toList

/-- One pass through the body of the loop after `should_abort` was read (src/counter.cpp:698-716): the random bit is `x`, `rnd` is the randomness of
its encryption, `trees` and `trees'` are the orders of the reductions.  The text is that of an error message, if there is one. -/
def CTest.body (S : GateScheme N n l) (s : CTest N l) (x : Bool) (rnd : Nat) (trees trees' : Nat → RedTree) :
    Res (CTest N l × Option (List Char)) := do
  let history := s.history ++ [x]
  let c := S.encrypt rnd x
  let enc ← s.enc.evalOne S c trees
  let (t, enc) ← enc.result S trees'
  let result := tlweSymDecrypt t S.sk
  let plain ← s.plain.evalOne x
  let s' : CTest N l := { done := s.done + 1, plain := plain, enc := enc, history := history, sent := s.sent ++ [(c, trees)] }
  if result != plain.accept then do
    let d ← enc.dump S.sk
    pure (s', some (ctestMessage history result d plain.accept plain.dump))
  else pure (s', none)

/-- Where a test is: in its loop; after writing its error message and before storing the flag; returned, with its entry of `error_message`. -/
inductive CTask (N l : Nat) where
  | loop (s : CTest N l)
  | failed (s : CTest N l) (msg : List Char)
  | returned (s : CTest N l) (msg : List Char)

/-- the variables of a test -/
def CTask.test : CTask N l → CTest N l
  | .loop s => s
  | .failed s _ => s
  | .returned s _ => s

/-- One step of one test (src/counter.cpp:695-719); the flag is `should_abort`.  The pass through the loop happens when the flag is read: all else in it is
local to the test.  The orders of the reductions use every operand once. -/
inductive CStep (S : GateScheme N n l) (b : Btt) (len : Nat) : CTask N l → Bool → CTask N l → Bool → Prop
  | finish {s f} : s.done = len → CStep S b len (.loop s) f (.returned s []) f
  | abort {s} : s.done < len → CStep S b len (.loop s) true (.returned s []) true
  | agree {s s' x rnd t t'} : s.done < len → (∀ (i : Nat) (c : Nat × BitVec 64), b.counters[i]? = some c → (t i).leaves.Perm (List.range (c.1 + 1))) →
      s.body S x rnd t t' = .ok (s', none) → CStep S b len (.loop s) false (.loop s') false
  | differ {s s' x rnd t t' msg} : s.done < len →
      (∀ (i : Nat) (c : Nat × BitVec 64), b.counters[i]? = some c → (t i).leaves.Perm (List.range (c.1 + 1))) →
      s.body S x rnd t t' = .ok (s', some msg) → CStep S b len (.loop s) false (.failed s' msg) false
  | store {s msg f} : CStep S b len (.failed s msg) f (.returned s msg) true

/-- An exception, a failed assertion or undefined behaviour in one test ends the program. -/
def CCrash (S : GateScheme N n l) (b : Btt) (len : Nat) (ts : List (CTask N l)) (f : Bool) : Prop :=
  ∃ s x rnd t t' e, .loop s ∈ ts ∧ f = false ∧ s.done < len ∧
    (∀ (i : Nat) (c : Nat × BitVec 64), b.counters[i]? = some c → (t i).leaves.Perm (List.range (c.1 + 1))) ∧ s.body S x rnd t t' = .error e

/-- Any number of steps of the tests, in any order. -/
inductive CExec (S : GateScheme N n l) (b : Btt) (len : Nat) : List (CTask N l) → Bool → List (CTask N l) → Bool → Prop
  | refl {ts f} : CExec S b len ts f ts f
  | tail {ts f pre p suf f' p' f''} : CExec S b len ts f (pre ++ p :: suf) f' → CStep S b len p f' p' f'' →
      CExec S b len ts f (pre ++ p' :: suf) f''

/-- The start of the tests (src/counter.cpp:685-694): `k` tests with new runners of queue size 1. -/
def counterTestStart (b : Btt) (k : Nat) : Res (List (CTask N l)) := do
  let enc ← BttRunner.make b 1
  pure (List.replicate k (.loop { done := 0, plain := BttPlain.make b, enc := enc, history := [], sent := [] }))

/-- All tests have returned. -/
def CDone (ts : List (CTask N l)) : Prop := ∀ t ∈ ts, ∃ s msg, t = .returned s msg

/-- What is printed about test `i` (src/counter.cpp:722-725). -/
def CTask.report : CTask N l → Nat → List Char
  | .returned _ msg, i => if msg.isEmpty then [] else "TEST ".toList ++ showNat i ++ ['\n'] ++ msg ++ ['\n']
  | _, _ => []

/-- The end of `test` and of `main` (src/counter.cpp:720-727, 773): what is printed to standard error, and the exit status. -/
def counterTestEnd (ts : List (CTask N l)) (f : Bool) : List Char × Nat :=
  (if f then (ts.zipIdx.map fun p => p.1.report p.2).flatten else [], 0)

end Homfa
