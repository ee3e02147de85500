import Verif.Model.Commands

/-!
# The benchmark program (src/benchmark.cpp)

Simplifications: the `config-...` lines and all lines with elapsed times (`enc`, `run`, `dec`, `skey`, `bkey`, `init`, the dump of the
timers) are not modelled; the order of the others is.
-/

namespace Homfa

variable {N n l : Nat}

/-- A line printed by the benchmark program: `print(key, value)`, src/benchmark.cpp:25-29. -/
inductive BenchLine where
  | state (q : Nat)
  | result (b : Bool)
  | numLive (k : Nat)
  | firstLut (k : Nat)
  | secondLut (k : Nat)
  deriving DecidableEq, Repr

/-- The results among the lines, in order. (src/benchmark.cpp:59) -/
def benchResults (out : List BenchLine) : List Bool := out.filterMap fun
  | .result b => some b
  | _ => none

/-- The members of the three online bench runners (src/benchmark.cpp:101-105, 144-148, 189-193) with the lines printed so far.  Their constructors and the
functions that return members are src/benchmark.cpp:107-126, 138-142, 150-168, 183-187, 195-215, 228-232.
`numProcessed` also selects the randomness of the next encryption. -/
structure BenchSt (ρ : Type) where
  runner : ρ
  numProcessed : Nat
  out : List BenchLine

/-- One turn of `enc_run_dec_loop` (src/benchmark.cpp:42-61) with the `run` of the three online bench runners (src/benchmark.cpp:128-136,
170-181, 217-226); `info` are the lines `run` prints first.  An output frequency of 0 divides by zero. -/
def benchTurn {ρ : Type} (S : Scheme N n l) (rand : Nat → Nat) (evalOne : ρ → Gsw l N → Res ρ) (result : ρ → Res (TLWE N × ρ))
    (info : ρ → List BenchLine) (freq : Nat) (s : BenchSt ρ) (input : Bool) : Res (BenchSt ρ) := do
  let c := S.encrypt (rand s.numProcessed) input
  let r ← evalOne s.runner c
  let k := s.numProcessed + 1
  if freq = 0 then throw .ub
  if k % freq ≠ 0 then pure { runner := r, numProcessed := k, out := s.out ++ info s.runner }
  else do
    let p ← result r
    pure { runner := p.2, numProcessed := k, out := s.out ++ info s.runner ++ [.result (decryptBit p.1 S.sk)] }

/-- `enc_run_dec_loop` (src/benchmark.cpp:38-62). -/
def benchLoop {ρ : Type} (S : Scheme N n l) (rand : Nat → Nat) (evalOne : ρ → Gsw l N → Res ρ) (result : ρ → Res (TLWE N × ρ))
    (info : ρ → List BenchLine) (freq : Nat) (input : Option (List Byte)) (ap : Nat) (r : ρ) : Res (List BenchLine) := do
  let s ← eachInputBit input ap (benchTurn S rand evalOne result info freq) { runner := r, numProcessed := 0, out := [] }
  pure s.out

/-- The counting pass over the input file (src/benchmark.cpp:246-248, 354-356, 398-400, 437-439). -/
def benchInputSize (input : Option (List Byte)) (ap : Nat) : Res Nat :=
  eachInputBit input ap (fun s _ => .ok (s + 1)) 0

/-- The second callback of `do_plain` (src/benchmark.cpp:252-262). -/
def benchPlainTurn (gr : Graph) (freq : Nat) (s : Nat × Nat × List BenchLine) (b : Bool) : Res (Nat × Nat × List BenchLine) := do
  let cur ← gr.nextState s.1 b
  let out := s.2.2 ++ [.state cur]
  let i := s.2.1 + 1
  if freq = 0 then throw .ub
  if i % freq = 0 then do
    let f ← gr.isFinalState cur
    pure (cur, i, out ++ [.result f])
  else pure (cur, i, out)

/-- `do_plain` (src/benchmark.cpp:234-263). -/
def benchPlain (spec : List Char) (input : Option (List Byte)) (freq ap : Nat) : Res (List BenchLine) := do
  let gr ← Graph.fromIstream spec
  let _ ← benchInputSize input ap
  let s ← eachInputBit input ap (benchPlainTurn gr freq) (gr.initialState, 0, [])
  pure s.2.2

/-- `OfflineBenchRunner::run` (src/benchmark.cpp:86-93) on `(runner_, result_, remaining_input_size_)`, the members of the class (src/benchmark.cpp:64-84, 95-99). -/
def benchOfflineRun (S : Scheme N n l) (s : Backstream N × TLWE N × Nat) (c : Gsw l N) : Res (Backstream N × TLWE N × Nat) := do
  let r ← s.1.eval S c
  let rem := s.2.2 - 1
  if rem = 0 then do
    let res ← r.result
    pure (r, res, rem)
  else pure (r, s.2.1, rem)

/-- `do_offline` (src/benchmark.cpp:265-319): the value printed as `result`.  The graph is not minimized.  `result_` is
value-initialised, i.e. all zero. -/
def benchOffline (S : Scheme N n l) (rand : Nat → Nat) (spec : List Char) (input : Option (List Byte)) (boot ap : Nat)
    (sanitize : Bool) : Res Bool := do
  let bits ← eachInputBit input ap (fun (s : List Bool) b => .ok (s ++ [b])) []
  let gr ← Graph.fromIstream spec
  let runner ← offlineMake gr bits.length boot true sanitize
  let s ← (bits.reverse.zipIdx).foldlM (fun s (p : Bool × Nat) => benchOfflineRun S s (S.encrypt (rand p.2) p.1))
    (runner, (⟨fun _ => 0, 0⟩ : TLWE N), bits.length)
  pure (decryptBit s.2.1 S.sk)

/-- `do_reversed` (src/benchmark.cpp:321-360). -/
def benchReversed (S : Scheme N n l) (rand : Nat → Nat) (spec : List Char) (input : Option (List Byte)) (freq boot ap : Nat)
    (isSpecReversed sanitize : Bool) : Res (List BenchLine) := do
  let gr ← Graph.fromIstream spec
  let runner ← reverseMake gr boot isSpecReversed true sanitize
  let _ ← benchInputSize input ap
  benchLoop S rand (fun r c => Backstream.eval S r c) (fun r => do let c ← r.result; pure (c, r)) (fun _ => []) freq input ap runner

/-- `do_qtrlwe2` (src/benchmark.cpp:362-403). -/
def benchFlut (S : Scheme N n l) (rand : Nat → Nat) (spec : List Char) (input : Option (List Byte)) (freq maxSecond queueSize boot ap : Nat)
    (sanitize : Bool) : Res (List BenchLine) := do
  let gr ← Graph.fromIstream spec
  let runner ← Flut.make gr maxSecond queueSize boot sanitize
  let _ ← benchInputSize input ap
  benchLoop S rand (fun r c => Flut.evalOne S r c) (fun r => Flut.result S r)
    (fun r => [.numLive r.live.length, .firstLut r.first, .secondLut r.second]) freq input ap runner

/-- `do_bbs` (src/benchmark.cpp:405-443). -/
def benchBlock (S : Scheme N n l) (rand : Nat → Nat) (spec : List Char) (input : Option (List Byte)) (freq queueSize ap : Nat)
    (sanitize : Bool) : Res (List BenchLine) := do
  let gr ← Graph.fromIstream spec
  let runner ← Block.make gr queueSize sanitize
  let _ ← benchInputSize input ap
  benchLoop S rand (fun r c => Block.evalOne S r c) (fun r => Block.result S r) (fun r => [.numLive r.live.length]) freq input ap runner

end Homfa
