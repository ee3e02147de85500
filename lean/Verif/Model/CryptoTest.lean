import Verif.Model.PlainTest
import Verif.Model.Runners
import Verif.Model.Flut
/-!
# Model of the repository's random test of the runners (src/test_crypto_random.cpp)

The test is off by default and does not compile at this commit (it uses `bkey.gkey` and a third argument of `ltl_to_monitor`); it is modelled from its text.
The formula is given by its monitor, as in `Verif.Model.PlainTest`; the two calls of `ltl_to_monitor` give the same one.  The dots and numbers written to standard
error and the archive with the keys are left out.
-/

namespace Homfa
namespace CryptoTest
open PlainTest

variable {N n l : Nat}

/-- `TestInputStream`, src/test_crypto_random.cpp:19-42: what its `next()` gives, one after the other. -/
def testStream (spec : List Bool) (c0 c1 : Gsw l N) : List (Gsw l N) := spec.map fun b => if b then c1 else c0

/-- `ReversedTestInputStream`, src/test_crypto_random.cpp:44-68. -/
def reversedTestStream (spec : List Bool) (c0 c1 : Gsw l N) : List (Gsw l N) := spec.reverse.map fun b => if b then c1 else c0

/-- `create_table_to_permutate_input_bits`, src/test_crypto_random.cpp:173-202.  `apVars` are the variables of `aut->ap_vars()` from the root of this diagram to
its leaf. -/
def permTable (aut : Monitor) (apVars : List Nat) (numAp : Nat) : Res (List Nat) := do
  let var2idx := Ltl.var2idx aut.varOf numAp
  let inIdx := apVars.filterMap fun v => var2idx.lookup v
  let inIdx := inIdx ++ List.replicate (numAp - inIdx.length) 0
  cassert (inIdx.length == numAp)
  pure inIdx

/-- `permutate_input_bits`, src/test_crypto_random.cpp:204-217; a division by 0 is undefined. -/
def permutate (tbl : List Nat) (src : List Bool) : Res (List Bool) :=
  if tbl.length = 0 then .error .ub
  else (List.range (src.length / tbl.length)).foldlM (fun acc i =>
    tbl.foldlM (fun acc j => do
      let b ← vat src (i * tbl.length + j)
      pure (acc ++ [b])) acc) []

/-- `METHOD`, src/test_crypto_random.cpp:231-235 -/
inductive Method where
  | offline
  | reversed
  | qtrlwe2
  deriving DecidableEq

/-- The runs of the three methods, src/test_crypto_random.cpp:278-290, 296-303, 309-318: what is decrypted. -/
def got (S : Scheme N n l) (m : Method) (gr : Graph) (inp : List Bool) (c0 c1 : Gsw l N) : Res Bool :=
  match m with
  | .offline => do
    let runner ← offlineMake gr inp.length 30000 true false
    let runner ← runner.evalAll S (reversedTestStream inp c0 c1)
    let c ← runner.result
    pure (decryptBit c S.sk)
  | .reversed => do
    let runner ← reverseMake gr 30000 false true false
    let runner ← runner.evalAll S (testStream inp c0 c1)
    let c ← runner.result
    pure (decryptBit c S.sk)
  | .qtrlwe2 => do
    let runner ← Flut.make gr 8 15 1 false
    let runner ← (testStream inp c0 c1).foldlM (fun r c => Flut.evalOne S r c) runner
    let c ← Flut.result S runner
    pure (decryptBit c.1 S.sk)

/-- One turn of the loop over the inputs, src/test_crypto_random.cpp:270-324. -/
def testInput (S : Scheme N n l) (m : Method) (aut : Monitor) (gr : Graph) (tbl : List Nat) (numAp : Nat) (c0 c1 : Gsw l N) (inSrc : List Bool) : Res Unit := do
  let inp ← permutate tbl inSrc
  let expected ← checkMonitor aut inSrc numAp
  let g ← got S m gr inp c0 c1
  if expected ≠ g then .error .die else pure ()

/-- The body of the loop over the formulas, src/test_crypto_random.cpp:257-328, with `10 + randBvec.length` tests. -/
def testFormula (S : Scheme N n l) (m : Method) (aut : Monitor) (apVars : List Nat) (numAp : Nat) (c0 c1 : Gsw l N) (randBvec : List (List Bool)) : Res Unit := do
  let gr ← Graph.fromMonitor aut numAp false
  let gr ← gr.minimized
  let gr ← gr.reserveStatesAtDepth 10000
  let tbl ← permTable aut apVars numAp
  (List.range (10 + randBvec.length)).forM fun i => do
    let inSrc ← (if i < 10 then int2bvec (i + 1) numAp else vat randBvec (i - 10) : Res (List Bool))
    testInput S m aut gr tbl numAp c0 c1 inSrc

/-- `test_from_ltl_formula`, src/test_crypto_random.cpp:237-330, for the formulas with these monitors; `r0` and `r1` are the randomness of the two encryptions,
`rand` the lengths and bits drawn by the generator. -/
def testAll (S : Scheme N n l) (m : Method) (numAp : Nat) (r0 r1 : Nat) (rand : List (Nat × (Nat → Bool))) (auts : List (Monitor × List Nat)) : Res Unit := do
  let c0 := S.encrypt r0 false
  let c1 := S.encrypt r1 true
  let randBvec ← rand.mapM fun r => randomBvec r.1 r.2 numAp
  auts.forM fun a => testFormula S m a.1 a.2 numAp c0 c1 randBvec

end CryptoTest
end Homfa
