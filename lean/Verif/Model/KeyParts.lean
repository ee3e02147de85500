import Verif.Model.Calls

/-!
# The parts of the evaluation key

The evaluation key is a set of tables behind pointers.  A function of the library that needs a table follows its pointer, whether or not it is
null.
-/

namespace Homfa

variable {N n l : Nat}

/-- The tables of `EvalKey` that the code puts there (src/tfhepp_util.hpp:131-134). -/
inductive KeyPart where
  /-- `iksk<lvl10param>`: key switching from level 1 to level 0 -/
  | iksk10
  /-- `bkfft<lvl01param>`: bootstrapping from level 0 to level 1 -/
  | bk01
  /-- `bkfft<lvl02param>`: bootstrapping from level 0 to level 2 -/
  | bk02
  /-- `privksk4cb<lvl21param>`: private key switching from level 2 to level 1 -/
  | privksk21
deriving DecidableEq

/-- `BKey` (src/tfhepp_util.hpp:117-144), as far as the presence of its parts goes. -/
structure KeyParts where
  /-- `ekey`: null, or the tables it points to -/
  ekey : Option (List KeyPart)
  /-- `tlwel1_trlwel1_ikskey` is not null -/
  tlwe2trlwe : Bool

/-- `BKey()` (src/tfhepp_util.hpp:122-124) -/
def KeyParts.none : KeyParts := ⟨Option.none, false⟩

/-- `BKey(const SecretKey&)` (src/tfhepp_util.hpp:126-137) -/
def KeyParts.generated : KeyParts := ⟨some [.iksk10, .bk01, .bk02, .privksk21], true⟩

/-- a table is there (src/tfhepp_util.cpp:317-390, which follow the pointers of an `EvalKey`) -/
def KeyParts.has (K : KeyParts) (p : KeyPart) : Bool := (K.ekey.getD []).contains p

/-- The tables a call follows the pointers of: none for a CMUX gate; `getiksk<lvl10param>()` (src/tfhepp_util.cpp:371, src/online_dfa.cpp:357);
`getbkfft<lvl01param>()` (src/tfhepp_util.cpp:340); `tlwel1_trlwel1_ikskey` (src/main.cpp:390); and for circuit bootstrapping with the parameters
`lvl10param`, `lvl02param`, `lvl21param` (src/tfhepp_util.cpp:444-449) the three tables of these names. -/
def KeyParts.serves (K : KeyParts) : OpCall N n l → Bool
  | .cmux .. => true
  | .iks _ => K.has .iksk10
  | .blindRotate .. => K.has .bk01
  | .tlwe2trlwe _ => K.tlwe2trlwe
  | .cb _ => K.has .iksk10 && K.has .bk02 && K.has .privksk21

/-- The result of a program with the library `S` and a key with these parts: following a null pointer is undefined.
(src/tfhepp_util.cpp:317-390, which follow the pointers of an `EvalKey`) -/
def Comp.runWith {α : Type} (S : Scheme N n l) (K : KeyParts) : Comp N n l α → Res α
  | .ret r => r
  | .call c k => if K.serves c then (k (c.answer S)).runWith S K else .error .ub

/-- `do_run_offline` (src/main.cpp:253-285) with this key; the constructor of the runner looks at the pointer to it
(src/backstream_dfa_runner.cpp:23) -/
def doRunOfflineK (K : KeyParts) (spec : List Char) (size : Nat) (cs : List (Gsw l N)) (bootFreq : Nat) (sanitize : Bool) : Comp N n l (TLWE N) := do
  let g ← .ret (Graph.fromIstream spec)
  let g ← .ret g.minimized
  let runner ← .ret (offlineMake g size bootFreq K.ekey.isSome sanitize)
  let _total ← .ret (runner.totalCmux size)
  let runner ← cs.foldlM Backstream.evalC runner
  .ret runner.result

/-- `do_run_reverse` (src/main.cpp:314-366) with this key -/
def doRunReverseK (K : KeyParts) (spec : List Char) (hidden : Nat) (cs : List (Gsw l N)) (outFile outDir : Option String)
    (outFreq bootFreq : Nat) (isSpecReversed sanitize : Bool) : Comp N n l (List (OutFile × TLWE N)) := do
  let _ ← .ret (cassert ((outFile.isSome && !outDir.isSome) || (!outFile.isSome && outDir.isSome)))
  let g ← .ret (Graph.fromIstream spec)
  let runner ← .ret (reverseMake g bootFreq isSpecReversed K.ekey.isSome sanitize)
  let p ← onlineLoopC Backstream.evalC (fun r => do let c ← .ret r.result; pure (c, r)) outDir outFreq cs 0 runner
  let f ← .ret (lastOut outFile outDir hidden)
  let c ← .ret p.2.result
  pure (p.1 ++ [(f, c)])

/-- `do_run_block` (src/main.cpp:436-464) with this key, whose pointer is looked at in line 445 -/
def doRunBlockK (K : KeyParts) (spec : List Char) (cs : List (Gsw l N)) (queueSize : Nat) (sanitize : Bool) : Comp N n l (TLWE N) := do
  let g ← .ret (Graph.fromIstream spec)
  let _ ← .ret (cassert K.ekey.isSome)
  let runner ← .ret (Block.make g queueSize sanitize)
  let runner ← cs.foldlM Block.evalOneC runner
  let c ← runner.resultC
  pure c.1

/-- `do_run_flut` (src/main.cpp:368-434) with this key, whose two pointers are looked at in line 382 -/
def doRunFlutK (K : KeyParts) (spec : List Char) (hidden : Nat) (cs : List (Gsw l N)) (outFile outDir : Option String)
    (outFreq queueSize bootFreq : Nat) (maxSecond : Option Nat) (sanitize : Bool) : Comp N n l (List (OutFile × TLWE N)) := do
  let g ← .ret (Graph.fromIstream spec)
  let _ ← .ret (cassert (K.ekey.isSome && K.tlwe2trlwe))
  let runner ← .ret (Flut.make g (maxSecond.getD 8) queueSize bootFreq sanitize)
  if outDir.isSome ∧ queueSize = 0 then .ret (.error .ub)
  else do
    let p ← onlineLoopC Flut.evalOneC Flut.resultC outDir outFreq cs 0 runner
    let f ← .ret (lastOut outFile outDir hidden)
    let c ← p.2.resultC
    pure (p.1 ++ [(f, c.1)])

end Homfa
