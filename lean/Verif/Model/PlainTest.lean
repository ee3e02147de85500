import Verif.Model.Ltl
import Verif.Model.Minimize
/-!
# Model of the repository's random test of the automata (src/test_plain_random.cpp)

The formula is given by its monitor (`ltl_to_monitor`, Spot), as in `Verif.Model.Ltl`.  The deterministic monitor of line 149 is only used for the sizes
in the log (lines 151-176), which are left out.  src/test_crypto_random.cpp:81-162 has the same helper functions.
-/

namespace Homfa
namespace PlainTest

/-- `check_if_accept(graph, src)`, src/test_plain_random.cpp:29-35. -/
def checkGraph (g : Graph) (src : List Bool) : Res Bool := do
  let q ← src.foldlM (fun q b => g.nextState q b) g.initialState
  g.isFinalState q

/-- Following a condition with the bits from `offset` on, src/test_plain_random.cpp:63-69: the constant reached. -/
def condHolds (v2i : List (Nat × Nat)) (src : List Bool) (offset : Nat) : Bdd → Res Bool
  | .ff => .ok false
  | .tt => .ok true
  | .node v lo hi => do
    let i ← mapAt v2i v
    let b ← vat src (offset + i)
    if b then condHolds v2i src offset hi else condHolds v2i src offset lo

/-- `next_qs` after the loops of src/test_plain_random.cpp:58-73.  `aut->out(q)` of a number that is no state is undefined. -/
def nextQs (aut : Monitor) (v2i : List (Nat × Nat)) (src : List Bool) (offset : Nat) (qs : List Nat) : Res (List Nat) :=
  qs.foldlM (fun acc q =>
    match aut.out[q]? with
    | none => .error .ub
    | some es => es.foldlM (fun acc (e : Bdd × Nat) => do
        let b ← condHolds v2i src offset e.1
        pure (if b then sinsert e.2 acc else acc)) acc) []

/-- The loop of src/test_plain_random.cpp:57-77 from turn `i`, with the given number of turns left, and lines 79-82: every state of a monitor
is accepting (`state_is_accepting`, its acceptance condition is `t`). -/
def walk (aut : Monitor) (v2i : List (Nat × Nat)) (n : Nat) (src : List Bool) : Nat → Nat → List Nat → Res Bool
  | 0, _, qs => .ok !qs.isEmpty
  | k + 1, i, qs => do
    let next ← nextQs aut v2i src (i * n) qs
    if next.isEmpty then pure false else walk aut v2i n src k (i + 1) next

/-- `check_if_accept(aut, src, input_kind_size)`, src/test_plain_random.cpp:38-83; a division by 0 is undefined. -/
def checkMonitor (aut : Monitor) (src : List Bool) (n : Nat) : Res Bool :=
  if n = 0 then .error .ub
  else walk aut (Ltl.var2idx aut.varOf n) n src (src.length / n) 0 [aut.init]

/-- `int2bvec(i, multiple)`, src/test_plain_random.cpp:85-94, for `i` small enough for `log2` to be exact (the test uses 1, ..., 100). -/
def int2bvec (i multiple : Nat) : Res (List Bool) :=
  if multiple = 0 then .error .ub
  else do
    let size ← whileM (fun size : Nat => decide (size % multiple ≠ 0)) (fun size => .ok (size + 1)) multiple (Nat.log2 i + 1)
    (List.range size).mapM fun b => do
      let m ← shlInt64 b
      pure (decide (BitVec.ofNat 64 i &&& m ≠ 0#64))

/-- `random_bvec`, src/test_plain_random.cpp:96-109, for the length `length` and the bits `bit` drawn by the generator. -/
def randomBvec (length : Nat) (bit : Nat → Bool) (multiple : Nat) : Res (List Bool) :=
  if multiple = 0 then .error .ub
  else .ok ((List.range (length + (multiple - length % multiple))).map bit)

/-- One of the comparisons of src/test_plain_random.cpp:185-220. -/
def compareGr (expected : Bool) (g : Graph) (src : List Bool) : Res Unit := do
  let got ← checkGraph g src
  if expected ≠ got then .error .die else pure ()

/-- A comparison under `if (mgr)`. (src/test_plain_random.cpp:191) -/
def compareOpt (expected : Bool) (g : Option Graph) (src : List Bool) : Res Unit :=
  match g with
  | none => pure ()
  | some g => compareGr expected g src

/-- `if (gr.size() < 10000) mgr.emplace(gr.minimized())`, src/test_plain_random.cpp:141-146. -/
def minimizedOpt (g : Graph) : Res (Option Graph) :=
  if g.size < 10000 then do
    let m ← g.minimized
    pure (some m)
  else pure none

/-- The body of the loop over the formulas, src/test_plain_random.cpp:137-221, for the monitor of the formula; `rand` are the lengths and bits drawn for
`rand_bvec` (lines 124-129): the test has 100 inputs from `int2bvec` and as many random ones as `rand` has. -/
def testFormula (aut : Monitor) (n : Nat) (rand : List (Nat × (Nat → Bool))) : Res Unit := do
  let randBvec ← rand.mapM fun r => randomBvec r.1 r.2 n
  let gr ← Graph.fromMonitor aut n false
  let rgr ← gr.reversed
  let rgr2 ← Graph.fromMonitorReversed aut n false
  let mgr ← minimizedOpt gr
  let mrgr ← minimizedOpt rgr
  let mrgr2 ← minimizedOpt rgr2
  (List.range (100 + rand.length)).forM fun i => do
    let inp ← (if i < 100 then int2bvec (i + 1) n else vat randBvec (i - 100) : Res (List Bool))
    let expected ← checkMonitor aut inp n
    compareGr expected gr inp
    compareOpt expected mgr inp
    compareGr expected rgr inp.reverse
    compareOpt expected mrgr inp.reverse
    compareGr expected rgr2 inp.reverse
    compareOpt expected mrgr2 inp.reverse

end PlainTest
end Homfa
