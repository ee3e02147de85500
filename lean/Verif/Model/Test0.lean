import Verif.Model.Shell

/-!
# The unit test program (src/test0.cpp)

Simplifications: writing the file `_test_in` succeeds; the answers of an input stream are compared with the expected ones after the last call, in
the program each right after its call (src/test0.cpp:407-427).
-/

namespace Homfa.Cli

variable {N n l : Nat}

/-- `expected_dump` (src/test0.cpp:18-24): three items a line -/
def expectedDump : List String → Res (List Char)
  | [] => .ok []
  | a :: b :: c :: rest => do
    let t ← expectedDump rest
    pure (a.toList ++ ['\t'] ++ b.toList ++ ['\t'] ++ c.toList ++ ['\n'] ++ t)
  | _ => .error .outOfRange

/-- what a test does with the automaton before it is printed -/
inductive GraphOp where
  | asIs | reversed | minimized | negated

/-- `gr`, `gr.reversed()` (src/test0.cpp:125), `gr.minimized()` (src/test0.cpp:162), `gr.negated()` (src/test0.cpp:278) -/
def GraphOp.run : GraphOp → Graph → Res Graph
  | .asIs, g => .ok g
  | .reversed, g => g.reversed
  | .minimized, g => g.minimized
  | .negated, g => g.negated

/-- A block of one of the tests of automata: the spec file or formula and what has to be printed. -/
inductive DumpCheck where
  | spec (file : String) (op : GraphOp) (expect : List String)
  | formula (fml : String) (ap : Nat) (expect : List String)

/-- The automaton of a block: `Graph::from_file` (src/graph.cpp:196-201) and `Graph::from_ltl_formula` (src/graph.cpp:313-319). -/
def DumpCheck.graph (L : Lib N n l) (fs : Files) : DumpCheck → Res Graph
  | .spec f op _ => do
    let t ← readSpec (fs f)
    let g ← Graph.fromIstream t
    op.run g
  | .formula fml ap _ => do
    let m ← L.monitor fml ap
    Graph.fromMonitor m ap false

/-- (src/test0.cpp:18-24) -/
def DumpCheck.expect : DumpCheck → List String
  | .spec _ _ e => e
  | .formula _ _ e => e

/-- One block, e.g. src/test0.cpp:28-37: the automaton is built and printed, the text is compared. -/
def DumpCheck.run (L : Lib N n l) (fs : Files) (c : DumpCheck) : Res Unit := do
  let g ← c.graph L fs
  let d ← g.dump
  let e ← expectedDump c.expect
  cassert (d == e)

/-- is the `double` with these bits a NaN? (src/test0.cpp:387, 411) -/
def isNaN (w : BitVec 64) : Bool := decide (0x7ff0000000000000#64 < w &&& 0x7fffffffffffffff#64)

/-- `==` on `double`: false for a NaN, and the two zeros are equal (src/test0.cpp:387, 411) -/
def doubleEq (a b : BitVec 64) : Bool :=
  !isNaN a && !isNaN b && (a == b || (a &&& 0x7fffffffffffffff#64 == 0#64 && b &&& 0x7fffffffffffffff#64 == 0#64))

/-- `==` on `TRGSWLvl1FFT`, arrays of arrays of arrays of `double` (src/test0.cpp:387, 411) -/
def gswEq (a b : Gsw l N) : Bool := (gswIdx l N).all fun x => doubleEq (a x.1 x.2.1 x.2.2) (b x.1 x.2.1 x.2.2)

/-- `test_serializer_deserializer` (src/test0.cpp:370-389) with the ciphertext `org`; `junk` is what `tmp` holds before. -/
def testSerializer (org junk : Gsw l N) : Res Unit := do
  let is : IStream := { bytes := saveGsw org, pos := 0, fail := false }
  let r ← loadGsw (is.seekg 0 .beg) junk
  cassert (gswEq org r.1)

/-- What the calls on a stream over a file get answered when nothing more happens, under any schedule of the two threads. (src/test0.cpp:406-428) -/
inductive Answers : StreamKind → Option (List Byte) → List StreamCall → Res (List (StreamOut l N)) → Prop
  | bad {kind file junk calls e} : openStream (l := l) (N := N) kind file junk calls = .error e → Answers kind file calls (.error e)
  | dies {kind file calls} {junk : Gsw l N} {s₀ t k e} : openStream kind file junk calls = .ok s₀ → StreamExec kind k s₀ t → t.died = some e →
      Answers kind file calls (.error e)
  | ends {kind file calls} {junk : Gsw l N} {s₀ t k} : openStream kind file junk calls = .ok s₀ → StreamExec kind k s₀ t → t.died = none →
      (∀ u, ¬ StreamStep kind t u) → Answers kind file calls (.ok t.out)

/-- the calls of src/test0.cpp:409-415 and 420-426 -/
def testCalls : List StreamCall := [.size, .next, .size, .next, .size]

/-- one of the comparisons of src/test0.cpp:409-415 and 420-426 -/
def answerEq : StreamOut l N → StreamOut l N → Bool
  | .ctxt a, .ctxt b => gswEq a b
  | .size a, .size b => a == b
  | _, _ => false

/-- the answers are those of a stream of `a` and `b` (src/test0.cpp:409-415, 420-426) -/
def checkAnswers (a b : Gsw l N) (outs : List (StreamOut l N)) : Res Unit :=
  let expected := [.size 2, .ctxt a, .size 1, .ctxt b, .size 0]
  cassert (outs.length == expected.length && (outs.zip expected).all fun p => answerEq p.1 p.2)

/-- `test_input_stream` (src/test0.cpp:391-429) -/
inductive TestInputStream (L : Lib N n l) (fs : Files) : Res Files → Prop
  | reversed {q r0 r1 outs} {fs' : Files} {c0 c1 : Gsw l N} {e : Err} :
      c0 = L.encrypt (L.newKey q) r0 false → c1 = L.encrypt (L.newKey q) r1 true → fs' = fs.set "_test_in" (saveGsw c0 ++ saveGsw c1) →
      Answers .reversed (fs' "_test_in") testCalls outs → outs.bind (checkAnswers c1 c0) = .error e → TestInputStream L fs (.error e)
  | forward {q r0 r1 outs outs'} {fs' : Files} {c0 c1 : Gsw l N} {r : Res Unit} :
      c0 = L.encrypt (L.newKey q) r0 false → c1 = L.encrypt (L.newKey q) r1 true → fs' = fs.set "_test_in" (saveGsw c0 ++ saveGsw c1) →
      Answers .reversed (fs' "_test_in") testCalls outs → outs.bind (checkAnswers c1 c0) = .ok () →
      Answers .forward (fs' "_test_in") testCalls outs' → outs'.bind (checkAnswers c0 c1) = r → TestInputStream L fs (r.map fun _ => fs')

/-- `main` (src/test0.cpp:431-440), with any list of blocks of the tests of automata; the files when it ends normally. -/
inductive Test0Run (L : Lib N n l) (cs : List DumpCheck) (fs : Files) : Res Files → Prop
  | graphs {e} : cs.forM (DumpCheck.run L fs) = .error e → Test0Run L cs fs (.error e)
  | serializer {q rnd junk e} : cs.forM (DumpCheck.run L fs) = .ok () → testSerializer (L.encrypt (L.newKey q) rnd true) junk = .error e →
      Test0Run L cs fs (.error e)
  | stream {q rnd junk r} : cs.forM (DumpCheck.run L fs) = .ok () → testSerializer (L.encrypt (L.newKey q) rnd true) junk = .ok () →
      TestInputStream L fs r → Test0Run L cs fs r

/-- the blocks of the tests of automata, in the order of `main` -/
def repoTest0 : List DumpCheck := [
  -- `test_graph_dump` (src/test0.cpp:26-119)
  .spec "test/02.spec" .asIs [">0", "1", "0", "1*", "2", "1", "2*", "0", "1"],
  .spec "test/03.spec" .asIs ["0*", "1", "0", ">1*", "0", "1"],
  .spec "test/04.spec" .asIs [">0", "1", "2", "1", "0", "3", "2*", "4", "5", "3*", "4", "5", "4*", "4", "5", "5", "5", "5"],
  .spec "test/06.spec" .asIs [">0", "1", "0", "1*", "2", "3", "2*", "0", "4", "3*", "3", "3", "4*", "5", "4", "5", "6", "7", "6", "4", "0", "7",
    "7", "7"],
  .spec "test/07.spec" .asIs [">0*", "1", "2", "1", "3", "4", "2", "3", "5", "3", "3", "3", "4", "6", "7", "5*", "8", "8", "6", "4", "3", "7",
    "5", "3", "8", "5", "5"],
  .spec "test/08.spec" .asIs [">0*", "1", "2", "1*", "0", "0", "2*", "3", "3", "3*", "4", "5", "4*", "0", "6", "5*", "3", "6", "6", "6", "6"],
  .spec "test/09.spec" .asIs [">0*", "1", "2", "1", "0", "0", "2", "3", "3", "3*", "4", "5", "4", "0", "6", "5", "3", "6", "6", "6", "6"],
  -- `test_graph_reversed` (src/test0.cpp:121-156)
  .spec "test/01.spec" .reversed [">0*", "1", "2", "1", "3", "4", "2", "3", "5", "3", "3", "3", "4", "6", "7", "5*", "8", "8", "6", "4", "3",
    "7", "5", "3", "8", "5", "5"],
  .spec "test/02.spec" .reversed [">0", "1", "0", "1*", "2", "3", "2*", "0", "4", "3*", "3", "3", "4*", "5", "4", "5", "6", "7", "6", "4", "0",
    "7", "7", "7"],
  -- `test_graph_minimized` (src/test0.cpp:158-204)
  .spec "test/02.spec" .minimized [">0", "1", "0", "1*", "2", "1", "2*", "0", "1"],
  .spec "test/03.spec" .minimized [">0*", "0", "0"],
  .spec "test/04.spec" .minimized [">0", "0", "1", "1*", "1", "2", "2", "2", "2"],
  .spec "test/05.spec" .minimized [">0", "0", "1", "1*", "1", "1"],
  -- `test_monitor` (src/test0.cpp:206-273)
  .formula "!F(p0 & Xp1)" 2 [">0*", "1", "2", "1", "0", "0", "2", "3", "3", "3*", "4", "5", "4", "0", "6", "5", "3", "6", "6", "6", "6"],
  .formula "G(p0 -> p1 W p2)" 3 [">0*", "1", "2", "1", "3", "3", "2", "4", "5", "3", "0", "0", "4", "6", "0", "5", "7", "0", "6", "6", "6", "7*",
    "8", "8", "8", "9", "10", "9", "6", "0", "10", "7", "0"],
  .formula "G(p3 | p4 | (p0 & p1 & p2))" 5 [">0*", "1", "2", "1", "3", "3", "2", "4", "5", "3", "6", "6", "4", "6", "6", "5", "6", "7", "6", "8",
    "9", "7", "10", "10", "8", "11", "0", "9", "0", "0", "10", "0", "0", "11", "11", "11"],
  .formula "G(p3 & p4)" 5 [">0*", "1", "1", "1", "2", "2", "2", "3", "3", "3", "4", "5", "4", "4", "4", "5", "4", "0"],
  -- `test_negated` (src/test0.cpp:275-368)
  .spec "test/02.spec" .negated [">0*", "1", "0", "1", "2", "1", "2", "0", "1"],
  .spec "test/03.spec" .negated ["0", "1", "0", ">1", "0", "1"],
  .spec "test/04.spec" .negated [">0*", "1", "2", "1*", "0", "3", "2", "4", "5", "3", "4", "5", "4", "4", "5", "5*", "5", "5"],
  .spec "test/06.spec" .negated [">0*", "1", "0", "1", "2", "3", "2", "0", "4", "3", "3", "3", "4", "5", "4", "5*", "6", "7", "6*", "4", "0",
    "7*", "7", "7"],
  .spec "test/07.spec" .negated [">0", "1", "2", "1*", "3", "4", "2*", "3", "5", "3*", "3", "3", "4*", "6", "7", "5", "8", "8", "6*", "4", "3",
    "7*", "5", "3", "8*", "5", "5"],
  .spec "test/08.spec" .negated [">0", "1", "2", "1", "0", "0", "2", "3", "3", "3", "4", "5", "4", "0", "6", "5", "3", "6", "6*", "6", "6"],
  .spec "test/09.spec" .negated [">0", "1", "2", "1*", "0", "0", "2*", "3", "3", "3", "4", "5", "4*", "0", "6", "5*", "3", "6", "6*", "6", "6"]]

end Homfa.Cli
