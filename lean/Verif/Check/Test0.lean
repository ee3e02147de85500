import Verif.Model.SpecTools
import Verif.Model.Ltl
import Verif.Model.Commands
/-!
# The repository's own tests, run on the model

Generated by tools/testsuite.py from src/test0.cpp, test_homfa.sh and the files of test/.  These are checks that the model agrees with the expectations
the authors of the code wrote down; they are evidence for the model, not proofs of properties.
-/

namespace Homfa.Check

/-- test/01.spec -/
def spec01 : List Char := ">0* 1   2\n1   3   4\n2   3   0\n3   5   6\n4   7   8\n5   3   4\n6   3   0\n7   4   4\n8   0   0\n".toList

/-- test/01_rev.spec -/
def spec01_rev : List Char := ">0*\t1\t2\n1\t3\t4\n2\t3\t5\n3\t3\t3\n4\t6\t7\n5*\t8\t8\n6\t4\t3\n7\t5\t3\n8\t5\t5\n".toList

/-- test/02.spec -/
def spec02 : List Char := ">0  1   0\n1*  2   1\n2*  0   1\n".toList

/-- test/03.spec -/
def spec03 : List Char := "0*   1   0\n>1*  0   1\n".toList

/-- test/04.spec -/
def spec04 : List Char := ">0  1   2\n1   0   3\n2*  4   5\n3*  4   5\n4*  4   5\n5   5   5\n".toList

/-- test/05.spec -/
def spec05 : List Char := ">0  1   3\n1   0   3\n2   1   4\n3*  5   5\n4   3   3\n5*  5   5\n".toList

/-- test/06.spec -/
def spec06 : List Char := "0*  2   0\n>1  0   1,2\n>2  1   _\n".toList

/-- test/07.spec -/
def spec07 : List Char := ">0* 8       2,6,8\n1   0       _\n2   _       0\n3   1,2,5,6 _\n4   7       1,5,7\n5   3       _\n6   _       3\n7   4       _\n8   _       4\n".toList

/-- test/08.spec -/
def spec08 : List Char := ">0* 1   2\n1*  0   0\n2*  3   3\n3*  5   4\n4*  3   _\n5*  0   _\n".toList

/-- test/09.spec -/
def spec09 : List Char := ">0* 1,4 1\n1   0   _\n2   _   0\n>3  2,5 2\n4   3   _\n5   _   3\n6   6   4,5,6\n".toList

/-- test/10.spec -/
def spec10 : List Char := ">0*\t0\t1\n1\t1\t2\n2\t2\t3\n3\t3\t4\n4\t4\t5\n5\t5\t6\n6\t6\t7\n7\t7\t8\n8\t8\t0\n".toList

/-! `test_graph_dump` -/

example : (do let g ← Graph.fromIstream spec02; let g ← (pure g : Res Graph); g.dump) =
    .ok ">0\t1\t0\n1*\t2\t1\n2*\t0\t1\n".toList := by decide +kernel

example : (do let g ← Graph.fromIstream spec03; let g ← (pure g : Res Graph); g.dump) =
    .ok "0*\t1\t0\n>1*\t0\t1\n".toList := by decide +kernel

example : (do let g ← Graph.fromIstream spec04; let g ← (pure g : Res Graph); g.dump) =
    .ok ">0\t1\t2\n1\t0\t3\n2*\t4\t5\n3*\t4\t5\n4*\t4\t5\n5\t5\t5\n".toList := by decide +kernel

example : (do let g ← Graph.fromIstream spec06; let g ← (pure g : Res Graph); g.dump) =
    .ok ">0\t1\t0\n1*\t2\t3\n2*\t0\t4\n3*\t3\t3\n4*\t5\t4\n5\t6\t7\n6\t4\t0\n7\t7\t7\n".toList := by decide +kernel

example : (do let g ← Graph.fromIstream spec07; let g ← (pure g : Res Graph); g.dump) =
    .ok ">0*\t1\t2\n1\t3\t4\n2\t3\t5\n3\t3\t3\n4\t6\t7\n5*\t8\t8\n6\t4\t3\n7\t5\t3\n8\t5\t5\n".toList := by decide +kernel

example : (do let g ← Graph.fromIstream spec08; let g ← (pure g : Res Graph); g.dump) =
    .ok ">0*\t1\t2\n1*\t0\t0\n2*\t3\t3\n3*\t4\t5\n4*\t0\t6\n5*\t3\t6\n6\t6\t6\n".toList := by decide +kernel

example : (do let g ← Graph.fromIstream spec09; let g ← (pure g : Res Graph); g.dump) =
    .ok ">0*\t1\t2\n1\t0\t0\n2\t3\t3\n3*\t4\t5\n4\t0\t6\n5\t3\t6\n6\t6\t6\n".toList := by decide +kernel

/-! `test_graph_reversed` -/

example : (do let g ← Graph.fromIstream spec01; let g ← (g.reversed : Res Graph); g.dump) =
    .ok ">0*\t1\t2\n1\t3\t4\n2\t3\t5\n3\t3\t3\n4\t6\t7\n5*\t8\t8\n6\t4\t3\n7\t5\t3\n8\t5\t5\n".toList := by decide +kernel

example : (do let g ← Graph.fromIstream spec02; let g ← (g.reversed : Res Graph); g.dump) =
    .ok ">0\t1\t0\n1*\t2\t3\n2*\t0\t4\n3*\t3\t3\n4*\t5\t4\n5\t6\t7\n6\t4\t0\n7\t7\t7\n".toList := by decide +kernel

/-! `test_graph_minimized` -/

example : (do let g ← Graph.fromIstream spec02; let g ← (g.minimized : Res Graph); g.dump) =
    .ok ">0\t1\t0\n1*\t2\t1\n2*\t0\t1\n".toList := by decide +kernel

example : (do let g ← Graph.fromIstream spec03; let g ← (g.minimized : Res Graph); g.dump) =
    .ok ">0*\t0\t0\n".toList := by decide +kernel

example : (do let g ← Graph.fromIstream spec04; let g ← (g.minimized : Res Graph); g.dump) =
    .ok ">0\t0\t1\n1*\t1\t2\n2\t2\t2\n".toList := by decide +kernel

example : (do let g ← Graph.fromIstream spec05; let g ← (g.minimized : Res Graph); g.dump) =
    .ok ">0\t0\t1\n1*\t1\t1\n".toList := by decide +kernel

/-! `test_negated` -/

example : (do let g ← Graph.fromIstream spec02; let g ← (g.negated : Res Graph); g.dump) =
    .ok ">0*\t1\t0\n1\t2\t1\n2\t0\t1\n".toList := by decide +kernel

example : (do let g ← Graph.fromIstream spec03; let g ← (g.negated : Res Graph); g.dump) =
    .ok "0\t1\t0\n>1\t0\t1\n".toList := by decide +kernel

example : (do let g ← Graph.fromIstream spec04; let g ← (g.negated : Res Graph); g.dump) =
    .ok ">0*\t1\t2\n1*\t0\t3\n2\t4\t5\n3\t4\t5\n4\t4\t5\n5*\t5\t5\n".toList := by decide +kernel

example : (do let g ← Graph.fromIstream spec06; let g ← (g.negated : Res Graph); g.dump) =
    .ok ">0*\t1\t0\n1\t2\t3\n2\t0\t4\n3\t3\t3\n4\t5\t4\n5*\t6\t7\n6*\t4\t0\n7*\t7\t7\n".toList := by decide +kernel

example : (do let g ← Graph.fromIstream spec07; let g ← (g.negated : Res Graph); g.dump) =
    .ok ">0\t1\t2\n1*\t3\t4\n2*\t3\t5\n3*\t3\t3\n4*\t6\t7\n5\t8\t8\n6*\t4\t3\n7*\t5\t3\n8*\t5\t5\n".toList := by decide +kernel

example : (do let g ← Graph.fromIstream spec08; let g ← (g.negated : Res Graph); g.dump) =
    .ok ">0\t1\t2\n1\t0\t0\n2\t3\t3\n3\t4\t5\n4\t0\t6\n5\t3\t6\n6*\t6\t6\n".toList := by decide +kernel

example : (do let g ← Graph.fromIstream spec09; let g ← (g.negated : Res Graph); g.dump) =
    .ok ">0\t1\t2\n1*\t0\t0\n2*\t3\t3\n3\t4\t5\n4*\t0\t6\n5*\t3\t6\n6*\t6\t6\n".toList := by decide +kernel

/-! `test_monitor`, with the monitors of the formulas written out (p0, p1, ... are the variables 0, 1, ...). -/

/-- !F(p0 & Xp1) -/
example : (do
    let g ← Graph.fromMonitor { out := [[(.node 0 .tt .ff, 0), (.node 0 .ff .tt, 1)], [(.node 0 (.node 1 .tt .ff) .ff, 0), (.node 0 .ff (.node 1 .tt .ff), 1)]], init := 0, varOf := some } 2 false
    g.dump) =
    .ok ">0*\t1\t2\n1\t0\t0\n2\t3\t3\n3*\t4\t5\n4\t0\t6\n5\t3\t6\n6\t6\t6\n".toList := by decide +kernel

/-- G(p0 -> p1 W p2) -/
example : (do
    let g ← Graph.fromMonitor { out := [[(.node 0 .tt (.node 2 .ff .tt), 0), (.node 0 .ff (.node 1 .ff (.node 2 .tt .ff)), 1)],
      [(.node 2 .ff .tt, 0), (.node 1 .ff (.node 2 .tt .ff), 1)]], init := 0, varOf := some } 3 false
    g.dump) =
    .ok ">0*\t1\t2\n1\t3\t3\n2\t4\t5\n3\t0\t0\n4\t6\t0\n5\t7\t0\n6\t6\t6\n7*\t8\t8\n8\t9\t10\n9\t6\t0\n10\t7\t0\n".toList := by decide +kernel

/-- G(p3 | p4 | (p0 & p1 & p2)) -/
example : (do
    let g ← Graph.fromMonitor { out := [[(.node 0 (.node 3 (.node 4 .ff .tt) .tt) (.node 1 (.node 3 (.node 4 .ff .tt) .tt) (.node 2 (.node 3 (.node 4 .ff .tt) .tt) .tt)), 0)]], init := 0, varOf := some } 5 false
    g.dump) =
    .ok ">0*\t1\t2\n1\t3\t3\n2\t4\t5\n3\t6\t6\n4\t6\t6\n5\t6\t7\n6\t8\t9\n7\t10\t10\n8\t11\t0\n9\t0\t0\n10\t0\t0\n11\t11\t11\n".toList := by decide +kernel

/-- G(p3 & p4) -/
example : (do
    let g ← Graph.fromMonitor { out := [[(.node 3 .ff (.node 4 .ff .tt), 0)]], init := 0, varOf := some } 5 false
    g.dump) =
    .ok ">0*\t1\t1\n1\t2\t2\n2\t3\t3\n3\t4\t5\n4\t4\t4\n5\t4\t0\n".toList := by decide +kernel

/-! test_homfa.sh: `run plain` (the encrypted runs print the same by C36-C39). -/

/-- 01-01.in -/
example : doRunPlain spec01 (some ((List.replicate 800 [3#8]).flatten)) 2 =
    .ok ['1'] := by decide +kernel

/-- 01-02.in -/
example : doRunPlain spec01 (some ((List.replicate 800 [1#8]).flatten)) 2 =
    .ok ['0'] := by decide +kernel

/-- 01-03.in -/
example : doRunPlain spec01 (some ((List.replicate 160 [0#8, 1#8, 2#8, 2#8, 3#8]).flatten)) 2 =
    .ok ['1'] := by decide +kernel

/-- 01-04.in -/
example : doRunPlain spec01 (some ((List.replicate 160 [1#8, 0#8]).flatten ++ [1#8] ++ (List.replicate 160 [2#8, 0#8]).flatten ++ [2#8])) 2 =
    .ok ['0'] := by decide +kernel

/-- 01-05.in -/
example : doRunPlain spec01 (some ((List.replicate 800 [0#8, 1#8, 2#8, 2#8, 3#8]).flatten)) 2 =
    .ok ['1'] := by decide +kernel

/-- 01-06.in -/
example : doRunPlain spec01 (some ((List.replicate 800 [1#8, 0#8]).flatten ++ [1#8] ++ (List.replicate 1200 [2#8, 0#8]).flatten ++ [2#8])) 2 =
    .ok ['0'] := by decide +kernel

/-- 01-07.in -/
example : doRunPlain spec01 (some ((List.replicate 4 [3#8]).flatten)) 2 =
    .ok ['1'] := by decide +kernel

/-- 01-08.in -/
example : doRunPlain spec01 (some ((List.replicate 4 [1#8]).flatten)) 2 =
    .ok ['0'] := by decide +kernel

/-- 10-01.in -/
example : doRunPlain spec10 (some ((List.replicate 100 [255#8, 1#8]).flatten)) 9 =
    .ok ['1'] := by decide +kernel

/-- 10-02.in -/
example : doRunPlain spec10 (some ((List.replicate 100 [255#8, 0#8]).flatten)) 9 =
    .ok ['0'] := by decide +kernel

/-- 10-03.in -/
example : doRunPlain spec10 (some ((List.replicate 90 [255#8, 0#8]).flatten)) 9 =
    .ok ['1'] := by decide +kernel

/-- spec2att, att2spec: nine lines -/
example : (do let a ← doSpec2att spec01; let s ← doAtt2spec a; pure (s.count '\n')) = (.ok 9 : Res Nat) := by decide +kernel

end Homfa.Check
