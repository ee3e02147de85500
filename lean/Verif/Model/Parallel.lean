import Verif.Model.Shell

/-!
# What a process does to the files, and processes side by side

`Exec` (Model/Shell.lean) lets a command see all files at one moment and leave its output in one piece.  Here a run of `homfa` is a sequence of
accesses to single files: a look whether a file is there, the reading of some bytes at some place, the discovery of the end of a file, the
opening of a file for writing, the writing of some bytes.  Between two accesses other processes may do theirs.

Simplifications: the order in which the files of a command are read, in which pieces and how often, is left open, as is the length of the
pieces written; a command that ends abnormally has looked at all its input files; its output file may then hold anything.  With an output
directory (which cannot be had from the command line, see C58) the results would be written between the readings, not at the end.
-/

namespace Homfa.Cli

variable {N n l : Nat}

/-- one access to a file (the file accesses of src/archive.hpp:20-68, src/tfhepp_util.cpp:18-97, src/main.cpp:239-251) -/
inductive Act where
  /-- is there such a file? (`CLI::ExistingFile`, the constructor of `std::ifstream`) -/
  | see (f : String) (there : Bool)
  /-- the bytes `c` are read from position `p` on -/
  | piece (f : String) (p : Nat) (c : List Byte)
  /-- the end of the file is found at position `k` -/
  | fin (f : String) (k : Nat)
  /-- the file is opened for writing: created, or emptied (the constructor of `std::ofstream`) -/
  | empty (f : String)
  /-- the bytes `c` are written from position `p` on -/
  | put (f : String) (p : Nat) (c : List Byte)

/-- (the file accesses of src/archive.hpp:20-68, src/tfhepp_util.cpp:18-97, src/main.cpp:239-251) -/
def Act.file : Act → String
  | .see f _ | .piece f _ _ | .fin f _ | .empty f | .put f _ _ => f

/-- (the file accesses of src/archive.hpp:20-68, src/tfhepp_util.cpp:18-97, src/main.cpp:239-251) -/
def Act.isWrite : Act → Bool
  | .empty _ | .put .. => true
  | _ => false

/-- the bytes of a file after the bytes `c` have been written at `p`; a gap is filled with zeros (src/tfhepp_util.cpp:18-25) -/
def overwrite (y : List Byte) (p : Nat) (c : List Byte) : List Byte :=
  y.take p ++ List.replicate (p - y.length) 0#8 ++ c ++ y.drop (p + c.length)

/-- The access happens: a reading access tells how the file is at this moment, a writing one changes it.
(the file accesses of src/archive.hpp:20-68, src/tfhepp_util.cpp:18-97, src/main.cpp:239-251) -/
inductive Act.Done (fs : Files) : Act → Files → Prop
  | see {f} : Done fs (.see f (fs f).isSome) fs
  | piece {f p c y} : fs f = some y → p + c.length ≤ y.length → (y.drop p).take c.length = c → Done fs (.piece f p c) fs
  | fin {f y} : fs f = some y → Done fs (.fin f y.length) fs
  | empty {f} : Done fs (.empty f) (fs.set f [])
  | put {f p c} : Done fs (.put f p c) (fs.set f (overwrite ((fs f).getD []) p c))

/-- one process alone (processes of src/main.cpp:590-755) -/
inductive Replay : Files → List Act → Files → Prop
  | nil {fs} : Replay fs [] fs
  | cons {fs a fs1 as fs'} : a.Done fs fs1 → Replay fs1 as fs' → Replay fs (a :: as) fs'

/-- Several processes, each with the accesses that are left to it: again and again any one of them does its next access, until all have
ended. (processes of src/main.cpp:590-755) -/
inductive Parallel : Files → List (List Act) → Files → Prop
  | done {fs ts} : (∀ t ∈ ts, t = []) → Parallel fs ts fs
  | step {fs ts} {i : Nat} {a : Act} {t : List Act} {fs1 fs'} : ts[i]? = some (a :: t) → a.Done fs fs1 → Parallel fs1 (ts.set i t) fs' → Parallel fs ts fs'

/-! ## The accesses of `homfa` -/

/-- The access reads from the file `f`, and what it finds fits the content `x`.
(the file accesses of src/archive.hpp:20-68, src/tfhepp_util.cpp:18-97, src/main.cpp:239-251) -/
def Act.Reads (f : String) (x : Option (List Byte)) : Act → Prop
  | .see g there => g = f ∧ there = x.isSome
  | .piece g p c => g = f ∧ ∃ y, x = some y ∧ p + c.length ≤ y.length ∧ (y.drop p).take c.length = c
  | .fin g k => g = f ∧ ∃ y, x = some y ∧ k = y.length
  | _ => False

/-- The accesses tell that the file `f` has the content `x`: that it is not there, or all its bytes and its end.
(the file accesses of src/archive.hpp:20-68, src/tfhepp_util.cpp:18-97, src/main.cpp:239-251) -/
def Covered (f : String) (acts : List Act) : Option (List Byte) → Prop
  | none => .see f false ∈ acts
  | some y => .fin f y.length ∈ acts ∧
      ∀ i < y.length, ∃ p c, .piece f p c ∈ acts ∧ (Act.piece f p c).Reads f (some y) ∧ p ≤ i ∧ i < p + c.length

/-- These files are read with these contents, in any order and in any pieces (src/archive.hpp:20-31, src/graph.cpp:196-201, the streams of
src/tfhepp_util.hpp and src/main.cpp:485-521). -/
def ReadAll (seen : List (String × Option (List Byte))) (acts : List Act) : Prop :=
  (∀ a ∈ acts, ∃ s ∈ seen, a.Reads s.1 s.2) ∧ ∀ s ∈ seen, Covered s.1 acts s.2

/-- The pieces are written one after the other from position `p` on. (src/tfhepp_util.cpp:33-39, src/archive.hpp:49-68) -/
def puts (f : String) : Nat → List (List Byte) → List Act
  | _, [] => []
  | p, c :: cs => .put f p c :: puts f (p + c.length) cs

/-- The files are opened and written, one after the other, each in any pieces (`write_to_archive`, src/archive.hpp:51-65). -/
inductive WriteAll : List (String × List Byte) → List Act → Prop
  | nil : WriteAll [] []
  | cons {f : String} {cs : List (List Byte)} {ws acts} : WriteAll ws acts → WriteAll ((f, cs.flatten) :: ws) (.empty f :: puts f 0 cs ++ acts)

/-- The end of a command: it writes its files and prints its text, or ends abnormally. (src/main.cpp:225-534) -/
inductive Finish : Res (List (String × List Byte) × List Char) → List Act → Res (List Char) → Prop
  | ok {ws out acts} : WriteAll ws acts → Finish (.ok (ws, out)) acts (.ok out)
  | err {e} : Finish (.error e) [] (.error e)

/-- Two sequences of accesses of one process, mixed (the loader and the main thread, src/tfhepp_util.cpp:122-140) -/
inductive Mixed : List Act → List Act → List Act → Prop
  | nil : Mixed [] [] []
  | left {a as bs cs} : Mixed as bs cs → Mixed (a :: as) bs (a :: cs)
  | right {b as bs cs} : Mixed as bs cs → Mixed as (b :: bs) (b :: cs)

/-- the file named on the command line of a converter, if it is not standard input (src/main.cpp:485-487, 499-503, 508-512, 517-521) -/
def namedFile (name : Option String) (x : Option (List Byte)) : List (String × Option (List Byte)) :=
  if name.getD "-" = "-" then [] else [(name.getD "-", x)]

/-- The functions called by `main` (src/main.cpp:225-536), as `Exec`: the accesses to files and the outcome. -/
inductive Does (L : Lib N n l) (stdin : List Char) : Call → List Act → Res (List Char) → Prop
  | genkey (q : Nat) {out a r} : Finish (.ok ([(out, L.saveKey (L.newKey q))], [])) a r → Does L stdin (.genkey out) a r
  | genbkey (q : Nat) {skey out x a a' r} : ReadAll [(skey, x)] a → Finish (do
      let k ← readArchive L.loadKey x
      pure ([(out, L.saveBKey (L.newBKey q k))], [])) a' r → Does L stdin (.genbkey skey out) (a ++ a') r
  | encNoKey {skey input out ap x a e} : ReadAll [(skey, x)] a → readArchive L.loadKey x = .error e → Does L stdin (.enc skey input out ap) a (.error e)
  /-- The output file is opened before the input file (src/main.cpp:244-251), then reading and writing alternate.  A file that is its own output is
  read when it has just been emptied and nothing has been written. -/
  | enc (rand : Nat → Nat) {skey input out : String} {ap x k a y as cs a' b} : ReadAll [(skey, x)] a → readArchive L.loadKey x = .ok k → ReadAll [(input, y)] as →
      Mixed as (puts out 0 cs) a' → (input = out → a' = as ++ puts out 0 cs) → doEnc (L.client k) rand y ap = .ok b → cs.flatten = b →
      Does L stdin (.enc skey input out ap) (a ++ .empty out :: a') (.ok [])
  | encStop (rand : Nat → Nat) {skey input out : String} {ap x k a y as cs a' e} : ReadAll [(skey, x)] a → readArchive L.loadKey x = .ok k → ReadAll [(input, y)] as →
      Mixed as (puts out 0 cs) a' → (input = out → a' = as ++ puts out 0 cs) → doEnc (L.client k) rand y ap = .error e →
      Does L stdin (.enc skey input out ap) (a ++ .empty out :: a') (.error e)
  | dec {skey input x y a r} : ReadAll [(skey, x), (input, y)] a → r = (do
      let k ← readArchive L.loadKey x
      let c ← readArchive L.loadRes y
      pure (doDec (L.client k) c)) → Does L stdin (.dec skey input) a r
  | runOffline {spec input out boot bkey sanitize x y z p a a' r} : ReadAll [(input, x), (bkey, y), (spec, z)] a → Fetch .reversed x p → Finish (do
      let (pre, cs) ← p
      let b ← readArchive L.loadBKey y
      let s ← readSpec z
      let c ← doRunOffline (L.server b) s (pre.headD 0) cs boot sanitize
      pure ([(out, L.saveRes c)], [])) a' r → Does L stdin (.runOffline spec input out boot bkey sanitize) (a ++ a') r
  | runReverse {spec input out outDir freq boot isRev bkey sanitize x y z p a a' r} : ReadAll [(input, x), (bkey, y), (spec, z)] a → Fetch .forward x p → Finish (do
      let (pre, cs) ← p
      let b ← readArchive L.loadBKey y
      let s ← readSpec z
      let rs ← doRunReverse (L.server b) s (pre.getLastD 0) cs out outDir freq boot isRev sanitize
      pure (rs.map fun r => (OutFile.path r.1, L.saveRes r.2), [])) a' r →
      Does L stdin (.runReverse spec input out outDir freq boot isRev bkey sanitize) (a ++ a') r
  | runBlock {spec input out queue bkey sanitize x y z p a a' r} : ReadAll [(input, x), (bkey, y), (spec, z)] a → Fetch .forward x p → Finish (do
      let (_, cs) ← p
      let s ← readSpec z
      let b ← readArchive L.loadBKey y
      let c ← doRunBlock (L.server b) s cs queue sanitize
      pure ([(out, L.saveRes c)], [])) a' r → Does L stdin (.runBlock spec input out queue bkey sanitize) (a ++ a') r
  | runFlut {spec input out outDir freq queue boot bkey maxSecond debugSkey sanitize x y z d p a a' r} :
      ReadAll ([(input, x), (bkey, y), (spec, z)] ++ debugSkey.toList.map fun f => (f, d)) a → Fetch .forward x p → Finish (do
      let (pre, cs) ← p
      let s ← readSpec z
      let b ← readArchive L.loadBKey y
      let _ ← readDebugKey L (fun _ => d) debugSkey
      let rs ← doRunFlut (L.server b) s (pre.getLastD 0) cs out outDir freq queue boot maxSecond sanitize
      pure (rs.map fun r => (OutFile.path r.1, L.saveRes r.2), [])) a' r →
      Does L stdin (.runFlut spec input out outDir freq queue boot bkey maxSecond debugSkey sanitize) (a ++ a') r
  | runPlain {spec input ap x y a r} : ReadAll [(spec, x), (input, y)] a → r = (do
      let s ← readSpec x
      doRunPlain s y ap) → Does L stdin (.runPlain spec input ap) a r
  | ltl2spec {formula numVars allFinal r} : r = (do
      let m ← L.monitor formula numVars
      doLtl2spec m numVars allFinal) → Does L stdin (.ltl2spec formula numVars allFinal) [] r
  | spec2spec {spec m v k x a r} : ReadAll (namedFile spec x) a → r = (do
      let s ← fileOrStdin readSpec (fun _ => x) stdin spec
      doSpec2spec s m v k) → Does L stdin (.spec2spec spec m v k) a r
  | spec2dot {spec x a r} : ReadAll (namedFile spec x) a → r = (do
      let s ← fileOrStdin readSpec (fun _ => x) stdin spec
      doSpec2dot s) → Does L stdin (.spec2dot spec) a r
  | spec2att {spec x a r} : ReadAll (namedFile spec x) a → r = (do
      let s ← fileOrStdin readSpec (fun _ => x) stdin spec
      doSpec2att s) → Does L stdin (.spec2att spec) a r
  | att2spec {spec x a r} : ReadAll (namedFile spec x) a → r = (do
      let s ← fileOrStdin readAtt (fun _ => x) stdin spec
      doAtt2spec s) → Does L stdin (.att2spec spec) a r

/-- One run of `homfa`, as `RunHomfa`.  The parser looks for the files named on the line (here for every word of the line). (src/main.cpp:590-755) -/
inductive Runs (L : Lib N n l) (stdin : List Char) (toks : List String) : List Act → Res (List Char) → Prop
  | call {ex c a r} : homfaMain ex toks = .ok (some c) → Does L stdin c a r → Runs L stdin toks (toks.map (fun f => .see f (ex f)) ++ a) r
  | usage {ex} : homfaMain ex toks = .ok none → Runs L stdin toks (toks.map fun f => .see f (ex f)) (.error .die)
  | fails {ex e} : homfaMain ex toks = .error e → Runs L stdin toks (toks.map fun f => .see f (ex f)) (.error e)

end Homfa.Cli
