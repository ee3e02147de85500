import Verif.Proof.PreparedBench

/-!
# C105: the automaton of `run reverse` can be prepared in advance

`homfa run reverse` reverses and minimizes the automaton each time it is started, which can take exponentially long.  With `--spec-reversed`
it takes the automaton as it is.  A user who runs `homfa spec2spec --reversed --minimized` once and keeps what it prints gets the same runs.
-/

namespace Homfa.Cli

variable {N n l : Nat}

/-- **C105.** What `homfa spec2spec` prints for the spec in `S`, with `--reversed` and perhaps `--minimized`, is kept in `G`.  If it was
minimized, or each state of the spec can be reached, then `homfa run reverse` with `G` and `--spec-reversed` does exactly what it does with `S`
and without: each outcome of the one - each exit, each text, each bit of each file - is an outcome of the other.  This holds for all files: any
key or ciphertexts, also broken ones, and any library. -/
theorem C105_prepared (L : Lib N n l) {stdin : List Char} {fs0 fs1 fs : Files} {flags : List String} {B R S G C : String} {text : List Char}
    {specB gB : List Byte} (hB : Word B) (hR : Word R) (hS : Word S) (hG : Word G) (hC : Word C)
    (hfl : ∀ f ∈ flags, f = "--reversed" ∨ f = "--minimized") (hrev : "--reversed" ∈ flags)
    (hspec : fs0 S = some specB) (hrun : RunHomfa L stdin fs0 ("spec2spec" :: flags ++ [S]) (.ok (fs1, text))) (hlen : text.length ≤ 2 ^ 31)
    (hm : "--minimized" ∈ flags ∨ ∀ g, Graph.fromIstream (textOf specB) = .ok g → ∀ q < g.size, ∃ w, g.runWord g.initialState w = .ok q)
    (hs : fs S = some specB) (hg : fs G = some gB) (hgt : textOf gB = text) (hb : (fs B).isSome) (hc : (fs C).isSome) {freq boot : Nat}
    (hf0 : 0 < freq) (hf64 : freq < 2 ^ 64) (h0 : 0 < boot) (h64 : boot < 2 ^ 64) (r : Res (Files × List Char)) :
    RunHomfa L [] fs ["run", "reverse", "--bkey", B, "--out", R, "--spec", G, "--in", C, "--out-freq", toString freq,
        "--bootstrapping-freq", toString boot, "--spec-reversed"] r ↔
      RunHomfa L [] fs ["run", "reverse", "--bkey", B, "--out", R, "--spec", S, "--in", C, "--out-freq", toString freq,
        "--bootstrapping-freq", toString boot] r := by
  have hd := spec2spec_prepared hS hfl hrev hspec hrun
  refine (run_reverse_line (L := L) hB hR hG hC hb (by rw [hg]; rfl) hc hf0 hf64 h0 h64 (fl := ["--spec-reversed"]) (.inr rfl)).trans
    (Iff.trans ?_ (run_reverse_line (L := L) hB hR hS hC hb (by rw [hs]; rfl) hc hf0 hf64 h0 h64 (fl := []) (.inl rfl)).symm)
  rw [exec_reverse, exec_reverse]
  have e1 : readSpec (fs G) = .ok text := by simp [readSpec, hg, hgt]
  have e2 : readSpec (fs S) = .ok (textOf specB) := by simp [readSpec, hs]
  have key : ∀ b hidden cs, doRunReverse (L.server b) text hidden cs (some R) none freq boot true false =
      doRunReverse (L.server b) (textOf specB) hidden cs (some R) none freq boot false false := fun b hidden cs =>
    (reverse_prepared (L.server b) hd hlen (hm.imp (by simp) id) hidden cs _ _ _ _ _).symm
  simp only [e1, e2, Res.bind_ok, ne_eq, List.cons_ne_nil, not_false_eq_true, decide_true, not_true_eq_false, decide_false, key]

/-- the words that end in 1, with a state that cannot be reached; what `spec2spec` prints; three blocks that no one encrypted and a byte as key -/
def preparedFiles : Files := fun f =>
  if f = "a.spec" then some (">0 0 1\n1* 0 1\n2 0 1\n".toList.map fun c => BitVec.ofNat 8 c.toNat)
  else if f = "r.spec" then some (">0\t1\t2\n1\t1\t1\n2*\t2\t2\n".toList.map fun c => BitVec.ofNat 8 c.toNat)
  else if f = "bk" then some [2#8]
  else if f = "three" then some (List.replicate 3072 170#8)
  else none

/-- Non-vacuity: every hypothesis holds of these files, for any library and parameters of any size up to those of the option parser. -/
example (L : Lib 32 2 1) (freq boot : Nat) (hf0 : 0 < freq) (hf64 : freq < 2 ^ 64) (h0 : 0 < boot) (h64 : boot < 2 ^ 64) (r : Res (Files × List Char)) :
    RunHomfa L [] preparedFiles ["run", "reverse", "--bkey", "bk", "--out", "res", "--spec", "r.spec", "--in", "three", "--out-freq", toString freq,
        "--bootstrapping-freq", toString boot, "--spec-reversed"] r ↔
      RunHomfa L [] preparedFiles ["run", "reverse", "--bkey", "bk", "--out", "res", "--spec", "a.spec", "--in", "three", "--out-freq", toString freq,
        "--bootstrapping-freq", toString boot] r := by
  have w : ∀ f ∈ ["bk", "res", "a.spec", "r.spec", "three"], Word f := by unfold Word; decide
  refine C105_prepared L (stdin := []) (fs0 := preparedFiles) (fs1 := preparedFiles) (flags := ["--reversed", "--minimized"])
    (text := ">0\t1\t2\n1\t1\t1\n2*\t2\t2\n".toList) (w _ (by simp)) (w _ (by simp)) (w _ (by simp)) (w _ (by simp)) (w _ (by simp)) (by simp)
    (by simp) rfl ?_ (by decide) (.inl (by simp)) rfl rfl (by decide +kernel) rfl rfl hf0 hf64 h0 h64 r
  refine (run_spec2spec (F := some "a.spec") (by simp) (fun f hf => by cases hf; exact .inr (w _ (by simp)))).2 ?_
  rw [show fileOrStdin readSpec preparedFiles [] (some "a.spec") = .ok ">0 0 1\n1* 0 1\n2 0 1\n".toList from by decide +kernel, Res.bind_ok]
  rw [show doSpec2spec ">0 0 1\n1* 0 1\n2 0 1\n".toList _ _ _ = .ok ">0\t1\t2\n1\t1\t1\n2*\t2\t2\n".toList from by decide +kernel]
  rfl

/-! ## The benchmark program -/

/-- The command line of `benchmark reversed` with the spec `F`. -/
def reversedLine (verbose ap freq boot : Nat) (I : String) (F : String) (flags : List String) : List String :=
  List.replicate verbose "--verbose" ++ ["reversed", "--ap", toString ap, "--out-freq", toString freq, "--bootstrapping-freq", toString boot,
    "--spec", F, "--in", I] ++ flags

/-- What the benchmark program prints, except for the name of the spec: `d` is the date and `C` all that comes after the name. -/
def benchText (F : String) (d C : List Char) : List Char :=
  "time,".toList ++ d ++ "\nconfig-method,reversed\nconfig-spec,".toList ++ F.toList ++ "\n".toList ++ C

/-- **C105**, the benchmark program: with `G` and `--spec-reversed` it does what it does with `S` and without.  Each run of the one has a run of
the other that ends in the same way and prints the same, but for the name of the spec.  No line of the spec may be one that does not describe
a state: the program reports such lines, and `G` has none. -/
theorem C105_bench (L : Lib N n l) {stdin : List Char} {fs0 fs1 fs : Files} {flags : List String} {S G I : String} {text : List Char}
    {specB gB : List Byte} (hS : Word S) (hG : Word G) (hI : Word I)
    (hfl : ∀ f ∈ flags, f = "--reversed" ∨ f = "--minimized") (hrev : "--reversed" ∈ flags)
    (hspec : fs0 S = some specB) (hrun : RunHomfa L stdin fs0 ("spec2spec" :: flags ++ [S]) (.ok (fs1, text))) (hlen : text.length ≤ 2 ^ 31)
    (hm : "--minimized" ∈ flags ∨ ∀ g, Graph.fromIstream (textOf specB) = .ok g → ∀ q < g.size, ∃ w, g.runWord g.initialState w = .ok q)
    (hno : ∀ lines, Spec.TextLines (textOf specB) lines → ∀ l ∈ lines, ¬ Spec.NotSpecLine l)
    (hs : fs S = some specB) (hg : fs G = some gB) (hgt : textOf gB = text) (hi : (fs I).isSome) {ap freq boot : Nat}
    (ha0 : 0 < ap) (ha64 : ap < 2 ^ 64) (hf0 : 0 < freq) (hf64 : freq < 2 ^ 64) (h0 : 0 < boot) (h64 : boot < 2 ^ 64) (verbose : Nat)
    {rest : List String} (hrest : ∀ f ∈ rest, f = "--sanitize-result") (out : List Char) (r : Res Unit) :
    (RunBench L fs (reversedLine verbose ap freq boot I G ("--spec-reversed" :: rest)) out r →
      ∃ d C, out = benchText G d C ∧ RunBench L fs (reversedLine verbose ap freq boot I S rest) (benchText S d C) r) ∧
    (RunBench L fs (reversedLine verbose ap freq boot I S rest) out r →
      ∃ d C, out = benchText S d C ∧ RunBench L fs (reversedLine verbose ap freq boot I G ("--spec-reversed" :: rest)) (benchText G d C) r) := by
  have hd := spec2spec_prepared hS hfl hrev hspec hrun
  subst hgt
  have hSl := bench_reversed_line (verbose := verbose) hS hI (by rw [hs]; rfl) hi ha0 ha64 hf0 hf64 h0 h64 (fl := rest)
    (fun f hf => .inr (hrest f hf))
  have hGl := bench_reversed_line (verbose := verbose) hG hI (by rw [hg]; rfl) hi ha0 ha64 hf0 hf64 h0 h64 (fl := "--spec-reversed" :: rest)
    (fun f hf => by
      rcases List.mem_cons.1 hf with rfl | hf
      · exact .inl rfl
      · exact .inr (hrest f hf))
  have hns : "--spec-reversed" ∉ rest := fun hf => by have := hrest _ hf; revert this; decide
  rw [show decide ("--spec-reversed" ∈ rest) = false by simp [hns]] at hSl
  rw [show decide ("--spec-reversed" ∈ "--spec-reversed" :: rest) = true by simp,
    show decide ("--sanitize-result" ∈ "--spec-reversed" :: rest) = decide ("--sanitize-result" ∈ rest) by simp] at hGl
  have key := fun S' v rand => logReversed_prepared (N := N) (n := n) (l := l) S' hs hg hd hlen (hm.imp (by simp) id) hno v rand I freq boot ap
    (decide ("--sanitize-result" ∈ rest))
  constructor
  · intro h
    refine runBench_swap hGl.1 hSl.1 (hGl.2.trans hSl.2.symm) (fun x hx => ?_) h
    cases hx with
    | reversed q q' rand =>
      obtain ⟨rows, res, k1, k2⟩ := key (L.process (L.newKey q) (L.newBKey q' (L.newKey q)))
        (benchVerbose (reversedLine verbose ap freq boot I G ("--spec-reversed" :: rest))) rand
      exact ⟨rows, res, k2, k1 ▸ .reversed q q' rand⟩
  · intro h
    refine runBench_swap hSl.1 hGl.1 (hSl.2.trans hGl.2.symm) (fun x hx => ?_) h
    cases hx with
    | reversed q q' rand =>
      obtain ⟨rows, res, k1, k2⟩ := key (L.process (L.newKey q) (L.newBKey q' (L.newKey q)))
        (benchVerbose (reversedLine verbose ap freq boot I S rest)) rand
      exact ⟨rows, res, k1, k2 ▸ .reversed q q' rand⟩

/-- Non-vacuity: the files of the example above, and two letters as input. -/
def benchPreparedFiles : Files := fun f => if f = "in" then some [65#8, 66#8] else preparedFiles f

example (L : Lib 32 2 1) (out : List Char) (r : Res Unit)
    (h : RunBench L benchPreparedFiles ["--verbose", "reversed", "--ap", "8", "--out-freq", "1", "--bootstrapping-freq", "5", "--spec", "a.spec",
      "--in", "in"] out r) :
    ∃ d C, out = benchText "a.spec" d C ∧ RunBench L benchPreparedFiles ["--verbose", "reversed", "--ap", "8", "--out-freq", "1",
      "--bootstrapping-freq", "5", "--spec", "r.spec", "--in", "in", "--spec-reversed"] (benchText "r.spec" d C) r := by
  have w : ∀ f ∈ ["in", "a.spec", "r.spec"], Word f := by unfold Word; decide
  refine (C105_bench L (stdin := []) (fs0 := preparedFiles) (fs1 := preparedFiles) (flags := ["--reversed", "--minimized"])
    (text := ">0\t1\t2\n1\t1\t1\n2*\t2\t2\n".toList) (fs := benchPreparedFiles) (G := "r.spec") (w _ (by simp)) (w _ (by simp)) (w _ (by simp)) (by simp)
    (by simp) rfl ?_ (by decide) (.inl (by simp)) ?_ rfl rfl (by decide +kernel) rfl (ap := 8) (freq := 1) (boot := 5) (by omega) (by omega) (by omega)
    (by omega) (by omega) (by omega) 1 (rest := []) (by simp) out r).2 h
  · refine (run_spec2spec (F := some "a.spec") (by simp) (fun f hf => by cases hf; exact .inr (w _ (by simp)))).2 ?_
    rw [show fileOrStdin readSpec preparedFiles [] (some "a.spec") = .ok ">0 0 1\n1* 0 1\n2 0 1\n".toList from by decide +kernel, Res.bind_ok]
    rw [show doSpec2spec ">0 0 1\n1* 0 1\n2 0 1\n".toList _ _ _ = .ok ">0\t1\t2\n1\t1\t1\n2*\t2\t2\n".toList from by decide +kernel]
    rfl
  · intro lines hl
    rw [textLines_iff, show getlines '\n' (textOf (">0 0 1\n1* 0 1\n2 0 1\n".toList.map fun c => BitVec.ofNat 8 c.toNat)) =
      [">0 0 1".toList, "1* 0 1".toList, "2 0 1".toList] from by decide +kernel] at hl
    subst hl
    intro l hl hn
    have := matchSpecLine_none.2 hn
    revert this
    have : ∀ l ∈ [">0 0 1".toList, "1* 0 1".toList, "2 0 1".toList], ¬ matchSpecLine l = none := by decide +kernel
    exact this l hl

end Homfa.Cli
