import Verif.Proof.TestBench

/-! # C80: the regression test of the benchmark program (test_benchmark.sh) -/

namespace Homfa.Cli

variable {N n l : Nat} {L : Lib N n l} {δ : Noise} {Enc : L.Key → Gsw l N → Bool → Prop}

/-- **C80.** `run_test` of test_benchmark.sh, on a spec, a spec for the reversed behaviour and an input: it passes if and only if there are at
least 30 inputs and, after every 30 inputs, the second spec says about the inputs read backwards what the first says about them.  So it passes
for every spec with its reverse and every input that is long enough, and a wrong reversed spec is found out. -/
theorem C80_run_test (hL : L.Sound δ Enc) (hN : 2 ^ 8 ≤ N) (fs : Files) (s : Scratch) {S R I : String} (hS : ScriptName S) (hR : ScriptName R)
    (hI : ScriptName I) {g rev : Graph} {w : List Bool} {ap : Nat} (hap : 0 < ap) (hap64 : ap < 2 ^ 64) (hg : SpecFile fs S g)
    (hrev : SpecFile fs R rev) (hw : InputFile fs I ap w) (h31 : w.length < 2 ^ 31) (hbud : δ.br + 30000 * δ.cmux + δ.ks + δ.ms < 2 ^ 30)
    {W : Nat} (hW : LiveMax g W) (hW8 : W < 2 ^ 8) (hbudF : W * 2 ^ 7 * flutErr δ W 15 0 + 15 * δ.cmux + δ.ks + δ.ms < 2 ^ 30)
    {B : Nat} (hB : LiveBits g B) (hB31 : B < 31) (hbudB : (30 + B) * δ.cmux + δ.cb < 2 ^ 29) :
    (∃ logs ok, TestRun L fs s (runTest (toString ap) S R I) logs ok) ∧
    ∀ logs ok, TestRun L fs s (runTest (toString ap) S R I) logs ok →
      (ok = true ↔ 30 ≤ w.length ∧ ∀ i ≤ w.length, 0 < i → 30 ∣ i → rev.accepts (w.take i).reverse = g.accepts (w.take i)) := by
  obtain ⟨v, hv⟩ : ∃ v : Nat → Bool, ∀ i, g.accepts (w.take i) = .ok (v i) := ⟨_, fun i => (specFile_wf hg).accepts_eq _⟩
  obtain ⟨u, hu⟩ : ∃ u : Nat → Bool, ∀ i, rev.accepts (w.take i).reverse = .ok (u i) := ⟨_, fun i => (specFile_wf hrev).accepts_eq _⟩
  obtain ⟨a1, a2⟩ := plain_run (L := L) hS hI hg hw hap hap64 (f := "1") (freq := 1) (positive_ok (k := 1) (by omega) (by omega) _) (by decide)
    fun i _ => hv i
  obtain ⟨b1, b2⟩ := plain_run (L := L) hS hI hg hw hap hap64 (f := "30") (freq := 30) (positive_ok (k := 30) (by omega) (by omega) _) (by decide)
    fun i _ => hv i
  obtain ⟨c1, c2⟩ := offline_run hL (by omega) hS hI hg hw hap hap64 hbud h31 (b := v w.length) (by rw [← hv, List.take_length])
  obtain ⟨d1, d2⟩ := reversed_run hL (by omega) hR hI hrev hw hap hap64 hbud fun i _ => hu i
  obtain ⟨e1, e2⟩ := flut_run hL hS hI hg hw hap hap64 hW hW8 hN hbudF fun i _ => hv i
  obtain ⟨f1, f2⟩ := bbs_run hL hS hI hg hw hap hap64 hB (by omega) hB31 hbudB fun i _ => hv i
  constructor
  · refine run_exists _ _ ?_
    intro mode a S' I' f hm
    simp only [runTest, List.mem_cons, List.not_mem_nil, or_false, TestCmd.bench.injEq, reduceCtorEq, false_or] at hm
    rcases hm with ⟨rfl, rfl, rfl, rfl, rfl⟩ | ⟨rfl, rfl, rfl, rfl, rfl⟩ | ⟨rfl, rfl, rfl, rfl, rfl⟩ | ⟨rfl, rfl, rfl, rfl, rfl⟩ |
      ⟨rfl, rfl, rfl, rfl, rfl⟩ | ⟨rfl, rfl, rfl, rfl, rfl⟩
    · exact ⟨_, rfl, a1⟩
    · exact ⟨_, rfl, b1⟩
    · exact ⟨_, rfl, c1⟩
    · exact ⟨_, rfl, d1⟩
    · exact ⟨_, rfl, e1⟩
    · exact ⟨_, rfl, f1⟩
  · intro logs ok h
    have hlen : (reported w.length).map (fun i => resultLine (v i)) = [] ↔ w.length < 30 := by rw [List.map_eq_nil_iff, reported_nil]
    have hiff : (∀ i ≤ w.length, 0 < i → 30 ∣ i → rev.accepts (w.take i).reverse = g.accepts (w.take i)) ↔
        ((reported w.length).map fun i => resultLine (v i)) = ((reported w.length).map fun i => resultLine (u i)) := by
      rw [reported_eq]
      constructor
      · intro h i h1 h2 h3
        have := h i h1 h2 h3
        rw [hv, hu] at this
        exact (Except.ok.inj this).symm
      · intro h i h1 h2 h3
        rw [hv, hu, h i h1 h2 h3]
    rw [hiff]
    rcases run_bench rfl h with ⟨t1, l1, p1, y1, rfl⟩ | ⟨t1, e, p1, rfl⟩
    swap; · cases (a2 _ _ p1).1
    have g1 := (a2 _ _ p1).2
    have y2 := run_keepLast y1
    rcases run_bench rfl y2 with ⟨t2, l2, p2, y3, rfl⟩ | ⟨t2, e, p2, rfl⟩
    swap; · cases (b2 _ _ p2).1
    have g2 := (b2 _ _ p2).2
    change grepResult t2 = (reported w.length).map _ at g2
    rcases run_keep y3 with ⟨k1, rfl⟩ | ⟨k1, y4⟩
    · dsimp only at k1
      rw [g2, hlen] at k1
      simp only [Bool.false_eq_true, false_iff]
      omega
    dsimp only at k1
    rw [g2, Ne, hlen] at k1
    have hne : w ≠ [] := by rintro rfl; simp at k1
    rcases run_bench rfl y4 with ⟨t3, l3, p3, y5, rfl⟩ | ⟨t3, e, p3, rfl⟩
    swap; · cases (c2 _ _ p3).1
    have g3 := (c2 _ _ p3).2
    rw [if_neg hne] at g3
    rcases run_diffLast y5 with ⟨k2, rfl⟩ | ⟨_, y6⟩
    · exfalso
      dsimp only at k2
      rw [g1, g3, last_line (by omega)] at k2
      exact k2 rfl
    rcases run_bench rfl y6 with ⟨t4, l4, p4, y7, rfl⟩ | ⟨t4, e, p4, rfl⟩
    swap; · cases (d2 _ _ p4).1
    have g4 := (d2 _ _ p4).2
    rcases run_diff y7 with ⟨k3, rfl⟩ | ⟨k3, y8⟩
    · dsimp only at k3
      rw [g2, g4] at k3
      simp only [Bool.false_eq_true, false_iff]
      exact fun x => k3 x.2
    dsimp only at k3
    rw [g2, g4] at k3
    rcases run_bench rfl y8 with ⟨t5, l5, p5, y9, rfl⟩ | ⟨t5, e, p5, rfl⟩
    swap; · cases (e2 _ _ p5).1
    have g5 := (e2 _ _ p5).2
    rcases run_diff y9 with ⟨k4, rfl⟩ | ⟨_, y10⟩
    · exfalso
      dsimp only at k4
      rw [g2, g5] at k4
      exact k4 rfl
    rcases run_bench rfl y10 with ⟨t6, l6, p6, y11, rfl⟩ | ⟨t6, e, p6, rfl⟩
    swap; · cases (f2 _ _ p6).1
    have g6 := (f2 _ _ p6).2
    rcases run_diff y11 with ⟨k5, rfl⟩ | ⟨_, y12⟩
    · exfalso
      dsimp only at k5
      rw [g2, g6] at k5
      exact k5 rfl
    cases y12
    simp only [true_iff]
    exact ⟨by omega, k3⟩

/-- **C80 (what a pass means).** Nothing is assumed of the encryption here: if `run_test` passes then there are at least 30 inputs, the OFFLINE
method has told whether the first spec accepts all of them, and each of the three online methods has told it after every 30 inputs. -/
theorem C80_pass_means (L : Lib N n l) (fs : Files) (s : Scratch) {S R I : String} (hS : ScriptName S) (hI : ScriptName I) {g : Graph}
    {w : List Bool} {ap : Nat} (hap : 0 < ap) (hap64 : ap < 2 ^ 64) (hg : SpecFile fs S g) (hw : InputFile fs I ap w)
    {v : Nat → Bool} (hv : ∀ i, g.accepts (w.take i) = .ok (v i)) {logs : List (String × List Char)}
    (h : TestRun L fs s (runTest (toString ap) S R I) logs true) :
    30 ≤ w.length ∧ ∃ p1 p2 offline reversed flut bbs, logs = [("plain", p1), ("plain", p2), ("offline", offline), ("reversed", reversed),
      ("flut", flut), ("bbs", bbs)] ∧ grepResult offline = [resultLine (v w.length)] ∧
      ∀ log ∈ [reversed, flut, bbs], grepResult log = (reported w.length).map fun i => resultLine (v i) := by
  obtain ⟨a1, a2⟩ := plain_run (L := L) hS hI hg hw hap hap64 (f := "1") (freq := 1) (positive_ok (k := 1) (by omega) (by omega) _) (by decide)
    fun i _ => hv i
  obtain ⟨b1, b2⟩ := plain_run (L := L) hS hI hg hw hap hap64 (f := "30") (freq := 30) (positive_ok (k := 30) (by omega) (by omega) _) (by decide)
    fun i _ => hv i
  have hlen : (reported w.length).map (fun i => resultLine (v i)) = [] ↔ w.length < 30 := by rw [List.map_eq_nil_iff, reported_nil]
  rcases run_bench rfl h with ⟨t1, l1, p1, y1, rfl⟩ | ⟨t1, e, p1, ⟨⟩⟩
  have g1 := (a2 _ _ p1).2
  have y2 := run_keepLast y1
  rcases run_bench rfl y2 with ⟨t2, l2, p2, y3, rfl⟩ | ⟨t2, e, p2, ⟨⟩⟩
  have g2 := (b2 _ _ p2).2
  change grepResult t2 = (reported w.length).map _ at g2
  rcases run_keep y3 with ⟨k1, ⟨⟩⟩ | ⟨k1, y4⟩
  dsimp only at k1
  rw [g2, Ne, hlen] at k1
  rcases run_bench rfl y4 with ⟨t3, l3, p3, y5, rfl⟩ | ⟨t3, e, p3, ⟨⟩⟩
  rcases run_diffLast y5 with ⟨k2, ⟨⟩⟩ | ⟨k2, y6⟩
  rcases run_bench rfl y6 with ⟨t4, l4, p4, y7, rfl⟩ | ⟨t4, e, p4, ⟨⟩⟩
  rcases run_diff y7 with ⟨k3, ⟨⟩⟩ | ⟨k3, y8⟩
  rcases run_bench rfl y8 with ⟨t5, l5, p5, y9, rfl⟩ | ⟨t5, e, p5, ⟨⟩⟩
  rcases run_diff y9 with ⟨k4, ⟨⟩⟩ | ⟨k4, y10⟩
  rcases run_bench rfl y10 with ⟨t6, l6, p6, y11, rfl⟩ | ⟨t6, e, p6, ⟨⟩⟩
  rcases run_diff y11 with ⟨k5, ⟨⟩⟩ | ⟨k5, y12⟩
  generalize hb : true = b at y12
  cases y12
  dsimp only at k2 k3 k4 k5
  rw [g1, last_line (by omega)] at k2
  rw [g2] at k3 k4 k5
  refine ⟨by omega, t1, t2, t3, t4, t5, t6, rfl, k2.symm, ?_⟩
  intro log hlog
  simp only [List.mem_cons, List.not_mem_nil, or_false] at hlog
  rcases hlog with rfl | rfl | rfl
  · exact k3.symm
  · exact k4.symm
  · exact k5.symm

/-- a spec of the words whose first bit, if there is one, is 1: the reverse of `a.spec` -/
def exRevSpec : List Char := ">0*\t1\t2\n1\t1\t1\n2*\t2\t2\n".toList

/-- `a.spec`, its reverse `r.spec`, and seven records of five propositions in `in` -/
def tbFiles : Files := fun f =>
  if f = "a.spec" then some (exSpec.map fun c => BitVec.ofNat 8 c.toNat)
  else if f = "r.spec" then some (exRevSpec.map fun c => BitVec.ofNat 8 c.toNat)
  else if f = "in" then some [0x1e#8, 0x01#8, 0x10#8, 0x07#8, 0x1f#8, 0x1e#8, 0x01#8]
  else none

def exRev : Graph := match Graph.fromIstream (textOf (exRevSpec.map fun c => BitVec.ofNat 8 c.toNat)) with
  | .ok g => g
  | .error _ => Graph.built 0 [] []

theorem exRev_read : Graph.fromIstream (textOf (exRevSpec.map fun c => BitVec.ofNat 8 c.toNat)) = .ok exRev := by
  unfold exRev
  have : ∃ g, Graph.fromIstream (textOf (exRevSpec.map fun c => BitVec.ofNat 8 c.toNat)) = .ok g := by
    have hp : doRunPlain (textOf (exRevSpec.map fun c => BitVec.ofNat 8 c.toNat)) (some []) 5 = .ok ['1'] := by decide +kernel
    obtain ⟨g', _, _, h1, _⟩ := plain_ok (by omega) hp
    exact ⟨g', h1⟩
  obtain ⟨g, hg⟩ := this
  rw [hg]

/-- On these files `run_test` passes with `r.spec` as the reversed spec and fails with `a.spec` in its place. -/
example : ∃ L : Lib 256 2 1, ∀ s, (∃ logs, TestRun L tbFiles s (runTest "5" "a.spec" "r.spec" "in") logs true) ∧
    (∀ logs ok, TestRun L tbFiles s (runTest "5" "a.spec" "r.spec" "in") logs ok → ok = true) ∧
    (∃ logs, TestRun L tbFiles s (runTest "5" "a.spec" "a.spec" "in") logs false) ∧
    (∀ logs ok, TestRun L tbFiles s (runTest "5" "a.spec" "a.spec" "in") logs ok → ok = false) := by
  obtain ⟨φ, hφ⟩ := exists_numbering 256
  have hsize := exSpec_size exG exG_read
  have hg : SpecFile tbFiles "a.spec" exG := ⟨_, by decide, exG_read, by rw [hsize.2]; decide⟩
  have hr : SpecFile tbFiles "r.spec" exRev := ⟨_, by decide, exRev_read, by decide +kernel⟩
  have hw : InputFile tbFiles "in" 5 ([0x1e#8, 0x01#8, 0x10#8, 0x07#8, 0x1f#8, 0x1e#8, 0x01#8].flatMap fun b => recordBits 5 [b]) :=
    ⟨[[0x1e#8], [0x01#8], [0x10#8], [0x07#8], [0x1f#8], [0x1e#8], [0x01#8]], by decide, by decide, by decide⟩
  have hname : ∀ f ∈ ["a.spec", "r.spec", "in"], ScriptName f := by
    intro f hf
    simp only [List.mem_cons, List.not_mem_nil, or_false] at hf
    rcases hf with rfl | rfl | rfl <;> exact ⟨by unfold Word; decide, by decide⟩
  have hW : LiveMax exG 2 := by have := liveMax_of_size hsize.1; rwa [hsize.2] at this
  have hB : LiveBits exG 2 := liveBits_of_size hsize.1 (by rw [hsize.2]; decide)
  have key := fun {R rev} (hn : ScriptName R) (h : SpecFile tbFiles R rev) s =>
    C80_run_test (toyLib_sound (n := 2) (l := 1) (N := 256) (by omega) (by omega) hφ) (by decide) tbFiles s (hname "a.spec" (by simp)) hn
      (hname "in" (by simp)) (ap := 5) (by omega) (by omega) hg h hw (by decide) (by decide) hW (by decide) (by decide) hB (by decide) (by decide)
  refine ⟨toyLib 256 2 1 φ, fun s => ?_⟩
  obtain ⟨⟨l1, ok1, r1⟩, h1⟩ := key (hname "r.spec" (by simp)) hr s
  obtain ⟨⟨l2, ok2, r2⟩, h2⟩ := key (hname "a.spec" (by simp)) hg s
  have p1 : ∀ logs ok, TestRun (toyLib 256 2 1 φ) tbFiles s (runTest "5" "a.spec" "r.spec" "in") logs ok → ok = true := by
    intro logs ok h
    refine (h1 logs ok h).2 ⟨by decide, ?_⟩
    decide +kernel
  have p2 : ∀ logs ok, TestRun (toyLib 256 2 1 φ) tbFiles s (runTest "5" "a.spec" "a.spec" "in") logs ok → ok = false := by
    intro logs ok h
    have := (h2 logs ok h).1
    cases ok with
    | false => rfl
    | true =>
      have := (this rfl).2 30 (by decide) (by decide) (by decide)
      revert this
      decide +kernel
  have e1 := p1 _ _ r1
  have e2 := p2 _ _ r2
  subst e1 e2
  exact ⟨⟨_, r1⟩, p1, ⟨_, r2⟩, p2⟩

end Homfa.Cli
