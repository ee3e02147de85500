import Verif.Props.TestHomfa
import Verif.Props.TestBench
import Verif.Proof.Temporal

/-! # C80: test_benchmark.sh with the files of the repository -/

namespace Homfa.Cli

variable {N n l : Nat} {L : Lib N n l} {δ : Noise} {Enc : L.Key → Gsw l N → Bool → Prop}

/-- the calls of test_benchmark.sh (test_benchmark.sh:96-104): number of propositions, spec, reversed spec, input -/
def repoTests : List (Nat × String × String × String) := [
  (2, "test/01.spec", "test/01_rev.spec", "test/01-01.in"), (2, "test/01.spec", "test/01_rev.spec", "test/01-02.in"),
  (2, "test/01.spec", "test/01_rev.spec", "test/01-03.in"), (2, "test/01.spec", "test/01_rev.spec", "test/01-04.in"),
  (2, "test/01.spec", "test/01_rev.spec", "test/01-05.in"), (2, "test/01.spec", "test/01_rev.spec", "test/01-06.in"),
  (9, "test/10.spec", "test/10_rev.spec", "test/10-01.in"), (9, "test/10.spec", "test/10_rev.spec", "test/10-02.in"),
  (9, "test/10.spec", "test/10_rev.spec", "test/10-03.in")]

/-- the spec files of the repository are reverses of each other -/
theorem rev_spec {fs : Files} {S R : String} {specB revB : List Byte} (hS : fs S = some specB) (hR : fs R = some revB)
    (hsize : (Graph.fromIstream (textOf specB)).map Graph.size = .ok 9)
    (h : ((Graph.fromIstream (textOf specB)).bind fun g => g.reversed.bind Graph.dump) = .ok (textOf revB)) (hlen : revB.length ≤ 2 ^ 31) :
    ∃ g rev, SpecFile fs S g ∧ SpecFile fs R rev ∧ g.WF ∧ g.size = 9 ∧ ∀ w, rev.accepts w.reverse = g.accepts w := by
  obtain ⟨g, hg, h⟩ := Res.bind_eq_ok.1 h
  obtain ⟨r, hr, h⟩ := Res.bind_eq_ok.1 h
  have hz : g.size = 9 := by rw [hg] at hsize; exact Except.ok.inj hsize
  have hwf := wf_of_fromIstream hg (by omega)
  obtain ⟨r', h1, h2, h3⟩ := C03_reversed_language g hwf
  rw [hr] at h1
  cases h1
  have hl : (textOf revB).length = revB.length := by simp [textOf]
  obtain ⟨out, e1, e2⟩ := C14_dump_parse r h2 (Nat.le_trans (Graph.length_dump h2 h) (by rw [hl]; exact hlen))
  rw [h] at e1
  cases e1
  refine ⟨g, _, ⟨specB, hS, hg, by omega⟩, ⟨revB, hR, e2, Nat.zero_lt_of_lt h2.init_lt⟩, hwf, hz, fun w => ?_⟩
  have := h3 w.reverse
  rw [List.reverse_reverse] at this
  exact this

theorem in_plain {fs : Files} {I : String} {inB : List Byte} (hi : fs I = some inB) {ap : Nat} (hap : 0 < ap) (hl : 30 ≤ inB.length ∧ 8 * inB.length < 2 ^ 31)
    {spec out : List Char} (h : doRunPlain spec (some inB) ap = .ok out) : ∃ w, InputFile fs I ap w ∧ 30 ≤ w.length ∧ w.length < 2 ^ 31 := by
  obtain ⟨g, rs, b', p1, p2, p3, p4, p5, p6⟩ := plain_ok hap h
  cases p3
  refine ⟨_, ⟨rs, hi, p4, rfl⟩, Nat.le_trans hl.1 ?_, lt_of_le_of_lt (length_bits_le p4) hl.2⟩
  clear hi hl h p5
  induction rs with
  | nil => simp
  | cons r rs ih =>
    have h1 := p4 r (by simp)
    have h2 : (recordBits ap r).length = ap := by simp [recordBits]
    have h3 : recordBytes ap ≤ ap := by unfold recordBytes; omega
    have := ih fun r hr => p4 r (by simp [hr])
    simp only [List.flatten_cons, List.flatMap_cons, List.length_append]
    omega

/-- **C80, the script as it is.** With the files of the repository, each of the nine calls of `run_test` passes, whatever is in the scratch files
and whatever the keys and the randomness, for every sound library within the limits of the methods. -/
theorem C80_repo (hL : L.Sound δ Enc) (hN : 2 ^ 8 ≤ N) (hbud : δ.br + 30000 * δ.cmux + δ.ks + δ.ms < 2 ^ 30)
    (hflut : 9 * 2 ^ 7 * flutErr δ 9 15 0 + 15 * δ.cmux + δ.ks + δ.ms < 2 ^ 30) (hblock : (30 + 4) * δ.cmux + δ.cb < 2 ^ 29) (fs : Files)
    (hfs : ∀ p ∈ testFiles, fs p.1 = some p.2) 
    (hrev : fs "test/10_rev.spec" = some (bytesOf ">0*\t0\t1\n1\t1\t2\n2\t2\t3\n3\t3\t4\n4\t4\t5\n5\t5\t6\n6\t6\t7\n7\t7\t8\n8\t8\t0\n")) :
    ∀ t ∈ repoTests, ∀ s, (∃ logs, TestRun L fs s (runTest (toString t.1) t.2.1 t.2.2.1 t.2.2.2) logs true) ∧
      ∀ logs ok, TestRun L fs s (runTest (toString t.1) t.2.1 t.2.2.1 t.2.2.2) logs ok → ok = true := by
  have hf : ∀ (i : Nat) (p : String × List Byte), testFiles[i]? = some p → fs p.1 = some p.2 := fun i p h => hfs p (List.mem_of_getElem? h)
  have key : ∀ {S R I g rev ap} {w : List Bool}, ScriptName S → ScriptName R → ScriptName I → SpecFile fs S g → SpecFile fs R rev → g.WF → g.size = 9 →
      (∀ w, rev.accepts w.reverse = g.accepts w) → InputFile fs I ap w → 30 ≤ w.length ∧ w.length < 2 ^ 31 → 0 < ap → ap < 2 ^ 64 → ∀ s,
      (∃ logs, TestRun L fs s (runTest (toString ap) S R I) logs true) ∧
        ∀ logs ok, TestRun L fs s (runTest (toString ap) S R I) logs ok → ok = true := by
    intro S R I g rev ap w nS nR nI hg hr hwf hz hl hi hlen h0 h64 s
    obtain ⟨⟨logs, ok, h1⟩, h2⟩ := C80_run_test hL hN fs s nS nR nI h0 h64 hg hr hi hlen.2 hbud (W := 9)
      (by have := liveMax_of_size hwf; rwa [hz] at this) (by decide) hflut (B := 4) (liveBits_of_size hwf (by rw [hz]; decide)) (by omega) hblock
    have h3 : ∀ logs ok, TestRun L fs s (runTest (toString ap) S R I) logs ok → ok = true := fun logs ok h =>
      (h2 logs ok h).2 ⟨hlen.1, fun i _ _ _ => hl _⟩
    have := h3 _ _ h1
    subst this
    exact ⟨⟨_, h1⟩, h3⟩
  have z1 : (Graph.fromIstream (textOf (testFiles[0].2))).map Graph.size = .ok 9 := by decide +kernel
  have z3 : (Graph.fromIstream (textOf (testFiles[2].2))).map Graph.size = .ok 9 := by decide +kernel
  obtain ⟨g, r, k1, k2, k3, k4, k5⟩ := rev_spec (hf 0 _ rfl) (hf 1 _ rfl) z1 (by decide +kernel) (by decide)
  obtain ⟨g', r', m1, m2, m3, m4, m5⟩ := rev_spec (hf 2 _ rfl) hrev z3 (by decide +kernel) (by decide)
  obtain ⟨w1, i1, j1⟩ := in_plain (hf 3 _ rfl) (ap := 2) (by omega) (by decide +kernel) (spec := textOf testFiles[0].2) (out := ['1'])
    (by decide +kernel)
  obtain ⟨w2, i2, j2⟩ := in_plain (hf 4 _ rfl) (ap := 2) (by omega) (by decide +kernel) (spec := textOf testFiles[0].2) (out := ['0'])
    (by decide +kernel)
  obtain ⟨w3, i3, j3⟩ := in_plain (hf 5 _ rfl) (ap := 2) (by omega) (by decide +kernel) (spec := textOf testFiles[0].2) (out := ['1'])
    (by decide +kernel)
  obtain ⟨w4, i4, j4⟩ := in_plain (hf 6 _ rfl) (ap := 2) (by omega) (by decide +kernel) (spec := textOf testFiles[0].2) (out := ['0'])
    (by decide +kernel)
  obtain ⟨w5, i5, j5⟩ := in_plain (hf 7 _ rfl) (ap := 2) (by omega) (by decide +kernel) (spec := textOf testFiles[0].2) (out := ['1'])
    (by decide +kernel)
  obtain ⟨w6, i6, j6⟩ := in_plain (hf 8 _ rfl) (ap := 2) (by omega) (by decide +kernel) (spec := textOf testFiles[0].2) (out := ['0'])
    (by decide +kernel)
  obtain ⟨w7, i7, j7⟩ := in_plain (hf 11 _ rfl) (ap := 9) (by omega) (by decide +kernel) (spec := textOf testFiles[2].2) (out := ['1'])
    (by decide +kernel)
  obtain ⟨w8, i8, j8⟩ := in_plain (hf 12 _ rfl) (ap := 9) (by omega) (by decide +kernel) (spec := textOf testFiles[2].2) (out := ['0'])
    (by decide +kernel)
  obtain ⟨w9, i9, j9⟩ := in_plain (hf 13 _ rfl) (ap := 9) (by omega) (by decide +kernel) (spec := textOf testFiles[2].2) (out := ['1'])
    (by decide +kernel)
  have nn : ∀ f : String, f.toList.head? = some 't' ∧ '\n' ∉ f.toList → ScriptName f := fun f h => ⟨by unfold Word; rw [h.1]; decide, h.2⟩
  intro t ht
  simp only [repoTests, List.mem_cons, List.not_mem_nil, or_false] at ht
  rcases ht with rfl | rfl | rfl | rfl | rfl | rfl | rfl | rfl | rfl
  · exact key (nn _ (by decide)) (nn _ (by decide)) (nn _ (by decide)) k1 k2 k3 k4 k5 i1 j1 (by omega) (by omega)
  · exact key (nn _ (by decide)) (nn _ (by decide)) (nn _ (by decide)) k1 k2 k3 k4 k5 i2 j2 (by omega) (by omega)
  · exact key (nn _ (by decide)) (nn _ (by decide)) (nn _ (by decide)) k1 k2 k3 k4 k5 i3 j3 (by omega) (by omega)
  · exact key (nn _ (by decide)) (nn _ (by decide)) (nn _ (by decide)) k1 k2 k3 k4 k5 i4 j4 (by omega) (by omega)
  · exact key (nn _ (by decide)) (nn _ (by decide)) (nn _ (by decide)) k1 k2 k3 k4 k5 i5 j5 (by omega) (by omega)
  · exact key (nn _ (by decide)) (nn _ (by decide)) (nn _ (by decide)) k1 k2 k3 k4 k5 i6 j6 (by omega) (by omega)
  · exact key (nn _ (by decide)) (nn _ (by decide)) (nn _ (by decide)) m1 m2 m3 m4 m5 i7 j7 (by omega) (by omega)
  · exact key (nn _ (by decide)) (nn _ (by decide)) (nn _ (by decide)) m1 m2 m3 m4 m5 i8 j8 (by omega) (by omega)
  · exact key (nn _ (by decide)) (nn _ (by decide)) (nn _ (by decide)) m1 m2 m3 m4 m5 i9 j9 (by omega) (by omega)

/-- The assumptions can be met. -/
example : ∃ (L : Lib 256 2 1) (fs : Files), ∀ t ∈ repoTests, ∀ s,
    (∃ logs, TestRun L fs s (runTest (toString t.1) t.2.1 t.2.2.1 t.2.2.2) logs true) := by
  obtain ⟨φ, hφ⟩ := exists_numbering 256
  refine ⟨toyLib 256 2 1 φ, fun f => (("test/10_rev.spec", testFiles[2].2) :: testFiles).lookup f, fun t ht s => ?_⟩
  refine (C80_repo (toyLib_sound (n := 2) (l := 1) (N := 256) (by omega) (by omega) hφ) (by decide) (by decide) (by decide) (by decide) _ ?_ ?_ t
    ht s).1
  · intro p hp
    exact lookup_of_mem (by decide) (List.mem_cons_of_mem _ hp)
  · rfl

end Homfa.Cli
