import Verif.Proof.TestHomfa

/-! # C81: the end-to-end test (test_homfa.sh) -/

namespace Homfa.Cli

variable {N n l : Nat} {L : Lib N n l} {δ : Noise} {Enc : L.Key → Gsw l N → Bool → Prop}

/-- **C81.** The end-to-end test with any list of checks, on an empty directory or with the keys of an earlier run: within the limits of the
methods it passes if and only if every expected result is the verdict of the automaton, whatever the keys and the randomness. -/
theorem C81_suite (hL : L.Sound δ Enc) (hN : 0 < N) (hl : 0 < l) (hbs : blockSize l N < 2 ^ 63) (fs : Files) (hk : KeysReady L fs)
    (cs : List SuiteCheck) (G : SuiteCheck → Graph) (W : SuiteCheck → List Bool)
    (hcs : ∀ c ∈ cs, c.Files fs (G c) (W c) ∧ c.Within N l δ fs (G c) (W c)) :
    (∃ ok, SuiteRun L fs cs ok) ∧ ∀ ok, SuiteRun L fs cs ok → (ok = true ↔ ∀ c ∈ cs, c.verdict (G c) (W c) = .ok c.expect) := by
  obtain ⟨⟨fs1, fs2, p1, p2⟩, p3, p4⟩ := prepared hL hk
  have hrun : ∀ fs2 : Files, Keys L fs2 → (∀ f, f ∉ scratchNames → fs2 f = fs f) → _ := fun fs2 h1 h2 =>
    checks_run hL hN hl hbs G W cs fs2 h1 fun c hc => ⟨(hcs c hc).1.other h2, (hcs c hc).2.other (hcs c hc).1 h2⟩
  constructor
  · obtain ⟨k1, k2⟩ := (p4 fs1 p1).2 fs2 p2
    obtain ⟨⟨ok, h⟩, -⟩ := hrun fs2 k1 k2
    exact ⟨ok, .checks p1 p2 h⟩
  · intro ok h
    cases h with
    | noKey h => exact absurd h p3
    | noBKey h h' => exact absurd h' (p4 _ h).1
    | checks h h' h'' =>
      obtain ⟨k1, k2⟩ := (p4 _ h).2 _ h'
      exact (hrun _ k1 k2).2 ok h''

/-- the files of test/ that the script uses -/
def testFiles : List (String × List Byte) := [
  ("test/01.spec", bytesOf ">0* 1   2\n1   3   4\n2   3   0\n3   5   6\n4   7   8\n5   3   4\n6   3   0\n7   4   4\n8   0   0\n"),
  ("test/01_rev.spec", bytesOf ">0*\t1\t2\n1\t3\t4\n2\t3\t5\n3\t3\t3\n4\t6\t7\n5*\t8\t8\n6\t4\t3\n7\t5\t3\n8\t5\t5\n"),
  ("test/10.spec", bytesOf ">0*\t0\t1\n1\t1\t2\n2\t2\t3\n3\t3\t4\n4\t4\t5\n5\t5\t6\n6\t6\t7\n7\t7\t8\n8\t8\t0\n"),
  ("test/01-01.in", (List.replicate 800 [3#8]).flatten),
  ("test/01-02.in", (List.replicate 800 [1#8]).flatten),
  ("test/01-03.in", (List.replicate 160 [0#8, 1#8, 2#8, 2#8, 3#8]).flatten),
  ("test/01-04.in", (List.replicate 160 [1#8, 0#8]).flatten ++ [1#8] ++ (List.replicate 160 [2#8, 0#8]).flatten ++ [2#8]),
  ("test/01-05.in", (List.replicate 800 [0#8, 1#8, 2#8, 2#8, 3#8]).flatten),
  ("test/01-06.in", (List.replicate 800 [1#8, 0#8]).flatten ++ [1#8] ++ (List.replicate 1200 [2#8, 0#8]).flatten ++ [2#8]),
  ("test/01-07.in", (List.replicate 4 [3#8]).flatten),
  ("test/01-08.in", (List.replicate 4 [1#8]).flatten),
  ("test/10-01.in", (List.replicate 100 [255#8, 1#8]).flatten),
  ("test/10-02.in", (List.replicate 100 [255#8, 0#8]).flatten),
  ("test/10-03.in", (List.replicate 90 [255#8, 0#8]).flatten)]

theorem lookup_of_mem {xs : List (String × List Byte)} (h : (xs.map Prod.fst).Nodup) {p} (hp : p ∈ xs) : xs.lookup p.1 = some p.2 := by
  induction xs with
  | nil => cases hp
  | cons x xs ih =>
    obtain ⟨k, v⟩ := x
    simp only [List.map_cons, List.nodup_cons] at h
    rw [List.lookup_cons]
    rcases List.mem_cons.1 hp with rfl | hp
    · simp
    · have hne : p.1 ≠ k := fun e => h.1 (e ▸ List.mem_map_of_mem hp)
      rw [show (p.1 == k) = false by simp [hne]]
      exact ih h.2 hp

/-- a spec of nine states and an input with the verdict `b` -/
def TestFacts (fs : Files) (spec input : String) (ap : Nat) (rev b : Bool) : Prop :=
  ∃ g w, SpecFile fs spec g ∧ InputFile fs input ap w ∧ g.accepts (if rev then w.reverse else w) = .ok b ∧ g.WF ∧ g.size = 9 ∧ w ≠ [] ∧
    ∀ b, fs input = some b → b.length ≤ 4002

theorem testFacts_plain {fs : Files} {spec input : String} {ap : Nat} {specB inB : List Byte} (hap : 0 < ap) (hs : fs spec = some specB)
    (hi : fs input = some inB) (hsize : (Graph.fromIstream (textOf specB)).map Graph.size = .ok 9) (hlen : 0 < inB.length ∧ inB.length ≤ 4002)
    {b : Bool} (h : doRunPlain (textOf specB) (some inB) ap = .ok (printResult b)) : TestFacts fs spec input ap false b := by
  obtain ⟨g, rs, b', p1, p2, p3, p4, p5, p6⟩ := plain_ok hap h
  have hg : g.size = 9 := by rw [p1] at hsize; exact Except.ok.inj hsize
  have hb : b = b' := (by decide : ∀ b b' : Bool, printResult b = printResult b' → b = b') b b' p6
  subst hb
  cases p3
  refine ⟨g, _, ⟨specB, hs, p1, by omega⟩, ⟨rs, hi, p4, rfl⟩, p5, p2, hg, ?_, fun b hb => by rw [hi] at hb; cases hb; exact hlen.2⟩
  intro e
  cases rs with
  | nil => simp at hlen
  | cons r rs =>
    have := congrArg List.length e
    simp [recordBits] at this
    omega

theorem testFacts_rev {fs : Files} {spec input : String} {specB inB : List Byte} (hs : fs spec = some specB)
    (hi : fs input = some inB) (hsize : (Graph.fromIstream (textOf specB)).map Graph.size = .ok 9) {rs : List (List Byte)}
    (hrs : ∀ r ∈ rs, r.length = recordBytes 2) (hne : rs.flatMap (recordBits 2) ≠ []) (he : inB = rs.flatten) (hlen : inB.length ≤ 4002) {b : Bool}
    (h : (Graph.fromIstream (textOf specB)).bind (fun g => g.accepts (rs.flatMap (recordBits 2)).reverse) = .ok b) {out}
    (hp : doRunPlain (textOf specB) (some inB) 2 = .ok out) : TestFacts fs spec input 2 true b := by
  obtain ⟨g, _, _, p1, p2, _⟩ := plain_ok (by omega) hp
  have hg : g.size = 9 := by rw [p1] at hsize; exact Except.ok.inj hsize
  rw [p1] at h
  exact ⟨g, _, ⟨specB, hs, p1, by omega⟩, ⟨rs, by rw [hi, he], hrs, rfl⟩, h, p2, hg, hne,
    fun b hb => by rw [hi] at hb; cases hb; exact hlen⟩

/-- **C81, the script as it is.** With the files of the repository, on an empty directory or with the keys of an earlier run, every run of the 46
checks passes, whatever the keys and the randomness, for every sound library within the limits of the methods. -/
theorem C81_repo (hL : L.Sound δ Enc) (hN : 2 ^ 8 ≤ N) (hl : 0 < l) (hbs : 8 * 4002 * blockSize l N < 2 ^ 63)
    (hbud : δ.br + 8000 * δ.cmux + δ.ks + δ.ms < 2 ^ 30) (hflut : 9 * 2 ^ 7 * flutErr δ 9 15 0 + 15 * δ.cmux + δ.ks + δ.ms < 2 ^ 30)
    (hblock : (15 + 4) * δ.cmux + δ.cb < 2 ^ 29) (fs : Files) (hk : KeysReady L fs) (hfs : ∀ p ∈ testFiles, fs p.1 = some p.2) :
    (∃ ok, SuiteRun L fs repoChecks ok) ∧ ∀ ok, SuiteRun L fs repoChecks ok → ok = true := by
  have mk : ∀ {mode ap apN spec input rev b}, TestFacts fs spec input apN rev b → ap = toString apN → 0 < apN → apN < 2 ^ 64 →
      mode ∈ ["offline-dfa", "online-dfa-reversed", "online-dfa-reversed-with-rev-spec", "online-dfa-qtrlwe2", "dfa-plain",
        "online-dfa-blockbackstream"] → rev = decide (mode = "online-dfa-reversed-with-rev-spec") →
      Word spec ∧ Word input → spec ∉ scratchNames ∧ input ∉ scratchNames →
      ∃ g w, (SuiteCheck.mk b mode ap spec input).Files fs g w ∧ (SuiteCheck.mk b mode ap spec input).Within N l δ fs g w ∧
        (SuiteCheck.mk b mode ap spec input).verdict g w = .ok b := by
    rintro mode ap apN spec input rev b ⟨g, w, f1, f2, f3, f4, f5, f6, f7⟩ rfl h1 h2 hm rfl hw hd
    refine ⟨g, w, ⟨⟨apN, rfl, h1, h2, f2⟩, f1, hw, hd⟩, ⟨hm, fun b hb => ?_, fun _ => hbud, fun _ => ⟨hN, 9, ?_, by decide, hflut⟩,
      fun _ => ⟨f6, 4, liveBits_of_size f4 (by rw [f5]; decide), by omega, by omega, hblock⟩,
      fun _ => by obtain ⟨rs, i1, i2, rfl⟩ := f2; have := f7 _ i1; have := length_bits_le i2; omega⟩, ?_⟩
    · have := f7 b hb
      calc 8 * b.length * blockSize l N ≤ 8 * 4002 * blockSize l N := Nat.mul_le_mul_right _ (by omega)
        _ < _ := hbs
    · have := liveMax_of_size f4; rwa [f5] at this
    · unfold SuiteCheck.verdict
      by_cases h : mode = "online-dfa-reversed-with-rev-spec"
      · rw [if_pos h]; simpa [h] using f3
      · rw [if_neg h]; simpa [h] using f3
  have hbs' : blockSize l N < 2 ^ 63 := by omega
  suffices hcs : ∀ c ∈ repoChecks, ∃ g w, c.Files fs g w ∧ c.Within N l δ fs g w ∧ c.verdict g w = .ok c.expect by
    have : ∀ c : SuiteCheck, ∃ (g : Graph) (w : List Bool), c ∈ repoChecks → c.Files fs g w ∧ c.Within N l δ fs g w ∧ c.verdict g w = .ok c.expect := by
      intro c
      by_cases h : c ∈ repoChecks
      · obtain ⟨g, w, h⟩ := hcs c h; exact ⟨g, w, fun _ => h⟩
      · obtain ⟨g, -⟩ := hcs _ (.head _)
        exact ⟨g, [], fun h' => absurd h' h⟩
    choose G W h using this
    obtain ⟨h1, h2⟩ := C81_suite hL (by omega) hl hbs' fs hk repoChecks G W fun c hc => ⟨(h c hc).1, (h c hc).2.1⟩
    exact ⟨h1, fun ok hok => (h2 ok hok).2 fun c hc => (h c hc).2.2⟩
  have hf : ∀ (i : Nat) (p : String × List Byte), testFiles[i]? = some p → fs p.1 = some p.2 := fun i p h => hfs p (List.mem_of_getElem? h)
  have z1 : (Graph.fromIstream (textOf (testFiles[0].2))).map Graph.size = .ok 9 := by decide +kernel
  have z2 : (Graph.fromIstream (textOf (testFiles[1].2))).map Graph.size = .ok 9 := by decide +kernel
  have z3 : (Graph.fromIstream (textOf (testFiles[2].2))).map Graph.size = .ok 9 := by decide +kernel
  have a1 : TestFacts fs "test/01.spec" "test/01-01.in" 2 false true :=
    testFacts_plain (by omega) (hf 0 _ rfl) (hf 3 _ rfl) z1 (by decide +kernel) (by decide +kernel)
  have a2 : TestFacts fs "test/01.spec" "test/01-02.in" 2 false false :=
    testFacts_plain (by omega) (hf 0 _ rfl) (hf 4 _ rfl) z1 (by decide +kernel) (by decide +kernel)
  have a3 : TestFacts fs "test/01.spec" "test/01-03.in" 2 false true :=
    testFacts_plain (by omega) (hf 0 _ rfl) (hf 5 _ rfl) z1 (by decide +kernel) (by decide +kernel)
  have a4 : TestFacts fs "test/01.spec" "test/01-04.in" 2 false false :=
    testFacts_plain (by omega) (hf 0 _ rfl) (hf 6 _ rfl) z1 (by decide +kernel) (by decide +kernel)
  have a5 : TestFacts fs "test/01.spec" "test/01-05.in" 2 false true :=
    testFacts_plain (by omega) (hf 0 _ rfl) (hf 7 _ rfl) z1 (by decide +kernel) (by decide +kernel)
  have a6 : TestFacts fs "test/01.spec" "test/01-06.in" 2 false false :=
    testFacts_plain (by omega) (hf 0 _ rfl) (hf 8 _ rfl) z1 (by decide +kernel) (by decide +kernel)
  have a7 : TestFacts fs "test/01.spec" "test/01-07.in" 2 false true :=
    testFacts_plain (by omega) (hf 0 _ rfl) (hf 9 _ rfl) z1 (by decide +kernel) (by decide +kernel)
  have a8 : TestFacts fs "test/01.spec" "test/01-08.in" 2 false false :=
    testFacts_plain (by omega) (hf 0 _ rfl) (hf 10 _ rfl) z1 (by decide +kernel) (by decide +kernel)
  have b1 : TestFacts fs "test/10.spec" "test/10-01.in" 9 false true :=
    testFacts_plain (by omega) (hf 2 _ rfl) (hf 11 _ rfl) z3 (by decide +kernel) (by decide +kernel)
  have b2 : TestFacts fs "test/10.spec" "test/10-02.in" 9 false false :=
    testFacts_plain (by omega) (hf 2 _ rfl) (hf 12 _ rfl) z3 (by decide +kernel) (by decide +kernel)
  have b3 : TestFacts fs "test/10.spec" "test/10-03.in" 9 false true :=
    testFacts_plain (by omega) (hf 2 _ rfl) (hf 13 _ rfl) z3 (by decide +kernel) (by decide +kernel)
  have c7 : TestFacts fs "test/01_rev.spec" "test/01-07.in" 2 true true :=
    testFacts_rev (hf 1 _ rfl) (hf 9 _ rfl) z2 (rs := List.replicate 4 [3#8]) (by decide) (by decide) rfl (by decide) (by decide +kernel)
      (out := ['1']) (by decide +kernel)
  have c8 : TestFacts fs "test/01_rev.spec" "test/01-08.in" 2 true false :=
    testFacts_rev (hf 1 _ rfl) (hf 10 _ rfl) z2 (rs := List.replicate 4 [1#8]) (by decide) (by decide) rfl (by decide) (by decide +kernel)
      (out := ['0']) (by decide +kernel)
  have ww : ∀ s : String, s.toList.head? = some 't' → Word s := fun s h => by unfold Word; rw [h]; decide
  intro c hc
  simp only [repoChecks, List.mem_cons, List.not_mem_nil, or_false] at hc
  rcases hc with rfl | rfl | rfl | rfl | rfl | rfl | rfl | rfl | rfl | rfl | rfl | rfl | rfl | rfl | rfl | rfl | rfl | rfl | rfl | rfl | rfl | rfl | rfl | rfl | rfl | rfl | rfl | rfl | rfl | rfl | rfl | rfl | rfl | rfl | rfl | rfl | rfl | rfl | rfl | rfl | rfl | rfl | rfl | rfl | rfl | rfl
  all_goals first
    | exact mk a1 rfl (by omega) (by omega) (by simp) (by decide) ⟨ww _ rfl, ww _ rfl⟩ (by decide)
    | exact mk a2 rfl (by omega) (by omega) (by simp) (by decide) ⟨ww _ rfl, ww _ rfl⟩ (by decide)
    | exact mk a3 rfl (by omega) (by omega) (by simp) (by decide) ⟨ww _ rfl, ww _ rfl⟩ (by decide)
    | exact mk a4 rfl (by omega) (by omega) (by simp) (by decide) ⟨ww _ rfl, ww _ rfl⟩ (by decide)
    | exact mk a5 rfl (by omega) (by omega) (by simp) (by decide) ⟨ww _ rfl, ww _ rfl⟩ (by decide)
    | exact mk a6 rfl (by omega) (by omega) (by simp) (by decide) ⟨ww _ rfl, ww _ rfl⟩ (by decide)
    | exact mk a7 rfl (by omega) (by omega) (by simp) (by decide) ⟨ww _ rfl, ww _ rfl⟩ (by decide)
    | exact mk a8 rfl (by omega) (by omega) (by simp) (by decide) ⟨ww _ rfl, ww _ rfl⟩ (by decide)
    | exact mk b1 rfl (by omega) (by omega) (by simp) (by decide) ⟨ww _ rfl, ww _ rfl⟩ (by decide)
    | exact mk b2 rfl (by omega) (by omega) (by simp) (by decide) ⟨ww _ rfl, ww _ rfl⟩ (by decide)
    | exact mk b3 rfl (by omega) (by omega) (by simp) (by decide) ⟨ww _ rfl, ww _ rfl⟩ (by decide)
    | exact mk c7 rfl (by omega) (by omega) (by simp) (by decide) ⟨ww _ rfl, ww _ rfl⟩ (by decide)
    | exact mk c8 rfl (by omega) (by omega) (by simp) (by decide) ⟨ww _ rfl, ww _ rfl⟩ (by decide)

/-- On a directory with just the files of test/, the script passes; with the expectation of the last check turned round it always fails. -/
example : ∃ (L : Lib 256 2 1) (fs : Files), KeysReady L fs ∧ (∃ ok, SuiteRun L fs repoChecks ok) ∧ (∀ ok, SuiteRun L fs repoChecks ok → ok = true) ∧
    ∀ c, c = (⟨false, "online-dfa-reversed-with-rev-spec", "2", "test/01_rev.spec", "test/01-07.in"⟩ : SuiteCheck) →
      (∃ ok, SuiteRun L fs [c] ok) ∧ ∀ ok, SuiteRun L fs [c] ok → ok = false := by
  obtain ⟨φ, hφ⟩ := exists_numbering 256
  have hL := toyLib_sound (n := 2) (l := 1) (N := 256) (by omega) (by omega) hφ
  let fs : Files := fun f => testFiles.lookup f
  have hk : KeysReady (toyLib 256 2 1 φ) fs := Or.inl ⟨by decide +kernel, by decide +kernel⟩
  obtain ⟨h1, h2⟩ := C81_repo hL (by decide) (by omega) (by decide) (by decide) (by decide) (by decide) fs hk (by
    have hn : (testFiles.map Prod.fst).Nodup := by decide
    intro p hp
    exact lookup_of_mem hn hp)
  refine ⟨toyLib 256 2 1 φ, fs, hk, h1, h2, ?_⟩
  rintro c rfl
  have z2 : (Graph.fromIstream (textOf (testFiles[1].2))).map Graph.size = .ok 9 := by decide +kernel
  obtain ⟨g, w, f1, f2, f3, f4, f5, f6, f7⟩ : TestFacts fs "test/01_rev.spec" "test/01-07.in" 2 true true :=
    testFacts_rev (specB := testFiles[1].2) (inB := testFiles[9].2) rfl rfl z2 (rs := List.replicate 4 [3#8]) (by decide) (by decide) rfl (by decide) (by decide +kernel)
      (out := ['1']) (by decide +kernel)
  obtain ⟨k1, k2⟩ := C81_suite hL (by decide) (by omega) (by decide) fs hk
    [⟨false, "online-dfa-reversed-with-rev-spec", "2", "test/01_rev.spec", "test/01-07.in"⟩] (fun _ => g) (fun _ => w) (by
    intro c hc
    rw [List.mem_singleton] at hc
    subst hc
    refine ⟨⟨⟨2, by rfl, by omega, by omega, f2⟩, f1, ⟨by unfold Word; decide, by unfold Word; decide⟩, by decide⟩, ⟨by simp, ?_, fun _ => by decide,
      fun h => by simp at h, fun h => by simp at h, fun h => by simp at h⟩⟩
    intro b hb
    have := f7 b hb
    exact Nat.lt_of_le_of_lt (Nat.mul_le_mul_right _ (Nat.mul_le_mul_left 8 this)) (by decide : 8 * 4002 * blockSize 1 256 < 2 ^ 63))
  refine ⟨k1, fun ok h => ?_⟩
  cases ok with
  | false => rfl
  | true =>
    have := (k2 true h).1 rfl _ (List.mem_singleton.2 rfl)
    unfold SuiteCheck.verdict at this
    rw [if_pos rfl] at this
    rw [show g.accepts w.reverse = .ok true from f3] at this
    cases this

end Homfa.Cli
