import Verif.Proof.WholeTest

/-! # C100: the whole end-to-end test (test_homfa.sh) -/

namespace Homfa.Cli

variable {N n l : Nat} {L : Lib N n l} {δ : Noise} {Enc : L.Key → Gsw l N → Bool → Prop}

/-- **C100.** The conversion of a spec to AT&T format and back prints a line for each state that can be reached from state 0, and nothing else. -/
theorem C100_round_trip_lines (L : Lib N n l) {fs : Files} {F : String} {g : Graph} (hg : SpecFile fs F g) (hsz : g.size ≤ 2 ^ 31) (k : Nat) :
    RoundTripLines L fs F k ↔ k = {q | ∃ w : List Bool, g.runWord 0 w = .ok q}.ncard := by
  obtain ⟨b, k1, k2, k3⟩ := hg
  have hwf := wf_of_fromIstream k2 k3
  obtain ⟨h, e1, e2, _, e4, e5⟩ := Graph.fromAtt_dump hwf hsz
  obtain ⟨spec, e6⟩ : ∃ spec, h.dump = .ok spec := ⟨_, Graph.dump_ok e2⟩
  have hatt : ∀ att, Piped L (textOf ((fs F).getD [])) fs ["spec2att"] att ↔
      att = ((List.range g.size).flatMap g.attLinesOf).flatMap (· ++ ['\n']) := by
    intro att
    have hr := fun r => run_spec2att (L := L) (stdin := textOf ((fs F).getD [])) (fs := fs) (F := none) (by rintro f ⟨⟩) (r := r)
    rw [show (do
        let s ← fileOrStdin readSpec fs (textOf ((fs F).getD [])) none
        let out ← doSpec2att s
        pure (fs, out) : Res (Files × List Char)) = .ok (fs, ((List.range g.size).flatMap g.attLinesOf).flatMap (· ++ ['\n'])) by
      rw [k1]
      show (do let out ← doSpec2att (textOf b); pure (fs, out)) = _
      unfold doSpec2att
      rw [k2, Res.bind_ok, Graph.dumpAtt_ok hwf]
      rfl] at hr
    unfold Piped
    simp only [show ["spec2att"] = "spec2att" :: fileWords none from rfl, hr]
    simp
  have hspec : ∀ out, Piped L (((List.range g.size).flatMap g.attLinesOf).flatMap (· ++ ['\n'])) fs ["att2spec"] out ↔ out = spec := by
    intro out
    have hr := fun r => run_att2spec (L := L) (stdin := ((List.range g.size).flatMap g.attLinesOf).flatMap (· ++ ['\n'])) (fs := fs) (F := none)
      (by rintro f ⟨⟩) (r := r)
    rw [show (do
        let s ← fileOrStdin readAtt fs (((List.range g.size).flatMap g.attLinesOf).flatMap (· ++ ['\n'])) none
        let out ← doAtt2spec s
        pure (fs, out) : Res (Files × List Char)) = .ok (fs, spec) by
      show (do let out ← doAtt2spec (((List.range g.size).flatMap g.attLinesOf).flatMap (· ++ ['\n'])); pure (fs, out)) = _
      unfold doAtt2spec
      rw [e1, Res.bind_ok, e6]
      rfl] at hr
    unfold Piped
    simp only [show ["att2spec"] = "att2spec" :: fileWords none from rfl, hr]
    simp
  have hcount : spec.count '\n' = {q | ∃ w : List Bool, g.runWord 0 w = .ok q}.ncard := by
    rw [Graph.dump_lines e2 e6, ← ncard_reached (f := fun w => w.foldl g.nx 0) e4 (fun w => e2.run_lt e2.init_lt w) e5]
    congr 1
    ext q
    constructor
    · rintro ⟨w, rfl⟩
      exact ⟨w, (hwf.run_ok k3 w).1⟩
    · rintro ⟨w, hw⟩
      rw [(hwf.run_ok k3 w).1] at hw
      exact ⟨w, Except.ok.inj hw⟩
  constructor
  · rintro ⟨h1, h2⟩
    rw [(hatt _).1 h1, hspec] at h2
    rw [h2, hcount]
  · rintro rfl
    rw [← hcount]
    exact .mk ((hatt _).2 rfl) ((hspec _).2 rfl)

/-- **C100.** The whole script, with any tables, conversion and checks: it passes if and only if every automaton of test0 is printed as its table
says, the spec for the conversion has the given number of states reachable from state 0, and every expected result is the verdict of the
automaton. -/
theorem C100_script (hL : L.Sound δ Enc) (hnan : ∀ q rnd b, NoNaN (L.encrypt (L.newKey q) rnd b)) (hN : 0 < N) (hl : 0 < l)
    (hbs : 2 * blockSize l N < 2 ^ 63) (fs : Files) (hk : KeysReady L fs) (tables : List DumpCheck)
    {F : String} (hF : F ≠ "_test_in") {g : Graph} (hg : SpecFile fs F g) (hsz : g.size ≤ 2 ^ 31) (lines : Nat)
    (cs : List SuiteCheck) (G : SuiteCheck → Graph) (W : SuiteCheck → List Bool)
    (hcs : ∀ c ∈ cs, c.Files fs (G c) (W c) ∧ c.Within N l δ fs (G c) (W c)) :
    (∃ ok, WholeRun L tables F lines cs fs ok) ∧ ∀ ok, WholeRun L tables F lines cs fs ok → (ok = true ↔
      (∀ c ∈ tables, ∃ g text, c.graph L fs = .ok g ∧ g.dump = .ok text ∧ expectedDump c.expect = .ok text) ∧
      {q | ∃ w : List Bool, g.runWord 0 w = .ok q}.ncard = lines ∧ ∀ c ∈ cs, c.verdict (G c) (W c) = .ok c.expect) := by
  have hpos : 0 < blockSize l N := by unfold blockSize; positivity
  have hbs1 : blockSize l N < 2 ^ 63 := by omega
  -- after test0
  have hrest : ∀ fs1 : Files, (∀ f, f ≠ "_test_in" → fs1 f = fs f) →
      (∀ k, RoundTripLines L fs1 F k ↔ k = {q | ∃ w : List Bool, g.runWord 0 w = .ok q}.ncard) ∧
      (∃ ok, SuiteRun L fs1 cs ok) ∧ ∀ ok, SuiteRun L fs1 cs ok → (ok = true ↔ ∀ c ∈ cs, c.verdict (G c) (W c) = .ok c.expect) := by
    intro fs1 h1
    refine ⟨C100_round_trip_lines L (by obtain ⟨b, k1, k2⟩ := hg; exact ⟨b, by rw [h1 F hF, k1], k2⟩) hsz,
      C81_suite hL hN hl hbs1 fs1 (by unfold KeysReady; rw [h1 _ (by decide), h1 _ (by decide)]; exact hk) cs G W fun c hc => ?_⟩
    obtain ⟨⟨a1, a2, a3, a4⟩, ⟨b1, b2, b3, b4, b5, b6⟩⟩ := hcs c hc
    have hne : c.spec ≠ "_test_in" ∧ c.input ≠ "_test_in" :=
      ⟨fun e => a4.1 (by rw [e]; decide), fun e => a4.2 (by rw [e]; decide)⟩
    have hin : fs1 c.input = fs c.input := h1 _ hne.2
    have hsp : fs1 c.spec = fs c.spec := h1 _ hne.1
    refine ⟨⟨?_, ?_, a3, a4⟩, ⟨b1, by rw [hin]; exact b2, b3, b4, b5, b6⟩⟩
    · obtain ⟨ap, x1, x2, x3, x4⟩ := a1
      exact ⟨ap, x1, x2, x3, by unfold InputFile; rw [hin]; exact x4⟩
    · unfold SpecFile; rw [hsp]; exact a2
  by_cases htab : ∀ c ∈ tables, ∃ g text, c.graph L fs = .ok g ∧ g.dump = .ok text ∧ expectedDump c.expect = .ok text
  · obtain ⟨⟨r, t1⟩, t2⟩ := C93_passes hpos hbs htab hnan
    constructor
    · obtain ⟨fs1, rfl, h1⟩ := t2 r t1
      obtain ⟨c1, ⟨ok, c2⟩, _⟩ := hrest fs1 h1
      by_cases hc : {q | ∃ w : List Bool, g.runWord 0 w = .ok q}.ncard = lines
      · exact ⟨ok, .suite t1 ((c1 _).2 hc.symm) c2⟩
      · exact ⟨false, .count t1 ((c1 _).2 rfl) hc⟩
    · intro ok h
      cases h with
      | test0 h => obtain ⟨_, e, _⟩ := t2 _ h; cases e
      | count h hk hne =>
        obtain ⟨fs1, e, h1⟩ := t2 _ h
        cases e
        obtain ⟨c1, _⟩ := hrest _ h1
        rw [c1] at hk
        exact iff_of_false (by decide) (fun h => hne (hk.trans h.2.1))
      | suite h hk hs =>
        obtain ⟨fs1, e, h1⟩ := t2 _ h
        cases e
        obtain ⟨c1, _, c3⟩ := hrest _ h1
        rw [c1] at hk
        rw [c3 ok hs]
        exact ⟨fun h => ⟨htab, hk.symm, h⟩, fun h => h.2.2⟩
  · have hbad : ∃ e, tables.forM (DumpCheck.run L fs) = .error e := by
      cases h : tables.forM (DumpCheck.run L fs) with
      | error e => exact ⟨e, rfl⟩
      | ok u => exact absurd (fun c hc => run_means (forM_ok.1 h c hc)) htab
    obtain ⟨e, he⟩ := hbad
    refine ⟨⟨false, .test0 (.graphs he)⟩, fun ok h => ?_⟩
    cases h with
    | test0 h => exact iff_of_false (by decide) (fun h => htab h.1)
    | count h _ _ => exact absurd (C93_tables h) htab
    | suite h _ _ => exact absurd (C93_tables h) htab

/-- All nine states of test/01.spec can be reached from state 0. -/
theorem reached_01 : ∃ g, Graph.fromIstream (textOf testFiles[0].2) = .ok g ∧ g.size = 9 ∧ {q | ∃ w : List Bool, g.runWord 0 w = .ok q}.ncard = 9 := by
  obtain ⟨g, z1, z2, z3⟩ : ∃ g, Graph.fromIstream (textOf testFiles[0].2) = .ok g ∧ g.size = 9 ∧
      ∀ q < 9, ∃ w : List Bool, g.runWord 0 w = .ok q := by
    have z : (match Graph.fromIstream (textOf testFiles[0].2) with
        | .ok g => g.size == 9 && (List.range 9).all fun q => [[], [false], [true], [false, false], [false, true], [false, false, false],
            [false, false, true], [false, true, false], [false, true, true]].any fun w => match g.runWord 0 w with
          | .ok q' => q' == q
          | .error _ => false
        | .error _ => false) = true := by decide +kernel
    cases h : Graph.fromIstream (textOf testFiles[0].2) with
    | error e => rw [h] at z; cases z
    | ok g =>
      rw [h] at z
      obtain ⟨z1, z2⟩ := Bool.and_eq_true_iff.1 z
      refine ⟨g, rfl, by simpa using z1, fun q hq => ?_⟩
      obtain ⟨w, _, hw⟩ := List.any_eq_true.1 (List.all_eq_true.1 z2 q (List.mem_range.2 hq))
      refine ⟨w, ?_⟩
      cases hr : g.runWord 0 w with
      | error e => rw [hr] at hw; cases hw
      | ok q' => rw [hr] at hw; rw [show q' = q by simpa using hw]
  refine ⟨g, z1, z2, ?_⟩
  have : {q | ∃ w : List Bool, g.runWord 0 w = .ok q} = ((Finset.range 9 : Finset Nat) : Set Nat) := by
    have hwf := wf_of_fromIstream z1 (by omega)
    ext q
    simp only [Set.mem_ofPred_eq, Finset.coe_range, Set.mem_Iio]
    constructor
    · rintro ⟨w, hw⟩
      have := hwf.run_ok (q := 0) (by omega) w
      rw [this.1] at hw
      cases hw
      omega
    · exact z3 q
  rw [this, Set.ncard_coe_finset, Finset.card_range]

/-- **C100, the script as it is.** With the files of the repository, on a directory without keys or with the keys of an earlier run, and a library
that is sound within the limits, produces no NaN and gives the monitors Spot gives, every run of test_homfa.sh passes. -/
theorem C100_repo (hL : L.Sound δ Enc) (hnan : ∀ q rnd b, NoNaN (L.encrypt (L.newKey q) rnd b)) (hN : 2 ^ 8 ≤ N) (hl : 0 < l)
    (hbs : 8 * 4002 * blockSize l N < 2 ^ 63) (hbud : δ.br + 8000 * δ.cmux + δ.ks + δ.ms < 2 ^ 30)
    (hflut : 9 * 2 ^ 7 * flutErr δ 9 15 0 + 15 * δ.cmux + δ.ks + δ.ms < 2 ^ 30) (hblock : (15 + 4) * δ.cmux + δ.cb < 2 ^ 29) (fs : Files)
    (hk : KeysReady L fs) (hspec : ∀ p ∈ repoSpecs, fs p.1 = some (bytesOf p.2)) (hfs : ∀ p ∈ testFiles, fs p.1 = some p.2)
    (hmon : ∀ p ∈ repoMonitors, L.monitor p.1 p.2.1 = .ok p.2.2) :
    (∃ ok, WholeRun L repoTest0 "test/01.spec" 9 repoChecks fs ok) ∧ ∀ ok, WholeRun L repoTest0 "test/01.spec" 9 repoChecks fs ok → ok = true := by
  have hpos : 0 < blockSize l N := by
    have : 0 < N := by omega
    unfold blockSize; positivity
  obtain ⟨⟨r, t1⟩, t2⟩ := C93_repo hpos (by omega) hspec hmon hnan
  have hrest : ∀ fs1 : Files, (∀ f, f ≠ "_test_in" → fs1 f = fs f) →
      (∀ k, RoundTripLines L fs1 "test/01.spec" k ↔ k = 9) ∧
      (∃ ok, SuiteRun L fs1 repoChecks ok) ∧ ∀ ok, SuiteRun L fs1 repoChecks ok → ok = true := by
    intro fs1 h1
    refine ⟨fun k => ?_, C81_repo hL hN hl hbs hbud hflut hblock fs1
      (by unfold KeysReady; rw [h1 _ (by decide), h1 _ (by decide)]; exact hk) fun p hp => ?_⟩
    · have hf : fs1 "test/01.spec" = some testFiles[0].2 := by rw [h1 _ (by decide)]; exact hfs testFiles[0] (by simp)
      obtain ⟨g, z1, z2, z3⟩ := reached_01
      rw [C100_round_trip_lines L ⟨_, hf, z1, by omega⟩ (by omega), z3]
    · rw [h1 p.1 (by
        have : ∀ p ∈ testFiles.map Prod.fst, p ≠ "_test_in" := by decide
        exact this p.1 (List.mem_map_of_mem hp))]
      exact hfs p hp
  constructor
  · obtain ⟨fs1, rfl, h1⟩ := t2 r t1
    obtain ⟨c1, ⟨ok, c2⟩, _⟩ := hrest fs1 h1
    exact ⟨ok, .suite t1 ((c1 _).2 rfl) c2⟩
  · intro ok h
    cases h with
    | test0 h => obtain ⟨_, e, _⟩ := t2 _ h; cases e
    | count h hk hne =>
      obtain ⟨fs1, e, h1⟩ := t2 _ h
      cases e
      exact absurd (((hrest _ h1).1 _).1 hk) hne
    | suite h hk hs =>
      obtain ⟨fs1, e, h1⟩ := t2 _ h
      cases e
      exact (hrest _ h1).2.2 ok hs

/-! ## The hypotheses are met -/

theorem sound_withMonitor (h : L.Sound δ Enc) (m : String → Nat → Res Monitor) : ({ L with monitor := m } : Lib N n l).Sound δ Enc :=
  ⟨h.key, h.bkey, h.res, h.pair⟩

/-- a library that decrypts what it encrypts, without NaN, and knows the monitors of the formulas in the script -/
noncomputable def exWholeLib (φ : TLWE 256 → Nat) : Lib 256 2 1 :=
  { toyLib 256 2 1 φ with
    monitor := fun fml ap => match repoMonitors.find? (fun p => p.1 == fml && p.2.1 == ap) with
      | some p => .ok p.2.2
      | none => .error .die }

/-- the files of test/, without keys -/
def exWholeFiles : Files := fun f => (testFiles.lookup f).orElse fun _ => (repoSpecs.lookup f).map bytesOf

/-- On a directory with just the files of test/, the script passes. -/
example : ∃ φ, (∃ ok, WholeRun (exWholeLib φ) repoTest0 "test/01.spec" 9 repoChecks exWholeFiles ok) ∧
    ∀ ok, WholeRun (exWholeLib φ) repoTest0 "test/01.spec" 9 repoChecks exWholeFiles ok → ok = true := by
  obtain ⟨φ, hφ⟩ := exists_numbering 256
  have hL := toyLib_sound (n := 2) (l := 1) (N := 256) (by omega) (by omega) hφ
  have hM : (exWholeLib φ).Sound toyNoise (fun _ => toyEnc) := sound_withMonitor hL _
  refine ⟨φ, C100_repo hM ?_ (by decide) (by omega) (by decide +kernel) (by decide +kernel) (by decide +kernel) (by decide +kernel) exWholeFiles
    (Or.inl ⟨by decide +kernel, by decide +kernel⟩) ?_ ?_ ?_⟩
  · intro q rnd b i j k
    show ¬ IsNaN ((toyScheme 256 2 1 (toyKey 256 2 (q % 2 == 1))).encrypt rnd b i j k)
    show ¬ IsNaN (if b then 1#64 else 0#64)
    cases b <;> decide
  · have h : ∀ p ∈ repoSpecs, exWholeFiles p.1 = some (bytesOf p.2) := by decide +kernel
    exact h
  · have hn : (testFiles.map Prod.fst).Nodup := by decide
    intro p hp
    show (testFiles.lookup p.1).orElse _ = _
    rw [lookup_of_mem hn hp]
    rfl
  · intro p hp
    simp only [repoMonitors, List.mem_cons, List.not_mem_nil, or_false] at hp
    rcases hp with rfl | rfl | rfl | rfl <;> rfl

/-- The script with just the conversion of test/01.spec: it passes with nine lines, and with any other number it fails. -/
example : ∃ φ, ∀ lines ok, WholeRun (exWholeLib φ) [] "test/01.spec" lines [] exWholeFiles ok → (ok = true ↔ lines = 9) := by
  obtain ⟨φ, hφ⟩ := exists_numbering 256
  have hL := toyLib_sound (n := 2) (l := 1) (N := 256) (by omega) (by omega) hφ
  have hM : (exWholeLib φ).Sound toyNoise (fun _ => toyEnc) := sound_withMonitor hL _
  obtain ⟨g, z1, z2, z3⟩ := reached_01
  refine ⟨φ, fun lines ok h => ?_⟩
  rw [(C100_script hM ?_ (by omega) (by omega) (by decide) exWholeFiles (Or.inl ⟨by decide +kernel, by decide +kernel⟩) [] (by decide)
    (g := g) ⟨testFiles[0].2, rfl, z1, by omega⟩ (by omega) lines [] (fun _ => g) (fun _ => []) (by simp)).2 ok h, z3]
  · simp [eq_comm]
  · intro q rnd b i j k
    show ¬ IsNaN (if b then 1#64 else 0#64)
    cases b <;> decide

end Homfa.Cli
