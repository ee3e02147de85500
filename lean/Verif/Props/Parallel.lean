import Verif.Proof.ParallelPool
import Verif.Props.World

/-!
# C96: commands at the same time

Several runs of `homfa` in the same directory, started together: each opens, reads and writes its files while the others do the same.  As
long as no command names the output file of another one, the outcome is the one of running them one after the other, in whatever order.  The
condition is needed: a run command that reads the ciphertexts while `enc` is still writing them may see a part of them and end as if nothing
had happened.
-/

namespace Homfa.Cli

variable {N n l : Nat} {L : Lib N n l} {δ : Noise} {Enc : L.Key → Gsw l N → Bool → Prop}

/-- A command alone, access by access, does what `RunHomfa` says, and nothing else. -/
theorem C96_alone {stdin : List Char} {fs : Files} {toks : List String} {R : Res (Files × List Char)} :
    RunHomfa L stdin fs toks R ↔ ∃ as r fs', Runs L stdin toks as r ∧ Replay fs as fs' ∧ R = r.map fun out => (fs', out) :=
  ⟨RunHomfa.runs, fun ⟨_, _, _, h1, h2, e⟩ => e ▸ h1.run h2⟩

/-- **C96**, for each command: it prints what it would print alone, or fails as it would fail alone, and the file behind its `--out` is what it
would be alone.  All other files stay as they are. -/
theorem C96_outcomes {fs fs' : Files} {ps : List Proc} (hi : Independent (ps.map (·.line))) (h : Together L fs ps fs') :
    (∀ p ∈ ps, ∃ fs1, RunHomfa L [] fs p.line (p.outcome.map fun out => (fs1, out)) ∧ ∀ f, ["--out", f] <:+: p.line → fs' f = fs1 f) ∧
      ∀ f, (∀ p ∈ ps, ¬["--out", f] <:+: p.line) → fs' f = fs f := by
  refine ⟨fun p hp => ?_, fun f hf => h.unwritten hf⟩
  obtain ⟨hr, hf⟩ := h.alone hi p hp
  obtain ⟨g', h1, h2⟩ := hf fs fun _ _ => rfl
  exact ⟨g', hr.run h1, fun f hw => (h2 f (hw.subset (by simp))).symm⟩

/-- **C96**, for all of them: the outcome is one of running them one after the other, in any order. -/
theorem C96_serial {fs fs' : Files} {ps : List Proc} (hi : Independent (ps.map (·.line))) (h : Together L fs ps fs') {qs : List Proc} (hp : ps.Perm qs) :
    Session L fs (qs.map fun p => .homfa p.line) ((allOf (qs.map (·.outcome))).map fun out => (fs', out)) :=
  serial (fs := fs) (independent_perm hp hi) (fun p hq => h.alone hi p (hp.mem_iff.2 hq)) fs (fun _ _ _ _ => rfl)
    fun f hf => (h.unwritten fun p hq => hf p (hp.mem_iff.1 hq)).symm

/-- and a normal outcome of running them one after the other is one of running them together -/
theorem C96_together {cmds : List (List String)} {fs fs' : Files} {out : List Char} (h : Session L fs (cmds.map .homfa) (.ok (fs', out))) :
    ∃ ps : List Proc, ps.map (·.line) = cmds ∧ Together L fs ps fs' ∧ allOf (ps.map (·.outcome)) = .ok out :=
  together_of_session h

/-- **C96**, for a session in which now and then several commands run at the same time: its outcome is one of the session with all commands
one after the other. -/
theorem C96_schedule {jobs : List Job} (hi : ∀ cmds, .par cmds ∈ jobs → Independent cmds) {fs : Files} {r : Res (Files × List Char)}
    (h : Schedule L fs jobs r) : Session L fs (jobs.flatMap Job.cmds) r := by
  induction h with
  | nil => exact .nil
  | @one fs c fs1 o1 rest r h1 _ ih => exact session_append h1 (ih fun c hc => hi c (by simp [hc]))
  | @oneStop fs c rest e h1 => exact session_stop h1
  | @par fs ps fs1 o1 rest r h1 h2 _ ih =>
    have := C96_serial (hi _ (by simp)) h1 (.refl ps)
    rw [h2] at this
    rw [List.flatMap_cons, Job.cmds, List.map_map]
    exact session_append this (ih fun c hc => hi c (by simp [hc]))
  | @parStop fs ps fs1 e rest h1 h2 =>
    have := C96_serial (hi _ (by simp)) h1 (.refl ps)
    rw [h2] at this
    rw [List.flatMap_cons, Job.cmds, List.map_map]
    exact session_stop this

theorem schedule_of_session {jobs : List Job} : ∀ {fs fs' : Files} {out : List Char}, Session L fs (jobs.flatMap Job.cmds) (.ok (fs', out)) →
    Schedule L fs jobs (.ok (fs', out)) := by
  induction jobs with
  | nil => intro fs fs' out h; cases h; exact .nil
  | cons j jobs ih =>
    intro fs fs' out h
    obtain ⟨fs1, o1, o2, h1, h2, rfl⟩ := session_split h
    cases j with
    | one c => exact .one h1 (ih h2)
    | par cmds =>
      obtain ⟨ps, rfl, h3, h4⟩ := together_of_session h1
      exact .par h3 h4 (ih h2)

/-- **C96** with C94: commands used as they are meant to be, some of them at the same time, end normally and give the right verdicts. -/
theorem C96_history (hL : L.Sound δ Enc) (hN : 0 < N) (hl : 0 < l) (hbs : blockSize l N < 2 ^ 63) (fs : Files) {jobs : List Job}
    (hi : ∀ cmds, .par cmds ∈ jobs → Independent cmds) {w : World} {out : List Char}
    (h : History L δ (World.start fs) (jobs.flatMap Job.cmds) w out) :
    (∃ r, Schedule L fs jobs r) ∧ ∀ r, Schedule L fs jobs r → ∃ fs', r = .ok (fs', out) ∧ w.Known fs' := by
  obtain ⟨⟨r, h1⟩, h2⟩ := C94_history hL hN hl hbs fs h
  obtain ⟨fs', rfl, _⟩ := h2 r h1
  exact ⟨⟨_, schedule_of_session h1⟩, fun r hr => h2 r (C96_schedule hi hr)⟩

/-- The condition is needed.  A command `X` that is started while `enc` is writing its output `C` may see any beginning of it: both commands
end normally, and what `X` leaves is what it would leave if `C` held no more than that. -/
theorem C96_needed {fs fse : Files} {E X : List String} {K I C : String} {ap : Nat} {b b1 : List Byte} {o : List Char} {fs1 : Files}
    (hE : homfaMain (fun f => (fs f).isSome) E = .ok (some (.enc K I C ap))) (hIC : I ≠ C) (hX : ¬["--out", C] <:+: X)
    (hr : RunHomfa L [] fs E (.ok (fse, []))) (hb : fse C = some b) (hp : b1 <+: b) (hr1 : RunHomfa L [] (fs.set C b1) X (.ok (fs1, o))) :
    ∃ (p q : Proc), p.line = E ∧ q.line = X ∧ p.outcome = .ok [] ∧ q.outcome = .ok o ∧ Together L fs [p, q] (fs1.set C b) := by
  obtain ⟨b2, rfl⟩ := hp
  generalize hR : (Except.ok (fse, []) : Res (Files × List Char)) = R at hr
  cases hr with
  | usage h => rw [hE] at h; cases h
  | fails h => rw [hE] at h; cases h
  | call h h' =>
    rw [hE] at h
    cases h
    cases h' with
    | enc rand =>
      obtain ⟨k, hk, hR⟩ := Res.bind_eq_ok.1 hR.symm
      obtain ⟨b', hb', hR⟩ := Res.bind_eq_ok.1 hR
      cases hR
      obtain rfl : b' = b1 ++ b2 := by simpa [Files.set] using hb
      obtain ⟨a, ha, ra⟩ := readAll_exists fs [K]
      obtain ⟨as, has, ras⟩ := readAll_exists (fs.set C []) [I]
      obtain ⟨t, r, fs1', ht, rt, e⟩ := hr1.runs
      cases r with
      | error e' => cases e
      | ok o' =>
        cases e
        have look : Replay fs (E.map fun f => .see f (fs f).isSome) fs := by
          refine .of_reads fun a ha => ?_
          obtain ⟨f, _, rfl⟩ := List.mem_map.1 ha
          exact .see
        have p1 := replay_puts C [b1] (y := []) (fs := fs.set C []) (by simp [Files.set])
        rw [Files.set_set] at p1
        simp only [List.nil_append, List.flatten_cons, List.flatten_nil, List.append_nil, List.length_nil] at p1
        have hC : fs1 C = some b1 := by
          rw [rt.other (f := C) fun a ha hw e => hX (e ▸ (ht.touches a ha).2 hw)]
          simp [Files.set]
        have p2 := replay_puts C [b2] hC
        simp only [List.flatten_cons, List.flatten_nil, List.append_nil] at p2
        have d := Does.enc (L := L) (stdin := []) (cs := [b1, b2]) (out := C) (ap := ap) rand ha hk has (mixed_append _ _) (fun _ => rfl) hb' (by simp)
        refine ⟨⟨E, E.map (fun f => .see f (fs f).isSome) ++ (a ++ .empty C :: (as ++ puts C 0 [b1, b2])), .ok []⟩, ⟨X, t, .ok o⟩, rfl, rfl, rfl, rfl,
          ?_, ?_⟩
        · intro p hp
          rcases List.mem_cons.1 hp with rfl | hp
          · exact .call hE d
          · rw [List.mem_singleton.1 hp]
            exact ht
        · have := parallel_nested (look.append (ra.append (.cons .empty (ras.append p1)))) rt p2
          refine cast ?_ this
          simp [puts]

theorem word_ne_out {f : String} (h : Word f) : "--out" ≠ f := by
  rintro rfl
  exact h (by decide)

theorem number_ne_out {k : Nat} (h0 : 0 < k) (h : k < 2 ^ 64) : "--out" ≠ k.repr := by
  intro e
  have := (positive_ok h0 h fun _ => true).1
  rw [show toString k = k.repr from rfl, ← e] at this
  exact absurd (this (by decide)) (by decide)

theorem RunLine.out {specB inB : List Byte} {ap : Nat} {B S C R : String} {X : List String} (h : RunLine N l δ specB inB ap B S C R X) (wB : Word B) (wS : Word S)
    (wC : Word C) (wR : Word R) {f : String} (hf : ["--out", f] <:+: X) : f = R := by
  have hB := word_ne_out wB
  have hS := word_ne_out wS
  have hC := word_ne_out wC
  have hR := word_ne_out wR
  cases h with
  | offline h1 h2 =>
    simpa [List.infix_cons_iff, List.cons_prefix_cons, hB, hS, hC, hR, number_ne_out h1 h2] using hf
  | reverse h1 h2 h3 h4 =>
    simpa [List.infix_cons_iff, List.cons_prefix_cons, hB, hS, hC, hR, number_ne_out h1 h2, number_ne_out h3 h4] using hf
  | block _ h1 h2 h3 h4 =>
    simpa [List.infix_cons_iff, List.cons_prefix_cons, hB, hS, hC, hR, number_ne_out h1 h2, number_ne_out h3 (show _ < 2 ^ 64 by omega)] using hf
  | flut h1 h2 h3 h4 h5 h6 _ h8 h9 =>
    simpa [List.infix_cons_iff, List.cons_prefix_cons, hB, hS, hC, hR, number_ne_out h1 h2, number_ne_out h3 (show _ < 2 ^ 64 by omega),
      number_ne_out h5 (show _ < 2 ^ 64 by omega), number_ne_out h8 h9] using hf

/-- What may go wrong.  After any history, an input `u ++ v` is encrypted and at the same time a run command reads the ciphertexts: both may end
normally and leave a result that is decrypted to the verdict on `u`. -/
theorem C96_race (hL : L.Sound δ Enc) (hN : 0 < N) (hl : 0 < l) (hbs : blockSize l N < 2 ^ 63) {fs0 fs : Files} {cmds : List ShellCmd} {w : World}
    {out0 : List Char} (hist : History L δ (World.start fs0) cmds w out0) (hs : Session L fs0 cmds (.ok (fs, out0))) {K B S I C R : String}
    (wK : Word K) (wB : Word B) (wS : Word S) (wI : Word I) (wC : Word C) (wR : Word R) (hC : C ∉ [K, B, S, I, R]) (hR : R ≠ K) {i ap : Nat}
    {s u v : List Byte} (hK : w.holds K = .key i) (hB : w.holds B = .bkey i) (hS : w.holds S = .bytes s) (hI : w.holds I = .bytes (u ++ v))
    (h0 : 0 < ap) (h64 : ap < 2 ^ 64) (hu : recordBytes ap ∣ u.length) (hv : recordBytes ap ∣ v.length)
    (hsize : 8 * u.length * blockSize l N < 2 ^ 63) {X : List String} (hX : RunLine N l δ s u ap B S C R X) {verdict : List Char}
    (hp : PlainPrints L s u ap verdict) :
    ∃ fs', Schedule L fs [.par [["enc", "--ap", toString ap, "--key", K, "--in", I, "--out", C], X], .one (.homfa ["dec", "--key", K, "--in", R])]
      (.ok (fs', verdict)) := by
  simp only [List.mem_cons, List.not_mem_nil, or_false, not_or] at hC
  obtain ⟨cK, cB, cS, cI, cR⟩ := hC
  obtain ⟨fs', e, hfit⟩ := (history_session hL hN hl hbs hist (World.start_fits fs0)).2 _ hs
  cases e
  obtain ⟨q, hq⟩ := hfit
  have wu := whole_of_dvd h0 hu
  have wv := whole_of_dvd h0 hv
  have hk := hq K
  rw [hK] at hk
  have hi := hq I
  rw [hI] at hi
  obtain ⟨b1, e1⟩ := wu.enc h0 (L.client (L.newKey (q i))) fun _ => 0
  obtain ⟨b2, e2⟩ := wv.enc h0 (L.client (L.newKey (q i))) fun _ => 0
  obtain ⟨rand, e3⟩ := enc_append h0 wu wv e1 e2
  have henc : RunHomfa L [] fs ["enc", "--ap", toString ap, "--key", K, "--in", I, "--out", C] (.ok (fs.set C (b1 ++ b2), [])) := by
    refine (run_enc wK wI wC hL.key hk.2 hi (Ne.symm cI) h0 h64).2 ⟨rand, ?_⟩
    rw [e3, ← set_set fs C [] (b1 ++ b2)]
    rfl
  have hfit1 : (w.set C (.ctxts i ap u)).Fits L (fs.set C b1) :=
    ⟨q, fits_set hq C ⟨hk.1, h0, h64, wu, _, _, rfl, e1⟩⟩
  have other : ∀ {f : String} {c : Content}, C ≠ f → (w.set C c).holds f = w.holds f := fun h => if_neg (Ne.symm h)
  have hstep := Step.run (L := L) (w := w.set C (.ctxts i ap u)) (out := verdict) wB wS wC wR (by rw [other cB, hB]) (by rw [other cS, hS])
    (if_pos rfl) hsize hX hp
  obtain ⟨⟨r, hrun⟩, hall⟩ := step_homfa hL hN hl hbs hstep rfl hfit1
  obtain ⟨fs1, rfl, hfit2⟩ := hall r hrun
  have hE : homfaMain (fun f => (fs f).isSome) ["enc", "--ap", toString ap, "--key", K, "--in", I, "--out", C] = .ok (some (.enc K I C ap)) := by
    have hf : Cmd.enc.usage.Follows (fun f => (fs f).isSome) (optItems Cmd.enc.usage [toString ap, K, I, C]) := by
      refine follows_opts rfl (by decide) rfl fun p hp => ?_
      simp only [Cmd.usage, List.zip_cons_cons, List.zip_nil_right, List.mem_cons, List.not_mem_nil, or_false] at hp
      rcases hp with rfl | rfl | rfl | rfl
      · exact positive_ok h0 h64 _
      · exact wK.file hk.2
      · exact wI.file hi
      · exact wC.text _
    have := C58_runs (fun f => (fs f).isSome) [] (by simp) .enc ["enc"] (by simp [Cmd.names]) _ hf
    rw [show Cmd.enc.call (optItems Cmd.enc.usage [toString ap, K, I, C]) = .enc K I C (Nat.ofDigitChars 10 (toString ap).toList 0) from rfl,
      ofDigits_toString] at this
    exact this
  obtain ⟨p, p', l1, l2, o1, o2, ht⟩ := C96_needed hE (Ne.symm cI) (fun h => cR (hX.out wB wS wC wR h)) henc (by simp [Files.set])
    (List.prefix_append b1 b2) hrun
  obtain ⟨q2, hq2⟩ := hfit2
  have hk2 := hq2 K
  have hr2 := hq2 R
  rw [show (((w.set C (.ctxts i ap u)).set R (.result i verdict)).holds K) = .key i from (if_neg (Ne.symm hR)).trans ((other cK).trans hK)] at hk2
  rw [show (((w.set C (.ctxts i ap u)).set R (.result i verdict)).holds R) = .result i verdict from if_pos rfl] at hr2
  obtain ⟨_, c, hc1, hc2⟩ := hr2
  have hdec : RunHomfa L [] (fs1.set C (b1 ++ b2)) ["dec", "--key", K, "--in", R] (.ok (fs1.set C (b1 ++ b2), verdict)) := by
    refine (run_dec wK wR hL.key hL.res ?_ ?_).2 (by rw [← hc2])
    · rw [Files.set_other _ _ (Ne.symm cK)]; exact hk2.2
    · rw [Files.set_other _ _ (Ne.symm cR)]; exact hc1
  refine ⟨fs1.set C (b1 ++ b2), ?_⟩
  have h1 := Schedule.par (rest := [.one (.homfa ["dec", "--key", K, "--in", R])]) ht (o1 := []) (by simp [o1, o2, allOf]; rfl)
    (.one (.next hdec .nil) .nil)
  rw [List.map_cons, List.map_cons, List.map_nil, l1, l2] at h1
  refine cast (congrArg _ ?_) h1
  simp [Except.map]

/-! ## The hypotheses are met -/

theorem independent_of_check {cmds : List (List String)}
    (h : cmds.Pairwise fun a b => (∀ f ∈ a, ["--out", f] <:+: a → f ∉ b) ∧ ∀ f ∈ b, ["--out", f] <:+: b → f ∉ a) : Independent cmds :=
  h.imp fun ⟨h1, h2⟩ => ⟨fun f hf => h1 f (hf.subset (by simp)) hf, fun f hf => h2 f (hf.subset (by simp)) hf⟩

/-- The history of C94, with as much as possible at the same time: both keys, then both evaluation keys, both inputs, two runs with
different methods, and in the end the three results. -/
def exJobs : List Job :=
  [.par [["genkey", "--out", "ka"], ["genkey", "--out", "kb"]],
   .par [["genbkey", "--key", "kb", "--out", "bb"], ["genbkey", "--key", "ka", "--out", "ba"]],
   .par [["enc", "--ap", toString 5, "--key", "kb", "--in", "in2", "--out", "cb"], ["enc", "--ap", toString 5, "--key", "ka", "--in", "in1", "--out", "ca"]],
   .one (.copy "ka" "ka2"),
   .one (.homfa ["genkey", "--out", "ka"]),
   .one (.redirect ["spec2spec", "--negated", "a.spec"] "n.spec"),
   .par [["run", "reverse", "--bkey", "ba", "--out", "ra", "--spec", "a.spec", "--in", "ca", "--out-freq", toString 7, "--bootstrapping-freq", toString 50],
     ["run", "offline", "--bkey", "bb", "--out", "rb", "--spec", "a.spec", "--in", "cb", "--bootstrapping-freq", toString 50]],
   .one (.homfa ["run", "offline", "--bkey", "ba", "--out", "ca", "--spec", "n.spec", "--in", "ca", "--bootstrapping-freq", toString 50]),
   .one (.remove "ba"),
   .par [["dec", "--key", "ka2", "--in", "ca"], ["dec", "--key", "kb", "--in", "rb"], ["dec", "--key", "ka2", "--in", "ra"]]]

example : ∃ L : Lib 16 2 1, (L.newKey 0 ≠ L.newKey 1) ∧ (∃ r, Schedule L exPieceFiles exJobs r) ∧
    ∀ r, Schedule L exPieceFiles exJobs r → ∃ fs', r = .ok (fs', ['0', '0', '1']) := by
  obtain ⟨φ, hφ⟩ := exists_numbering 16
  have hL := toyLib_sound (n := 2) (l := 1) (by omega) (by omega) hφ
  obtain ⟨w, hh, -⟩ := exHistory_history (φ := φ) 50 (by omega) (by omega)
  have hi : ∀ cmds, .par cmds ∈ exJobs → Independent cmds := by
    intro cmds h
    simp only [exJobs, List.mem_cons, List.not_mem_nil, or_false, Job.par.injEq, reduceCtorEq, false_or] at h
    rcases h with rfl | rfl | rfl | rfl | rfl <;> exact independent_of_check (by decide +kernel)
  obtain ⟨h1, h2⟩ := C96_history hL (by omega) (by omega) (by decide) exPieceFiles hi (show History _ _ _ (exJobs.flatMap Job.cmds) w _ from hh)
  exact ⟨toyLib 16 2 1 φ, by simp [toyLib], h1, fun r hr => by obtain ⟨fs', e, -⟩ := h2 r hr; exact ⟨fs', e⟩⟩

/-- The race: the verdict on the whole input is `0`, the one on its first record `1`; either may be printed. -/
example : ∃ (L : Lib 16 2 1) (fs fs' fs'' : Files), fs "i" = some [0x1f#8, 0xe1#8] ∧ PlainPrints L (exSpec.map fun c => BitVec.ofNat 8 c.toNat) [0x1f#8, 0xe1#8] 5 ['0'] ∧
    Schedule L fs [.par [["enc", "--ap", toString 5, "--key", "k", "--in", "i", "--out", "c"],
      ["run", "offline", "--bkey", "b", "--out", "r", "--spec", "a.spec", "--in", "c", "--bootstrapping-freq", toString 50]],
      .one (.homfa ["dec", "--key", "k", "--in", "r"])] (.ok (fs', ['1'])) ∧
    Schedule L fs [.par [["enc", "--ap", toString 5, "--key", "k", "--in", "i", "--out", "c"],
      ["run", "offline", "--bkey", "b", "--out", "r", "--spec", "a.spec", "--in", "c", "--bootstrapping-freq", toString 50]],
      .one (.homfa ["dec", "--key", "k", "--in", "r"])] (.ok (fs'', ['0'])) := by
  obtain ⟨φ, hφ⟩ := exists_numbering 16
  have hL := toyLib_sound (n := 2) (l := 1) (by omega) (by omega) hφ
  have w : ∀ f ∈ ["k", "b", "a.spec", "i", "c", "r"], Word f := by
    intro f hf
    simp only [List.mem_cons, List.not_mem_nil, or_false] at hf
    rcases hf with rfl | rfl | rfl | rfl | rfl | rfl <;> simp [Word]
  have hist : History (toyLib 16 2 1 φ) toyNoise (World.start exPieceFiles) [.homfa ["genkey", "--out", "k"], .homfa ["genbkey", "--key", "k", "--out", "b"],
      .write "i" [0x1f#8, 0xe1#8]] _ [] :=
    .cons (o := []) (.genkey (w "k" (by decide))) <| .cons (o := []) (.genbkey (w "k" (by decide)) (w "b" (by decide)) rfl) <| .cons (o := []) .write .nil
  obtain ⟨⟨r, hr⟩, hall⟩ := history_session hL (by omega) (by omega) (by decide) hist (World.start_fits exPieceFiles)
  obtain ⟨fs, rfl, hfit⟩ := hall r hr
  have hp : ∀ {u : List Byte} {v : List Char}, doRunPlain (textOf (exSpec.map fun c => BitVec.ofNat 8 c.toNat)) (some u) 5 = .ok v →
      PlainPrints (toyLib 16 2 1 φ) (exSpec.map fun c => BitVec.ofNat 8 c.toNat) u 5 v :=
    fun h => (plainPrints_iff (by omega) (by omega)).2 h
  obtain ⟨fs', h1⟩ := C96_race hL (by omega) (by omega) (by decide) hist hr (K := "k") (B := "b") (S := "a.spec") (I := "i") (C := "c") (R := "r")
    (w _ (by decide)) (w _ (by decide)) (w _ (by decide)) (w _ (by decide)) (w _ (by decide)) (w _ (by decide)) (by decide) (by decide) (ap := 5)
    (s := exSpec.map fun c => BitVec.ofNat 8 c.toNat) (u := [0x1f#8]) (v := [0xe1#8]) rfl rfl rfl rfl (by omega) (by omega) (by decide) (by decide) (by decide)
    (.offline (boot := 50) (by omega) (by omega) (by decide) (by decide)) (hp (v := ['1']) (by decide +kernel))
  obtain ⟨fs'', h2⟩ := C96_race hL (by omega) (by omega) (by decide) hist hr (K := "k") (B := "b") (S := "a.spec") (I := "i") (C := "c") (R := "r")
    (w _ (by decide)) (w _ (by decide)) (w _ (by decide)) (w _ (by decide)) (w _ (by decide)) (w _ (by decide)) (by decide) (by decide) (ap := 5)
    (s := exSpec.map fun c => BitVec.ofNat 8 c.toNat) (u := [0x1f#8, 0xe1#8]) (v := []) rfl rfl rfl rfl (by omega) (by omega) (by decide) (by decide) (by decide)
    (.offline (boot := 50) (by omega) (by omega) (by decide) (by decide)) (hp (v := ['0']) (by decide +kernel))
  exact ⟨toyLib 16 2 1 φ, fs, fs', fs'', hfit.known.1 "i" _ rfl, hp (by decide +kernel), h1, h2⟩

end Homfa.Cli
