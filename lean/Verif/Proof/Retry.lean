import Verif.Proof.Crash
import Verif.Proof.Runs
import Verif.Props.Frame

/-! # Commands that are attempted again after an interruption -/

namespace Homfa.Cli

variable {N n l : Nat} {L : Lib N n l} {δ : Noise} {Enc : L.Key → Gsw l N → Bool → Prop}

/-- the attempts of one command that prints nothing -/
theorem stage {P Q : Files → Prop} {c : List String}
    (hA : ∀ fs e fs1 o, P fs → Attempt L fs c e (fs1, o) → P fs1 ∧ o = [])
    (hD : ∀ fs fs1 o, P fs → Attempt L fs c true (fs1, o) → Q fs1) {cmds lines : List (List String)} {ends : List Bool}
    (hr : Retried (c :: cmds) lines ends) : ∀ {fs : Files} {r : Files × List Char}, P fs → CrashScript L fs lines ends r →
      ∃ fs1 lines' ends', Q fs1 ∧ Retried cmds lines' ends' ∧ CrashScript L fs1 lines' ends' r := by
  generalize hc : c :: cmds = cs at hr
  induction hr with
  | nil => cases hc
  | again h ih =>
    cases hc
    intro fs r hP hs
    cases hs with
    | @next _ _ _ fs1 o1 _ _ r' h1 h2 =>
      obtain ⟨hP1, rfl⟩ := hA _ _ _ _ hP h1
      exact ih rfl hP1 h2
  | done h ih =>
    cases hc
    intro fs r hP hs
    cases hs with
    | @next _ _ _ fs1 o1 _ _ r' h1 h2 =>
      obtain ⟨hP1, rfl⟩ := hA _ _ _ _ hP h1
      exact ⟨fs1, _, _, hD _ _ _ hP h1, h, h2⟩

/-- the attempts of the last command, which prints a character -/
theorem last_stage {P : Files → Prop} {c : List String} {ch : Char}
    (hA : ∀ fs e fs1 o, P fs → Attempt L fs c e (fs1, o) → P fs1 ∧ (o = [] ∨ o = [ch]))
    (hD : ∀ fs fs1 o, P fs → Attempt L fs c true (fs1, o) → o = [ch]) {lines : List (List String)} {ends : List Bool}
    (hr : Retried [c] lines ends) : ∀ {fs : Files} {r : Files × List Char}, P fs → CrashScript L fs lines ends r →
      P r.1 ∧ ∃ k, 0 < k ∧ r.2 = List.replicate k ch := by
  generalize hc : [c] = cs at hr
  induction hr with
  | nil => cases hc
  | again h ih =>
    cases hc
    intro fs r hP hs
    cases hs with
    | @next _ _ _ fs1 o1 _ _ r' h1 h2 =>
      obtain ⟨hP1, ho⟩ := hA _ _ _ _ hP h1
      obtain ⟨g1, k, g2, g3⟩ := ih rfl hP1 h2
      refine ⟨g1, ?_⟩
      rcases ho with rfl | rfl
      · exact ⟨k, g2, g3⟩
      · exact ⟨k + 1, by omega, by simp [g3, List.replicate_succ]⟩
  | done h ih =>
    cases hc
    intro fs r hP hs
    cases h
    cases hs with
    | @next _ _ _ fs1 o1 _ _ r' h1 h2 =>
      cases h2
      obtain ⟨hP1, _⟩ := hA _ _ _ _ hP h1
      exact ⟨hP1, 1, by omega, by simp [hD _ _ _ hP h1]⟩

/-- what an interrupted call touches -/
theorem interrupted_frame {fs fs' : Files} {c : Call} {o : List Char} (h : Interrupted L fs c (fs', o)) :
    (∀ f, ¬c.Writes f → fs' f = fs f) ∧ (c.silent = true → o = []) := by
  generalize hr : (fs', o) = r at h
  cases h with
  | early => cases hr; exact ⟨fun _ _ => rfl, fun _ => rfl⟩
  | genkey | genbkey | enc | encNoInput | runOffline | runBlock =>
    cases hr; exact ⟨fun f hf => Files.set_other _ _ hf, fun _ => rfl⟩
  | dec | runPlain => cases hr; exact ⟨fun f _ => rfl, nofun⟩
  | converter hc =>
    cases hr
    refine ⟨fun f _ => rfl, fun h => ?_⟩
    cases c <;> first | contradiction | simp [Call.silent] at h
  | @runReverseLoop _ _ _ _ _ _ _ _ _ _ _ _ _ _ _ _ _ rs f c p _ _ _ _ _ _ hq hrs hp0 =>
    cases hr
    refine ⟨fun name hn => ?_, fun _ => rfl⟩
    have hp : ∀ q ∈ rs ++ [(f, c)], OutFile.path q.1 ≠ name := by
      intro q hq' e
      obtain ⟨d, k, e1, e2⟩ := onlineLoop_paths _ _ _ _ _ _ _ _ hq q (hrs.subset hq')
      refine hn (.inr ⟨d, k, e1, ?_⟩)
      rw [← e, e2]
      rfl
    rw [Files.set_other _ _ (Ne.symm (hp (f, c) (by simp)))]
    exact writeResults_other L rs fs name fun r hr => hp r (by simp [hr])
  | @runFlutLoop _ _ _ _ _ _ _ _ _ _ _ _ _ _ _ _ _ _ _ rs f c p _ _ _ _ _ _ hq hrs _ =>
    cases hr
    refine ⟨fun name hn => ?_, fun _ => rfl⟩
    have hp : ∀ q ∈ rs ++ [(f, c)], OutFile.path q.1 ≠ name := by
      intro q hq' e
      obtain ⟨d, k, e1, e2⟩ := onlineLoop_paths _ _ _ _ _ _ _ _ hq q (hrs.subset hq')
      refine hn (.inr ⟨d, k, e1, ?_⟩)
      rw [← e, e2]
      rfl
    rw [Files.set_other _ _ (Ne.symm (hp (f, c) (by simp)))]
    exact writeResults_other L rs fs name fun r hr => hp r (by simp [hr])
  | @runReverse spec input out outDir freq boot isRev bkey sanitize pre cs b s rs f c p hf hb hs hd hp =>
    cases hr
    refine ⟨fun name hn => ?_, fun _ => rfl⟩
    have hw : Exec L [] fs (.runReverse spec input out outDir freq boot isRev bkey sanitize) (.ok (writeResults L fs (rs ++ [(f, c)]), [])) := by
      have := Exec.runReverse (L := L) (stdin := []) (fs := fs) (spec := spec) (input := input) (out := out) (outDir := outDir) (freq := freq)
        (boot := boot) (isRev := isRev) (bkey := bkey) (sanitize := sanitize) hf
      simpa only [Res.bind_ok, hb, hs, hd, Res.pure_eq] using this
    have hp : ∀ q ∈ rs ++ [(f, c)], OutFile.path q.1 ≠ name := by
      unfold doRunReverse at hd
      obtain ⟨_, _, h1⟩ := Res.bind_eq_ok.1 hd
      obtain ⟨_, _, h1⟩ := Res.bind_eq_ok.1 h1
      obtain ⟨_, _, h1⟩ := Res.bind_eq_ok.1 h1
      obtain ⟨q, hq, h1⟩ := Res.bind_eq_ok.1 h1
      obtain ⟨f', hf', h1⟩ := Res.bind_eq_ok.1 h1
      obtain ⟨c', _, h1⟩ := Res.bind_eq_ok.1 h1
      have h1 := Except.ok.inj h1
      rw [← h1]
      exact paths_of hq hf' name hn
    rw [Files.set_other _ _ (Ne.symm (hp (f, c) (by simp)))]
    exact writeResults_other L rs fs name fun r hr => hp r (by simp [hr])
  | @runFlut spec input out outDir freq queue boot bkey maxSecond debugSkey sanitize pre cs b s rs f c p hf hs hb hd hp =>
    cases hr
    refine ⟨fun name hn => ?_, fun _ => rfl⟩
    have hp : ∀ q ∈ rs ++ [(f, c)], OutFile.path q.1 ≠ name := by
      unfold doRunFlut at hd
      obtain ⟨_, _, h1⟩ := Res.bind_eq_ok.1 hd
      obtain ⟨_, _, h1⟩ := Res.bind_eq_ok.1 h1
      dsimp only at h1
      split at h1
      · cases h1
      obtain ⟨q, hq, h1⟩ := Res.bind_eq_ok.1 h1
      obtain ⟨f', hf', h1⟩ := Res.bind_eq_ok.1 h1
      obtain ⟨c', _, h1⟩ := Res.bind_eq_ok.1 h1
      have h1 := Except.ok.inj h1
      rw [← h1]
      exact paths_of hq hf' name hn
    rw [Files.set_other _ _ (Ne.symm (hp (f, c) (by simp)))]
    exact writeResults_other L rs fs name fun r hr => hp r (by simp [hr])

/-- the sequence, with retries -/
theorem retry_pipeline (hL : L.Sound δ Enc) {S I K B C R : String} (hn : Names S I K B C R) (fs : Files) {specB inB : List Byte}
    (hs : fs S = some specB) (hi : fs I = some inB) (hlen : 8 * inB.length * blockSize l N < 2 ^ 63) {ap : Nat} (hap : 0 < ap)
    (hap64 : ap < 2 ^ 64) {out : List Char} (hplain : doRunPlain (textOf specB) (some inB) ap = .ok out) {X : List String}
    (hX : RunRight L S B C R specB inB ap out X) {cX : Call} (hcX : homfaMain (fun _ => true) X = .ok (some cX))
    (hwX : ∀ f, cX.Writes f → f = R) (hsX : cX.silent = true) {lines : List (List String)} {ends : List Bool}
    (hr : Retried [["genkey", "--out", K], ["genbkey", "--key", K, "--out", B],
      ["enc", "--ap", toString ap, "--key", K, "--in", I, "--out", C], X, ["dec", "--key", K, "--in", R]] lines ends)
    {fs' : Files} {o : List Char} (h : CrashScript L fs lines ends (fs', o)) :
    (∃ k, 0 < k ∧ o = (List.replicate k out).flatten) ∧ ∀ f, f ∉ [K, B, C, R] → fs' f = fs f := by
  obtain ⟨wS, wI, wK, wB, wC, wR⟩ : Word S ∧ Word I ∧ Word K ∧ Word B ∧ Word C ∧ Word R :=
    ⟨hn.words S (by simp), hn.words I (by simp), hn.words K (by simp), hn.words B (by simp), hn.words C (by simp), hn.words R (by simp)⟩
  have hd := hn.distinct
  simp only [List.nodup_cons, List.mem_cons, List.not_mem_nil, or_false, not_or] at hd
  obtain ⟨⟨dSI, dSK, dSB, dSC, dSR⟩, ⟨dIK, dIB, dIC, dIR⟩, ⟨dKB, dKC, dKR⟩, ⟨dBC, dBR⟩, dCR, -⟩ := hd
  -- one attempt changes one file and prints nothing
  have frame : ∀ {toks : List String} {c0 : Call} {out : String}, homfaMain (fun _ => true) toks = .ok (some c0) →
      (∀ f, c0.Writes f → f = out) → c0.silent = true → ∀ {fs : Files} {e fs1 o}, Attempt L fs toks e (fs1, o) →
      (∀ f, f ≠ out → fs1 f = fs f) ∧ o = [] := by
    intro toks c0 out h0 hw hsil fs e fs1 o h
    obtain ⟨h1, h2⟩ := interrupted_frame (attempt_interrupted h0 h)
    exact ⟨fun f hf => h1 f fun h => hf (hw f h), h2 hsil⟩
  have fK : ∀ f : String, f ∉ [K, B, C, R] → f ≠ K ∧ f ≠ B ∧ f ≠ C ∧ f ≠ R := by
    intro f hf
    simpa only [List.mem_cons, List.not_mem_nil, or_false, not_or] using hf
  have S0 : S ∉ [K, B, C, R] := by simp [dSK, dSB, dSC, dSR]
  have I0 : I ∉ [K, B, C, R] := by simp [dIK, dIB, dIC, dIR]
  let P0 : Files → Prop := fun fs1 => ∀ f, f ∉ [K, B, C, R] → fs1 f = fs f
  -- genkey
  obtain ⟨fs1, lines1, ends1, ⟨q, hK1, hP1⟩, hr1, h1⟩ := stage (L := L) (P := P0) (Q := fun fs1 => ∃ q, fs1 K = some (L.saveKey (L.newKey q)) ∧ P0 fs1)
    (fun fsa e fsb o hP ha => by
      obtain ⟨g1, g2⟩ := frame (main_genkey wK) (fun f h => h) rfl ha
      exact ⟨fun f hf => by rw [g1 f (fK f hf).1, hP f hf], g2⟩)
    (fun fsa fsb o hP ha => by
      obtain ⟨q, h⟩ := (run_genkey wK).1 ha
      cases h
      exact ⟨q, Files.set_same _ _ _, fun f hf => by rw [Files.set_other _ _ (fK f hf).1, hP f hf]⟩)
    hr (fun _ _ => rfl) h
  -- genbkey
  let P1 : Files → Prop := fun fs1 => fs1 K = some (L.saveKey (L.newKey q)) ∧ P0 fs1
  obtain ⟨fs2, lines2, ends2, ⟨q', hB2, hP2⟩, hr2, h2⟩ := stage (L := L) (P := P1)
    (Q := fun fs1 => ∃ q', fs1 B = some (L.saveBKey (L.newBKey q' (L.newKey q))) ∧ P1 fs1)
    (fun fsa e fsb o hP ha => by
      obtain ⟨g1, g2⟩ := frame (main_genbkey wK wB) (fun f h => h) rfl ha
      exact ⟨⟨by rw [g1 K dKB, hP.1], fun f hf => by rw [g1 f (fK f hf).2.1, hP.2 f hf]⟩, g2⟩)
    (fun fsa fsb o hP ha => by
      obtain ⟨q', h⟩ := (run_genbkey wK wB hL.key hP.1).1 ha
      cases h
      exact ⟨q', Files.set_same _ _ _, by rw [Files.set_other _ _ dKB, hP.1],
        fun f hf => by rw [Files.set_other _ _ (fK f hf).2.1, hP.2 f hf]⟩)
    hr1 ⟨hK1, hP1⟩ h1
  -- enc
  let P2 : Files → Prop := fun fs1 => fs1 B = some (L.saveBKey (L.newBKey q' (L.newKey q))) ∧ P1 fs1
  obtain ⟨fs3, lines3, ends3, ⟨rand, cs, hC3, hlen3, henc3, hP3⟩, hr3, h3⟩ := stage (L := L) (P := P2)
    (Q := fun fs1 => ∃ (rand : Nat → Nat) (cs : List (Gsw l N)), fs1 C = some (cs.flatMap saveGsw) ∧ (cs.flatMap saveGsw).length < 2 ^ 63 ∧
      doEnc (L.pair (L.newKey q) (L.newBKey q' (L.newKey q))) rand (some inB) ap = .ok (cs.flatMap saveGsw) ∧ P2 fs1)
    (fun fsa e fsb o hP ha => by
      obtain ⟨g1, g2⟩ := frame (main_enc wK wI wC hap hap64) (fun f h => h) rfl ha
      exact ⟨⟨by rw [g1 B dBC, hP.1], by rw [g1 K dKC, hP.2.1], fun f hf => by rw [g1 f (fK f hf).2.2.1, hP.2.2 f hf]⟩, g2⟩)
    (fun fsa fsb o hP ha => by
      obtain ⟨rand, h⟩ := (run_enc wK wI wC hL.key hP.2.1 ((hP.2.2 I I0).trans hi) dIC hap hap64).1 ha
      obtain ⟨cs, c1, c2⟩ := enc_file hlen hap hplain (L.pair (L.newKey q) (L.newBKey q' (L.newKey q))) rand
      have c2' : doEnc (L.client (L.newKey q)) rand (some inB) ap = .ok (cs.flatMap saveGsw) := c2
      rw [c2'] at h
      cases h
      refine ⟨rand, cs, Files.set_same _ _ _, c1, c2, ?_, ?_, fun f hf => ?_⟩
      · rw [Files.set_other _ _ dBC, Files.set_other _ _ dBC, hP.1]
      · rw [Files.set_other _ _ dKC, Files.set_other _ _ dKC, hP.2.1]
      · rw [Files.set_other _ _ (fK f hf).2.2.1, Files.set_other _ _ (fK f hf).2.2.1, hP.2.2 f hf])
    hr2 ⟨hB2, hP2⟩ h2
  -- run
  let P3 : Files → Prop := fun fs1 => fs1 C = some (cs.flatMap saveGsw) ∧ P2 fs1
  obtain ⟨fs4, lines4, ends4, ⟨c, hR4, hdec4, hP4⟩, hr4, h4⟩ := stage (L := L) (P := P3)
    (Q := fun fs1 => ∃ c, fs1 R = some (L.saveRes c) ∧ doDec (L.client (L.newKey q)) c = out ∧ P3 fs1)
    (fun fsa e fsb o hP ha => by
      obtain ⟨g1, g2⟩ := frame hcX hwX hsX ha
      exact ⟨⟨by rw [g1 C dCR, hP.1], by rw [g1 B dBR, hP.2.1], by rw [g1 K dKR, hP.2.2.1],
        fun f hf => by rw [g1 f (fK f hf).2.2.2, hP.2.2.2 f hf]⟩, g2⟩)
    (fun fsa fsb o hP ha => by
      obtain ⟨-, hall⟩ := hX q q' rand fsa cs ((hP.2.2.2 S S0).trans hs) hP.1 hP.2.1 hlen3 henc3
      obtain ⟨c, e, hc⟩ := hall _ ha
      cases e
      exact ⟨c, Files.set_same _ _ _, hc, by rw [Files.set_other _ _ dCR, hP.1], by rw [Files.set_other _ _ dBR, hP.2.1],
        by rw [Files.set_other _ _ dKR, hP.2.2.1], fun f hf => by rw [Files.set_other _ _ (fK f hf).2.2.2, hP.2.2.2 f hf]⟩)
    hr3 ⟨hC3, hP3⟩ h3
  -- dec
  obtain ⟨b, hb⟩ : ∃ b, out = printResult b := ⟨_, hdec4.symm⟩
  obtain ⟨ch, hch⟩ : ∃ ch, printResult b = [ch] := by cases b <;> exact ⟨_, rfl⟩
  obtain ⟨g1, k, g2, g3⟩ := last_stage (L := L) (P := fun fs1 => fs1 R = some (L.saveRes c) ∧ P3 fs1) (ch := ch)
    (fun fsa e fsb o hP ha => by
      have ha := attempt_interrupted (main_dec wK wR) ha
      generalize hr : (fsb, o) = r at ha
      cases ha with
      | early => cases hr; exact ⟨hP, .inl rfl⟩
      | dec hk hc ho =>
        cases hr
        rw [hP.2.2.2.1] at hk
        rw [hP.1] at hc
        obtain ⟨_, e1, hk⟩ := readArchive_ok.1 hk
        cases e1
        rw [hL.key] at hk
        cases hk
        obtain ⟨_, e1, hc⟩ := readArchive_ok.1 hc
        cases e1
        rw [hL.res] at hc
        cases hc
        rw [hdec4, hb] at ho
        refine ⟨hP, ?_⟩
        rw [← hch]
        exact prefix_printResult ho
      | converter hc => cases hc)
    (fun fsa fsb o hP ha => by
      have := (run_dec wK wR hL.key hL.res hP.2.2.2.1 hP.1).1 ha
      cases this
      rw [hdec4, hb, hch])
    hr4 ⟨hR4, hP4⟩ h4
  refine ⟨⟨k, g2, ?_⟩, g1.2.2.2.2⟩
  rw [hb, hch]
  simpa using g3

/-- attempts in any order -/
theorem attempts_frame {S I K B C R : String} (hn : Names S I K B C R) {ap : Nat} (hap : 0 < ap) (hap64 : ap < 2 ^ 64) {X : List String}
    {cX : Call} (hcX : homfaMain (fun _ => true) X = .ok (some cX)) (hwX : ∀ f, cX.Writes f → f = R) {fs : Files}
    {lines : List (List String)} (hl : ∀ c ∈ lines, c ∈ [["genkey", "--out", K], ["genbkey", "--key", K, "--out", B],
      ["enc", "--ap", toString ap, "--key", K, "--in", I, "--out", C], X, ["dec", "--key", K, "--in", R]]) {ends : List Bool}
    {r : Files × List Char} (h : CrashScript L fs lines ends r) : ∀ f, f ∉ [K, B, C, R] → r.1 f = fs f := by
  obtain ⟨wI, wK, wB, wC, wR⟩ : Word I ∧ Word K ∧ Word B ∧ Word C ∧ Word R :=
    ⟨hn.words I (by simp), hn.words K (by simp), hn.words B (by simp), hn.words C (by simp), hn.words R (by simp)⟩
  induction h with
  | nil => exact fun _ _ => rfl
  | @next fs toks e fs1 o1 rest ends r h1 h2 ih =>
    intro f hf
    rw [ih (fun c hc => hl c (by simp [hc])) f hf]
    have key : ∀ {c0 : Call}, homfaMain (fun _ => true) toks = .ok (some c0) → ¬c0.Writes f → fs1 f = fs f :=
      fun h0 hw => (interrupted_frame (attempt_interrupted h0 h1)).1 f hw
    simp only [List.mem_cons, List.not_mem_nil, or_false, not_or] at hf
    have ht := hl toks (by simp)
    simp only [List.mem_cons, List.not_mem_nil, or_false] at ht
    rcases ht with rfl | rfl | rfl | rfl | rfl
    · exact key (main_genkey wK) hf.1
    · exact key (main_genbkey wK wB) hf.2.1
    · exact key (main_enc wK wI wC hap hap64) hf.2.2.1
    · exact key hcX fun h => hf.2.2.2 (hwX f h)
    · exact key (main_dec wK wR) id

end Homfa.Cli
