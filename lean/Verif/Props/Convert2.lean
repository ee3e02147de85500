import Verif.Proof.Convert2

/-!
# C83: the converters on the command line

Where the converters take their text from, and that a converted specification gives the verdict it should.
-/

namespace Homfa.Cli

variable {N n l : Nat} {L : Lib N n l}

/-- **C83**: a single dash is standard input. -/
theorem C83_stdin {cmd : List String} (hc : Converter cmd) (stdin : List Char) (fs : Files) (r : Res (Files × List Char)) :
    RunHomfa L stdin fs (cmd ++ ["-"]) r ↔ RunHomfa L stdin fs cmd r := by
  have hd : ∀ f, some "-" = some f → f = "-" ∨ Word f := by rintro f ⟨⟩; exact .inl rfl
  have hn : ∀ f, none = some f → f = "-" ∨ Word f := nofun
  cases hc with
  | @spec2spec flags h =>
    have a := run_spec2spec (L := L) (stdin := stdin) (fs := fs) h hd (r := r)
    have b := run_spec2spec (L := L) (stdin := stdin) (fs := fs) h hn (r := r)
    rw [fileWords, List.append_nil] at b
    exact a.trans b.symm
  | spec2dot => exact (run_spec2dot hd).trans (run_spec2dot hn).symm
  | spec2att => exact (run_spec2att hd).trans (run_spec2att hn).symm
  | att2spec => exact (run_att2spec hd).trans (run_att2spec hn).symm

/-- **C83**: naming a file is giving its text as standard input. -/
theorem C83_file {cmd : List String} (hc : Converter cmd) (stdin : List Char) (fs : Files) {F : String} (hF : Word F) {b : List Byte}
    (hb : fs F = some b) (r : Res (Files × List Char)) :
    RunHomfa L stdin fs (cmd ++ [F]) r ↔ RunHomfa L (textOf b) fs cmd r := by
  have hd : ∀ f, some F = some f → f = "-" ∨ Word f := by rintro f ⟨⟩; exact .inr hF
  have hn : ∀ f, none = some f → f = "-" ∨ Word f := nofun
  have e1 : fileOrStdin readSpec fs stdin (some F) = .ok (textOf b) := by simp [fileOrStdin, word_ne_dash hF, hb, readSpec]
  have e2 : fileOrStdin readAtt fs stdin (some F) = .ok (textOf b) := by simp [fileOrStdin, word_ne_dash hF, hb, readAtt]
  cases hc with
  | @spec2spec flags h =>
    have a := run_spec2spec (L := L) (stdin := stdin) (fs := fs) h hd (r := r)
    have b := run_spec2spec (L := L) (stdin := textOf b) (fs := fs) h hn (r := r)
    rw [fileWords, List.append_nil] at b
    rw [e1] at a
    exact a.trans b.symm
  | spec2dot => have a := run_spec2dot (L := L) (stdin := stdin) (fs := fs) hd (r := r); rw [e1] at a; exact a.trans (run_spec2dot hn).symm
  | spec2att => have a := run_spec2att (L := L) (stdin := stdin) (fs := fs) hd (r := r); rw [e1] at a; exact a.trans (run_spec2att hn).symm
  | att2spec => have a := run_att2spec (L := L) (stdin := stdin) (fs := fs) hd (r := r); rw [e2] at a; exact a.trans (run_att2spec hn).symm

/-- **C83**: a file that does not exist is an error, also if there is something on standard input. -/
theorem C83_missing {cmd : List String} (hc : Converter cmd) (stdin : List Char) (fs : Files) {F : String} (hF : Word F)
    (hb : fs F = none) : ∃ e, ∀ r, RunHomfa L stdin fs (cmd ++ [F]) r ↔ r = .error e := by
  have hd : ∀ f, some F = some f → f = "-" ∨ Word f := by rintro f ⟨⟩; exact .inr hF
  have e1 : fileOrStdin readSpec fs stdin (some F) = .error .assertFail := by simp [fileOrStdin, word_ne_dash hF, hb, readSpec]
  have e2 : fileOrStdin readAtt fs stdin (some F) = .error .die := by simp [fileOrStdin, word_ne_dash hF, hb, readAtt]
  cases hc with
  | @spec2spec flags h => exact ⟨.assertFail, fun r => by
      have a := run_spec2spec (L := L) (stdin := stdin) (fs := fs) h hd (r := r); rw [e1] at a; exact a⟩
  | spec2dot => exact ⟨.assertFail, fun r => by have a := run_spec2dot (L := L) (stdin := stdin) (fs := fs) hd (r := r); rw [e1] at a; exact a⟩
  | spec2att => exact ⟨.assertFail, fun r => by have a := run_spec2att (L := L) (stdin := stdin) (fs := fs) hd (r := r); rw [e1] at a; exact a⟩
  | att2spec => exact ⟨.die, fun r => by have a := run_att2spec (L := L) (stdin := stdin) (fs := fs) hd (r := r); rw [e2] at a; exact a⟩

/-- **C83**: `spec2spec` keeps the verdict.  If `run plain` prints `out` for a specification and an input, then `spec2spec` on the specification
prints a text; and with this text as specification `run plain` prints `out` again, the opposite with `--negated`, and so on the reversed bits with
`--reversed`. -/
theorem C83_spec2spec {flags : List String} (hfl : ∀ f ∈ flags, f = "--minimized" ∨ f = "--reversed" ∨ f = "--negated") (stdin : List Char)
    {fs fs' : Files} {S I : String} (wS : Word S) (wI : Word I) {specB : List Byte} (hs : fs S = some specB) {ap : Nat} (hap : 0 < ap)
    (hap64 : ap < 2 ^ 64) {rs : List (List Byte)} (hrs : ∀ r ∈ rs, r.length = recordBytes ap) (hi : fs I = some rs.flatten) {out : List Char}
    (hplain : RunHomfa L [] fs ["run", "plain", "--ap", toString ap, "--spec", S, "--in", I] (.ok (fs', out))) :
    ∃ text, JustPrints L stdin fs ("spec2spec" :: flags ++ [S]) text ∧
      (text.length ≤ 2 ^ 31 → ∀ (fs2 : Files) (G J : String) (specB2 : List Byte) (ap2 : Nat) (rs2 : List (List Byte)), Word G → Word J →
        fs2 G = some specB2 → textOf specB2 = text → 0 < ap2 → ap2 < 2 ^ 64 → (∀ r ∈ rs2, r.length = recordBytes ap2) → fs2 J = some rs2.flatten →
        rs2.flatMap (recordBits ap2) = (if "--reversed" ∈ flags then (rs.flatMap (recordBits ap)).reverse else rs.flatMap (recordBits ap)) →
        JustPrints L [] fs2 ["run", "plain", "--ap", toString ap2, "--spec", G, "--in", J]
          (if "--negated" ∈ flags then (if out = ['1'] then ['0'] else ['1']) else out)) := by
  have hp := (run_plain wS wI hs hi hap hap64).1 hplain
  have hplain : doRunPlain (textOf specB) (some rs.flatten) ap = .ok out := by
    cases h : doRunPlain (textOf specB) (some rs.flatten) ap with
    | error e => rw [h] at hp; cases hp
    | ok o => rw [h] at hp; cases hp; rfl
  obtain ⟨g, _, _, hg, wf, _⟩ := plain_ok hap hplain
  obtain ⟨text, h, k1, k2, k3, k4, -, k5⟩ := C18_spec2spec (textOf specB) g hg (Nat.zero_lt_of_lt wf.init_lt) (decide ("--minimized" ∈ flags))
    (decide ("--reversed" ∈ flags)) (decide ("--negated" ∈ flags))
  refine ⟨text, fun r => ?_, fun hlen fs2 G J specB2 ap2 rs2 wG wJ hG ht hap2 hap64' hrs2 hJ hbits r => ?_⟩
  · have a := run_spec2spec (L := L) (stdin := stdin) (fs := fs) hfl (F := some S) (by rintro f ⟨⟩; exact .inr wS) (r := r)
    rw [show fileOrStdin readSpec fs stdin (some S) = .ok (textOf specB) by simp [fileOrStdin, word_ne_dash wS, hs, readSpec], Res.bind_ok, k1] at a
    exact a
  · have k6 := k5 (Nat.le_trans (Graph.length_dump k3 k2) hlen)
    obtain ⟨b, b1, b2⟩ := k4 (rs2.flatMap (recordBits ap2))
    have b3 : g.accepts (rs.flatMap (recordBits ap)) = .ok b := by
      rw [hbits] at b1
      by_cases hr : "--reversed" ∈ flags
      · simpa [hr] using b1
      · simpa [hr] using b1
    have b4 := plain_records hg hap hrs b3
    rw [hplain] at b4
    cases b4
    rw [run_plain wG wJ hG hJ hap2 hap64', ht, plain_records k6 hap2 hrs2 b2]
    by_cases hk : "--negated" ∈ flags
    · cases b <;> simp [hk, printResult, Except.map]
    · cases b <;> simp [hk, printResult, Except.map]

/-- **C83**: through the AT&T format and back.  If the initial state of the specification is its state 0, then `spec2att` and `att2spec` give a
specification with the same verdicts. -/
theorem C83_att (stdin : List Char) {fs fs' : Files} {S I : String} (wS : Word S) (wI : Word I) {specB : List Byte} (hs : fs S = some specB)
    {ap : Nat} (hap : 0 < ap) (hap64 : ap < 2 ^ 64) {rs : List (List Byte)} (hrs : ∀ r ∈ rs, r.length = recordBytes ap)
    (hi : fs I = some rs.flatten) {out : List Char}
    (hplain : RunHomfa L [] fs ["run", "plain", "--ap", toString ap, "--spec", S, "--in", I] (.ok (fs', out)))
    (h0 : ∀ g, Graph.fromIstream (textOf specB) = .ok g → g.initialState = 0 ∧ g.size ≤ 2 ^ 31) :
    ∃ att text, JustPrints L stdin fs ["spec2att", S] att ∧
      (∀ (fs1 : Files), JustPrints L att fs1 ["att2spec"] text) ∧
      (text.length ≤ 2 ^ 31 → ∀ (fs2 : Files) (G J : String) (specB2 : List Byte), Word G → Word J →
        fs2 G = some specB2 → textOf specB2 = text → fs2 J = fs I →
        JustPrints L [] fs2 ["run", "plain", "--ap", toString ap, "--spec", G, "--in", J] out) := by
  have hp := (run_plain wS wI hs hi hap hap64).1 hplain
  have hplain : doRunPlain (textOf specB) (some rs.flatten) ap = .ok out := by
    cases h : doRunPlain (textOf specB) (some rs.flatten) ap with
    | error e => rw [h] at hp; cases hp
    | ok o => rw [h] at hp; cases hp; rfl
  obtain ⟨g, _, _, hg, wf, _⟩ := plain_ok hap hplain
  obtain ⟨att, h, h1, h2, h3, h4⟩ := C15_att_roundtrip_from_state0 g wf (h0 g hg).2
  obtain ⟨text, h5⟩ : ∃ text, h.dump = .ok text := ⟨_, Graph.dump_ok h3⟩
  have k1 : doSpec2att (textOf specB) = .ok att := by unfold doSpec2att; rw [hg, Res.bind_ok, h1]
  have k2 : doAtt2spec att = .ok text := by unfold doAtt2spec; rw [h2, Res.bind_ok, h5]
  refine ⟨att, text, fun r => ?_, fun fs1 r => ?_, fun hlen fs2 G J specB2 wG wJ hG ht hJ r => ?_⟩
  · have a := run_spec2att (L := L) (stdin := stdin) (fs := fs) (F := some S) (by rintro f ⟨⟩; exact .inr wS) (r := r)
    rw [show fileOrStdin readSpec fs stdin (some S) = .ok (textOf specB) by simp [fileOrStdin, word_ne_dash wS, hs, readSpec], Res.bind_ok, k1] at a
    exact a
  · have a := run_att2spec (L := L) (stdin := att) (fs := fs1) (F := none) nofun (r := r)
    rw [show fileOrStdin readAtt fs1 att none = .ok att by simp [fileOrStdin], Res.bind_ok, k2] at a
    exact a
  · obtain ⟨text', e1, e2⟩ := C14_dump_parse h h3 (Nat.le_trans (Graph.length_dump h3 h5) hlen)
    rw [h5] at e1
    cases e1
    obtain ⟨b, b1⟩ := (⟨_, Graph.WF.accepts_eq h3 _⟩ : ∃ b, h.accepts (rs.flatMap (recordBits ap)) = .ok b)
    have b2 : g.accepts (rs.flatMap (recordBits ap)) = .ok b := by
      rw [← b1, h4]
      unfold acceptsFrom Graph.accepts
      rw [(h0 g hg).1]
    have b3 := plain_records hg hap hrs b2
    rw [hplain] at b3
    cases b3
    rw [run_plain wG wJ hG (hJ.trans hi) hap hap64, ht, plain_records e2 hap hrs (show Graph.accepts _ _ = .ok b from b1)]
    rfl

/-! ## The hypotheses are met -/

/-- `exFiles` and the converted specifications -/
def convFiles : Files := fun f =>
  if f = "neg.spec" then some (">0\t1\t0\n1*\t1\t0\n".toList.map fun c => BitVec.ofNat 8 c.toNat)
  else if f = "att.spec" then some (">0*\t1\t0\n1\t1\t0\n".toList.map fun c => BitVec.ofNat 8 c.toNat)
  else exFiles f

/-- The input of `exFiles` ends in 1, which its specification accepts; negated it does not, and through the AT&T format it does again. -/
example (L : Lib 16 2 1) :
    JustPrints L "x".toList exFiles ["spec2spec", "--negated", "a.spec"] ">0\t1\t0\n1*\t1\t0\n".toList ∧
    JustPrints L [] convFiles ["run", "plain", "--ap", toString 5, "--spec", "neg.spec", "--in", "in"] ['0'] ∧
    JustPrints L "x".toList exFiles ["spec2att", "a.spec"] "0\t1\t0\n0\t0\t1\n0\n1\t1\t0\n1\t0\t1\n".toList ∧
    JustPrints L [] convFiles ["run", "plain", "--ap", toString 5, "--spec", "att.spec", "--in", "in"] ['1'] := by
  have hp : RunHomfa L [] exFiles ["run", "plain", "--ap", toString 5, "--spec", "a.spec", "--in", "in"] (.ok (exFiles, ['1'])) := by
    refine (run_plain (specB := exSpec.map fun c => BitVec.ofNat 8 c.toNat) (inB := [0x1f#8, 0xe1#8, 0x10#8]) (by simp [Word]) (by simp [Word])
      rfl rfl (by omega) (by omega)).2 ?_
    have : doRunPlain (textOf (exSpec.map fun c => BitVec.ofNat 8 c.toNat)) (some [0x1f#8, 0xe1#8, 0x10#8]) 5 = .ok ['1'] := by
      decide +kernel
    rw [this]
    rfl
  have hb : ∀ r ∈ [[0x1f#8], [0xe1#8], [0x10#8]], r.length = recordBytes 5 := by decide
  obtain ⟨t, h1, h2⟩ := C83_spec2spec (flags := ["--negated"]) (by simp) "x".toList (by simp [Word]) (by simp [Word])
    (specB := exSpec.map fun c => BitVec.ofNat 8 c.toNat) rfl (by omega) (by omega) hb rfl hp
  have e : t = ">0\t1\t0\n1*\t1\t0\n".toList := by
    have hd : doSpec2spec (textOf (exSpec.map fun c => BitVec.ofNat 8 c.toNat)) false false true = .ok ">0\t1\t0\n1*\t1\t0\n".toList := by
      decide +kernel
    have := (h1 (.ok (exFiles, ">0\t1\t0\n1*\t1\t0\n".toList))).1 ((run_spec2spec (flags := ["--negated"]) (F := some "a.spec") (by simp) (by
      rintro f ⟨⟩; right; simp [Word])).2 (by
        rw [show fileOrStdin readSpec exFiles "x".toList (some "a.spec") = .ok (textOf (exSpec.map fun c => BitVec.ofNat 8 c.toNat)) from rfl,
          Res.bind_ok]
        exact (congrArg (fun x => x.bind fun o => Except.ok (exFiles, o)) hd).symm))
    cases this
    rfl
  subst e
  obtain ⟨att, t, k1, k2, k3⟩ := C83_att "x".toList (by simp [Word]) (by simp [Word]) (specB := exSpec.map fun c => BitVec.ofNat 8 c.toNat) rfl
    (by omega) (by omega) hb rfl hp (by
      intro g hg
      refine ⟨?_, by rw [(exSpec_size g hg).2]; omega⟩
      have : (Graph.fromIstream (textOf (exSpec.map fun c => BitVec.ofNat 8 c.toNat))).map Graph.initialState = .ok 0 := by decide +kernel
      rw [hg] at this
      exact Except.ok.inj this)
  have hd : doSpec2att (textOf (exSpec.map fun c => BitVec.ofNat 8 c.toNat)) = .ok "0\t1\t0\n0\t0\t1\n0\n1\t1\t0\n1\t0\t1\n".toList := by
    decide +kernel
  have e : att = "0\t1\t0\n0\t0\t1\n0\n1\t1\t0\n1\t0\t1\n".toList := by
    have := (k1 (.ok (exFiles, "0\t1\t0\n0\t0\t1\n0\n1\t1\t0\n1\t0\t1\n".toList))).1 ((run_spec2att (F := some "a.spec") (by
      rintro f ⟨⟩; right; simp [Word])).2 (congrArg (fun x => x.bind fun o => Except.ok (exFiles, o)) hd).symm)
    cases this
    rfl
  subst e
  have e : t = ">0*\t1\t0\n1\t1\t0\n".toList := by
    have hd : doAtt2spec "0\t1\t0\n0\t0\t1\n0\n1\t1\t0\n1\t0\t1\n".toList = .ok ">0*\t1\t0\n1\t1\t0\n".toList := by decide +kernel
    have := (k2 exFiles (.ok (exFiles, ">0*\t1\t0\n1\t1\t0\n".toList))).1 ((run_att2spec (F := none) nofun).2
      (congrArg (fun x => x.bind fun o => Except.ok (exFiles, o)) hd).symm)
    cases this
    rfl
  subst e
  refine ⟨h1, ?_, k1, ?_⟩
  · exact h2 (by decide) convFiles "neg.spec" "in" _ 5 _ (by simp [Word]) (by simp [Word]) rfl (by decide) (by omega) (by omega) hb rfl rfl
  · exact k3 (by decide) convFiles "att.spec" "in" _ (by simp [Word]) (by simp [Word]) rfl (by decide) rfl

end Homfa.Cli
