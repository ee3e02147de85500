import Verif.Proof.DiskHistory
import Verif.Props.Fault
import Verif.Props.Outage

/-!
# C109: any history of commands on a disk that may fail

As C106, but besides, any write to a file may fail without being noticed (C74), in any of the commands and any number of times.  What is wrong
is never used: a command that ends normally has read whole files only, and prints what it has to print, or a beginning of it.

Lines that append ciphertexts to others are left out: a file made of several that lack their ends may have the length of whole ciphertexts.
Lines that send the text of a command to a file are left out too: such a file may be any beginning of the text (C75).
-/

namespace Homfa.Cli

variable {N n l : Nat} {L : Lib N n l} {δ : Noise} {Enc : L.Key → Gsw l N → Bool → Prop} {cap : Nat}

/-- **C109.** Those commands of a session that end normally are used as they are meant to be, according to an account in which the output files of
the others are lost; any write may have failed.  Then each of them prints a beginning of what the account says, and the bytes of all files that are
not keys, ciphertexts, results or lost are as the account says. -/
theorem C109_history (hL : L.Sound δ Enc) (hT : L.RejectsTruncated) (hN : 0 < N) (hl : 0 < l) (hbs : blockSize l N < 2 ^ 63)
    (hcap : cap < blockSize l N) {fs fs' : Files} {cmds : List (ShellCmd × Bool)} {w : World} {outs os : List (List Char)}
    (h : DiskHistory L δ (World.start fs) cmds w outs) (hs : DiskSession L cap fs cmds fs' os) :
    List.Forall₂ (· <+: ·) os outs ∧ w.Known fs' := by
  obtain ⟨h1, h2⟩ := disk_history hL hT hN hl hbs hcap h (World.start_fits fs).cut hs
  exact ⟨h1, h2.known⟩

/-- **C109**, the verdict: if `dec` ends normally after such a session, it prints the right verdict, or nothing. -/
theorem C109_verdict (hL : L.Sound δ Enc) (hT : L.RejectsTruncated) (hN : 0 < N) (hl : 0 < l) (hbs : blockSize l N < 2 ^ 63)
    (hcap : cap < blockSize l N) {fs fs' : Files} {cmds : List (ShellCmd × Bool)} {w : World} {outs os : List (List Char)}
    (h : DiskHistory L δ (World.start fs) cmds w outs) (hs : DiskSession L cap fs cmds fs' os) {K R : String} (hK : Word K) (hR : Word R) {i : Nat}
    {v : List Char} (hk : w.holds K = .key i) (hr : w.holds R = .result i v) {fs'' : Files} {o : List Char}
    (hd : RunFaulty L cap [] fs' ["dec", "--key", K, "--in", R] (.ok (fs'', o))) : fs'' = fs' ∧ (o = [] ∨ o = v) := by
  obtain ⟨-, h2⟩ := disk_history hL hT hN hl hbs hcap h (World.start_fits fs).cut hs
  obtain ⟨h3, -⟩ := disk_step hL hT hN hl hbs hcap (.dec hK hR hk hr) rfl h2 hd
  obtain ⟨a, p, m, x, hpre, -, hfr, -⟩ := run_of_faulty (main_dec hK hR) hd
  refine ⟨funext fun f => hfr f id, ?_⟩
  obtain ⟨q, fs0, hq, -⟩ := h2
  have hv := hq R
  rw [hr] at hv
  obtain ⟨-, c, -, hv⟩ := hv
  rw [← hv] at h3 ⊢
  exact prefix_printResult h3

/-- **C109**, a command that is stopped, at whatever moment, leaves all files as they are but those it names as its output; this is all that
is assumed about commands that do not end normally. -/
theorem C109_stopped {fs fs1 : Files} {c : ShellCmd} (h : CutShort L fs c fs1) : ∀ f, f ∉ c.outputs → fs1 f = fs f :=
  fun _ hf => cutShort_frame h hf

/-- **C109**: when no write fails, all commands that are not stopped can end normally and print all they have to. -/
theorem C109_without_failures (hL : L.Sound δ Enc) (hN : 0 < N) (hl : 0 < l) (hbs : blockSize l N < 2 ^ 63) {fs : Files}
    {cmds : List (ShellCmd × Bool)} {w : World} {outs : List (List Char)} (h : DiskHistory L δ (World.start fs) cmds w outs)
    (hb : ∀ args, (.homfa args, true) ∈ cmds → ∀ (fs : Files) c, homfaMain (fun f => (fs f).isSome) args = .ok (some c) →
      c.silent = true ∨ c.printsOnly = true) :
    ∃ fs', DiskSession L cap fs cmds fs' outs := by
  have key : ∀ {w0 : World} {fs : Files}, DiskHistory L δ w0 cmds w outs → w0.Fits L fs → ∃ fs', DiskSession L cap fs cmds fs' outs := by
    clear h fs
    intro w0 fs h hf
    induction h generalizing fs with
    | nil => exact ⟨_, .nil⟩
    | @ends w c w' o cs w'' outs hs _ ih =>
      obtain ⟨⟨r, h1⟩, h2⟩ := step_session hL hN hl hbs hs.step hf [] (fun w fs _ => w.Fits L fs) [] fun fs' h =>
        ⟨⟨_, .nil⟩, fun r hr => by cases hr; exact ⟨fs', rfl, h⟩⟩
      rw [List.append_nil] at h2
      obtain ⟨fs1, rfl, hf1⟩ := h2 r h1
      obtain ⟨fs', h3⟩ := ih (fun args ha => hb args (List.mem_cons_of_mem _ ha)) hf1
      refine ⟨fs', ?_⟩
      by_cases hc : ∃ args, c = .homfa args
      · obtain ⟨args, rfl⟩ := hc
        generalize hx : (.ok (fs1, o) : Res (Files × List Char)) = x at h1
        cases h1 with
        | next h1 h1' =>
          cases h1'
          cases hx
          rw [List.append_nil]
          exact .homfa (C74_without_failures h1 (hb args (by simp) fs)) h3
        | stop => cases hx
      · exact .other (fun args e => hc ⟨args, e⟩) h1 h3
    | not _ ih =>
      obtain ⟨fs', h3⟩ := ih (fun args ha => hb args (List.mem_cons_of_mem _ ha)) (hf.lose (fs1 := fs) fun _ _ => rfl)
      exact ⟨fs', .not (fun _ _ => rfl) h3⟩
  exact key h (World.start_fits fs)

/-! ## The hypotheses are met -/

/-- Someone makes keys and encrypts an input; the first evaluation key is refused, being cut off, so it is made again; a copy of the key is used. -/
def exDisk (boot : Nat) : List (ShellCmd × Bool) :=
  [(.homfa ["genkey", "--out", "ka"], true),
   (.homfa ["genbkey", "--key", "ka", "--out", "ba"], true),
   (.homfa ["enc", "--ap", toString 5, "--key", "ka", "--in", "in1", "--out", "ca"], true),
   (.homfa ["run", "offline", "--bkey", "ba", "--out", "ra", "--spec", "a.spec", "--in", "ca", "--bootstrapping-freq", toString boot], false),
   (.copy "ka" "kb", true),
   (.homfa ["genbkey", "--key", "kb", "--out", "ba"], true),
   (.homfa ["run", "offline", "--bkey", "ba", "--out", "ra", "--spec", "a.spec", "--in", "ca", "--bootstrapping-freq", toString boot], true),
   (.homfa ["dec", "--key", "kb", "--in", "ra"], true)]

example : ∃ L : Lib 16 2 1, ∀ boot, 0 < boot → boot < 1000 →
    (∃ fs', DiskSession L 100 exPieceFiles (exDisk boot) fs' [[], [], [], [], [], [], ['1']]) ∧
      ∀ fs' os, DiskSession L 100 exPieceFiles (exDisk boot) fs' os →
        List.Forall₂ (· <+: ·) os [[], [], [], [], [], [], ['1']] ∧ fs' "in1" = some [0x1f#8] := by
  obtain ⟨φ, hφ⟩ := exists_numbering 16
  have hL := toyLib_sound (n := 2) (l := 1) (by omega) (by omega) hφ
  refine ⟨toyLib 16 2 1 φ, fun boot h0 h1 => ?_⟩
  have hb : toyNoise.br + boot * toyNoise.cmux + toyNoise.ks + toyNoise.ms < 2 ^ 30 := by simp only [toyNoise]; omega
  have w : ∀ f ∈ ["ka", "kb", "ba", "in1", "ca", "a.spec", "ra"], Word f := by
    intro f hf
    simp only [List.mem_cons, List.not_mem_nil, or_false] at hf
    rcases hf with rfl | rfl | rfl | rfl | rfl | rfl | rfl <;> simp [Word]
  have hh : DiskHistory (toyLib 16 2 1 φ) toyNoise (World.start exPieceFiles) (exDisk boot) _ [[], [], [], [], [], [], ['1']] :=
    .ends (.genkey (w "ka" (by decide))) <| .ends (.genbkey (w "ka" (by decide)) (w "ba" (by decide)) rfl) <|
      .ends (.enc (w "ka" (by decide)) (w "in1" (by decide)) (w "ca" (by decide)) rfl rfl (by decide) (by decide) (by decide) (by decide)) <|
      .not <| .ends (.copy nofun nofun) <|
      .ends (.genbkey (w "kb" (by decide)) (w "ba" (by decide)) rfl) <|
      .ends (.run (out := ['1']) (w "ba" (by decide)) (w "a.spec" (by decide)) (w "ca" (by decide)) (w "ra" (by decide)) rfl rfl rfl (by decide)
        (.offline h0 (by omega) hb (by decide)) ((plainPrints_iff (by omega) (by omega)).2 (by decide +kernel))) <|
      .ends (.dec (w "kb" (by decide)) (w "ra" (by decide)) rfl rfl) .nil
  constructor
  · refine C109_without_failures hL (by omega) (by omega) (by decide) hh fun args ha fs c hc => ?_
    simp only [exDisk, List.mem_cons, List.not_mem_nil, or_false, Prod.mk.injEq, reduceCtorEq, ShellCmd.homfa.injEq, and_true, and_false,
      false_or] at ha
    rcases ha with rfl | rfl | rfl | rfl | rfl | rfl
    · cases call_of_runs (main_genkey (w "ka" (by decide))) hc; exact .inl rfl
    · cases call_of_runs (main_genbkey (w "ka" (by decide)) (w "ba" (by decide))) hc; exact .inl rfl
    · cases call_of_runs (main_enc (ap := 5) (w "ka" (by decide)) (w "in1" (by decide)) (w "ca" (by decide)) (by omega) (by omega)) hc; exact .inl rfl
    · cases call_of_runs (main_genbkey (w "kb" (by decide)) (w "ba" (by decide))) hc; exact .inl rfl
    · cases call_of_runs (main_offline (boot := boot) (w "ba" (by decide)) (w "ra" (by decide)) (w "a.spec" (by decide)) (w "ca" (by decide)) h0 (by omega)) hc
      exact .inl rfl
    · cases call_of_runs (main_dec (w "kb" (by decide)) (w "ra" (by decide))) hc; exact .inr rfl
  · intro fs' os hs
    obtain ⟨a, k, -⟩ := C109_history hL toyLib_rejects (by omega) (by omega) (by decide) (by decide) hh hs
    exact ⟨a, k _ _ rfl⟩

end Homfa.Cli
