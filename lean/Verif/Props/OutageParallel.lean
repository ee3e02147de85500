import Verif.Proof.OutageParallel
import Verif.Props.Parallel

/-!
# C107: commands at the same time, any of which may be stopped

As C96, but any of the commands that run at the same time may be stopped at any moment, also in the middle of a write, while the others go on.
The others do not notice: as long as no command names the output file of another one, each of them does what it would do alone.
-/

namespace Homfa.Cli

variable {N n l : Nat} {L : Lib N n l} {δ : Noise} {Enc : L.Key → Gsw l N → Bool → Prop}

/-- **C107**, for each command that is not stopped: it prints what it would print alone, or fails as it would fail alone, and the file behind
its `--out` is what it would be alone.  The stopped ones may change the files behind their `--out`, and all other files stay as they are. -/
theorem C107_others {fs fs' : Files} {ps : List (Proc × Bool)} (hi : Independent (ps.map (·.1.line))) (h : TogetherStopped L fs ps fs') :
    (∀ p ∈ ps, p.2 = true →
      ∃ fs1, RunHomfa L [] fs p.1.line (p.1.outcome.map fun out => (fs1, out)) ∧ ∀ f, ["--out", f] <:+: p.1.line → fs' f = fs1 f) ∧
      ∀ f, (∀ p ∈ ps, ¬["--out", f] <:+: p.1.line) → fs' f = fs f := by
  refine ⟨fun p hp hb => ?_, fun f hf => h.unwritten hf⟩
  obtain ⟨g', h1, h2⟩ := h.free hi p hp fs fun _ _ => rfl
  exact ⟨g', ((h.1 p hp).1 hb).run h1, fun f hw => (h2 f (hw.subset (by simp))).symm⟩

/-- **C107**, for a stopped command: the file behind its `--out` is what it would be if it had been alone and stopped after the same accesses. -/
theorem C107_stopped {fs fs' : Files} {ps : List (Proc × Bool)} (hi : Independent (ps.map (·.1.line))) (h : TogetherStopped L fs ps fs') :
    ∀ p ∈ ps, p.2 = false → ∃ fs1, TogetherStopped L fs [p] fs1 ∧ ∀ f, ["--out", f] <:+: p.1.line → fs' f = fs1 f := by
  intro p hp hb
  obtain ⟨g', h1, h2⟩ := h.free hi p hp fs fun _ _ => rfl
  refine ⟨g', ⟨fun q hq => by rw [List.mem_singleton.1 hq]; exact h.1 p hp, ?_⟩, fun f hw => (h2 f (hw.subset (by simp))).symm⟩
  exact h1.parallel (ts := []) (.done (by simp))

/-- **C107.** A session in which now and then several commands run at the same time, and in which any command may be stopped at any moment.  The
commands that are not stopped are used as they are meant to be, according to an account in which the output files of the stopped ones are
lost.  Then all of them end normally, whatever the random numbers and the interleaving are; what they print is what the account says, and so are
the bytes of all files that are not keys, ciphertexts, results or lost. -/
theorem C107_history (hL : L.Sound δ Enc) (hN : 0 < N) (hl : 0 < l) (hbs : blockSize l N < 2 ^ 63) (fs : Files) {jobs : List StoppableJob}
    (hi : ∀ cmds, .par cmds ∈ jobs → Independent (cmds.map (·.1))) {w : World} {out : List Char}
    (h : StoppedHistory L δ (World.start fs) (jobs.flatMap StoppableJob.cmds) w out) :
    (∃ r, StoppedSchedule L fs jobs r) ∧ ∀ r, StoppedSchedule L fs jobs r → ∃ fs', r = .ok (fs', out) ∧ w.Known fs' := by
  obtain ⟨⟨fs1, h1⟩, h2⟩ := loose_history hL hN hl hbs h (World.start_fits fs)
  exact ⟨⟨_, schedule_of_kept h1⟩, fun r hr => by obtain ⟨fs', e, hf⟩ := h2 r (loose_schedule hi hr); exact ⟨fs', e, hf.known⟩⟩

/-- **C107** covers C96: a schedule as there is one in which nothing is stopped. -/
theorem C107_nothing_stopped {fs : Files} {jobs : List Job} {r : Res (Files × List Char)} (h : Schedule L fs jobs r) :
    StoppedSchedule L fs (jobs.map fun | .one c => .one c true | .par cmds => .par (cmds.map (·, true))) r := by
  have key : ∀ {fs fs1 : Files} {ps : List Proc}, Together L fs ps fs1 → TogetherStopped L fs (ps.map (·, true)) fs1 := fun h => by
    refine ⟨fun p hp => ?_, by rw [List.map_map]; exact h.2⟩
    obtain ⟨q, hq, rfl⟩ := List.mem_map.1 hp
    exact ⟨fun _ => h.1 q hq, nofun⟩
  have texts : ∀ ps : List Proc, textsOf (ps.map (·, true)) = allOf (ps.map (·.outcome)) := fun ps => by
    unfold textsOf
    rw [List.filter_eq_self.2 fun p hp => by obtain ⟨q, _, rfl⟩ := List.mem_map.1 hp; rfl, List.map_map]
    rfl
  have lines : ∀ ps : List Proc, (ps.map (·.line)).map (·, true) = (ps.map (·, true)).map fun p => (p.1.line, p.2) := fun ps => by
    rw [List.map_map, List.map_map]
    rfl
  induction h with
  | nil => exact .nil
  | one h1 _ ih => exact .one h1 ih
  | oneStop h1 => exact .oneFails h1
  | par h1 h2 _ ih =>
    rw [List.map_cons]
    beta_reduce
    simp only [lines]
    exact .par (key h1) ((texts _).trans h2) ih
  | parStop h1 h2 =>
    rw [List.map_cons]
    beta_reduce
    simp only [lines]
    exact .parFails (key h1) ((texts _).trans h2)

/-! ## The hypotheses are met -/

/-- While keys are made, a second `genkey` is stopped; the input is encrypted while an `enc` of it into another file is stopped, and of two runs
with different methods at the same time one is stopped.  It is started again, together with two `dec`, one of which is stopped. -/
def exStoppedJobs (boot : Nat) : List StoppableJob :=
  [.par [(["genkey", "--out", "kb"], false), (["genkey", "--out", "ka"], true)],
   .one (.homfa ["genbkey", "--key", "ka", "--out", "ba"]) false,
   .one (.homfa ["genbkey", "--key", "ka", "--out", "ba"]) true,
   .par [(["enc", "--ap", toString 5, "--key", "ka", "--in", "in1", "--out", "ca"], true),
     (["enc", "--ap", toString 5, "--key", "ka", "--in", "in1", "--out", "cb"], false)],
   .par [(["run", "reverse", "--bkey", "ba", "--out", "rb", "--spec", "a.spec", "--in", "ca", "--out-freq", toString 7, "--bootstrapping-freq", toString boot], false),
     (["run", "offline", "--bkey", "ba", "--out", "ra", "--spec", "a.spec", "--in", "ca", "--bootstrapping-freq", toString boot], true)],
   .par [(["dec", "--key", "ka", "--in", "ra"], false), (["dec", "--key", "ka", "--in", "ra"], true),
     (["run", "offline", "--bkey", "ba", "--out", "rb", "--spec", "a.spec", "--in", "ca", "--bootstrapping-freq", toString boot], true)],
   .one (.homfa ["dec", "--key", "ka", "--in", "rb"]) true]

example : ∃ L : Lib 16 2 1, (∃ r, StoppedSchedule L exPieceFiles (exStoppedJobs 50) r) ∧
    ∀ r, StoppedSchedule L exPieceFiles (exStoppedJobs 50) r → ∃ fs', r = .ok (fs', ['1', '1']) ∧ fs' "in1" = some [0x1f#8] := by
  obtain ⟨φ, hφ⟩ := exists_numbering 16
  have hL := toyLib_sound (n := 2) (l := 1) (by omega) (by omega) hφ
  refine ⟨toyLib 16 2 1 φ, ?_⟩
  have w : ∀ f ∈ ["ka", "ba", "in1", "ca", "a.spec", "ra", "rb"], Word f := by
    intro f hf
    simp only [List.mem_cons, List.not_mem_nil, or_false] at hf
    rcases hf with rfl | rfl | rfl | rfl | rfl | rfl | rfl <;> simp [Word]
  have hh : StoppedHistory (toyLib 16 2 1 φ) toyNoise (World.start exPieceFiles) ((exStoppedJobs 50).flatMap StoppableJob.cmds) _ ['1', '1'] :=
    .cut <| .done (o := []) (.genkey (w "ka" (by decide))) <| .cut <|
      .done (o := []) (.genbkey (w "ka" (by decide)) (w "ba" (by decide)) rfl) <|
      .done (o := []) (.enc (w "ka" (by decide)) (w "in1" (by decide)) (w "ca" (by decide)) rfl rfl (by decide) (by decide) (by decide) (by decide)) <|
      .cut <| .cut <|
      .done (o := []) (.run (out := ['1']) (w "ba" (by decide)) (w "a.spec" (by decide)) (w "ca" (by decide)) (w "ra" (by decide)) rfl rfl rfl (by decide)
        (.offline (boot := 50) (by omega) (by omega) (by decide) (by decide)) ((plainPrints_iff (by omega) (by omega)).2 (by decide +kernel))) <|
      .cut <| .done (o := ['1']) (.dec (w "ka" (by decide)) (w "ra" (by decide)) rfl rfl) <|
      .done (o := []) (.run (out := ['1']) (w "ba" (by decide)) (w "a.spec" (by decide)) (w "ca" (by decide)) (w "rb" (by decide)) rfl rfl rfl (by decide)
        (.offline (boot := 50) (by omega) (by omega) (by decide) (by decide)) ((plainPrints_iff (by omega) (by omega)).2 (by decide +kernel))) <|
      .done (o := ['1']) (.dec (w "ka" (by decide)) (w "rb" (by decide)) rfl rfl) .nil
  have hi : ∀ cmds, .par cmds ∈ exStoppedJobs 50 → Independent (cmds.map (·.1)) := by
    intro cmds h
    simp only [exStoppedJobs, List.mem_cons, List.not_mem_nil, or_false, StoppableJob.par.injEq, reduceCtorEq, false_or] at h
    rcases h with rfl | rfl | rfl | rfl <;> exact independent_of_check (by decide +kernel)
  obtain ⟨a, b⟩ := C107_history hL (by omega) (by omega) (by decide) exPieceFiles hi hh
  refine ⟨a, fun r hr => ?_⟩
  obtain ⟨fs', e, k1, _⟩ := b r hr
  exact ⟨fs', e, k1 _ _ rfl⟩

end Homfa.Cli
