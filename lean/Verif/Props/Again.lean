import Verif.Proof.Again
import Verif.Props.Tree

/-!
# C111: commands are reproducible

A run of `homfa` depends on the files named on its line, on standard input and on the random numbers it draws, and on nothing else: not on
the schedule of its threads, not on any other file, not on what the output file held.  Only `genkey`, `genbkey` and `enc` draw random
numbers.  So anyone who holds the bootstrapping key and the input can check a result by running the command again, and a command that is run
again after it has ended changes nothing.
-/

namespace Homfa.Cli

variable {N n l : Nat} {L : Lib N n l}

/-- **C111.** With the random numbers given, there is exactly one way a run can end, whatever the schedule of its threads. -/
theorem C111_unique (L : Lib N n l) (hN : 0 < N) (hl : 0 < l) (hbs : blockSize l N < 2 ^ 63) (t : Nat → Nat) (stdin : List Char) (fs : Files)
    (toks : List String) (hlen : ∀ f b, fs f = some b → b.length < 2 ^ 63) : ∃! r, RunOn L t stdin fs toks r := by
  have hbs0 : 0 < blockSize l N := by unfold blockSize; positivity
  suffices ∃ r, RunOn L t stdin fs toks r by
    obtain ⟨r, hr⟩ := this
    exact ⟨r, hr, fun r' hr' => runOn_unique hbs0 hbs hlen hr' hr⟩
  obtain ⟨r, hr⟩ := C90_some_end L hN hl hbs stdin fs toks hlen
  cases hr with
  | usage h => exact ⟨_, .usage h⟩
  | fails h => exact ⟨_, .fails h⟩
  | @call c r h1 h2 =>
    cases hd : c.draws with
    | false => exact ⟨_, .call h1 (.other hd h2)⟩
    | true => cases h2 with
      | genkey q => exact ⟨_, .call h1 .genkey⟩
      | genbkey q => exact ⟨_, .call h1 .genbkey⟩
      | enc rand => exact ⟨_, .call h1 .enc⟩
      | _ => cases hd

/-- **C111.** Every command but `genkey`, `genbkey` and `enc` can end in one way only. -/
theorem C111_no_draw (L : Lib N n l) (hN : 0 < N) (hl : 0 < l) (hbs : blockSize l N < 2 ^ 63) (stdin : List Char) (fs : Files) (general : List String)
    (hg : ∀ g ∈ general, g = "--verbose" ∨ g = "--quiet") (word : String) (rest : List String) (hw : word ∉ ["genkey", "genbkey", "enc", "--verbose", "--quiet"])
    (hlen : ∀ f b, fs f = some b → b.length < 2 ^ 63) : ∃! r, RunHomfa L stdin fs (general ++ word :: rest) r := by
  have hd : ∀ c, homfaMain (fun f => (fs f).isSome) (general ++ word :: rest) = .ok (some c) → c.draws = false := by
    intro c hc
    obtain ⟨general', cmd, w, items, hg', hw', e, hfo, rfl⟩ := C58_only _ _ _ hc
    have hs : ∀ {x : String} {r : List String}, x ≠ "--verbose" → x ≠ "--quiet" → skipGeneral (x :: r) = x :: r := by
      intro x r h1 h2
      obtain ⟨p, hp, e⟩ := skipGeneral_split (x :: r)
      cases p with
      | nil => exact e.symm
      | cons y p =>
        injection e with e1 _
        subst e1
        rcases hp x (by simp) with h | h
        · exact absurd h h1
        · exact absurd h h2
    simp only [List.mem_cons, List.not_mem_nil, or_false, not_or] at hw
    have e1 := congrArg skipGeneral e
    rw [skipGeneral_append hg, List.append_assoc, skipGeneral_append hg', hs hw.2.2.2.1 hw.2.2.2.2] at e1
    cases cmd <;> try rfl
    all_goals
      exfalso
      simp only [Cmd.names, List.mem_singleton] at hw'
      subst hw'
      rw [List.singleton_append, hs (by decide) (by decide)] at e1
      injection e1 with e1 _
      simp [e1] at hw
  obtain ⟨r, h1, h2⟩ := C111_unique L hN hl hbs (fun _ => 0) stdin fs (general ++ word :: rest) hlen
  exact ⟨r, (runOn_of_unique hd).1 h1, fun r' h => h2 r' ((runOn_of_unique hd).2 h)⟩

/-- **C111.** Nothing but the files named on the line matters: where those are the same, the run ends in the same way, prints the same and leaves
the same content in each of them; and a run that ends normally leaves all other files as they were. -/
theorem C111_named {t : Nat → Nat} {stdin : List Char} {fs fs' : Files} {toks : List String} (hsame : ∀ f ∈ toks, fs' f = fs f)
    {r : Res (Files × List Char)} (h : RunOn L t stdin fs toks r) :
    match r with
    | .error e => RunOn L t stdin fs' toks (.error e)
    | .ok (fs1, o) => ∃ fs1', RunOn L t stdin fs' toks (.ok (fs1', o)) ∧ (∀ f ∈ toks, fs1' f = fs1 f) ∧ ∀ f ∉ toks, fs1' f = fs' f ∧ fs1 f = fs f := by
  have e : homfaMain (fun f => (fs' f).isSome) toks = homfaMain (fun f => (fs f).isSome) toks := homfaMain_congr fun f hf => by rw [hsame f hf]
  cases h with
  | usage h => exact .usage (e.trans h)
  | fails h => exact .fails (e.trans h)
  | call h1 h2 =>
    obtain ⟨r0, hh, rfl, hall⟩ := execOn_effect h2
    have h3 := hall fs' fun f hf => hsame f (homfaMain_needs h1 hf)
    cases r0 with
    | error er => exact .call (e.trans h1) h3
    | ok p =>
      obtain ⟨ws, o⟩ := p
      refine ⟨fs'.writes ws, .call (e.trans h1) h3, fun f hf => ?_, fun f hf => ?_⟩
      · rcases writes_cases ws f with ⟨x, hx⟩ | ⟨_, hx⟩
        · rw [hx, hx]
        · rw [hx, hx, hsame f hf]
      · have hn : ∀ w ∈ ws, w.1 ≠ f := by
          rintro w hw rfl
          exact hf ((homfaMain_writes h1 ((hh _ rfl).1 w hw)).subset (by simp))
        have := writes_other (f := f) ws hn
        exact ⟨this fs', this fs⟩

/-- **C111.** What the output file held before does not matter, if it is not also one of the inputs: whoever has the same inputs and the same
random numbers, and repeats a command that ended normally, ends with the same content in the output file, has the same printed, and keeps all
other files. -/
theorem C111_repeat (hN : 0 < N) (hl : 0 < l) (hbs : blockSize l N < 2 ^ 63) {t : Nat → Nat} {stdin : List Char} {fs fs1 fs' : Files} {toks : List String}
    {o : List Char} {out : String} (hout : ["--out", out] <:+: toks) (hone : toks.count out = 1) (hsame : ∀ f ∈ toks, f ≠ out → fs' f = fs f)
    (hlen : ∀ f b, fs' f = some b → b.length < 2 ^ 63) (h : RunOn L t stdin fs toks (.ok (fs1, o))) :
    ∃ b, fs1 = fs.set out b ∧ ∀ r, RunOn L t stdin fs' toks r ↔ r = .ok (fs'.set out b, o) := by
  have hbs0 : 0 < blockSize l N := by unfold blockSize; positivity
  obtain ⟨b, h1, h2⟩ := check_run hout hone hsame h
  exact ⟨b, h1, fun r => ⟨fun hr => runOn_unique hbs0 hbs hlen hr h2, fun e => e ▸ h2⟩⟩

/-- **C111.** To run a command again changes nothing, if the output file is not also one of its inputs. -/
theorem C111_again (hN : 0 < N) (hl : 0 < l) (hbs : blockSize l N < 2 ^ 63) {t : Nat → Nat} {stdin : List Char} {fs fs1 : Files} {toks : List String}
    {o : List Char} (hone : ∀ f, ["--out", f] <:+: toks → toks.count f = 1) (hlen : ∀ f b, fs1 f = some b → b.length < 2 ^ 63)
    (h : RunOn L t stdin fs toks (.ok (fs1, o))) : ∀ r, RunOn L t stdin fs1 toks r ↔ r = .ok (fs1, o) := by
  have hbs0 : 0 < blockSize l N := by unfold blockSize; positivity
  by_cases hout : ∃ out, ["--out", out] <:+: toks
  · obtain ⟨out, hout⟩ := hout
    obtain ⟨b, rfl, _⟩ := check_run (fs' := fs) hout (hone out hout) (fun _ _ _ => rfl) h
    obtain ⟨b', e, h2⟩ := C111_repeat hN hl hbs hout (hone out hout) (fun f _ hf => Files.set_other _ _ hf) hlen h
    have hb : b' = b := by
      have := congrFun e out
      simp only [Files.set, if_true, Option.some.injEq] at this
      exact this.symm
    subst hb
    intro r
    rw [h2 r]
    have : (fs.set out b').set out b' = fs.set out b' := by
      funext f
      unfold Files.set
      split <;> rfl
    rw [this]
  · have hfs : fs1 = fs := by
      obtain ⟨fs1', h1, h2, h3⟩ := C111_named (fs' := fs) (fun _ _ => rfl) h
      cases h with
      | call k1 k2 =>
        obtain ⟨r0, hh, hr, _⟩ := execOn_effect k2
        cases r0 with
        | error e => cases hr
        | ok p =>
          injection hr with hr
          injection hr with hr1 _
          cases hp : p.1 with
          | nil => rw [hr1, hp]; rfl
          | cons w ws => exact absurd ⟨_, homfaMain_writes k1 ((hh _ rfl).1 w (by rw [hp]; simp))⟩ hout
    subst hfs
    exact fun r => ⟨fun hr => runOn_unique hbs0 hbs hlen hr h, fun e => e ▸ h⟩

/-- **C111.** The condition cannot be dropped: `genbkey` writing over the key it reads ends normally, and fails when it is run again, if the
library does not take a bootstrapping key for a secret key. -/
theorem C111_onto_input {K : String} (hK : Word K) (hk : ∀ k, L.loadKey (L.saveKey k) = some k) (hb : ∀ b, L.loadKey (L.saveBKey b) = none)
    (t t' : Nat → Nat) (fs : Files) {k : L.Key} (h : fs K = some (L.saveKey k)) :
    ∃ fs1, RunOn L t [] fs ["genbkey", "--key", K, "--out", K] (.ok (fs1, [])) ∧
      ∀ r, RunOn L t' [] fs1 ["genbkey", "--key", K, "--out", K] r → ∃ e, r = .error e := by
  refine ⟨_, (runOn_genbkey hK hK hk h).2 rfl, fun r hr => ?_⟩
  cases hr with
  | usage _ => exact ⟨_, rfl⟩
  | fails _ => exact ⟨_, rfl⟩
  | call h1 h2 =>
    have hf : Cmd.genbkey.usage.Follows (fun _ => true) (optItems Cmd.genbkey.usage [K, K]) := by
      refine follows_opts rfl (by decide) rfl fun p hp => ?_
      simp only [Cmd.usage, List.zip_cons_cons, List.zip_nil_right, List.mem_cons, List.not_mem_nil, or_false] at hp
      rcases hp with rfl | rfl
      · exact hK.file (fs := fun _ => some []) rfl
      · exact hK.text _
    have e := call_of_runs (C58_runs (fun _ => true) [] (by simp) .genbkey ["genbkey"] (by simp [Cmd.names]) _ hf) h1
    subst e
    cases h2 with
    | genbkey =>
      have : (fs.set K (L.saveBKey (L.newBKey (t 0) k))) K = some (L.saveBKey (L.newBKey (t 0) k)) := by simp [Files.set]
      refine ⟨.die, ?_⟩
      show (readArchive L.loadKey ((fs.set K (L.saveBKey (L.newBKey (t 0) k))) K) >>= _) = _
      rw [this, readArchive, hb]
      rfl
    | other hd => cases hd

/-- Non-vacuity: `run offline` on three ciphertexts ends normally, for every library that can read the key; every repetition, whatever `res`
holds and whatever other files there are, writes the same result, and every run on the files left by the first leaves them as they are. -/
example (L : Lib 32 2 1) (k : L.BKey) (hk : L.loadBKey [2#8] = some k) (hres : ∀ c, (L.saveRes c).length < 2 ^ 63) : ∃ b, ∀ (junk : List Byte) (t : Nat → Nat),
    junk.length < 2 ^ 63 →
    (∀ r, RunOn L t [] ((treeFiles.set "res" junk).set "other" junk) ["run", "offline", "--bkey", "bk", "--out", "res", "--spec", "last.spec", "--in", "three",
      "--bootstrapping-freq", toString 2] r ↔ r = .ok (((treeFiles.set "res" junk).set "other" junk).set "res" b, [])) ∧
    ∀ r, RunOn L t [] (treeFiles.set "res" b) ["run", "offline", "--bkey", "bk", "--out", "res", "--spec", "last.spec", "--in", "three",
      "--bootstrapping-freq", toString 2] r ↔ r = .ok (treeFiles.set "res" b, []) := by
  have w : ∀ f ∈ ["bk", "res", "last.spec", "third.spec", "three"], Word f := by unfold Word; decide
  have hbs : blockSize 1 32 = 1024 := by decide
  have hlen : ∀ f b, treeFiles f = some b → b.length < 2 ^ 63 := by
    intro f b h
    unfold treeFiles at h
    split at h
    · cases h; decide
    split at h
    · cases h; decide
    split at h
    · cases h; decide
    split at h
    · cases h; rw [List.length_replicate]; decide
    · cases h
  obtain ⟨g, g', a1, b1, a2, b2, hw⟩ := treeFiles_case
  obtain ⟨q, hq⟩ := (fetch_cases (l := 1) (N := 32) (kind := .reversed) (file := treeFiles "three") (by decide) (by decide) (hlen _)).1
  have hrun : ∃ c, ∀ t, RunOn L t [] treeFiles ["run", "offline", "--bkey", "bk", "--out", "res", "--spec", "last.spec", "--in", "three",
      "--bootstrapping-freq", toString 2] (.ok (treeFiles.set "res" (L.saveRes c), [])) := by
    have e1 : readSpec (treeFiles "last.spec") = .ok (textOf (">0 0 1\n1* 0 1\n".toList.map fun c => BitVec.ofNat 8 c.toNat)) := rfl
    have e2 : readArchive L.loadBKey (treeFiles "bk") = .ok k := by
      have : treeFiles "bk" = some [2#8] := rfl
      rw [this, readArchive, hk]
    rcases (fetch_cases (by decide) (by decide) (hlen "three")).2 _ hq with ⟨_, hno⟩ | ⟨pre, cs, rfl, _, h3⟩
    · exact absurd ⟨List.replicate 3072 170#8, rfl, by rw [List.length_replicate]; decide⟩ hno
    have hq' := hq
    rcases fetch_size (by decide) (by decide) (hlen "three" _ rfl) hq' with ⟨e, h⟩ | ⟨pre', cs', h, hp, hn⟩
    · cases h
    cases h
    have hcs : cs.length < 2 ^ 31 := by
      rw [List.length_replicate, hbs] at hn
      omega
    have hg := wf_of_fromIstream a1 a2
    obtain ⟨c, hc⟩ := treeAnswer_total (L.server k) (by decide) 2 cs.reverse g.dfa.accepts
    refine ⟨c, fun t => (runOn_offline (w _ (by simp)) (w _ (by simp)) (w _ (by simp)) (w _ (by simp)) rfl rfl rfl (by decide) (by decide)).2 ?_⟩
    refine (run_offline_line (w _ (by simp)) (w _ (by simp)) (w _ (by simp)) (w _ (by simp)) rfl rfl rfl (by decide) (by decide)).2
      (exec_offline.2 ⟨_, hq, ?_⟩)
    rw [Res.bind_ok]
    dsimp only
    rw [e1, e2, hp rfl, Res.bind_ok, Res.bind_ok, C110_offline _ (by decide) _ g a1 a2 2 (by decide) cs hcs g.dfa.accepts fun w _ => hg.accepts_eq w, hc, Res.bind_ok]
    rfl
  obtain ⟨c, hrun⟩ := hrun
  have hone : (["run", "offline", "--bkey", "bk", "--out", "res", "--spec", "last.spec", "--in", "three", "--bootstrapping-freq", toString 2].count "res") = 1 := by
    decide
  have hset : ∀ {fs : Files} {f : String} {b : List Byte}, (∀ f b, fs f = some b → b.length < 2 ^ 63) → b.length < 2 ^ 63 →
      ∀ f' b', fs.set f b f' = some b' → b'.length < 2 ^ 63 := by
    intro fs f b h hb f' b' h'
    unfold Files.set at h'
    split at h'
    · cases h'; exact hb
    · exact h _ _ h'
  have hinf : ["--out", "res"] <:+: ["run", "offline", "--bkey", "bk", "--out", "res", "--spec", "last.spec", "--in", "three", "--bootstrapping-freq", toString 2] :=
    ⟨["run", "offline", "--bkey", "bk"], ["--spec", "last.spec", "--in", "three", "--bootstrapping-freq", toString 2], rfl⟩
  refine ⟨L.saveRes c, fun junk t hj => ⟨?_, ?_⟩⟩
  · have hag : ∀ f ∈ ["run", "offline", "--bkey", "bk", "--out", "res", "--spec", "last.spec", "--in", "three", "--bootstrapping-freq", toString 2],
        f ≠ "res" → ((treeFiles.set "res" junk).set "other" junk) f = treeFiles f := by
      intro f hf hne
      have ho : f ≠ "other" := by
        rintro rfl
        revert hf
        decide
      rw [Files.set_other _ _ ho, Files.set_other _ _ hne]
    obtain ⟨b, e, h⟩ := C111_repeat (by decide) (by decide) (by decide) hinf hone hag (hset (hset hlen hj) hj) (hrun t)
    have : b = L.saveRes c := by
      have := congrFun e "res"
      simp only [Files.set, if_true, Option.some.injEq] at this
      exact this.symm
    subst this
    exact h
  · refine C111_again (by decide) (by decide) (by decide) (fun f hf => ?_) (hset hlen (hres c)) (hrun t)
    have h1 := infix_of_append (p := ["run", "offline", "--bkey", "bk"]) (by decide) hf
    rcases List.infix_cons_iff.1 h1 with h1 | h1
    · obtain ⟨_, h1⟩ := List.cons_prefix_cons.1 h1
      rw [(List.cons_prefix_cons.1 h1).1]
      exact hone
    · have : "--out" ∈ ["res", "--spec", "last.spec", "--in", "three", "--bootstrapping-freq", toString 2] := h1.subset (by simp)
      exact absurd this (by decide)

/-- Non-vacuity of the last theorem. -/
example (φ : TLWE 16 → Nat) : ∃ fs1, RunOn (toyLib 16 2 1 φ) id [] (fun f => if f = "k" then some [0#8] else none) ["genbkey", "--key", "k", "--out", "k"] (.ok (fs1, [])) ∧
    ∀ r, RunOn (toyLib 16 2 1 φ) id [] fs1 ["genbkey", "--key", "k", "--out", "k"] r → ∃ e, r = .error e :=
  C111_onto_input (L := toyLib 16 2 1 φ) (K := "k") (by unfold Word; decide) (fun k => by cases k <;> rfl) (fun k => by cases k <;> rfl) id id _
    (k := false) rfl

end Homfa.Cli
