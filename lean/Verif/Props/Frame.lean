import Verif.Proof.Frame

/-!
# C62: what a command touches

A command that ends normally changes no file but the one named by `--out`; the commands that print a text change no file, and those that
write a file print nothing.  Encrypting a file onto itself loses it.
-/

namespace Homfa.Cli

variable {N n l : Nat} {L : Lib N n l}

/-- the files a call may write -/
def Call.Writes : Call → String → Prop
  | .genkey out, f | .genbkey _ out, f | .enc _ _ out _, f | .runOffline _ _ out _ _ _, f | .runBlock _ _ out _ _ _, f => f = out
  | .runReverse _ _ out outDir _ _ _ _ _, f | .runFlut _ _ out outDir _ _ _ _ _ _ _, f =>
    out = some f ∨ ∃ d k, outDir = some d ∧ f = d ++ "/" ++ String.ofList (Nat.toDigits 10 k) ++ ".out"
  | _, _ => False

/-- the calls that write to files and not to standard output -/
def Call.silent : Call → Bool
  | .genkey .. | .genbkey .. | .enc .. | .runOffline .. | .runReverse .. | .runBlock .. | .runFlut .. => true
  | _ => false

/-- **C62**, for the functions called by `main` -/
theorem C62_calls {stdin : List Char} {fs fs' : Files} {c : Call} {out : List Char} (h : Exec L stdin fs c (.ok (fs', out))) :
    (∀ f, ¬c.Writes f → fs' f = fs f) ∧ (c.silent = true → out = []) := by
  generalize hr : (Except.ok (fs', out) : Res (Files × List Char)) = r at h
  cases h with
  | genkey q => cases hr; exact ⟨fun f hf => Files.set_other _ _ hf, fun _ => rfl⟩
  | genbkey q =>
    obtain ⟨k, _, h⟩ := Res.bind_eq_ok.1 hr.symm
    cases h; exact ⟨fun f hf => Files.set_other _ _ hf, fun _ => rfl⟩
  | enc rand =>
    obtain ⟨k, _, h⟩ := Res.bind_eq_ok.1 hr.symm
    obtain ⟨b, _, h⟩ := Res.bind_eq_ok.1 h
    cases h
    exact ⟨fun f hf => by rw [Files.set_other _ _ hf, Files.set_other _ _ hf], fun _ => rfl⟩
  | dec =>
    obtain ⟨k, _, h⟩ := Res.bind_eq_ok.1 hr.symm
    obtain ⟨b, _, h⟩ := Res.bind_eq_ok.1 h
    cases h; exact ⟨fun f _ => rfl, nofun⟩
  | runOffline hq =>
    obtain ⟨p, _, h⟩ := Res.bind_eq_ok.1 hr.symm
    obtain ⟨b, _, h⟩ := Res.bind_eq_ok.1 h
    obtain ⟨s, _, h⟩ := Res.bind_eq_ok.1 h
    obtain ⟨s, _, h⟩ := Res.bind_eq_ok.1 h
    cases h; exact ⟨fun f hf => Files.set_other _ _ hf, fun _ => rfl⟩
  | runBlock hq =>
    obtain ⟨p, _, h⟩ := Res.bind_eq_ok.1 hr.symm
    obtain ⟨b, _, h⟩ := Res.bind_eq_ok.1 h
    obtain ⟨s, _, h⟩ := Res.bind_eq_ok.1 h
    obtain ⟨s, _, h⟩ := Res.bind_eq_ok.1 h
    cases h; exact ⟨fun f hf => Files.set_other _ _ hf, fun _ => rfl⟩
  | runReverse hq =>
    obtain ⟨p, _, h⟩ := Res.bind_eq_ok.1 hr.symm
    obtain ⟨b, _, h⟩ := Res.bind_eq_ok.1 h
    obtain ⟨s, _, h⟩ := Res.bind_eq_ok.1 h
    obtain ⟨rs, h1, h⟩ := Res.bind_eq_ok.1 h
    cases h
    refine ⟨fun f hf => writeResults_other L rs fs f ?_, fun _ => rfl⟩
    unfold doRunReverse at h1
    obtain ⟨_, _, h1⟩ := Res.bind_eq_ok.1 h1
    obtain ⟨_, _, h1⟩ := Res.bind_eq_ok.1 h1
    obtain ⟨_, _, h1⟩ := Res.bind_eq_ok.1 h1
    obtain ⟨q, hq, h1⟩ := Res.bind_eq_ok.1 h1
    obtain ⟨f', hf', h1⟩ := Res.bind_eq_ok.1 h1
    obtain ⟨c, _, h1⟩ := Res.bind_eq_ok.1 h1
    cases h1
    exact paths_of hq hf' f hf
  | runFlut hq =>
    obtain ⟨p, _, h⟩ := Res.bind_eq_ok.1 hr.symm
    obtain ⟨b, _, h⟩ := Res.bind_eq_ok.1 h
    obtain ⟨s, _, h⟩ := Res.bind_eq_ok.1 h
    obtain ⟨_, _, h⟩ := Res.bind_eq_ok.1 h
    obtain ⟨rs, h1, h⟩ := Res.bind_eq_ok.1 h
    cases h
    refine ⟨fun f hf => writeResults_other L rs fs f ?_, fun _ => rfl⟩
    unfold doRunFlut at h1
    obtain ⟨_, _, h1⟩ := Res.bind_eq_ok.1 h1
    obtain ⟨_, _, h1⟩ := Res.bind_eq_ok.1 h1
    dsimp only at h1
    split at h1
    · cases h1
    obtain ⟨q, hq, h1⟩ := Res.bind_eq_ok.1 h1
    obtain ⟨f', hf', h1⟩ := Res.bind_eq_ok.1 h1
    obtain ⟨c, _, h1⟩ := Res.bind_eq_ok.1 h1
    cases h1
    exact paths_of hq hf' f hf
  | runPlain | ltl2spec | spec2spec | spec2dot | spec2att | att2spec =>
    obtain ⟨k, _, h⟩ := Res.bind_eq_ok.1 hr.symm
    obtain ⟨b, _, h⟩ := Res.bind_eq_ok.1 h
    cases h; exact ⟨fun f _ => rfl, nofun⟩

/-- the commands that write a file -/
def Cmd.writesFile : Cmd → Bool
  | .genkey | .genbkey | .enc | .runOffline | .runReverse | .runBlock | .runFlut => true
  | _ => false

theorem Cmd.call_writes (c : Cmd) (items : List Item) (f : String) (hf : f ≠ opt items "--out" ∨ c.writesFile = false) :
    ¬(c.call items).Writes f := by
  cases c <;> simp only [Cmd.call, Call.Writes, Cmd.writesFile, Bool.true_eq_false, or_false, Option.some.injEq, reduceCtorEq, false_and,
    exists_false, not_false_eq_true] at hf ⊢
  · exact hf
  · exact hf
  · exact hf
  · exact hf
  · exact Ne.symm hf
  · exact hf
  · exact Ne.symm hf

theorem Cmd.call_silent (c : Cmd) (items : List Item) (h : c.writesFile = true) : (c.call items).silent = true := by
  cases c <;> first | rfl | cases h

/-- **C62.** A command that ends normally changes at most the file named by `--out` and prints nothing, or it changes no file. -/
theorem C62_frame {stdin : List Char} {fs fs' : Files} {out : List Char} (c : Cmd) {w : List String} (hw : w ∈ c.names) {items : List Item}
    (h : c.usage.Follows (fun f => (fs f).isSome) items) (hr : RunHomfa L stdin fs (w ++ line items) (.ok (fs', out))) :
    (∀ f, f ≠ opt items "--out" ∨ c.writesFile = false → fs' f = fs f) ∧ (c.writesFile = true → out = []) := by
  obtain ⟨h1, h2⟩ := C62_calls ((run_iff c hw h).1 hr)
  exact ⟨fun f hf => h1 f (c.call_writes items f hf), fun hs => h2 (c.call_silent items hs)⟩

/-- **C62.** `enc` empties its output before it reads its input: encrypting a file onto itself succeeds and leaves an empty file. -/
theorem C62_enc_onto_itself (hk : ∀ k, L.loadKey (L.saveKey k) = some k) {fs : Files} {K I : String} (hK : Word K) (hI : Word I)
    {k : L.Key} (h : fs K = some (L.saveKey k)) {inB : List Byte} (hi : fs I = some inB) {ap : Nat} (h0 : 0 < ap)
    (h64 : ap < 2 ^ 64) {r : Res (Files × List Char)} :
    RunHomfa L [] fs ["enc", "--ap", toString ap, "--key", K, "--in", I, "--out", I] r ↔ r = .ok (fs.set I [], []) := by
  have hf : Cmd.enc.usage.Follows (fun f => (fs f).isSome) (optItems Cmd.enc.usage [toString ap, K, I, I]) := by
    refine follows_opts rfl (by decide) rfl fun p hp => ?_
    simp only [Cmd.usage, List.zip_cons_cons, List.zip_nil_right, List.mem_cons, List.not_mem_nil, or_false] at hp
    rcases hp with rfl | rfl | rfl | rfl
    · exact positive_ok h0 h64 _
    · exact hK.file h
    · exact hI.file hi
    · exact hI.text _
  refine (run_iff (L := L) (stdin := []) .enc (w := ["enc"]) (by simp [Cmd.names]) hf).trans ?_
  have : Cmd.enc.call (optItems Cmd.enc.usage [toString ap, K, I, I]) = .enc K I I (Nat.ofDigitChars 10 (toString ap).toList 0) := rfl
  rw [this, ofDigits_toString]
  have hr : readArchive L.loadKey (fs K) = .ok k := by simp [readArchive, h, hk]
  have key : ∀ rand, (do
      let k ← readArchive L.loadKey (fs K)
      let fs := fs.set I []
      let b ← doEnc (L.client k) rand (fs I) ap
      pure (fs.set I b, []) : Res (Files × List Char)) = .ok (fs.set I [], []) := by
    intro rand
    rw [hr, Res.bind_ok]
    dsimp only
    rw [Files.set_same]
    obtain ⟨cs, e1, e2⟩ := enc_ok (L.client k) rand h0 (rs := []) (by simp)
    cases e2
    have e1 : doEnc (L.client k) rand (some []) ap = .ok [] := e1
    rw [e1, Res.bind_ok, Res.pure_eq]
    congr 2
    funext f
    unfold Files.set
    split <;> rfl
  constructor
  · intro h; cases h with
    | enc rand => exact key rand
  · rintro rfl
    rw [← key (fun _ => 0)]
    exact .enc _

/-- `genkey` on an empty file system meets the hypotheses: it ends normally and writes its file. -/
example : ∃ (L : Lib 16 2 1) (fs' : Files), Cmd.genkey.usage.Follows (fun f => ((fun _ => none : Files) f).isSome) [.opt "--out" "sk"] ∧
    RunHomfa L [] (fun _ => none) (["genkey"] ++ line [.opt "--out" "sk"]) (.ok (fs', [])) ∧ fs' "sk" ≠ none ∧ fs' "other" = none := by
  obtain ⟨φ, hφ⟩ := exists_numbering 16
  have hf : Cmd.genkey.usage.Follows (fun f => ((fun _ => none : Files) f).isSome) [.opt "--out" "sk"] := by
    refine follows_opts (u := Cmd.genkey.usage) (vals := ["sk"]) rfl (by decide) rfl fun p hp => ?_
    simp only [Cmd.usage, List.zip_cons_cons, List.zip_nil_right, List.mem_cons, List.not_mem_nil, or_false] at hp
    subst hp
    exact Word.text (by simp [Word]) _
  have hr : RunHomfa (toyLib 16 2 1 φ) [] (fun _ => none) (["genkey"] ++ line [.opt "--out" "sk"]) (.ok (Files.set (fun _ => none) "sk" _, [])) :=
    (run_genkey (by simp [Word])).2 ⟨0, rfl⟩
  refine ⟨_, _, hf, hr, by simp [Files.set], ?_⟩
  exact (C62_frame .genkey (by simp [Cmd.names]) hf hr).1 "other" (.inl (by decide))

end Homfa.Cli
