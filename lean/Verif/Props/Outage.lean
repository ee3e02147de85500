import Verif.Proof.Outage
import Verif.Props.World

/-!
# C106: any history of commands, any of which may be stopped

As C94, but any command - and any `cp`, `cat`, `rm`, redirection or editor - may be stopped at any moment, or end by itself with an error, and
that any number of times.  Only the files it named as its output are lost.  If these are not used until they have been made again, everything
else is as if nothing had happened.
-/

namespace Homfa.Cli

variable {N n l : Nat} {L : Lib N n l} {δ : Noise} {Enc : L.Key → Gsw l N → Bool → Prop}

/-- **C106.** Some commands of a session are stopped, at any moments; what they are is left open, they need not even make sense.  The others are
used as they are meant to be, according to an account in which the output files of the stopped ones are lost.  Then all of the others end
normally, whatever the random numbers are; what they print is what the account says, and so are the bytes of all files that are not keys,
ciphertexts, results or lost. -/
theorem C106_history (hL : L.Sound δ Enc) (hN : 0 < N) (hl : 0 < l) (hbs : blockSize l N < 2 ^ 63) (fs : Files) {cmds : List (ShellCmd × Bool)}
    {w : World} {out : List Char} (h : StoppedHistory L δ (World.start fs) cmds w out) :
    (∃ r, StoppedSession L fs cmds r) ∧ ∀ r, StoppedSession L fs cmds r → ∃ fs', r = .ok (fs', out) ∧ w.Known fs' := by
  obtain ⟨h1, h2⟩ := stopped_history hL hN hl hbs h (World.start_fits fs)
  exact ⟨h1, fun r hr => by obtain ⟨fs', e, hf⟩ := h2 r hr; exact ⟨fs', e, hf.known⟩⟩

/-- **C106**, a `dec` that is stopped: what it has printed by then is the beginning of the right verdict. -/
theorem C106_stopped_dec (hL : L.Sound δ Enc) (hN : 0 < N) (hl : 0 < l) (hbs : blockSize l N < 2 ^ 63) (fs : Files) {cmds : List (ShellCmd × Bool)}
    {w : World} {out : List Char} (h : StoppedHistory L δ (World.start fs) cmds w out) {K R : String} (hK : Word K) (hR : Word R) {i : Nat}
    {v : List Char} (hk : w.holds K = .key i) (hr : w.holds R = .result i v) {fs' : Files} (hs : StoppedSession L fs cmds (.ok (fs', out)))
    {fs'' : Files} {o : List Char} (hd : RunInterrupted L fs' ["dec", "--key", K, "--in", R] (fs'', o)) : fs'' = fs' ∧ o <+: v := by
  obtain ⟨fs1, e, q, hq⟩ := (stopped_history hL hN hl hbs h (World.start_fits fs)).2 _ hs
  obtain ⟨rfl, -⟩ := Prod.mk.inj (Except.ok.inj e)
  have a := hq K
  rw [hk] at a
  have b := hq R
  rw [hr] at b
  obtain ⟨-, c, hc, hv⟩ := b
  obtain ⟨-, a⟩ := a
  have hf : Cmd.dec.usage.Follows (fun f => (fs' f).isSome) (optItems Cmd.dec.usage [K, R]) := by
    refine follows_opts rfl (by decide) rfl fun p hp => ?_
    simp only [Cmd.usage, List.zip_cons_cons, List.zip_nil_right, List.mem_cons, List.not_mem_nil, or_false] at hp
    rcases hp with rfl | rfl
    · exact hK.file a
    · exact hR.file hc
  have e := C58_runs (fun f => (fs' f).isSome) [] (by simp) .dec ["dec"] (by simp [Cmd.names]) _ hf
  generalize hp : (fs'', o) = p at hd
  cases hd with
  | parsing => cases hp; exact ⟨rfl, List.nil_prefix⟩
  | call h1 h2 =>
    have ec := Option.some.inj (Except.ok.inj (h1.symm.trans e))
    rw [show Cmd.dec.call (optItems Cmd.dec.usage [K, R]) = .dec K R from rfl] at ec
    subst ec
    cases h2 with
    | early => cases hp; exact ⟨rfl, List.nil_prefix⟩
    | converter h => cases h
    | dec h1 h2 h3 =>
      cases hp
      simp only [readArchive, a, hL.key] at h1
      simp only [readArchive, hc, hL.res] at h2
      cases h1
      cases h2
      exact ⟨rfl, hv ▸ h3⟩

/-- **C106** is about all sessions: one in which nothing is stopped is a session as in C94. -/
theorem C106_nothing_stopped {fs : Files} {cmds : List ShellCmd} {r : Res (Files × List Char)} :
    StoppedSession L fs (cmds.map fun c => (c, true)) r ↔ Session L fs cmds r := by
  constructor
  · intro h
    generalize hc : (cmds.map fun c => (c, true)) = cs at h
    induction h generalizing cmds with
    | nil => rw [List.map_eq_nil_iff.1 hc]; exact .nil
    | done h _ ih =>
      obtain ⟨c', rest', rfl, e1, e2⟩ := List.map_eq_cons_iff.1 hc
      cases e1
      exact session_cons h (ih e2)
    | fails h =>
      obtain ⟨c', rest', rfl, e1, e2⟩ := List.map_eq_cons_iff.1 hc
      cases e1
      exact session_fails h
    | cut =>
      obtain ⟨c', rest', rfl, e1, e2⟩ := List.map_eq_cons_iff.1 hc
      cases e1
  · intro h
    induction h with
    | nil => exact .nil
    | @next fs args fs1 o1 rest r h _ ih =>
      have := Session.next h .nil
      rw [show ((Except.ok (fs1, []) : Res (Files × List Char)).map fun p => (p.1, o1 ++ p.2)) = .ok (fs1, o1) by
        rw [← List.append_nil o1]; simp [Except.map]] at this
      exact .done this ih
    | stop h => exact .fails (.stop h)
    | cat h _ ih => exact stopped_silent (.cat h .nil) ih
    | noFile h => exact .fails (.noFile h)
    | redirect h _ ih => exact stopped_silent (.redirect h .nil) ih
    | redirectStop h => exact .fails (.redirectStop h)
    | copy h _ ih => exact stopped_silent (.copy h .nil) ih
    | noCopy h => exact .fails (.noCopy h)
    | remove _ ih => exact stopped_silent (.remove .nil) ih
    | write _ ih => exact stopped_silent (.write .nil) ih

/-! ## The hypotheses are met -/

/-- Someone makes keys and encrypts an input; then a second `genkey` into a new file, an `enc` over the ciphertexts, a run whose evaluation
key is missing, a copy and a redirection are stopped.  The ciphertexts are made again, and the result is decrypted twice, the first time in vain. -/
def exStopped (boot : Nat) : List (ShellCmd × Bool) :=
  [(.homfa ["genkey", "--out", "ka"], true),
   (.homfa ["genkey", "--out", "kb"], false),
   (.homfa ["genbkey", "--key", "ka", "--out", "ba"], false),
   (.homfa ["genbkey", "--key", "ka", "--out", "ba"], true),
   (.homfa ["enc", "--ap", toString 5, "--key", "ka", "--in", "in1", "--out", "ca"], true),
   (.homfa ["enc", "--ap", toString 5, "--key", "ka", "--in", "in1", "--out", "ca"], false),
   (.homfa ["run", "offline", "--bkey", "bb", "--out", "ra", "--spec", "a.spec", "--in", "ca", "--bootstrapping-freq", toString boot], false),
   (.copy "ba" "bb", false),
   (.redirect ["spec2spec", "--negated", "a.spec"] "n.spec", false),
   (.homfa ["enc", "--ap", toString 5, "--key", "ka", "--in", "in1", "--out", "ca"], true),
   (.homfa ["run", "offline", "--bkey", "ba", "--out", "ra", "--spec", "a.spec", "--in", "ca", "--bootstrapping-freq", toString boot], true),
   (.homfa ["dec", "--key", "ka", "--in", "ra"], false),
   (.homfa ["dec", "--key", "ka", "--in", "ra"], true)]

example : ∃ L : Lib 16 2 1, ∀ boot, 0 < boot → boot < 1000 →
    (∃ r, StoppedSession L exPieceFiles (exStopped boot) r) ∧
      ∀ r, StoppedSession L exPieceFiles (exStopped boot) r → ∃ fs', r = .ok (fs', ['1']) ∧ fs' "in1" = some [0x1f#8] := by
  obtain ⟨φ, hφ⟩ := exists_numbering 16
  have hL := toyLib_sound (n := 2) (l := 1) (by omega) (by omega) hφ
  refine ⟨toyLib 16 2 1 φ, fun boot h0 h1 => ?_⟩
  have hb : toyNoise.br + boot * toyNoise.cmux + toyNoise.ks + toyNoise.ms < 2 ^ 30 := by simp only [toyNoise]; omega
  have w : ∀ f ∈ ["ka", "ba", "in1", "ca", "a.spec", "ra"], Word f := by
    intro f hf
    simp only [List.mem_cons, List.not_mem_nil, or_false] at hf
    rcases hf with rfl | rfl | rfl | rfl | rfl | rfl <;> simp [Word]
  have hh : StoppedHistory (toyLib 16 2 1 φ) toyNoise (World.start exPieceFiles) (exStopped boot) _ ['1'] :=
    .done (o := []) (.genkey (w "ka" (by decide))) <| .cut <| .cut <|
      .done (o := []) (.genbkey (w "ka" (by decide)) (w "ba" (by decide)) rfl) <|
      .done (o := []) (.enc (w "ka" (by decide)) (w "in1" (by decide)) (w "ca" (by decide)) rfl rfl (by decide) (by decide) (by decide) (by decide)) <|
      .cut <| .cut <| .cut <| .cut <|
      .done (o := []) (.enc (w "ka" (by decide)) (w "in1" (by decide)) (w "ca" (by decide)) rfl rfl (by decide) (by decide) (by decide) (by decide)) <|
      .done (o := []) (.run (out := ['1']) (w "ba" (by decide)) (w "a.spec" (by decide)) (w "ca" (by decide)) (w "ra" (by decide)) rfl rfl rfl (by decide)
        (.offline h0 (by omega) hb (by decide)) ((plainPrints_iff (by omega) (by omega)).2 (by decide +kernel))) <|
      .cut <| .done (o := ['1']) (.dec (w "ka" (by decide)) (w "ra" (by decide)) rfl rfl) .nil
  obtain ⟨a, b⟩ := C106_history hL (by omega) (by omega) (by decide) exPieceFiles hh
  refine ⟨a, fun r hr => ?_⟩
  obtain ⟨fs', e, k1, _⟩ := b r hr
  exact ⟨fs', e, k1 _ _ rfl⟩

end Homfa.Cli
