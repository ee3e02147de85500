import Verif.Spec.Tape
import Verif.Proof.Runs
import Verif.Props.Plan

/-! # Runs with given tapes -/

namespace Homfa.Cli

variable {N n l : Nat} {L : Lib N n l}

theorem exec_iff_on {stdin : List Char} {fs : Files} {c : Call} {r : Res (Files × List Char)} :
    Exec L stdin fs c r ↔ ∃ t, ExecOn L t stdin fs c r := by
  constructor
  · intro h
    cases hd : c.draws with
    | false => exact ⟨fun _ => 0, .other hd h⟩
    | true => cases h with
      | genkey q => exact ⟨fun _ => q, .genkey⟩
      | genbkey q => exact ⟨fun _ => q, .genbkey⟩
      | enc rand => exact ⟨rand, .enc⟩
      | _ => cases hd
  · rintro ⟨t, h⟩
    cases h with
    | genkey => exact .genkey _
    | genbkey => exact .genbkey _
    | enc => exact .enc _
    | other _ h => exact h

theorem run_iff_on {stdin : List Char} {fs : Files} {toks : List String} {r : Res (Files × List Char)} :
    RunHomfa L stdin fs toks r ↔ ∃ t, RunOn L t stdin fs toks r := by
  constructor
  · intro h
    cases h with
    | call h1 h2 =>
      obtain ⟨t, h2⟩ := exec_iff_on.1 h2
      exact ⟨t, .call h1 h2⟩
    | usage h => exact ⟨fun _ => 0, .usage h⟩
    | fails h => exact ⟨fun _ => 0, .fails h⟩
  · rintro ⟨t, h⟩
    cases h with
    | call h1 h2 => exact .call h1 (exec_iff_on.2 ⟨t, h2⟩)
    | usage h => exact .usage h
    | fails h => exact .fails h

theorem script_iff_on {fs : Files} {cmds : List (List String)} {r : Res (Files × List Char)} :
    Script L fs cmds r ↔ ∃ ts, ScriptOn L ts fs cmds r := by
  constructor
  · intro h
    induction h with
    | nil => exact ⟨fun _ _ => 0, .nil⟩
    | next h _ ih =>
      obtain ⟨t, h⟩ := run_iff_on.1 h
      obtain ⟨ts, ih⟩ := ih
      exact ⟨fun i => i.casesOn t ts, .next h ih⟩
    | stop h =>
      obtain ⟨t, h⟩ := run_iff_on.1 h
      exact ⟨fun _ => t, .stop h⟩
  · rintro ⟨ts, h⟩
    induction h with
    | nil => exact .nil
    | next h _ ih => exact .next (run_iff_on.2 ⟨_, h⟩) ih
    | stop h => exact .stop (run_iff_on.2 ⟨_, h⟩)

/-- a line that follows the manual -/
theorem runOn_iff {t : Nat → Nat} {fs : Files} {stdin : List Char} (c : Cmd) {w : List String} (hw : w ∈ c.names) {items : List Item}
    (h : c.usage.Follows (fun f => (fs f).isSome) items) {r : Res (Files × List Char)} :
    RunOn L t stdin fs (w ++ line items) r ↔ ExecOn L t stdin fs (c.call items) r := by
  have e := C58_runs (fun f => (fs f).isSome) [] (by simp) c w hw items h
  rw [List.nil_append] at e
  constructor
  · intro h
    cases h with
    | call h1 h2 => rw [e] at h1; injection h1 with h1; injection h1 with h1; subst h1; exact h2
    | usage h1 => rw [e] at h1; cases h1
    | fails h1 => rw [e] at h1; cases h1
  · intro h; exact .call e h

/-- a run whose result does not depend on random numbers -/
theorem runOn_of_unique {t : Nat → Nat} {fs : Files} {stdin : List Char} {toks : List String}
    (h : ∀ c, homfaMain (fun f => (fs f).isSome) toks = .ok (some c) → c.draws = false) {r : Res (Files × List Char)} :
    RunOn L t stdin fs toks r ↔ RunHomfa L stdin fs toks r := by
  constructor
  · intro h'; exact run_iff_on.2 ⟨t, h'⟩
  · intro h'
    cases h' with
    | call h1 h2 => exact .call h1 (.other (h _ h1) h2)
    | usage h => exact .usage h
    | fails h => exact .fails h

theorem runOn_genkey {t : Nat → Nat} {fs : Files} {K : String} (hK : Word K) {r : Res (Files × List Char)} :
    RunOn L t [] fs ["genkey", "--out", K] r ↔ r = .ok (fs.set K (L.saveKey (L.newKey (t 0))), []) := by
  have hf : Cmd.genkey.usage.Follows (fun f => (fs f).isSome) (optItems Cmd.genkey.usage [K]) := by
    refine follows_opts rfl (by decide) rfl fun p hp => ?_
    simp only [Cmd.usage, List.zip_cons_cons, List.zip_nil_right, List.mem_cons, List.not_mem_nil, or_false] at hp
    subst hp; exact hK.text _
  refine (runOn_iff (L := L) (stdin := []) .genkey (w := ["genkey"]) (by simp [Cmd.names]) hf).trans ?_
  have : Cmd.genkey.call (optItems Cmd.genkey.usage [K]) = .genkey K := rfl
  rw [this]
  constructor
  · intro h; cases h with
    | genkey => rfl
    | other h => cases h
  · rintro rfl; exact .genkey

theorem runOn_genbkey {t : Nat → Nat} {fs : Files} {K B : String} (hK : Word K) (hB : Word B) (hk : ∀ k, L.loadKey (L.saveKey k) = some k) {k : L.Key}
    (h : fs K = some (L.saveKey k)) {r : Res (Files × List Char)} :
    RunOn L t [] fs ["genbkey", "--key", K, "--out", B] r ↔ r = .ok (fs.set B (L.saveBKey (L.newBKey (t 0) k)), []) := by
  have hf : Cmd.genbkey.usage.Follows (fun f => (fs f).isSome) (optItems Cmd.genbkey.usage [K, B]) := by
    refine follows_opts rfl (by decide) rfl fun p hp => ?_
    simp only [Cmd.usage, List.zip_cons_cons, List.zip_nil_right, List.mem_cons, List.not_mem_nil, or_false] at hp
    rcases hp with rfl | rfl
    · exact hK.file h
    · exact hB.text _
  refine (runOn_iff (L := L) (stdin := []) .genbkey (w := ["genbkey"]) (by simp [Cmd.names]) hf).trans ?_
  have : Cmd.genbkey.call (optItems Cmd.genbkey.usage [K, B]) = .genbkey K B := rfl
  rw [this]
  have key : (do
      let k ← readArchive L.loadKey (fs K)
      pure (fs.set B (L.saveBKey (L.newBKey (t 0) k)), []) : Res (Files × List Char)) = .ok (fs.set B (L.saveBKey (L.newBKey (t 0) k)), []) := by
    simp [readArchive, h, hk, bind, Except.bind, pure, Except.pure]
  constructor
  · intro h; cases h with
    | genbkey => exact key
    | other h => cases h
  · rintro rfl; rw [← key]; exact .genbkey

theorem runOn_enc {t : Nat → Nat} {fs : Files} {K I C : String} (hK : Word K) (hI : Word I) (hC : Word C) (hk : ∀ k, L.loadKey (L.saveKey k) = some k)
    {k : L.Key} (h : fs K = some (L.saveKey k)) {inB : List Byte} (hi : fs I = some inB) (hne : I ≠ C) {ap : Nat} (h0 : 0 < ap)
    (h64 : ap < 2 ^ 64) {r : Res (Files × List Char)} :
    RunOn L t [] fs ["enc", "--ap", toString ap, "--key", K, "--in", I, "--out", C] r ↔
      r = (doEnc (L.client k) t (some inB) ap).map fun b => ((fs.set C []).set C b, []) := by
  have hf : Cmd.enc.usage.Follows (fun f => (fs f).isSome) (optItems Cmd.enc.usage [toString ap, K, I, C]) := by
    refine follows_opts rfl (by decide) rfl fun p hp => ?_
    simp only [Cmd.usage, List.zip_cons_cons, List.zip_nil_right, List.mem_cons, List.not_mem_nil, or_false] at hp
    rcases hp with rfl | rfl | rfl | rfl
    · exact positive_ok h0 h64 _
    · exact hK.file h
    · exact hI.file hi
    · exact hC.text _
  refine (runOn_iff (L := L) (stdin := []) .enc (w := ["enc"]) (by simp [Cmd.names]) hf).trans ?_
  have : Cmd.enc.call (optItems Cmd.enc.usage [toString ap, K, I, C]) = .enc K I C (Nat.ofDigitChars 10 (toString ap).toList 0) := rfl
  rw [this, ofDigits_toString]
  have hr : readArchive L.loadKey (fs K) = .ok k := by simp [readArchive, h, hk]
  have key : (do
      let k ← readArchive L.loadKey (fs K)
      let fs := fs.set C []
      let b ← doEnc (L.client k) t (fs I) ap
      pure (fs.set C b, []) : Res (Files × List Char)) = (doEnc (L.client k) t (some inB) ap).map fun b => ((fs.set C []).set C b, []) := by
    rw [hr, Res.bind_ok]
    dsimp only
    rw [Files.set_other _ _ hne, hi]
    cases doEnc (L.client k) t (some inB) ap <;> rfl
  constructor
  · intro h; cases h with
    | enc => exact key
    | other h => cases h
  · rintro rfl
    rw [← key]
    exact .enc

theorem runOn_dec {t : Nat → Nat} {fs : Files} {K R : String} (hK : Word K) (hR : Word R) (hk : ∀ k, L.loadKey (L.saveKey k) = some k)
    (hc : ∀ c, L.loadRes (L.saveRes c) = some c) {k : L.Key} {c : TLWE N} (h : fs K = some (L.saveKey k))
    (h' : fs R = some (L.saveRes c)) {r : Res (Files × List Char)} :
    RunOn L t [] fs ["dec", "--key", K, "--in", R] r ↔ r = .ok (fs, doDec (L.client k) c) := by
  have hf : Cmd.dec.usage.Follows (fun f => (fs f).isSome) (optItems Cmd.dec.usage [K, R]) := by
    refine follows_opts rfl (by decide) rfl fun p hp => ?_
    simp only [Cmd.usage, List.zip_cons_cons, List.zip_nil_right, List.mem_cons, List.not_mem_nil, or_false] at hp
    rcases hp with rfl | rfl
    · exact hK.file h
    · exact hR.file h'
  refine (runOn_of_unique fun c' hc' => ?_).trans (run_dec hK hR hk hc h h')
  have e := C58_runs (fun f => (fs f).isSome) [] (by simp) .dec ["dec"] (by simp [Cmd.names]) _ hf
  rw [List.nil_append] at e
  have e' : homfaMain (fun f => (fs f).isSome) ["dec", "--key", K, "--in", R] = _ := e
  rw [e'] at hc'
  cases hc'
  rfl

/-- On the ciphertexts made with the given tapes and their evaluation key, the run command `X` always writes a result that decrypts to `out`. -/
def RunRightOn (L : Lib N n l) (ts : Nat → Nat → Nat) (S B C R : String) (specB inB : List Byte) (ap : Nat) (out : List Char) (X : List String) : Prop :=
  ∀ (fs' : Files) (file : List Byte), fs' S = some specB → fs' C = some file →
    fs' B = some (L.saveBKey (L.newBKey (ts 1 0) (L.keyOn ts))) → doEnc (L.pairOn ts) (ts 2) (some inB) ap = .ok file →
    (∃ r, RunOn L (ts 3) [] fs' X r) ∧ ∀ r, RunOn L (ts 3) [] fs' X r →
      ∃ c, r = .ok (fs'.set R (L.saveRes c), []) ∧ doDec (L.pairOn ts) c = out

/-- what the other commands do around the run -/
theorem pipelineOn (hL : L.Archives) {ts : Nat → Nat → Nat} {S I K B C R : String} (hn : Usable S I K B C R) (fs : Files) {specB inB file : List Byte}
    (hs : fs S = some specB) (hi : fs I = some inB) {ap : Nat} (hap : 0 < ap) (hap64 : ap < 2 ^ 64) {out : List Char}
    (henc : doEnc (L.pairOn ts) (ts 2) (some inB) ap = .ok file) (X : List String) (hX : RunRightOn L ts S B C R specB inB ap out X) :
    PrintsOn L ts fs [["genkey", "--out", K], ["genbkey", "--key", K, "--out", B],
      ["enc", "--ap", toString ap, "--key", K, "--in", I, "--out", C], X, ["dec", "--key", K, "--in", R]] out [K, B, C, R] := by
  obtain ⟨wS, wI, wK, wB, wC, wR⟩ : Word S ∧ Word I ∧ Word K ∧ Word B ∧ Word C ∧ Word R :=
    ⟨hn.words S (by simp), hn.words I (by simp), hn.words K (by simp), hn.words B (by simp), hn.words C (by simp), hn.words R (by simp)⟩
  obtain ⟨-, hdS, hdI, hdM, hdR⟩ := hn
  simp only [List.nodup_cons, List.mem_cons, List.not_mem_nil, or_false, not_or] at hdS hdI hdM
  obtain ⟨dSK, dSB, dSC⟩ := hdS
  obtain ⟨dIK, dIB, dIC⟩ := hdI
  obtain ⟨⟨dKB, dKC⟩, dBC, -⟩ := hdM
  have dKR := hdR.symm
  obtain ⟨fs1, h1⟩ : ∃ fs1, fs1 = fs.set K (L.saveKey (L.newKey (ts 0 0))) := ⟨_, rfl⟩
  obtain ⟨fs2, h2⟩ : ∃ fs2, fs2 = fs1.set B (L.saveBKey (L.newBKey (ts 1 0) (L.newKey (ts 0 0)))) := ⟨_, rfl⟩
  obtain ⟨fs3, h3⟩ : ∃ fs3, fs3 = (fs2.set C []).set C file := ⟨_, rfl⟩
  have k1 : fs1 K = some (L.saveKey (L.newKey (ts 0 0))) := by rw [h1, Files.set_same]
  have k2 : fs2 K = some (L.saveKey (L.newKey (ts 0 0))) := by rw [h2, Files.set_other _ _ dKB, k1]
  have i2 : fs2 I = some inB := by rw [h2, Files.set_other _ _ dIB, h1, Files.set_other _ _ dIK, hi]
  have k3 : fs3 K = some (L.saveKey (L.newKey (ts 0 0))) := by rw [h3, Files.set_other _ _ dKC, Files.set_other _ _ dKC, k2]
  have henc' : doEnc (L.client (L.newKey (ts 0 0))) (ts 2) (some inB) ap = .ok file := henc
  have e1 := fun r => runOn_genkey (L := L) (t := ts 0) (fs := fs) wK (r := r)
  rw [← h1] at e1
  have e2 := fun r => runOn_genbkey (L := L) (t := ts 1) (fs := fs1) wK wB hL.key k1 (r := r)
  rw [← h2] at e2
  have e3 := fun r => runOn_enc (L := L) (t := ts 2) (fs := fs2) wK wI wC hL.key k2 i2 dIC hap hap64 (r := r)
  rw [henc'] at e3
  have e3' : ∀ r, RunOn L (ts 2) [] fs2 ["enc", "--ap", toString ap, "--key", K, "--in", I, "--out", C] r ↔ r = .ok (fs3, []) := by
    rw [h3]; exact e3
  have e4 := hX fs3 file (by rw [h3, Files.set_other _ _ dSC, Files.set_other _ _ dSC, h2, Files.set_other _ _ dSB, h1, Files.set_other _ _ dSK, hs])
    (by rw [h3, Files.set_same]) (by rw [h3, Files.set_other _ _ dBC, Files.set_other _ _ dBC, h2, Files.set_same]; rfl) henc
  have k4 : ∀ c, (fs3.set R (L.saveRes c)) K = some (L.saveKey (L.newKey (ts 0 0))) := fun c => by rw [Files.set_other _ _ dKR, k3]
  have e5 := fun c r => runOn_dec (L := L) (t := ts 4) (fs := fs3.set R (L.saveRes c)) wK wR hL.key hL.res (k4 c) (Files.set_same _ _ _) (r := r)
  constructor
  · obtain ⟨⟨r, s4⟩, s5⟩ := e4
    obtain ⟨c, rfl, hc⟩ := s5 r s4
    exact ⟨_, .next ((e1 _).2 rfl) (.next ((e2 _).2 rfl) (.next ((e3' _).2 rfl) (.next s4 (.next ((e5 _ _).2 rfl) .nil))))⟩
  · intro r hr
    cases hr with
    | stop h => exact absurd ((e1 _).1 h) nofun
    | next h hr =>
    cases (e1 _).1 h
    cases hr with
    | stop h => exact absurd ((e2 _).1 h) nofun
    | next h hr =>
    cases (e2 _).1 h
    cases hr with
    | stop h => exact absurd ((e3' _).1 h) nofun
    | next h hr =>
    cases (e3' _).1 h
    cases hr with
    | stop h => obtain ⟨c, h, -⟩ := e4.2 _ h; cases h
    | next h hr =>
    obtain ⟨c, h, hc⟩ := e4.2 _ h
    cases h
    cases hr with
    | stop h => exact absurd ((e5 _ _).1 h) nofun
    | next h hr =>
    cases (e5 _ _).1 h
    cases hr
    have hc' : doDec (L.client (L.newKey (ts 0 0))) c = out := hc
    refine ⟨fs3.set R (L.saveRes c), by simp [Except.map, hc'], fun f hf => ?_⟩
    simp only [List.mem_cons, List.not_mem_nil, or_false, not_or] at hf
    rw [Files.set_other _ _ hf.2.2.2, h3, Files.set_other _ _ hf.2.2.1, Files.set_other _ _ hf.2.2.1, h2, Files.set_other _ _ hf.2.1, h1,
      Files.set_other _ _ hf.1]

/-! ## The run commands draw nothing -/

/-- a command line whose call draws nothing -/
theorem runOn_line {t : Nat → Nat} {fs : Files} {stdin : List Char} (c : Cmd) {w : List String} (hw : w ∈ c.names) {items : List Item}
    (h : c.usage.Follows (fun f => (fs f).isSome) items) (hd : (c.call items).draws = false) {r : Res (Files × List Char)} :
    RunOn L t stdin fs (w ++ line items) r ↔ RunHomfa L stdin fs (w ++ line items) r := by
  refine runOn_of_unique fun c' hc' => ?_
  have e := C58_runs (fun f => (fs f).isSome) [] (by simp) c w hw items h
  rw [List.nil_append] at e
  rw [e] at hc'
  cases hc'
  exact hd

theorem runOn_offline {t : Nat → Nat} {fs : Files} {B R S C : String} (hB : Word B) (hR : Word R) (hS : Word S) (hC : Word C) {b s c : List Byte}
    (h : fs B = some b) (hs : fs S = some s) (hc : fs C = some c) {boot : Nat} (h0 : 0 < boot) (h64 : boot < 2 ^ 64) {r : Res (Files × List Char)} :
    RunOn L t [] fs ["run", "offline", "--bkey", B, "--out", R, "--spec", S, "--in", C, "--bootstrapping-freq", toString boot] r ↔
      RunHomfa L [] fs ["run", "offline", "--bkey", B, "--out", R, "--spec", S, "--in", C, "--bootstrapping-freq", toString boot] r := by
  have hf : Cmd.runOffline.usage.Follows (fun f => (fs f).isSome) (optItems Cmd.runOffline.usage [B, R, S, C, toString boot]) := by
    refine follows_opts rfl (by decide) rfl fun p hp => ?_
    simp only [Cmd.usage, List.zip_cons_cons, List.zip_nil_right, List.mem_cons, List.not_mem_nil, or_false] at hp
    rcases hp with rfl | rfl | rfl | rfl | rfl
    · exact hB.file h
    · exact hR.text _
    · exact hS.file hs
    · exact hC.file hc
    · exact positive_ok h0 h64 _
  exact runOn_line .runOffline (w := ["run", "offline"]) (by simp [Cmd.names]) hf rfl

theorem runOn_reverse {t : Nat → Nat} {fs : Files} {B R S C : String} (hB : Word B) (hR : Word R) (hS : Word S) (hC : Word C) {b s c : List Byte}
    (h : fs B = some b) (hs : fs S = some s) (hc : fs C = some c) {freq boot : Nat} (hf0 : 0 < freq) (hf64 : freq < 2 ^ 64) (h0 : 0 < boot)
    (h64 : boot < 2 ^ 64) {r : Res (Files × List Char)} :
    RunOn L t [] fs ["run", "reverse", "--bkey", B, "--out", R, "--spec", S, "--in", C, "--out-freq", toString freq,
        "--bootstrapping-freq", toString boot] r ↔
      RunHomfa L [] fs ["run", "reverse", "--bkey", B, "--out", R, "--spec", S, "--in", C, "--out-freq", toString freq,
        "--bootstrapping-freq", toString boot] r := by
  have hf : Cmd.runReverse.usage.Follows (fun f => (fs f).isSome) (optItems Cmd.runReverse.usage [B, R, S, C, toString freq, toString boot]) := by
    refine follows_opts rfl (by decide) rfl fun p hp => ?_
    simp only [Cmd.usage, List.zip_cons_cons, List.zip_nil_right, List.mem_cons, List.not_mem_nil, or_false] at hp
    rcases hp with rfl | rfl | rfl | rfl | rfl | rfl
    · exact hB.file h
    · exact hR.text _
    · exact hS.file hs
    · exact hC.file hc
    · exact positive_ok hf0 hf64 _
    · exact positive_ok h0 h64 _
  exact runOn_line .runReverse (w := ["run", "reverse"]) (by simp [Cmd.names]) hf rfl

theorem runOn_block {t : Nat → Nat} {fs : Files} {B R S C : String} (hB : Word B) (hR : Word R) (hS : Word S) (hC : Word C) {b s c : List Byte}
    (h : fs B = some b) (hs : fs S = some s) (hc : fs C = some c) {freq queue : Nat} (hf0 : 0 < freq) (hf64 : freq < 2 ^ 64) (h0 : 0 < queue)
    (h64 : queue < 2 ^ 64) {r : Res (Files × List Char)} :
    RunOn L t [] fs ["run", "block", "--bkey", B, "--out", R, "--spec", S, "--in", C, "--out-freq", toString freq,
        "--queue-size", toString queue] r ↔
      RunHomfa L [] fs ["run", "block", "--bkey", B, "--out", R, "--spec", S, "--in", C, "--out-freq", toString freq,
        "--queue-size", toString queue] r := by
  have hf : Cmd.runBlock.usage.Follows (fun f => (fs f).isSome) (optItems Cmd.runBlock.usage [B, R, S, C, toString freq, toString queue]) := by
    refine follows_opts rfl (by decide) rfl fun p hp => ?_
    simp only [Cmd.usage, List.zip_cons_cons, List.zip_nil_right, List.mem_cons, List.not_mem_nil, or_false] at hp
    rcases hp with rfl | rfl | rfl | rfl | rfl | rfl
    · exact hB.file h
    · exact hR.text _
    · exact hS.file hs
    · exact hC.file hc
    · exact positive_ok hf0 hf64 _
    · exact positive_ok h0 h64 _
  exact runOn_line .runBlock (w := ["run", "block"]) (by simp [Cmd.names]) hf rfl

theorem runOn_flut {t : Nat → Nat} {fs : Files} {B R S C : String} (hB : Word B) (hR : Word R) (hS : Word S) (hC : Word C) {b s c : List Byte}
    (h : fs B = some b) (hs : fs S = some s) (hc : fs C = some c) {freq queue depth boot : Nat} (hf0 : 0 < freq) (hf64 : freq < 2 ^ 64)
    (hq0 : 0 < queue) (hq64 : queue < 2 ^ 64) (hd0 : 0 < depth) (hd64 : depth < 2 ^ 64) (h0 : 0 < boot) (h64 : boot < 2 ^ 64)
    {r : Res (Files × List Char)} :
    RunOn L t [] fs ["run", "flut", "--bkey", B, "--out", R, "--spec", S, "--in", C, "--out-freq", toString freq,
        "--queue-size", toString queue, "--max-second-lut-depth", toString depth, "--bootstrapping-freq", toString boot] r ↔
      RunHomfa L [] fs ["run", "flut", "--bkey", B, "--out", R, "--spec", S, "--in", C, "--out-freq", toString freq,
        "--queue-size", toString queue, "--max-second-lut-depth", toString depth, "--bootstrapping-freq", toString boot] r := by
  have hf : Cmd.runFlut.usage.Follows (fun f => (fs f).isSome)
      (optItems Cmd.runFlut.usage [B, R, S, C, toString freq, toString queue, toString depth, toString boot]) := by
    refine follows_opts rfl (by decide) rfl fun p hp => ?_
    simp only [Cmd.usage, List.zip_cons_cons, List.zip_nil_right, List.mem_cons, List.not_mem_nil, or_false] at hp
    rcases hp with rfl | rfl | rfl | rfl | rfl | rfl | rfl | rfl
    · exact hB.file h
    · exact hR.text _
    · exact hS.file hs
    · exact hC.file hc
    · exact positive_ok hf0 hf64 _
    · exact positive_ok hq0 hq64 _
    · exact positive_ok hd0 hd64 _
    · exact positive_ok h0 h64 _
  exact runOn_line .runFlut (w := ["run", "flut"]) (by simp [Cmd.names]) hf rfl

/-! ## Without an output directory the output frequency does not matter -/

theorem onlineLoop_freq {ρ : Type} (evalOne : ρ → Gsw l N → Res ρ) (result : ρ → Res (TLWE N × ρ)) (f f' : Nat) :
    ∀ (cs : List (Gsw l N)) (i : Nat) (r : ρ), onlineLoop evalOne result none f cs i r = onlineLoop evalOne result none f' cs i r := by
  intro cs
  induction cs with
  | nil => intro i r; rfl
  | cons c cs ih => intro i r; simp only [onlineLoop, ih]

theorem onlineLoopC_freq {ρ : Type} (evalOne : ρ → Gsw l N → Comp N n l ρ) (result : ρ → Comp N n l (TLWE N × ρ)) (f f' : Nat) :
    ∀ (cs : List (Gsw l N)) (i : Nat) (r : ρ), onlineLoopC evalOne result none f cs i r = onlineLoopC evalOne result none f' cs i r := by
  intro cs
  induction cs with
  | nil => intro i r; rfl
  | cons c cs ih => intro i r; simp only [onlineLoopC, ih]

theorem doRunReverse_freq (T : Scheme N n l) (spec : List Char) (k : Nat) (cs : List (Gsw l N)) (o : Option String) (f f' b : Nat) (v z : Bool) :
    doRunReverse T spec k cs o none f b v z = doRunReverse T spec k cs o none f' b v z := by
  unfold doRunReverse
  simp only [onlineLoop_freq _ _ f f']

theorem doRunFlut_freq (T : Scheme N n l) (spec : List Char) (k : Nat) (cs : List (Gsw l N)) (o : Option String) (f f' q b : Nat) (m : Option Nat)
    (z : Bool) : doRunFlut T spec k cs o none f q b m z = doRunFlut T spec k cs o none f' q b m z := by
  unfold doRunFlut
  simp only [onlineLoop_freq _ _ f f']

theorem doRunReverseC_freq (spec : List Char) (k : Nat) (cs : List (Gsw l N)) (o : Option String) (f f' b : Nat) (v z : Bool) :
    (doRunReverseC spec k cs o none f b v z : Comp N n l _) = doRunReverseC spec k cs o none f' b v z := by
  unfold doRunReverseC
  simp only [onlineLoopC_freq _ _ f f']

theorem doRunFlutC_freq (spec : List Char) (k : Nat) (cs : List (Gsw l N)) (o : Option String) (f f' q b : Nat) (m : Option Nat) (z : Bool) :
    (doRunFlutC spec k cs o none f q b m z : Comp N n l _) = doRunFlutC spec k cs o none f' q b m z := by
  unfold doRunFlutC
  simp only [onlineLoopC_freq _ _ f f']

/-! ## From the functions to the command lines -/

variable {ts : Nat → Nat → Nat} {S I K B C R : String} {specB : List Byte} {rs : List (List Byte)} {ap : Nat} {out : List Char}

/-- the file `enc` writes -/
theorem encOn (hap : 0 < ap) (hrs : ∀ r ∈ rs, r.length = recordBytes ap) {file : List Byte}
    (h : doEnc (L.pairOn ts) (ts 2) (some rs.flatten) ap = .ok file) (hsize : (rs.flatMap (recordBits ap)).length * blockSize l N < 2 ^ 63) :
    ∃ cs : List (Gsw l N), file = cs.flatMap saveGsw ∧ (cs.flatMap saveGsw).length < 2 ^ 63 := by
  obtain ⟨e1, e2⟩ := Homfa.enc_file _ _ hap hrs h
  exact ⟨_, e1, by rw [← e1, e2]; exact hsize⟩

theorem rightOn_offline (hL : L.Archives) (hN : 0 < N) (hl : 0 < l) (hbs : blockSize l N < 2 ^ 63) (hn : Usable S I K B C R) (hap : 0 < ap)
    (hrs : ∀ r ∈ rs, r.length = recordBytes ap) (hsize : (rs.flatMap (recordBits ap)).length * blockSize l N < 2 ^ 63)
    {boot : Nat} (hb : 0 < boot) (hb64 : boot < 2 ^ 64)
    (h : OfflinePrints (L.pairOn ts) (ts 2) (textOf specB) rs.flatten ap boot out) :
    RunRightOn L ts S B C R specB rs.flatten ap out
      ["run", "offline", "--bkey", B, "--out", R, "--spec", S, "--in", C, "--bootstrapping-freq", toString boot] := by
  intro fs' file h1 h2 h3 h5
  obtain ⟨file', e1, e3⟩ := h
  rw [h5] at e1
  cases e1
  obtain ⟨cs, rfl, h4⟩ := encOn hap hrs h5 hsize
  obtain ⟨⟨pre, f1⟩, f2⟩ := fetch_reversed (blockSize_pos hl hN) hbs h4
  have hrun := fun r => (runOn_offline (L := L) (t := ts 3) (r := r) (hn.words B (by simp)) (hn.words R (by simp)) (hn.words S (by simp))
    (hn.words C (by simp)) h3 h1 h2 hb hb64).trans (run_offline (L := L) (r := r) (hn.words B (by simp)) (hn.words R (by simp)) (hn.words S (by simp))
    (hn.words C (by simp)) hL.bkey h3 h1 h2 hb hb64)
  refine ⟨⟨_, (hrun _).2 ⟨_, f1, rfl⟩⟩, fun r hr => ?_⟩
  obtain ⟨q2, hq2, rfl⟩ := (hrun r).1 hr
  obtain ⟨pre, hrd, rfl⟩ := f2 q2 hq2
  obtain ⟨c, hc1, hc2⟩ := e3 pre _ hrd
  refine ⟨c, ?_, hc2⟩
  rw [Lib.pairOn, ← C60_offline (server_same (L.keyOn ts) _)] at hc1
  show (doRunOffline _ _ _ _ _ _).map _ = _
  rw [hc1]
  rfl

theorem fetch_ne {file : List Byte} {pre : List Nat} {cs : List (Gsw l N)} (h : Fetch .forward (some file) (.ok (pre, cs))) : pre ≠ [] := by
  cases h with
  | forward h _ => exact h

theorem rightOn_reverse (hL : L.Archives) (hN : 0 < N) (hl : 0 < l) (hbs : blockSize l N < 2 ^ 63) (hn : Usable S I K B C R) (hap : 0 < ap)
    (hrs : ∀ r ∈ rs, r.length = recordBytes ap) (hsize : (rs.flatMap (recordBits ap)).length * blockSize l N < 2 ^ 63)
    {freq boot : Nat} (hf : 0 < freq) (hf64 : freq < 2 ^ 64) (hb : 0 < boot) (hb64 : boot < 2 ^ 64)
    (h : ReversePrints (L.pairOn ts) (ts 2) (textOf specB) rs.flatten ap R boot out) :
    RunRightOn L ts S B C R specB rs.flatten ap out
      ["run", "reverse", "--bkey", B, "--out", R, "--spec", S, "--in", C, "--out-freq", toString freq,
        "--bootstrapping-freq", toString boot] := by
  intro fs' file h1 h2 h3 h5
  obtain ⟨file', e1, e3⟩ := h
  rw [h5] at e1
  cases e1
  obtain ⟨cs, rfl, h4⟩ := encOn hap hrs h5 hsize
  obtain ⟨⟨pre, -, f1⟩, f2⟩ := fetch_forward (blockSize_pos hl hN) hbs h4
  have hrun := fun r => (runOn_reverse (L := L) (t := ts 3) (r := r) (hn.words B (by simp)) (hn.words R (by simp)) (hn.words S (by simp))
    (hn.words C (by simp)) h3 h1 h2 hf hf64 hb hb64).trans (run_reverse (L := L) (r := r) (hn.words B (by simp)) (hn.words R (by simp))
    (hn.words S (by simp)) (hn.words C (by simp)) hL.bkey h3 h1 h2 hf hf64 hb hb64)
  refine ⟨⟨_, (hrun _).2 ⟨_, f1, rfl⟩⟩, fun r hr => ?_⟩
  obtain ⟨q2, hq2, rfl⟩ := (hrun r).1 hr
  obtain ⟨pre, hrd, rfl⟩ := f2 q2 hq2
  obtain ⟨c, hc1, hc2⟩ := e3 pre _ (fetch_ne hq2) hrd
  refine ⟨c, ?_, hc2⟩
  rw [Lib.pairOn, ← C60_reverse (server_same (L.keyOn ts) _), doRunReverse_freq _ _ _ _ _ 1 freq] at hc1
  show (doRunReverse _ _ _ _ _ _ _ _ _ _).map _ = _
  rw [hc1]
  rfl

theorem rightOn_block (hL : L.Archives) (hN : 0 < N) (hl : 0 < l) (hbs : blockSize l N < 2 ^ 63) (hn : Usable S I K B C R) (hap : 0 < ap)
    (hrs : ∀ r ∈ rs, r.length = recordBytes ap) (hsize : (rs.flatMap (recordBits ap)).length * blockSize l N < 2 ^ 63)
    {freq queue : Nat} (hf : 0 < freq) (hf64 : freq < 2 ^ 64) (hq : 0 < queue) (hq64 : queue < 2 ^ 64)
    (h : BlockPrints (L.pairOn ts) (ts 2) (textOf specB) rs.flatten ap queue out) :
    RunRightOn L ts S B C R specB rs.flatten ap out
      ["run", "block", "--bkey", B, "--out", R, "--spec", S, "--in", C, "--out-freq", toString freq, "--queue-size", toString queue] := by
  intro fs' file h1 h2 h3 h5
  obtain ⟨file', e1, e3⟩ := h
  rw [h5] at e1
  cases e1
  obtain ⟨cs, rfl, h4⟩ := encOn hap hrs h5 hsize
  obtain ⟨⟨pre, -, f1⟩, f2⟩ := fetch_forward (blockSize_pos hl hN) hbs h4
  have hrun := fun r => (runOn_block (L := L) (t := ts 3) (r := r) (hn.words B (by simp)) (hn.words R (by simp)) (hn.words S (by simp))
    (hn.words C (by simp)) h3 h1 h2 hf hf64 hq hq64).trans (run_block (L := L) (r := r) (hn.words B (by simp)) (hn.words R (by simp))
    (hn.words S (by simp)) (hn.words C (by simp)) hL.bkey h3 h1 h2 hf hf64 hq hq64)
  refine ⟨⟨_, (hrun _).2 ⟨_, f1, rfl⟩⟩, fun r hr => ?_⟩
  obtain ⟨q2, hq2, rfl⟩ := (hrun r).1 hr
  obtain ⟨pre, hrd, rfl⟩ := f2 q2 hq2
  obtain ⟨c, hc1, hc2⟩ := e3 pre _ hrd
  refine ⟨c, ?_, hc2⟩
  rw [Lib.pairOn, ← C60_block (server_same (L.keyOn ts) _)] at hc1
  show (doRunBlock _ _ _ _ _).map _ = _
  rw [hc1]
  rfl

theorem rightOn_flut (hL : L.Archives) (hN : 0 < N) (hl : 0 < l) (hbs : blockSize l N < 2 ^ 63) (hn : Usable S I K B C R) (hap : 0 < ap)
    (hrs : ∀ r ∈ rs, r.length = recordBytes ap) (hsize : (rs.flatMap (recordBits ap)).length * blockSize l N < 2 ^ 63)
    {freq queue depth boot : Nat} (hf : 0 < freq) (hf64 : freq < 2 ^ 64) (hq : 0 < queue) (hq64 : queue < 2 ^ 64) (hd : 0 < depth)
    (hd64 : depth < 2 ^ 64) (hb : 0 < boot) (hb64 : boot < 2 ^ 64)
    (h : FlutPrints (L.pairOn ts) (ts 2) (textOf specB) rs.flatten ap R queue boot (some depth) out) :
    RunRightOn L ts S B C R specB rs.flatten ap out
      ["run", "flut", "--bkey", B, "--out", R, "--spec", S, "--in", C, "--out-freq", toString freq, "--queue-size", toString queue,
        "--max-second-lut-depth", toString depth, "--bootstrapping-freq", toString boot] := by
  intro fs' file h1 h2 h3 h5
  obtain ⟨file', e1, e3⟩ := h
  rw [h5] at e1
  cases e1
  obtain ⟨cs, rfl, h4⟩ := encOn hap hrs h5 hsize
  obtain ⟨⟨pre, -, f1⟩, f2⟩ := fetch_forward (blockSize_pos hl hN) hbs h4
  have hrun := fun r => (runOn_flut (L := L) (t := ts 3) (r := r) (hn.words B (by simp)) (hn.words R (by simp)) (hn.words S (by simp))
    (hn.words C (by simp)) h3 h1 h2 hf hf64 hq hq64 hd hd64 hb hb64).trans (run_flut (L := L) (r := r) (hn.words B (by simp)) (hn.words R (by simp))
    (hn.words S (by simp)) (hn.words C (by simp)) hL.bkey h3 h1 h2 hf hf64 hq hq64 hd hd64 hb hb64)
  refine ⟨⟨_, (hrun _).2 ⟨_, f1, rfl⟩⟩, fun r hr => ?_⟩
  obtain ⟨q2, hq2, rfl⟩ := (hrun r).1 hr
  obtain ⟨pre, hrd, rfl⟩ := f2 q2 hq2
  obtain ⟨c, hc1, hc2⟩ := e3 pre _ (fetch_ne hq2) hrd
  refine ⟨c, ?_, hc2⟩
  rw [Lib.pairOn, ← C60_flut (server_same (L.keyOn ts) _), doRunFlut_freq _ _ _ _ _ 1 freq] at hc1
  show (doRunFlut _ _ _ _ _ _ _ _ _ _ _).map _ = _
  rw [hc1]
  rfl

/-- what `run plain` prints -/
theorem plain_text {fs fs' : Files} (hS : Word S) (hI : Word I) {inB : List Byte} (hs : fs S = some specB) (hi : fs I = some inB) (hap : 0 < ap)
    (hap64 : ap < 2 ^ 64) (h : RunHomfa L [] fs ["run", "plain", "--ap", toString ap, "--spec", S, "--in", I] (.ok (fs', out))) :
    doRunPlain (textOf specB) (some inB) ap = .ok out := by
  have hp := (run_plain hS hI hs hi hap hap64).1 h
  cases h : doRunPlain (textOf specB) (some inB) ap with
  | error e => rw [h] at hp; cases hp
  | ok o => rw [h] at hp; cases hp; rfl

end Homfa.Cli
