import Verif.Proof.Shell
import Verif.Props.Commands
import Verif.Props.Secret

/-! # One command after the other -/

namespace Homfa.Cli

variable {N n l : Nat} {L : Lib N n l} {δ : Noise} {Enc : L.Key → Gsw l N → Bool → Prop}

theorem bind_ok_map {α β : Type} (x : Res α) (f : α → β) : (x.bind fun a => .ok (f a)) = x.map f := by
  cases x <;> rfl

theorem run_genkey {fs : Files} {K : String} (hK : Word K) {r : Res (Files × List Char)} :
    RunHomfa L [] fs ["genkey", "--out", K] r ↔ ∃ q, r = .ok (fs.set K (L.saveKey (L.newKey q)), []) := by
  have hf : Cmd.genkey.usage.Follows (fun f => (fs f).isSome) (optItems Cmd.genkey.usage [K]) := by
    refine follows_opts rfl (by decide) rfl fun p hp => ?_
    simp only [Cmd.usage, List.zip_cons_cons, List.zip_nil_right, List.mem_cons, List.not_mem_nil, or_false] at hp
    subst hp; exact hK.text _
  refine (run_iff (L := L) (stdin := []) .genkey (w := ["genkey"]) (by simp [Cmd.names]) hf).trans ?_
  have : Cmd.genkey.call (optItems Cmd.genkey.usage [K]) = .genkey K := rfl
  rw [this]
  constructor
  · intro h; cases h with
    | genkey q => exact ⟨q, rfl⟩
  · rintro ⟨q, rfl⟩; exact .genkey q

theorem run_genbkey {fs : Files} {K B : String} (hK : Word K) (hB : Word B) (hk : ∀ k, L.loadKey (L.saveKey k) = some k) {k : L.Key}
    (h : fs K = some (L.saveKey k)) {r : Res (Files × List Char)} :
    RunHomfa L [] fs ["genbkey", "--key", K, "--out", B] r ↔ ∃ q, r = .ok (fs.set B (L.saveBKey (L.newBKey q k)), []) := by
  have hf : Cmd.genbkey.usage.Follows (fun f => (fs f).isSome) (optItems Cmd.genbkey.usage [K, B]) := by
    refine follows_opts rfl (by decide) rfl fun p hp => ?_
    simp only [Cmd.usage, List.zip_cons_cons, List.zip_nil_right, List.mem_cons, List.not_mem_nil, or_false] at hp
    rcases hp with rfl | rfl
    · exact hK.file h
    · exact hB.text _
  refine (run_iff (L := L) (stdin := []) .genbkey (w := ["genbkey"]) (by simp [Cmd.names]) hf).trans ?_
  have : Cmd.genbkey.call (optItems Cmd.genbkey.usage [K, B]) = .genbkey K B := rfl
  rw [this]
  have hr : readArchive L.loadKey (fs K) = .ok k := by simp [readArchive, h, hk]
  constructor
  · intro h; cases h with
    | genbkey q => exact ⟨q, by rw [hr]; rfl⟩
  · rintro ⟨q, rfl⟩
    have := Exec.genbkey (L := L) (stdin := []) (fs := fs) q (skey := K) (out := B)
    rw [hr] at this
    exact this

/-- `enc` reads its input after it has emptied its output -/
theorem run_enc_from {fs : Files} {K I C : String} (hK : Word K) (hI : Word I) (hC : Word C) (hk : ∀ k, L.loadKey (L.saveKey k) = some k)
    {k : L.Key} (h : fs K = some (L.saveKey k)) {inX inB : List Byte} (hi : fs I = some inX) (hi' : (fs.set C []) I = some inB) {ap : Nat} (h0 : 0 < ap)
    (h64 : ap < 2 ^ 64) {r : Res (Files × List Char)} :
    RunHomfa L [] fs ["enc", "--ap", toString ap, "--key", K, "--in", I, "--out", C] r ↔
      ∃ rand, r = (doEnc (L.client k) rand (some inB) ap).map fun b => ((fs.set C []).set C b, []) := by
  have hf : Cmd.enc.usage.Follows (fun f => (fs f).isSome) (optItems Cmd.enc.usage [toString ap, K, I, C]) := by
    refine follows_opts rfl (by decide) rfl fun p hp => ?_
    simp only [Cmd.usage, List.zip_cons_cons, List.zip_nil_right, List.mem_cons, List.not_mem_nil, or_false] at hp
    rcases hp with rfl | rfl | rfl | rfl
    · exact positive_ok h0 h64 _
    · exact hK.file h
    · exact hI.file hi
    · exact hC.text _
  refine (run_iff (L := L) (stdin := []) .enc (w := ["enc"]) (by simp [Cmd.names]) hf).trans ?_
  have : Cmd.enc.call (optItems Cmd.enc.usage [toString ap, K, I, C]) = .enc K I C (Nat.ofDigitChars 10 (toString ap).toList 0) := rfl
  rw [this, ofDigits_toString]
  have hr : readArchive L.loadKey (fs K) = .ok k := by simp [readArchive, h, hk]
  have key : ∀ rand, (do
      let k ← readArchive L.loadKey (fs K)
      let fs := fs.set C []
      let b ← doEnc (L.client k) rand (fs I) ap
      pure (fs.set C b, []) : Res (Files × List Char)) = (doEnc (L.client k) rand (some inB) ap).map fun b => ((fs.set C []).set C b, []) := by
    intro rand
    rw [hr, Res.bind_ok]
    dsimp only
    rw [hi']
    cases doEnc (L.client k) rand (some inB) ap <;> rfl
  constructor
  · intro h; cases h with
    | enc rand => exact ⟨rand, key rand⟩
  · rintro ⟨rand, rfl⟩
    rw [← key]
    exact .enc rand

theorem run_enc {fs : Files} {K I C : String} (hK : Word K) (hI : Word I) (hC : Word C) (hk : ∀ k, L.loadKey (L.saveKey k) = some k)
    {k : L.Key} (h : fs K = some (L.saveKey k)) {inB : List Byte} (hi : fs I = some inB) (hne : I ≠ C) {ap : Nat} (h0 : 0 < ap)
    (h64 : ap < 2 ^ 64) {r : Res (Files × List Char)} :
    RunHomfa L [] fs ["enc", "--ap", toString ap, "--key", K, "--in", I, "--out", C] r ↔
      ∃ rand, r = (doEnc (L.client k) rand (some inB) ap).map fun b => ((fs.set C []).set C b, []) :=
  run_enc_from hK hI hC hk h hi (by rw [Files.set_other _ _ hne]; exact hi) h0 h64

theorem run_dec {fs : Files} {K R : String} (hK : Word K) (hR : Word R) (hk : ∀ k, L.loadKey (L.saveKey k) = some k)
    (hc : ∀ c, L.loadRes (L.saveRes c) = some c) {k : L.Key} {c : TLWE N} (h : fs K = some (L.saveKey k))
    (h' : fs R = some (L.saveRes c)) {r : Res (Files × List Char)} :
    RunHomfa L [] fs ["dec", "--key", K, "--in", R] r ↔ r = .ok (fs, doDec (L.client k) c) := by
  have hf : Cmd.dec.usage.Follows (fun f => (fs f).isSome) (optItems Cmd.dec.usage [K, R]) := by
    refine follows_opts rfl (by decide) rfl fun p hp => ?_
    simp only [Cmd.usage, List.zip_cons_cons, List.zip_nil_right, List.mem_cons, List.not_mem_nil, or_false] at hp
    rcases hp with rfl | rfl
    · exact hK.file h
    · exact hR.file h'
  refine (run_iff (L := L) (stdin := []) .dec (w := ["dec"]) (by simp [Cmd.names]) hf).trans ?_
  have : Cmd.dec.call (optItems Cmd.dec.usage [K, R]) = .dec K R := rfl
  rw [this]
  have key : (do
      let k ← readArchive L.loadKey (fs K)
      let c ← readArchive L.loadRes (fs R)
      pure (fs, doDec (L.client k) c) : Res (Files × List Char)) = .ok (fs, doDec (L.client k) c) := by
    simp [readArchive, h, hk, h', hc, bind, Except.bind, pure, Except.pure]
  constructor
  · intro h; cases h with
    | dec => exact key
  · rintro rfl
    rw [← key]
    exact .dec

theorem run_plain {fs : Files} {S I : String} (hS : Word S) (hI : Word I) {specB inB : List Byte} (h : fs S = some specB)
    (hi : fs I = some inB) {ap : Nat} (h0 : 0 < ap) (h64 : ap < 2 ^ 64) {r : Res (Files × List Char)} :
    RunHomfa L [] fs ["run", "plain", "--ap", toString ap, "--spec", S, "--in", I] r ↔
      r = (doRunPlain (textOf specB) (some inB) ap).map fun o => (fs, o) := by
  have hf : Cmd.runPlain.usage.Follows (fun f => (fs f).isSome) (optItems Cmd.runPlain.usage [toString ap, S, I]) := by
    refine follows_opts rfl (by decide) rfl fun p hp => ?_
    simp only [Cmd.usage, List.zip_cons_cons, List.zip_nil_right, List.mem_cons, List.not_mem_nil, or_false] at hp
    rcases hp with rfl | rfl | rfl
    · exact positive_ok h0 h64 _
    · exact hS.file h
    · exact hI.file hi
  refine (run_iff (L := L) (stdin := []) .runPlain (w := ["run", "plain"]) (by simp [Cmd.names]) hf).trans ?_
  have : Cmd.runPlain.call (optItems Cmd.runPlain.usage [toString ap, S, I]) = .runPlain S I (Nat.ofDigitChars 10 (toString ap).toList 0) := rfl
  rw [this, ofDigits_toString]
  have key : (do
      let s ← readSpec (fs S)
      let out ← doRunPlain s (fs I) ap
      pure (fs, out) : Res (Files × List Char)) = (doRunPlain (textOf specB) (some inB) ap).map fun o => (fs, o) := by
    rw [h, hi]
    show ((doRunPlain (textOf specB) (some inB) ap).bind fun o => .ok (fs, o)) = _
    cases doRunPlain (textOf specB) (some inB) ap <;> rfl
  constructor
  · intro h; cases h with
    | runPlain => exact key
  · rintro rfl
    rw [← key]
    exact .runPlain

/-! ## The encrypted runs -/

theorem run_offline {fs : Files} {B R S C : String} (hB : Word B) (hR : Word R) (hS : Word S) (hC : Word C)
    (hb : ∀ b, L.loadBKey (L.saveBKey b) = some b) {b : L.BKey} (h : fs B = some (L.saveBKey b)) {specB file : List Byte}
    (hs : fs S = some specB) (hc : fs C = some file) {boot : Nat} (h0 : 0 < boot) (h64 : boot < 2 ^ 64) {r : Res (Files × List Char)} :
    RunHomfa L [] fs ["run", "offline", "--bkey", B, "--out", R, "--spec", S, "--in", C, "--bootstrapping-freq", toString boot] r ↔
      ∃ q, Fetch .reversed (some file) q ∧ r = q.bind fun p =>
        (doRunOffline (L.server b) (textOf specB) (p.1.headD 0) p.2 boot false).map fun c => (fs.set R (L.saveRes c), []) := by
  have hf : Cmd.runOffline.usage.Follows (fun f => (fs f).isSome) (optItems Cmd.runOffline.usage [B, R, S, C, toString boot]) := by
    refine follows_opts rfl (by decide) rfl fun p hp => ?_
    simp only [Cmd.usage, List.zip_cons_cons, List.zip_nil_right, List.mem_cons, List.not_mem_nil, or_false] at hp
    rcases hp with rfl | rfl | rfl | rfl | rfl
    · exact hB.file h
    · exact hR.text _
    · exact hS.file hs
    · exact hC.file hc
    · exact positive_ok h0 h64 _
  refine (run_iff (L := L) (stdin := []) .runOffline (w := ["run", "offline"]) (by simp [Cmd.names]) hf).trans ?_
  have : Cmd.runOffline.call (optItems Cmd.runOffline.usage [B, R, S, C, toString boot]) =
    .runOffline S C R (Nat.ofDigitChars 10 (toString boot).toList 0) B false := rfl
  rw [this, ofDigits_toString]
  have hr : readArchive L.loadBKey (fs B) = .ok b := by simp [readArchive, h, hb]
  have hsp : readSpec (fs S) = .ok (textOf specB) := by simp [readSpec, hs]
  have key : ∀ q : Res (List Nat × List (Gsw l N)), (do
      let (pre, cs) ← q
      let b ← readArchive L.loadBKey (fs B)
      let s ← readSpec (fs S)
      let c ← doRunOffline (L.server b) s (pre.headD 0) cs boot false
      pure (fs.set R (L.saveRes c), []) : Res (Files × List Char)) = q.bind fun p =>
        (doRunOffline (L.server b) (textOf specB) (p.1.headD 0) p.2 boot false).map fun c => (fs.set R (L.saveRes c), []) := by
    intro q
    rw [hr, hsp]
    cases q with
    | error e => rfl
    | ok p =>
      show ((doRunOffline (L.server b) (textOf specB) (p.1.headD 0) p.2 boot false).bind fun c => .ok (fs.set R (L.saveRes c), [])) = _
      exact bind_ok_map _ _
  constructor
  · intro h; cases h with
    | runOffline hq => exact ⟨_, by rw [← hc]; exact hq, key _⟩
  · rintro ⟨q, hq, rfl⟩
    rw [← key]
    exact .runOffline (by rw [hc]; exact hq)

theorem run_reverse {fs : Files} {B R S C : String} (hB : Word B) (hR : Word R) (hS : Word S) (hC : Word C)
    (hb : ∀ b, L.loadBKey (L.saveBKey b) = some b) {b : L.BKey} (h : fs B = some (L.saveBKey b)) {specB file : List Byte}
    (hs : fs S = some specB) (hc : fs C = some file) {freq boot : Nat} (hf0 : 0 < freq) (hf64 : freq < 2 ^ 64) (h0 : 0 < boot)
    (h64 : boot < 2 ^ 64) {r : Res (Files × List Char)} :
    RunHomfa L [] fs ["run", "reverse", "--bkey", B, "--out", R, "--spec", S, "--in", C, "--out-freq", toString freq,
        "--bootstrapping-freq", toString boot] r ↔
      ∃ q, Fetch .forward (some file) q ∧ r = q.bind fun p =>
        (doRunReverse (L.server b) (textOf specB) (p.1.getLastD 0) p.2 (some R) none freq boot false false).map
          fun rs => (writeResults L fs rs, []) := by
  have hf : Cmd.runReverse.usage.Follows (fun f => (fs f).isSome) (optItems Cmd.runReverse.usage [B, R, S, C, toString freq, toString boot]) := by
    refine follows_opts rfl (by decide) rfl fun p hp => ?_
    simp only [Cmd.usage, List.zip_cons_cons, List.zip_nil_right, List.mem_cons, List.not_mem_nil, or_false] at hp
    rcases hp with rfl | rfl | rfl | rfl | rfl | rfl
    · exact hB.file h
    · exact hR.text _
    · exact hS.file hs
    · exact hC.file hc
    · exact positive_ok hf0 hf64 _
    · exact positive_ok h0 h64 _
  refine (run_iff (L := L) (stdin := []) .runReverse (w := ["run", "reverse"]) (by simp [Cmd.names]) hf).trans ?_
  have : Cmd.runReverse.call (optItems Cmd.runReverse.usage [B, R, S, C, toString freq, toString boot]) =
    .runReverse S C (some R) none (Nat.ofDigitChars 10 (toString freq).toList 0) (Nat.ofDigitChars 10 (toString boot).toList 0) false B
      false := rfl
  rw [this, ofDigits_toString, ofDigits_toString]
  have hr : readArchive L.loadBKey (fs B) = .ok b := by simp [readArchive, h, hb]
  have hsp : readSpec (fs S) = .ok (textOf specB) := by simp [readSpec, hs]
  have key : ∀ q : Res (List Nat × List (Gsw l N)), (do
      let (pre, cs) ← q
      let b ← readArchive L.loadBKey (fs B)
      let s ← readSpec (fs S)
      let rs ← doRunReverse (L.server b) s (pre.getLastD 0) cs (some R) none freq boot false false
      pure (writeResults L fs rs, []) : Res (Files × List Char)) = q.bind fun p =>
        (doRunReverse (L.server b) (textOf specB) (p.1.getLastD 0) p.2 (some R) none freq boot false false).map
          fun rs => (writeResults L fs rs, []) := by
    intro q
    rw [hr, hsp]
    cases q with
    | error e => rfl
    | ok p => exact bind_ok_map _ _
  constructor
  · intro h; cases h with
    | runReverse hq => exact ⟨_, by rw [← hc]; exact hq, key _⟩
  · rintro ⟨q, hq, rfl⟩
    rw [← key]
    exact .runReverse (by rw [hc]; exact hq)

theorem run_block {fs : Files} {B R S C : String} (hB : Word B) (hR : Word R) (hS : Word S) (hC : Word C)
    (hb : ∀ b, L.loadBKey (L.saveBKey b) = some b) {b : L.BKey} (h : fs B = some (L.saveBKey b)) {specB file : List Byte}
    (hs : fs S = some specB) (hc : fs C = some file) {freq queue : Nat} (hf0 : 0 < freq) (hf64 : freq < 2 ^ 64) (h0 : 0 < queue)
    (h64 : queue < 2 ^ 64) {r : Res (Files × List Char)} :
    RunHomfa L [] fs ["run", "block", "--bkey", B, "--out", R, "--spec", S, "--in", C, "--out-freq", toString freq,
        "--queue-size", toString queue] r ↔
      ∃ q, Fetch .forward (some file) q ∧ r = q.bind fun p =>
        (doRunBlock (L.server b) (textOf specB) p.2 queue false).map fun c => (fs.set R (L.saveRes c), []) := by
  have hf : Cmd.runBlock.usage.Follows (fun f => (fs f).isSome) (optItems Cmd.runBlock.usage [B, R, S, C, toString freq, toString queue]) := by
    refine follows_opts rfl (by decide) rfl fun p hp => ?_
    simp only [Cmd.usage, List.zip_cons_cons, List.zip_nil_right, List.mem_cons, List.not_mem_nil, or_false] at hp
    rcases hp with rfl | rfl | rfl | rfl | rfl | rfl
    · exact hB.file h
    · exact hR.text _
    · exact hS.file hs
    · exact hC.file hc
    · exact positive_ok hf0 hf64 _
    · exact positive_ok h0 h64 _
  refine (run_iff (L := L) (stdin := []) .runBlock (w := ["run", "block"]) (by simp [Cmd.names]) hf).trans ?_
  have : Cmd.runBlock.call (optItems Cmd.runBlock.usage [B, R, S, C, toString freq, toString queue]) =
    .runBlock S C R (Nat.ofDigitChars 10 (toString queue).toList 0) B false := rfl
  rw [this, ofDigits_toString]
  have hr : readArchive L.loadBKey (fs B) = .ok b := by simp [readArchive, h, hb]
  have hsp : readSpec (fs S) = .ok (textOf specB) := by simp [readSpec, hs]
  have key : ∀ q : Res (List Nat × List (Gsw l N)), (do
      let (_, cs) ← q
      let s ← readSpec (fs S)
      let b ← readArchive L.loadBKey (fs B)
      let c ← doRunBlock (L.server b) s cs queue false
      pure (fs.set R (L.saveRes c), []) : Res (Files × List Char)) = q.bind fun p =>
        (doRunBlock (L.server b) (textOf specB) p.2 queue false).map fun c => (fs.set R (L.saveRes c), []) := by
    intro q
    rw [hr, hsp]
    cases q with
    | error e => rfl
    | ok p => exact bind_ok_map _ _
  constructor
  · intro h; cases h with
    | runBlock hq => exact ⟨_, by rw [← hc]; exact hq, key _⟩
  · rintro ⟨q, hq, rfl⟩
    rw [← key]
    exact .runBlock (by rw [hc]; exact hq)

theorem run_flut {fs : Files} {B R S C : String} (hB : Word B) (hR : Word R) (hS : Word S) (hC : Word C)
    (hb : ∀ b, L.loadBKey (L.saveBKey b) = some b) {b : L.BKey} (h : fs B = some (L.saveBKey b)) {specB file : List Byte}
    (hs : fs S = some specB) (hc : fs C = some file) {freq queue depth boot : Nat} (hf0 : 0 < freq) (hf64 : freq < 2 ^ 64)
    (hq0 : 0 < queue) (hq64 : queue < 2 ^ 64) (hd0 : 0 < depth) (hd64 : depth < 2 ^ 64) (h0 : 0 < boot)
    (h64 : boot < 2 ^ 64) {r : Res (Files × List Char)} :
    RunHomfa L [] fs ["run", "flut", "--bkey", B, "--out", R, "--spec", S, "--in", C, "--out-freq", toString freq,
        "--queue-size", toString queue, "--max-second-lut-depth", toString depth, "--bootstrapping-freq", toString boot] r ↔
      ∃ q, Fetch .forward (some file) q ∧ r = q.bind fun p =>
        (doRunFlut (L.server b) (textOf specB) (p.1.getLastD 0) p.2 (some R) none freq queue boot (some depth) false).map
          fun rs => (writeResults L fs rs, []) := by
  have hf : Cmd.runFlut.usage.Follows (fun f => (fs f).isSome)
      (optItems Cmd.runFlut.usage [B, R, S, C, toString freq, toString queue, toString depth, toString boot]) := by
    refine follows_opts rfl (by decide) rfl fun p hp => ?_
    simp only [Cmd.usage, List.zip_cons_cons, List.zip_nil_right, List.mem_cons, List.not_mem_nil, or_false] at hp
    rcases hp with rfl | rfl | rfl | rfl | rfl | rfl | rfl | rfl
    · exact hB.file h
    · exact hR.text _
    · exact hS.file hs
    · exact hC.file hc
    · exact positive_ok hf0 hf64 _
    · exact positive_ok hq0 hq64 _
    · exact positive_ok hd0 hd64 _
    · exact positive_ok h0 h64 _
  refine (run_iff (L := L) (stdin := []) .runFlut (w := ["run", "flut"]) (by simp [Cmd.names]) hf).trans ?_
  have : Cmd.runFlut.call (optItems Cmd.runFlut.usage [B, R, S, C, toString freq, toString queue, toString depth, toString boot]) =
    .runFlut S C (some R) none (Nat.ofDigitChars 10 (toString freq).toList 0) (Nat.ofDigitChars 10 (toString queue).toList 0)
      (Nat.ofDigitChars 10 (toString boot).toList 0) B (some (Nat.ofDigitChars 10 (toString depth).toList 0)) none false := rfl
  rw [this, ofDigits_toString, ofDigits_toString, ofDigits_toString, ofDigits_toString]
  have hr : readArchive L.loadBKey (fs B) = .ok b := by simp [readArchive, h, hb]
  have hsp : readSpec (fs S) = .ok (textOf specB) := by simp [readSpec, hs]
  have key : ∀ q : Res (List Nat × List (Gsw l N)), (do
      let (pre, cs) ← q
      let s ← readSpec (fs S)
      let b ← readArchive L.loadBKey (fs B)
      let _ ← (match (none : Option String) with
        | some f => (readArchive L.loadKey (fs f)).map fun _ => ()
        | none => .ok () : Res Unit)
      let rs ← doRunFlut (L.server b) s (pre.getLastD 0) cs (some R) none freq queue boot (some depth) false
      pure (writeResults L fs rs, []) : Res (Files × List Char)) = q.bind fun p =>
        (doRunFlut (L.server b) (textOf specB) (p.1.getLastD 0) p.2 (some R) none freq queue boot (some depth) false).map
          fun rs => (writeResults L fs rs, []) := by
    intro q
    rw [hr, hsp]
    cases q with
    | error e => rfl
    | ok p => exact bind_ok_map _ _
  constructor
  · intro h; cases h with
    | runFlut hq => exact ⟨_, by rw [← hc]; exact hq, key _⟩
  · rintro ⟨q, hq, rfl⟩
    rw [← key]
    exact .runFlut (by rw [hc]; exact hq)

/-! ## The sequence -/

/-- On ciphertexts of the input and a proper evaluation key, the run command `X` always writes a result that decrypts to `out`. -/
def RunRight (L : Lib N n l) (S B C R : String) (specB inB : List Byte) (ap : Nat) (out : List Char) (X : List String) : Prop :=
  ∀ q q' rand (fs' : Files) (cs : List (Gsw l N)), fs' S = some specB → fs' C = some (cs.flatMap saveGsw) →
    fs' B = some (L.saveBKey (L.newBKey q' (L.newKey q))) → (cs.flatMap saveGsw).length < 2 ^ 63 →
    doEnc (L.pair (L.newKey q) (L.newBKey q' (L.newKey q))) rand (some inB) ap = .ok (cs.flatMap saveGsw) →
    (∃ r, RunHomfa L [] fs' X r) ∧ ∀ r, RunHomfa L [] fs' X r →
      ∃ c, r = .ok (fs'.set R (L.saveRes c), []) ∧ doDec (L.pair (L.newKey q) (L.newBKey q' (L.newKey q))) c = out

/-- what `enc` writes -/
theorem enc_file {specB inB : List Byte} (hlen : 8 * inB.length * blockSize l N < 2 ^ 63) {ap : Nat} (hap : 0 < ap) {out : List Char}
    (hplain : doRunPlain (textOf specB) (some inB) ap = .ok out) (P : Scheme N n l) (rand : Nat → Nat) :
    ∃ cs : List (Gsw l N), (cs.flatMap saveGsw).length < 2 ^ 63 ∧ doEnc P rand (some inB) ap = .ok (cs.flatMap saveGsw) := by
  obtain ⟨g, rs, b, p1, p2, p3, p4, p5, p6⟩ := plain_ok hap hplain
  have hin : inB = rs.flatten := Option.some.inj p3
  obtain ⟨cs, e1, e2⟩ := enc_ok P rand hap p4
  refine ⟨cs, ?_, by rw [hin]; exact e1⟩
  rw [length_file, e2.length_eq]
  have h1 : (rs.flatMap (recordBits ap)).length ≤ 8 * inB.length := by
    rw [hin]; exact length_bits_le p4
  calc _ ≤ 8 * inB.length * blockSize l N := Nat.mul_le_mul_right _ h1
    _ < _ := hlen

theorem Names.usable {S I K B C R : String} (h : Names S I K B C R) : Usable S I K B C R := by
  obtain ⟨hw, hd⟩ := h
  simp only [List.nodup_cons, List.mem_cons, List.not_mem_nil, or_false, not_or] at hd
  obtain ⟨⟨dSI, dSK, dSB, dSC, dSR⟩, ⟨dIK, dIB, dIC, dIR⟩, ⟨dKB, dKC, dKR⟩, ⟨dBC, dBR⟩, dCR, -⟩ := hd
  refine ⟨hw, ?_, ?_, ?_, Ne.symm dKR⟩ <;>
    simp only [List.nodup_cons, List.mem_cons, List.not_mem_nil, or_false, not_or, not_false_eq_true, List.nodup_nil, and_true]
  · exact ⟨dSK, dSB, dSC⟩
  · exact ⟨dIK, dIB, dIC⟩
  · exact ⟨⟨dKB, dKC⟩, dBC⟩

/-- what the other commands do around the run -/
theorem pipeline_from (hL : L.Sound δ Enc) {S I K B C R : String} (hn : Usable S S K B C R) (wI : Word I) (hdI : I ∉ [K, B]) (fs : Files) {specB inX inB : List Byte}
    (hs : fs S = some specB) (hi : fs I = some inX) (hi' : ∀ fs' : Files, fs' I = some inX → (fs'.set C []) I = some inB) (hlen : 8 * inB.length * blockSize l N < 2 ^ 63) {ap : Nat} (hap : 0 < ap)
    (hap64 : ap < 2 ^ 64) {out : List Char} (hplain : doRunPlain (textOf specB) (some inB) ap = .ok out) (X : List String)
    (hX : RunRight L S B C R specB inB ap out X) :
    AlwaysPrints L fs [["genkey", "--out", K], ["genbkey", "--key", K, "--out", B],
      ["enc", "--ap", toString ap, "--key", K, "--in", I, "--out", C], X, ["dec", "--key", K, "--in", R]] out [K, B, C, R] := by
  obtain ⟨wS, wK, wB, wC, wR⟩ : Word S ∧ Word K ∧ Word B ∧ Word C ∧ Word R :=
    ⟨hn.words S (by simp), hn.words K (by simp), hn.words B (by simp), hn.words C (by simp), hn.words R (by simp)⟩
  obtain ⟨-, hdS, -, hdM, hdR⟩ := hn
  simp only [List.nodup_cons, List.mem_cons, List.not_mem_nil, or_false, not_or] at hdS hdI hdM
  obtain ⟨dSK, dSB, dSC⟩ := hdS
  obtain ⟨dIK, dIB⟩ := hdI
  obtain ⟨⟨dKB, dKC⟩, dBC, -⟩ := hdM
  have dKR := hdR.symm
  -- the ciphertext file
  have henc := fun q q' rand => enc_file hlen hap hplain (L.pair (L.newKey q) (L.newBKey q' (L.newKey q))) rand
  -- one step
  have step1 : ∀ q q' rand, ∀ fs1, fs1 = fs.set K (L.saveKey (L.newKey q)) → ∀ fs2, fs2 = fs1.set B (L.saveBKey (L.newBKey q' (L.newKey q))) →
      ∃ fs3 : Files, (doEnc (L.client (L.newKey q)) rand (some inB) ap).map (fun b => ((fs2.set C []).set C b, ([] : List Char))) =
        .ok (fs3, []) ∧ fs3 K = some (L.saveKey (L.newKey q)) ∧ (∀ f, f ∉ [K, B, C, R] → fs3 f = fs f) ∧
        (∃ r, RunHomfa L [] fs3 X r) ∧ ∀ r, RunHomfa L [] fs3 X r → ∃ c, r = .ok (fs3.set R (L.saveRes c), []) ∧
          doDec (L.client (L.newKey q)) c = out := by
    intro q q' rand fs1 hfs1 fs2 hfs2
    obtain ⟨cs, c1, c2⟩ := henc q q' rand
    have c2' : doEnc (L.client (L.newKey q)) rand (some inB) ap = .ok (cs.flatMap saveGsw) := c2
    refine ⟨(fs2.set C []).set C (cs.flatMap saveGsw), by rw [c2']; rfl, ?_, ?_, ?_⟩
    · rw [Files.set_other _ _ dKC, Files.set_other _ _ dKC, hfs2, Files.set_other _ _ dKB, hfs1, Files.set_same]
    · intro f hf
      simp only [List.mem_cons, List.not_mem_nil, or_false, not_or] at hf
      rw [Files.set_other _ _ hf.2.2.1, Files.set_other _ _ hf.2.2.1, hfs2, Files.set_other _ _ hf.2.1, hfs1, Files.set_other _ _ hf.1]
    · refine hX q q' rand _ cs ?_ (Files.set_same _ _ _) ?_ c1 c2
      · rw [Files.set_other _ _ dSC, Files.set_other _ _ dSC, hfs2, Files.set_other _ _ dSB, hfs1, Files.set_other _ _ dSK, hs]
      · rw [Files.set_other _ _ dBC, Files.set_other _ _ dBC, hfs2, Files.set_same]
  have k1 : ∀ q, (fs.set K (L.saveKey (L.newKey q))) K = some (L.saveKey (L.newKey q)) := fun q => Files.set_same _ _ _
  have k2 : ∀ q x, ((fs.set K (L.saveKey (L.newKey q))).set B x) K = some (L.saveKey (L.newKey q)) := fun q x => by
    rw [Files.set_other _ _ dKB, Files.set_same]
  have i2 : ∀ q x, ((fs.set K (L.saveKey (L.newKey q))).set B x) I = some inX := fun q x => by
    rw [Files.set_other _ _ dIB, Files.set_other _ _ dIK, hi]
  constructor
  · obtain ⟨fs3, s1, s2, s3, ⟨r, s4⟩, s5⟩ := step1 0 0 (fun _ => 0) _ rfl _ rfl
    obtain ⟨c, rfl, hc⟩ := s5 r s4
    have hK : (fs3.set R (L.saveRes c)) K = some (L.saveKey (L.newKey 0)) := by rw [Files.set_other _ _ dKR]; exact s2
    exact ⟨_, .next ((run_genkey wK).2 ⟨0, rfl⟩) (.next ((run_genbkey wK wB hL.key (k1 0)).2 ⟨0, rfl⟩)
      (.next ((run_enc_from wK wI wC hL.key (k2 0 _) (i2 0 _) (hi' _ (i2 0 _)) hap hap64).2 ⟨fun _ => 0, s1.symm⟩)
        (.next s4 (.next ((run_dec wK wR hL.key hL.res hK (Files.set_same _ _ _)).2 rfl) .nil))))⟩
  · intro r hr
    cases hr with
    | stop h => obtain ⟨q, h⟩ := (run_genkey wK).1 h; cases h
    | next h hr =>
    obtain ⟨q, h⟩ := (run_genkey wK).1 h
    cases h
    cases hr with
    | stop h => obtain ⟨q, h⟩ := (run_genbkey wK wB hL.key (k1 _)).1 h; cases h
    | next h hr =>
    obtain ⟨q', h⟩ := (run_genbkey wK wB hL.key (k1 _)).1 h
    cases h
    cases hr with
    | stop h =>
      obtain ⟨rand, h⟩ := (run_enc_from wK wI wC hL.key (k2 q _) (i2 q _) (hi' _ (i2 q _)) hap hap64).1 h
      obtain ⟨fs3, s1, -⟩ := step1 q q' rand _ rfl _ rfl
      rw [s1] at h; cases h
    | next h hr =>
    obtain ⟨rand, h⟩ := (run_enc_from wK wI wC hL.key (k2 q _) (i2 q _) (hi' _ (i2 q _)) hap hap64).1 h
    obtain ⟨fs3, s1, s2, s3, -, s5⟩ := step1 q q' rand _ rfl _ rfl
    rw [s1] at h
    obtain ⟨e, rfl⟩ := Prod.mk.inj (Except.ok.inj h)
    have e := e.symm
    subst e
    cases hr with
    | stop h => obtain ⟨c, h, -⟩ := s5 _ h; cases h
    | next h hr =>
    obtain ⟨c, h, hc⟩ := s5 _ h
    obtain ⟨rfl, rfl⟩ := Prod.mk.inj (Except.ok.inj h)
    have hK : (fs3.set R (L.saveRes c)) K = some (L.saveKey (L.newKey q)) := by rw [Files.set_other _ _ dKR]; exact s2
    cases hr with
    | stop h => have h := (run_dec wK wR hL.key hL.res hK (Files.set_same _ _ _)).1 h; cases h
    | next h hr =>
    have h := (run_dec wK wR hL.key hL.res hK (Files.set_same _ _ _)).1 h
    cases h
    cases hr
    refine ⟨fs3.set R (L.saveRes c), by simp [Except.map, hc], fun f hf => ?_⟩
    have hf' := hf
    simp only [List.mem_cons, List.not_mem_nil, or_false, not_or] at hf'
    rw [Files.set_other _ _ hf'.2.2.2, s3 f hf]

/-- what the other commands do around the run -/
theorem pipeline (hL : L.Sound δ Enc) {S I K B C R : String} (hn : Usable S I K B C R) (fs : Files) {specB inB : List Byte}
    (hs : fs S = some specB) (hi : fs I = some inB) (hlen : 8 * inB.length * blockSize l N < 2 ^ 63) {ap : Nat} (hap : 0 < ap)
    (hap64 : ap < 2 ^ 64) {out : List Char} (hplain : doRunPlain (textOf specB) (some inB) ap = .ok out) (X : List String)
    (hX : RunRight L S B C R specB inB ap out X) :
    AlwaysPrints L fs [["genkey", "--out", K], ["genbkey", "--key", K, "--out", B],
      ["enc", "--ap", toString ap, "--key", K, "--in", I, "--out", C], X, ["dec", "--key", K, "--in", R]] out [K, B, C, R] := by
  have hI := hn.input
  simp only [List.mem_cons, List.not_mem_nil, or_false, not_or] at hI
  refine pipeline_from hL ⟨fun f hf => hn.words f (by simp only [List.mem_cons] at hf ⊢; tauto), hn.spec, hn.spec, hn.made, hn.result⟩
    (hn.words I (by simp)) (by simp [hI.1, hI.2.1]) fs hs hi (fun fs' h => by rw [Files.set_other _ _ hI.2.2]; exact h) hlen hap hap64 hplain X hX

theorem server_same (k : L.Key) (b : L.BKey) : SameEvaluation (L.server b) (L.pair k b) := ⟨rfl, rfl, rfl, rfl, rfl⟩

/-! ## A library -/

/-- the secret key of the toy library: all ones or all zeros -/
def toyKey (N n : Nat) (k : Bool) : SecretKey N n := ⟨fun _ => if k then 1 else 0, fun _ => if k then 1 else 0⟩

/-- A library with two keys, saved in one byte.  `φ` numbers the results. -/
noncomputable def toyLib (N n l : Nat) (φ : TLWE N → Nat) : Lib N n l where
  Key := Bool
  BKey := Bool
  newKey := fun r => r % 2 == 1
  newBKey := fun _ k => k
  secret := toyKey N n
  encrypt := fun k => (toyScheme N n l (toyKey N n k)).encrypt
  cmux := fun g c1 c0 => if h : 0 < l ∧ 0 < N then (if g ⟨0, by omega⟩ 0 ⟨0, h.2⟩ == 1#64 then c1 else c0) else c0
  iks := fun k => (toyScheme N n l (toyKey N n k)).iks
  blindRotate := fun k => (toyScheme N n l (toyKey N n k)).blindRotate
  tlwe2trlwe := fun k => (toyScheme N n l (toyKey N n k)).tlwe2trlwe
  cb := fun k => (toyScheme N n l (toyKey N n k)).cb
  saveKey := fun k => if k then [1#8] else [0#8]
  loadKey := fun b => if b = [1#8] then some true else if b = [0#8] then some false else none
  saveBKey := fun k => if k then [3#8] else [2#8]
  loadBKey := fun b => if b = [3#8] then some true else if b = [2#8] then some false else none
  saveRes := fun c => List.replicate (φ c) 0#8 ++ [1#8]
  loadRes := fun b => open Classical in if h : ∃ c, List.replicate (φ c) 0#8 ++ [1#8] = b then some h.choose else none
  monitor := fun _ _ => .error .die

theorem toyLib_sound (hl : 0 < l) (hN : 0 < N) {φ : TLWE N → Nat} (hφ : Function.Injective φ) :
    (toyLib N n l φ).Sound toyNoise (fun _ => toyEnc) where
  key := fun k => by cases k <;> rfl
  bkey := fun k => by cases k <;> rfl
  res := fun c => by
    have h : ∃ c', List.replicate (φ c') 0#8 ++ [1#8] = List.replicate (φ c) 0#8 ++ [1#8] := ⟨c, rfl⟩
    simp only [toyLib]
    rw [dif_pos h]
    have := congrArg List.length h.choose_spec
    simp only [List.length_append, List.length_replicate] at this
    exact congrArg some (hφ (by omega))
  pair := fun r r' => by
    have hs := toy_sound (N := N) (n := n) (l := l) (toyKey N n (r % 2 == 1)) hl hN
    refine ⟨?_, hs.iks, hs.blindRotate_pos, hs.blindRotate_neg, hs.tlwe2trlwe, hs.cb_pos, hs.cb_neg, hs.encrypt⟩
    rintro g b c1 c0 i ⟨h, h', hb⟩
    simp only [Lib.pair, toyLib]
    rw [dif_pos ⟨h, h'⟩]
    have : (g ⟨0, by omega⟩ 0 ⟨0, h'⟩ == 1#64) = b := by rw [hb]; cases b <;> rfl
    rw [this]
    exact Near.rfl'

/-- results can be numbered -/
theorem exists_numbering (N : Nat) : ∃ φ : TLWE N → Nat, Function.Injective φ := by
  have : Function.Injective (fun c : TLWE N => (fun i => (c.a i).toNat, c.b.toNat)) := by
    rintro ⟨a, b⟩ ⟨a', b'⟩ h
    simp only [Prod.mk.injEq] at h
    obtain ⟨h1, h2⟩ := h
    have h2 := BitVec.eq_of_toNat_eq h2
    have h1 : a = a' := funext fun i => BitVec.eq_of_toNat_eq (congrFun h1 i)
    subst h1 h2
    rfl
  have : Countable (TLWE N) := this.countable
  exact exists_injective_nat _

/-- a file system with a spec and an input of three records -/
def exFiles : Files := fun f =>
  if f = "a.spec" then some (exSpec.map fun c => BitVec.ofNat 8 c.toNat)
  else if f = "in" then some [0x1f#8, 0xe1#8, 0x10#8] else none

theorem exNames : Names "a.spec" "in" "sk" "bk" "ctxt" "res" :=
  ⟨by simp [Word], by decide⟩

/-- the graph read from `a.spec` -/
theorem exSpec_size (g : Graph) (h : Graph.fromIstream (textOf (exSpec.map fun c => BitVec.ofNat 8 c.toNat)) = .ok g) : g.WF ∧ g.size = 2 := by
  have hp : doRunPlain (textOf (exSpec.map fun c => BitVec.ofNat 8 c.toNat)) (some []) 5 = .ok ['1'] := by decide +kernel
  obtain ⟨g', _, _, h1, h2, _⟩ := plain_ok (by omega) hp
  rw [h] at h1
  cases h1
  have hs : (Graph.fromIstream (textOf (exSpec.map fun c => BitVec.ofNat 8 c.toNat))).map Graph.size = .ok 2 := by decide +kernel
  rw [h] at hs
  exact ⟨h2, Except.ok.inj hs⟩

end Homfa.Cli
