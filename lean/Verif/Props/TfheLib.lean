import Verif.Spec.TfheLib
import Verif.Props.TfheAlg
import Verif.Props.Shell

/-! # C89 at the command line -/

namespace Homfa.Tfhe

open Homfa.Cli

variable {P : Params} {R : Random P} {β : Bounds} {ak : Archive (Keys P)} {ab : Archive (EvalKey P)} {ar : Archive (TLWE (2 ^ P.k))} {spot : String → Nat → Res Monitor}

/-- **C89.** TFHE is a library as the command line needs it. -/
theorem C89_lib (h : β.Always R) :
    (lib R ak ab ar spot).Sound (β.noise P) (fun (K : Keys P) g b => IsTrgsw P.G (keyOf K.s1) (β.gswNoise P) (toRows g) b) where
  key := ak.load_save
  bkey := ab.load_save
  res := ar.load_save
  pair r r' := scheme_sound (h r r')

/-- **C89, command line.** If `homfa run plain` prints `out`, then so does the sequence genkey, genbkey, enc, `run offline`, dec, when the library computes as TFHE does. -/
theorem C89_command_line (h : β.Always R) (hl : 0 < P.l) (hbs : blockSize P.l (2 ^ P.k) < 2 ^ 63) {S I K B C R' : String}
    (hn : Names S I K B C R') (fs : Files) {specB inB : List Byte} (hs : fs S = some specB) (hi : fs I = some inB)
    (hlen : 8 * inB.length * blockSize P.l (2 ^ P.k) < 2 ^ 63)
    {ap boot : Nat} (h31 : inB.length / recordBytes ap * ap < 2 ^ 31) (hap : 0 < ap) (hap64 : ap < 2 ^ 64) (hb : 0 < boot)
    (hb64 : boot < 2 ^ 64) (hbud : (β.noise P).br + boot * (β.noise P).cmux + (β.noise P).ks + (β.noise P).ms < 2 ^ 30) {fs' : Files} {out : List Char}
    (hplain : RunHomfa (lib R ak ab ar spot) [] fs ["run", "plain", "--ap", toString ap, "--spec", S, "--in", I] (.ok (fs', out))) :
    AlwaysPrints (lib R ak ab ar spot) fs [["genkey", "--out", K], ["genbkey", "--key", K, "--out", B],
      ["enc", "--ap", toString ap, "--key", K, "--in", I, "--out", C],
      ["run", "offline", "--bkey", B, "--out", R', "--spec", S, "--in", C, "--bootstrapping-freq", toString boot],
      ["dec", "--key", K, "--in", R']] out [K, B, C, R'] :=
  C61_offline (C89_lib h) (Nat.two_pow_pos _) hl hbs hn fs hs hi hlen h31 hap hap64 hb hb64 hbud hplain

/-- **C89, command line**, `run reverse` -/
theorem C89_command_line_reverse (h : β.Always R) (hl : 0 < P.l) (hbs : blockSize P.l (2 ^ P.k) < 2 ^ 63) {S I K B C R' : String}
    (hn : Names S I K B C R') (fs : Files) {specB inB : List Byte} (hs : fs S = some specB) (hi : fs I = some inB)
    (hlen : 8 * inB.length * blockSize P.l (2 ^ P.k) < 2 ^ 63) {ap freq boot : Nat} (hap : 0 < ap) (hap64 : ap < 2 ^ 64) (hf : 0 < freq)
    (hf64 : freq < 2 ^ 64) (hb : 0 < boot) (hb64 : boot < 2 ^ 64)
    (hbud : (β.noise P).br + boot * (β.noise P).cmux + (β.noise P).ks + (β.noise P).ms < 2 ^ 30) {fs' : Files} {out : List Char}
    (hplain : RunHomfa (lib R ak ab ar spot) [] fs ["run", "plain", "--ap", toString ap, "--spec", S, "--in", I] (.ok (fs', out))) :
    AlwaysPrints (lib R ak ab ar spot) fs [["genkey", "--out", K], ["genbkey", "--key", K, "--out", B],
      ["enc", "--ap", toString ap, "--key", K, "--in", I, "--out", C],
      ["run", "reverse", "--bkey", B, "--out", R', "--spec", S, "--in", C, "--out-freq", toString freq, "--bootstrapping-freq", toString boot],
      ["dec", "--key", K, "--in", R']] out [K, B, C, R'] :=
  C61_reverse (C89_lib h) (Nat.two_pow_pos _) hl hbs hn fs hs hi hlen hap hap64 hf hf64 hb hb64 hbud hplain

/-- **C89, command line**, `run block` on an input that is not empty -/
theorem C89_command_line_block (h : β.Always R) (hl : 0 < P.l) (hbs : blockSize P.l (2 ^ P.k) < 2 ^ 63) {S I K B C R' : String}
    (hn : Names S I K B C R') (fs : Files) {specB inB : List Byte} (hs : fs S = some specB) (hi : fs I = some inB) (hne : inB ≠ [])
    (hlen : 8 * inB.length * blockSize P.l (2 ^ P.k) < 2 ^ 63) {ap freq queue W : Nat} (hap : 0 < ap) (hap64 : ap < 2 ^ 64) (hf : 0 < freq)
    (hf64 : freq < 2 ^ 64) (hq : 0 < queue) (hqi : queue ≤ 2 ^ 31)
    (hW : ∀ g, Graph.fromIstream (textOf specB) = .ok g → LiveBits g W) (hWN : W < 2 ^ P.k) (hW31 : W < 31)
    (hbud : (queue + W) * (β.noise P).cmux + (β.noise P).cb < 2 ^ 29) {fs' : Files} {out : List Char}
    (hplain : RunHomfa (lib R ak ab ar spot) [] fs ["run", "plain", "--ap", toString ap, "--spec", S, "--in", I] (.ok (fs', out))) :
    AlwaysPrints (lib R ak ab ar spot) fs [["genkey", "--out", K], ["genbkey", "--key", K, "--out", B],
      ["enc", "--ap", toString ap, "--key", K, "--in", I, "--out", C],
      ["run", "block", "--bkey", B, "--out", R', "--spec", S, "--in", C, "--out-freq", toString freq, "--queue-size", toString queue],
      ["dec", "--key", K, "--in", R']] out [K, B, C, R'] :=
  C61_block (C89_lib h) (Nat.two_pow_pos _) hl hbs hn fs hs hi hne hlen hap hap64 hf hf64 hq hqi hW hWN hW31 hbud hplain

/-- **C89, command line**, `run flut` -/
theorem C89_command_line_flut (h : β.Always R) (hl : 0 < P.l) (hbs : blockSize P.l (2 ^ P.k) < 2 ^ 63) {S I K B C R' : String}
    (hn : Names S I K B C R') (fs : Files) {specB inB : List Byte} (hs : fs S = some specB) (hi : fs I = some inB)
    (hlen : 8 * inB.length * blockSize P.l (2 ^ P.k) < 2 ^ 63) {ap freq queue depth boot W : Nat} (hap : 0 < ap) (hap64 : ap < 2 ^ 64)
    (hf : 0 < freq) (hf64 : freq < 2 ^ 64) (hq : 0 < queue) (hq31 : queue < 31) (hd : 0 < depth) (hd31 : depth < 31) (hdN : 2 ^ depth ≤ 2 ^ P.k)
    (hb : 0 < boot) (hb64 : boot < 2 ^ 64) (hW : ∀ g, Graph.fromIstream (textOf specB) = .ok g → LiveMax g W) (hWd : W < 2 ^ depth)
    (hbud : W * 2 ^ (queue / 2) * flutErr (β.noise P) W queue (boot - 1) + queue * (β.noise P).cmux + (β.noise P).ks + (β.noise P).ms < 2 ^ 30)
    {fs' : Files} {out : List Char}
    (hplain : RunHomfa (lib R ak ab ar spot) [] fs ["run", "plain", "--ap", toString ap, "--spec", S, "--in", I] (.ok (fs', out))) :
    AlwaysPrints (lib R ak ab ar spot) fs [["genkey", "--out", K], ["genbkey", "--key", K, "--out", B],
      ["enc", "--ap", toString ap, "--key", K, "--in", I, "--out", C],
      ["run", "flut", "--bkey", B, "--out", R', "--spec", S, "--in", C, "--out-freq", toString freq, "--queue-size", toString queue,
        "--max-second-lut-depth", toString depth, "--bootstrapping-freq", toString boot],
      ["dec", "--key", K, "--in", R']] out [K, B, C, R'] :=
  C61_flut (C89_lib h) (Nat.two_pow_pos _) hl hbs hn fs hs hi hlen hap hap64 hf hf64 hq hq31 hd hd31 hdN hb hb64 hW hWd hbud hplain

/-! ## The hypotheses are met -/

/-- a finite type has a file format -/
theorem exists_archive (α : Type) [Finite α] : Nonempty (Archive α) := by
  obtain ⟨φ, hφ⟩ := exists_injective_nat α
  classical
  refine ⟨⟨fun x => List.replicate (φ x) 0#8, fun b => if h : ∃ x, List.replicate (φ x) 0#8 = b then some h.choose else none, fun x => ?_⟩⟩
  have h : ∃ y, List.replicate (φ y) 0#8 = List.replicate (φ x) 0#8 := ⟨x, rfl⟩
  rw [dif_pos h]
  have := congrArg List.length h.choose_spec
  simp only [List.length_replicate] at this
  exact congrArg some (hφ this)

theorem finite_torus : Finite Torus := Finite.of_injective (fun x : Torus => x.toFin) (fun x y h => by
  cases x; cases y; exact congrArg BitVec.ofFin h)

theorem finite_tlwe (n : Nat) : Finite (TLWE n) := by
  have := finite_torus
  exact Finite.of_injective (fun c : TLWE n => (c.a, c.b)) (fun x y h => by cases x; cases y; simp only [Prod.mk.injEq] at h; rw [h.1, h.2])

theorem finite_trlwe (N : Nat) : Finite (TRLWE N) := by
  have := finite_torus
  have : Finite (Poly N) := inferInstanceAs (Finite (Fin N → Torus))
  exact Finite.of_injective (fun c : TRLWE N => (c.a, c.b)) (fun x y h => by cases x; cases y; simp only [Prod.mk.injEq] at h; rw [h.1, h.2])

theorem finite_keys (P : Params) : Finite (Keys P) :=
  Finite.of_injective (fun K : Keys P => (K.s0, K.s1, K.s2)) (fun x y h => by cases x; cases y; simp only [Prod.mk.injEq] at h; rw [h.1, h.2.1, h.2.2])

theorem finite_evalKey (P : Params) : Finite (EvalKey P) := by
  have := finite_torus
  have := finite_tlwe P.n
  have := finite_trlwe (2 ^ P.k)
  have := finite_trlwe (2 ^ P.k2)
  exact Finite.of_injective (fun E : EvalKey P => (E.ik10, E.ik11, E.pk21, E.bk01, E.bk02)) (fun x y h => by
    cases x; cases y; simp only [Prod.mk.injEq] at h; rw [h.1, h.2.1, h.2.2.1, h.2.2.2.1, h.2.2.2.2])

/-- A generator of keys with dimensions 8, 2 and 32 and noises of 4 units; keys with different numbers differ. -/
def exRandom : Random (exParams 3 2 5) where
  keys r := ⟨fun i => (i.val + r) % 2 == 0, fun i => r.testBit i.val, fun i => (i.val + r) % 3 == 0⟩
  coins _ := exCoins 3 2 5 4 4
  a q r x := 0x9E3779B9#32 * BitVec.ofNat 32 (q + 53 * r.val + 1013 * x.val)
  e q r x := if (q + r.val + x.val) % 2 = 0 then 4 else -4

theorem exRandom_always : (exBounds 4 4).Always exRandom := by
  intro r r'
  have h := ex_hold (k := 3) (n := 2) (k2 := 5) (e := 4) (e' := 4) (η := 4) (η' := 4) (by decide) (by decide) (by decide) (by decide)
  exact
    { k := h.k, k2 := h.k2, half := h.half, G := h.G, G2 := h.G2, G10 := h.G10, G11 := h.G11, G21 := h.G21
      e01 := h.e01, e02 := h.e02, e10 := h.e10, e11 := h.e11, e21 := h.e21, e := h.e }

/-- The commands of the README on a small spec and input print 1 with TFHE as the library, for each of the four methods. -/
example : ∃ (ak : Archive (Keys (exParams 3 2 5))) (ab : Archive (EvalKey (exParams 3 2 5))) (ar : Archive (TLWE (2 ^ 3))), ∀ m, 0 < m → m < 40 →
    ∀ run ∈ ([["offline", "--bkey", "bk", "--out", "res", "--spec", "a.spec", "--in", "ctxt", "--bootstrapping-freq", toString m],
      ["reverse", "--bkey", "bk", "--out", "res", "--spec", "a.spec", "--in", "ctxt", "--out-freq", "7", "--bootstrapping-freq", toString m],
      ["block", "--bkey", "bk", "--out", "res", "--spec", "a.spec", "--in", "ctxt", "--out-freq", "7", "--queue-size", toString m],
      ["flut", "--bkey", "bk", "--out", "res", "--spec", "a.spec", "--in", "ctxt", "--out-freq", toString m, "--queue-size", "4",
        "--max-second-lut-depth", "3", "--bootstrapping-freq", "1"]] : List (List String)),
    AlwaysPrints (lib exRandom ak ab ar fun _ _ => .error .die) exFiles [["genkey", "--out", "sk"], ["genbkey", "--key", "sk", "--out", "bk"],
      ["enc", "--ap", "5", "--key", "sk", "--in", "in", "--out", "ctxt"], "run" :: run,
      ["dec", "--key", "sk", "--in", "res"]] ['1'] ["sk", "bk", "ctxt", "res"] := by
  have := finite_keys (exParams 3 2 5)
  have := finite_evalKey (exParams 3 2 5)
  have := finite_tlwe (2 ^ 3)
  obtain ⟨ak⟩ := exists_archive (Keys (exParams 3 2 5))
  obtain ⟨ab⟩ := exists_archive (EvalKey (exParams 3 2 5))
  obtain ⟨ar⟩ := exists_archive (TLWE (2 ^ 3))
  refine ⟨ak, ab, ar, fun m h0 h1 => ?_⟩
  have hp : RunHomfa (lib exRandom ak ab ar fun _ _ => .error .die) [] exFiles ["run", "plain", "--ap", toString 5, "--spec", "a.spec", "--in", "in"]
      (.ok (exFiles, ['1'])) := by
    refine (run_plain (specB := exSpec.map fun c => BitVec.ofNat 8 c.toNat) (inB := [0x1f#8, 0xe1#8, 0x10#8]) (by simp [Word]) (by simp [Word]) rfl rfl
      (by omega) (by omega)).2 ?_
    have : doRunPlain (textOf (exSpec.map fun c => BitVec.ofNat 8 c.toNat)) (some [0x1f#8, 0xe1#8, 0x10#8]) 5 = .ok ['1'] := by
      decide +kernel
    rw [this]
    rfl
  have hc : ((exBounds 4 4).noise (exParams 3 2 5)).br + 40 * ((exBounds 4 4).noise (exParams 3 2 5)).cmux + ((exBounds 4 4).noise (exParams 3 2 5)).ks +
      ((exBounds 4 4).noise (exParams 3 2 5)).ms < 2 ^ 30 := by decide +kernel
  have hc' : (40 + 2) * ((exBounds 4 4).noise (exParams 3 2 5)).cmux + ((exBounds 4 4).noise (exParams 3 2 5)).cb < 2 ^ 29 := by decide +kernel
  have hmul : m * ((exBounds 4 4).noise (exParams 3 2 5)).cmux ≤ 40 * ((exBounds 4 4).noise (exParams 3 2 5)).cmux := Nat.mul_le_mul_right _ (by omega)
  have hmul' : (m + 2) * ((exBounds 4 4).noise (exParams 3 2 5)).cmux ≤ (40 + 2) * ((exBounds 4 4).noise (exParams 3 2 5)).cmux :=
    Nat.mul_le_mul_right _ (by omega)
  simp only [List.forall_mem_cons]
  refine ⟨?_, ?_, ?_, ?_, fun _ h => absurd h (by simp)⟩
  · exact C89_command_line exRandom_always (by decide) (by decide +kernel) exNames exFiles (specB := exSpec.map fun c => BitVec.ofNat 8 c.toNat)
      (inB := [0x1f#8, 0xe1#8, 0x10#8]) rfl rfl (by decide +kernel) (by decide) (by omega) (by omega) h0 (by omega) (by omega) hp
  · exact C89_command_line_reverse exRandom_always (by decide) (by decide +kernel) exNames exFiles (specB := exSpec.map fun c => BitVec.ofNat 8 c.toNat)
      (inB := [0x1f#8, 0xe1#8, 0x10#8]) rfl rfl (by decide +kernel) (by omega) (by omega) (freq := 7) (by omega) (by omega) h0 (by omega) (by omega) hp
  · exact C89_command_line_block exRandom_always (by decide) (by decide +kernel) exNames exFiles (specB := exSpec.map fun c => BitVec.ofNat 8 c.toNat)
      (inB := [0x1f#8, 0xe1#8, 0x10#8]) rfl rfl (by decide) (by decide +kernel) (by omega) (by omega) (freq := 7) (by omega) (by omega) h0 (by omega)
      (W := 2) (fun g hg => liveBits_of_size (exSpec_size g hg).1 (by rw [(exSpec_size g hg).2]; decide)) (by decide) (by omega) (by omega) hp
  · exact C89_command_line_flut exRandom_always (by decide) (by decide +kernel) exNames exFiles (specB := exSpec.map fun c => BitVec.ofNat 8 c.toNat)
      (inB := [0x1f#8, 0xe1#8, 0x10#8]) rfl rfl (by decide +kernel) (by omega) (by omega) h0 (by omega) (queue := 4) (by omega) (by omega)
      (depth := 3) (by omega) (by omega) (by decide) (boot := 1) (by omega) (by omega)
      (W := 2) (fun g hg => by have := liveMax_of_size (exSpec_size g hg).1; rwa [(exSpec_size g hg).2] at this) (by omega) (by decide +kernel) hp

end Homfa.Tfhe
