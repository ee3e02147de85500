import Verif.Proof.Pieces
import Verif.Proof.Runs

/-!
# C92: an input that arrives in pieces

The client has the keys made once.  For each piece of the input it runs `homfa enc` and appends the ciphertexts to the file the server has
already (`cat new >> all`).  Whenever it likes, it has the server run one of the `homfa run` commands on that file and decrypts the result.
What is printed is what `homfa run plain` prints for the whole input up to there: neither the places where the input was cut nor how often a
verdict was asked for make a difference.
-/

namespace Homfa.Cli

variable {N n l : Nat} {L : Lib N n l} {δ : Noise} {Enc : L.Key → Gsw l N → Bool → Prop}

theorem PieceNames.usable {S K B T C R : String} {ps : List Piece} (hn : PieceNames S K B T C R ps) : Usable S S K B C R := by
  have hd := hn.distinct
  simp only [List.nodup_cons, List.mem_cons, List.not_mem_nil, or_false, not_or] at hd
  obtain ⟨⟨dSK, dSB, dST, dSC, dSR⟩, ⟨dKB, dKT, dKC, dKR⟩, ⟨dBT, dBC, dBR⟩, ⟨dTC, dTR⟩, dCR, -⟩ := hd
  have hs : S ∉ [K, B, C] := by simp [dSK, dSB, dSC]
  refine ⟨fun f hf => hn.words f ?_, hs, hs, by simp [dKB, dKC, dBC], Ne.symm dKR⟩
  simp only [List.mem_cons, List.not_mem_nil, or_false] at hf ⊢
  tauto

/-- **C92.** For every way of cutting the input into pieces of whole records and every choice of the moments at which a verdict is asked for:
the session prints, one after the other, what `homfa run plain` prints for the input up to each of them. -/
theorem C92_offline (hL : L.Sound δ Enc) (hN : 0 < N) (hl : 0 < l) (hbs : blockSize l N < 2 ^ 63) {S K B T C R : String} {ps : List Piece}
    (hn : PieceNames S K B T C R ps) (fs : Files) {specB : List Byte} (hs : fs S = some specB) (hp : ∀ p ∈ ps, fs p.file = some p.bytes)
    (hC : (fs C).getD [] = []) (hlen : 8 * (ps.flatMap (·.bytes)).length * blockSize l N < 2 ^ 63)
    {ap boot : Nat} (h31 : (ps.flatMap (·.bytes)).length / recordBytes ap * ap < 2 ^ 31) (hap : 0 < ap)
    (hap64 : ap < 2 ^ 64) (hw : ∀ p ∈ ps, recordBytes ap ∣ p.bytes.length) (hb : 0 < boot) (hb64 : boot < 2 ^ 64)
    (hbud : δ.br + boot * δ.cmux + δ.ks + δ.ms < 2 ^ 30) {out : List Char} (hv : Verdicts L specB ap [] ps out) :
    SessionPrints L fs (piecesSession ps ap K B T C R
      ["run", "offline", "--bkey", B, "--out", R, "--spec", S, "--in", C, "--bootstrapping-freq", toString boot]) out [K, B, T, C, R] :=
  pieces_session hL hap hap64 hlen (fun _ => True) (fun _ _ hle _ h => right_offline hL hN hl hbs hn.usable hap hb hb64 hbud (lt_of_le_of_lt (Nat.mul_le_mul_right _ (Nat.div_le_div_right hle)) h31) h) hn fs hs hp hw
    (fun _ _ _ => trivial) hC hv

/-- **C92**, `run reverse` -/
theorem C92_reverse (hL : L.Sound δ Enc) (hN : 0 < N) (hl : 0 < l) (hbs : blockSize l N < 2 ^ 63) {S K B T C R : String} {ps : List Piece}
    (hn : PieceNames S K B T C R ps) (fs : Files) {specB : List Byte} (hs : fs S = some specB) (hp : ∀ p ∈ ps, fs p.file = some p.bytes)
    (hC : (fs C).getD [] = []) (hlen : 8 * (ps.flatMap (·.bytes)).length * blockSize l N < 2 ^ 63) {ap freq boot : Nat} (hap : 0 < ap)
    (hap64 : ap < 2 ^ 64) (hw : ∀ p ∈ ps, recordBytes ap ∣ p.bytes.length) (hf : 0 < freq) (hf64 : freq < 2 ^ 64) (hb : 0 < boot)
    (hb64 : boot < 2 ^ 64) (hbud : δ.br + boot * δ.cmux + δ.ks + δ.ms < 2 ^ 30) {out : List Char} (hv : Verdicts L specB ap [] ps out) :
    SessionPrints L fs (piecesSession ps ap K B T C R
      ["run", "reverse", "--bkey", B, "--out", R, "--spec", S, "--in", C, "--out-freq", toString freq,
        "--bootstrapping-freq", toString boot]) out [K, B, T, C, R] :=
  pieces_session hL hap hap64 hlen (fun _ => True) (fun _ _ _ _ h => right_reverse hL hN hl hbs hn.usable hap hf hf64 hb hb64 hbud h) hn fs hs hp hw
    (fun _ _ _ => trivial) hC hv

/-- **C92**, `run block`: for pieces that are not empty -/
theorem C92_block (hL : L.Sound δ Enc) (hN : 0 < N) (hl : 0 < l) (hbs : blockSize l N < 2 ^ 63) {S K B T C R : String} {ps : List Piece}
    (hn : PieceNames S K B T C R ps) (fs : Files) {specB : List Byte} (hs : fs S = some specB) (hp : ∀ p ∈ ps, fs p.file = some p.bytes)
    (hne : ∀ p ∈ ps, p.bytes ≠ []) (hC : (fs C).getD [] = []) (hlen : 8 * (ps.flatMap (·.bytes)).length * blockSize l N < 2 ^ 63)
    {ap freq queue W : Nat} (hap : 0 < ap) (hap64 : ap < 2 ^ 64) (hw : ∀ p ∈ ps, recordBytes ap ∣ p.bytes.length) (hf : 0 < freq)
    (hf64 : freq < 2 ^ 64) (hq : 0 < queue) (hqi : queue ≤ 2 ^ 31)
    (hW : ∀ g, Graph.fromIstream (textOf specB) = .ok g → LiveBits g W) (hWN : W < N) (hW31 : W < 31)
    (hbud : (queue + W) * δ.cmux + δ.cb < 2 ^ 29) {out : List Char} (hv : Verdicts L specB ap [] ps out) :
    SessionPrints L fs (piecesSession ps ap K B T C R
      ["run", "block", "--bkey", B, "--out", R, "--spec", S, "--in", C, "--out-freq", toString freq, "--queue-size", toString queue])
      out [K, B, T, C, R] :=
  pieces_session hL hap hap64 hlen (fun w => w ≠ []) (fun _ _ _ hw h => right_block hL hN hl hbs hn.usable hw hap hf hf64 hq hqi hW hWN hW31 hbud h)
    hn fs hs hp hw (fun p h _ => by simp [hne p h]) hC hv

/-- **C92**, `run flut` -/
theorem C92_flut (hL : L.Sound δ Enc) (hN : 0 < N) (hl : 0 < l) (hbs : blockSize l N < 2 ^ 63) {S K B T C R : String} {ps : List Piece}
    (hn : PieceNames S K B T C R ps) (fs : Files) {specB : List Byte} (hs : fs S = some specB) (hp : ∀ p ∈ ps, fs p.file = some p.bytes)
    (hC : (fs C).getD [] = []) (hlen : 8 * (ps.flatMap (·.bytes)).length * blockSize l N < 2 ^ 63)
    {ap freq queue depth boot W : Nat} (hap : 0 < ap) (hap64 : ap < 2 ^ 64) (hw : ∀ p ∈ ps, recordBytes ap ∣ p.bytes.length) (hf : 0 < freq)
    (hf64 : freq < 2 ^ 64) (hq : 0 < queue) (hq31 : queue < 31) (hd : 0 < depth) (hd31 : depth < 31) (hdN : 2 ^ depth ≤ N) (hb : 0 < boot)
    (hb64 : boot < 2 ^ 64) (hW : ∀ g, Graph.fromIstream (textOf specB) = .ok g → LiveMax g W) (hWd : W < 2 ^ depth)
    (hbud : W * 2 ^ (queue / 2) * flutErr δ W queue (boot - 1) + queue * δ.cmux + δ.ks + δ.ms < 2 ^ 30) {out : List Char}
    (hv : Verdicts L specB ap [] ps out) :
    SessionPrints L fs (piecesSession ps ap K B T C R
      ["run", "flut", "--bkey", B, "--out", R, "--spec", S, "--in", C, "--out-freq", toString freq, "--queue-size", toString queue,
        "--max-second-lut-depth", toString depth, "--bootstrapping-freq", toString boot]) out [K, B, T, C, R] :=
  pieces_session hL hap hap64 hlen (fun _ => True)
    (fun _ _ _ _ h => right_flut hL hN hl hbs hn.usable hap hf hf64 hq hq31 hd hd31 hdN hb hb64 hW hWd hbud h) hn fs hs hp hw
    (fun _ _ _ => trivial) hC hv

/-! ## The hypotheses are met -/

/-- the three bytes of `exFiles`' input, one by one -/
def exPieces : List Piece := [⟨"in1", [0x1f#8], false⟩, ⟨"in2", [0xe1#8], true⟩, ⟨"in3", [0x10#8], true⟩]

/-- the spec and the pieces -/
def exPieceFiles : Files := fun f =>
  if f = "a.spec" then some (exSpec.map fun c => BitVec.ofNat 8 c.toNat)
  else if f = "in1" then some [0x1f#8] else if f = "in2" then some [0xe1#8] else if f = "in3" then some [0x10#8] else none

theorem exPieces_names : PieceNames "a.spec" "sk" "bk" "new" "all" "res" exPieces := by
  refine ⟨fun f hf => ?_, by decide, fun p hp => ?_, by decide⟩
  · simp only [List.mem_cons, List.not_mem_nil, or_false] at hf
    rcases hf with rfl | rfl | rfl | rfl | rfl | rfl <;> simp [Word]
  · simp only [exPieces, List.mem_cons, List.not_mem_nil, or_false] at hp
    rcases hp with rfl | rfl | rfl <;> simp [Word]

/-- what `run plain` prints for the first two pieces and for all of them -/
theorem exPieces_verdicts {N n l : Nat} (L : Lib N n l) : Verdicts L (exSpec.map fun c => BitVec.ofNat 8 c.toNat) 5 [] exPieces ['0', '1'] :=
  .skip rfl (.ask (o := ['0']) rfl ((plainPrints_iff (by omega) (by omega)).2 (by decide +kernel)) (.ask (o := ['1']) (out := []) rfl
    ((plainPrints_iff (by omega) (by omega)).2 (by decide +kernel)) .nil))

/-- Three pieces, with a verdict asked for after the second and after the last: the session prints the two verdicts, by each of the methods. -/
example : ∃ L : Lib 16 2 1, (L.newKey 0 ≠ L.newKey 1) ∧ (∀ boot, 0 < boot → boot < 1000 →
    SessionPrints L exPieceFiles (piecesSession exPieces 5 "sk" "bk" "new" "all" "res"
      ["run", "offline", "--bkey", "bk", "--out", "res", "--spec", "a.spec", "--in", "all", "--bootstrapping-freq", toString boot])
      ['0', '1'] ["sk", "bk", "new", "all", "res"] ∧
    SessionPrints L exPieceFiles (piecesSession exPieces 5 "sk" "bk" "new" "all" "res"
      ["run", "reverse", "--bkey", "bk", "--out", "res", "--spec", "a.spec", "--in", "all", "--out-freq", toString 7,
        "--bootstrapping-freq", toString boot]) ['0', '1'] ["sk", "bk", "new", "all", "res"] ∧
    SessionPrints L exPieceFiles (piecesSession exPieces 5 "sk" "bk" "new" "all" "res"
      ["run", "block", "--bkey", "bk", "--out", "res", "--spec", "a.spec", "--in", "all", "--out-freq", toString 7, "--queue-size", toString boot])
      ['0', '1'] ["sk", "bk", "new", "all", "res"]) ∧
    SessionPrints L exPieceFiles (piecesSession exPieces 5 "sk" "bk" "new" "all" "res"
      ["run", "flut", "--bkey", "bk", "--out", "res", "--spec", "a.spec", "--in", "all", "--out-freq", toString 7, "--queue-size", toString 4,
        "--max-second-lut-depth", toString 3, "--bootstrapping-freq", toString 3]) ['0', '1'] ["sk", "bk", "new", "all", "res"] := by
  obtain ⟨φ, hφ⟩ := exists_numbering 16
  have hL := toyLib_sound (n := 2) (l := 1) (by omega) (by omega) hφ
  refine ⟨toyLib 16 2 1 φ, by simp [toyLib], fun boot h0 h1 => ⟨?_, ?_, ?_⟩, ?_⟩
  · exact C92_offline hL (by omega) (by omega) (by decide) exPieces_names exPieceFiles (specB := exSpec.map fun c => BitVec.ofNat 8 c.toNat)
      rfl (by decide) rfl (by decide) (by decide) (by omega) (by omega) (by decide) h0 (by omega) (by simp only [toyNoise]; omega) (exPieces_verdicts _)
  · exact C92_reverse hL (by omega) (by omega) (by decide) exPieces_names exPieceFiles (specB := exSpec.map fun c => BitVec.ofNat 8 c.toNat)
      rfl (by decide) rfl (by decide) (by omega) (by omega) (by decide) (by omega) (by omega) h0 (by omega) (by simp only [toyNoise]; omega)
      (exPieces_verdicts _)
  · exact C92_block hL (by omega) (by omega) (by decide) exPieces_names exPieceFiles (specB := exSpec.map fun c => BitVec.ofNat 8 c.toNat)
      rfl (by decide) (by decide) rfl (by decide) (by omega) (by omega) (by decide) (by omega) (by omega) h0 (by omega) (W := 2)
      (fun g hg => liveBits_of_size (exSpec_size g hg).1 (by rw [(exSpec_size g hg).2]; decide)) (by omega) (by omega)
      (by simp only [toyNoise]; omega) (exPieces_verdicts _)
  · exact C92_flut hL (by omega) (by omega) (by decide) exPieces_names exPieceFiles (specB := exSpec.map fun c => BitVec.ofNat 8 c.toNat)
      rfl (by decide) rfl (by decide) (by omega) (by omega) (by decide) (by omega) (by omega) (by omega) (by omega) (by omega) (by omega)
      (by decide) (by omega) (by omega) (W := 2)
      (fun g hg => by have := liveMax_of_size (exSpec_size g hg).1; rwa [(exSpec_size g hg).2] at this) (by omega) (by decide)
      (exPieces_verdicts _)

end Homfa.Cli
