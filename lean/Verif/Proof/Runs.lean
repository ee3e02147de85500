import Verif.Proof.Pipeline

/-! # Each run command writes the right result -/

namespace Homfa.Cli

variable {N n l : Nat} {L : Lib N n l} {δ : Noise} {Enc : L.Key → Gsw l N → Bool → Prop}

theorem few_bits {ap : Nat} {m k : Nat} (h : 8 * m < k) : m / recordBytes ap * ap < k := by
  refine lt_of_le_of_lt ?_ h
  have h1 : ap ≤ 8 * recordBytes ap := by unfold recordBytes; omega
  calc _ ≤ m / recordBytes ap * (8 * recordBytes ap) := Nat.mul_le_mul_left _ h1
    _ = 8 * (m / recordBytes ap * recordBytes ap) := by ring
    _ ≤ 8 * m := Nat.mul_le_mul_left _ (Nat.div_mul_le_self _ _)

theorem enc_file_31 {inB : List Byte} {ap : Nat} (h31 : inB.length / recordBytes ap * ap < 2 ^ 31) (hap : 0 < ap) {spec : List Char} {out : List Char}
    (hl : 0 < l) (hN : 0 < N) (hplain : doRunPlain spec (some inB) ap = .ok out) {P : Scheme N n l} {rand : Nat → Nat} {file : List Byte}
    (h : doEnc P rand (some inB) ap = .ok file) : file.length < 2 ^ 31 * blockSize l N := by
  obtain ⟨g, rs, b, p1, p2, p3, p4, p5, p6⟩ := plain_ok hap hplain
  have hin : inB = rs.flatten := Option.some.inj p3
  obtain ⟨cs, e1, e2⟩ := enc_ok P rand hap p4
  rw [hin, e1] at h
  cases h
  have h1 := length_bits hap p4
  rw [← hin] at h1
  have hbs0 : 0 < blockSize l N := by unfold blockSize; positivity
  rw [length_file, e2.length_eq]
  exact Nat.mul_lt_mul_of_pos_right (by omega) hbs0

/-- `run offline` on fewer than 2^31 ciphertexts -/
theorem right_offline_few (hL : L.Sound δ Enc) (hN : 0 < N) (hl : 0 < l) (hbs : blockSize l N < 2 ^ 63) {S I K B C R : String}
    (hn : Usable S I K B C R) {specB inB : List Byte}
    {ap boot : Nat} (hap : 0 < ap) (hb : 0 < boot)
    (hb64 : boot < 2 ^ 64) (hbud : δ.br + boot * δ.cmux + δ.ks + δ.ms < 2 ^ 30)
    (hfew : ∀ (P : Scheme N n l) rand file, doEnc P rand (some inB) ap = .ok file → file.length < 2 ^ 31 * blockSize l N)
    {out : List Char} (hplain : doRunPlain (textOf specB) (some inB) ap = .ok out) :
    RunRight L S B C R specB inB ap out
      ["run", "offline", "--bkey", B, "--out", R, "--spec", S, "--in", C, "--bootstrapping-freq", toString boot] := by
  have wS := hn.words S (by simp)
  have hbs0 : 0 < blockSize l N := by unfold blockSize; positivity
  intro q q' rand fs' cs h1 h2 h3 h4 h5
  obtain ⟨file, e1, e2⟩ := C36_offline (hL.pair q q') hN hl hbs rand _ (some inB) ap hap boot hb hbud out hplain
  rw [h5] at e1
  cases e1
  obtain ⟨-, e3⟩ := e2 h4
  replace e3 := e3 (hfew _ _ _ h5)
  obtain ⟨⟨pre, f1⟩, f2⟩ := fetch_reversed hbs0 hbs h4
  have hrun := fun r => run_offline (L := L) (r := r) (hn.words B (by simp)) (hn.words R (by simp)) wS (hn.words C (by simp)) hL.bkey h3 h1
    h2 hb hb64
  refine ⟨⟨_, (hrun _).2 ⟨_, f1, rfl⟩⟩, fun r hr => ?_⟩
  obtain ⟨q2, hq2, rfl⟩ := (hrun r).1 hr
  obtain ⟨pre, hrd, rfl⟩ := f2 q2 hq2
  obtain ⟨c, hc1, hc2⟩ := e3 pre _ hrd
  refine ⟨c, ?_, hc2⟩
  rw [← C60_offline (server_same (L.newKey q) _)] at hc1
  show (doRunOffline _ _ _ _ _ _).map _ = _
  rw [hc1]
  rfl

theorem right_offline (hL : L.Sound δ Enc) (hN : 0 < N) (hl : 0 < l) (hbs : blockSize l N < 2 ^ 63) {S I K B C R : String}
    (hn : Usable S I K B C R) {specB inB : List Byte}
    {ap boot : Nat} (hap : 0 < ap) (hb : 0 < boot)
    (hb64 : boot < 2 ^ 64) (hbud : δ.br + boot * δ.cmux + δ.ks + δ.ms < 2 ^ 30) (h31 : inB.length / recordBytes ap * ap < 2 ^ 31)
    {out : List Char} (hplain : doRunPlain (textOf specB) (some inB) ap = .ok out) :
    RunRight L S B C R specB inB ap out
      ["run", "offline", "--bkey", B, "--out", R, "--spec", S, "--in", C, "--bootstrapping-freq", toString boot] :=
  right_offline_few hL hN hl hbs hn hap hb hb64 hbud (fun _ _ _ => enc_file_31 h31 hap hl hN hplain) hplain

theorem right_reverse (hL : L.Sound δ Enc) (hN : 0 < N) (hl : 0 < l) (hbs : blockSize l N < 2 ^ 63) {S I K B C R : String}
    (hn : Usable S I K B C R) {specB inB : List Byte}
    {ap freq boot : Nat} (hap : 0 < ap) (hf : 0 < freq)
    (hf64 : freq < 2 ^ 64) (hb : 0 < boot) (hb64 : boot < 2 ^ 64) (hbud : δ.br + boot * δ.cmux + δ.ks + δ.ms < 2 ^ 30)
    {out : List Char} (hplain : doRunPlain (textOf specB) (some inB) ap = .ok out) :
    RunRight L S B C R specB inB ap out
      ["run", "reverse", "--bkey", B, "--out", R, "--spec", S, "--in", C, "--out-freq", toString freq,
        "--bootstrapping-freq", toString boot] := by
  have wS := hn.words S (by simp)
  have hbs0 : 0 < blockSize l N := by unfold blockSize; positivity
  intro q q' rand fs' cs h1 h2 h3 h4 h5
  obtain ⟨file, e1, e2⟩ := C37_reverse (hL.pair q q') hN hl hbs rand _ (some inB) ap hap boot hb hbud out hplain R freq false
  rw [h5] at e1
  cases e1
  obtain ⟨-, e3⟩ := e2 h4
  obtain ⟨⟨pre, -, f1⟩, f2⟩ := fetch_forward hbs0 hbs h4
  have hrun := fun r => run_reverse (L := L) (r := r) (hn.words B (by simp)) (hn.words R (by simp)) wS (hn.words C (by simp)) hL.bkey h3 h1
    h2 hf hf64 hb hb64
  refine ⟨⟨_, (hrun _).2 ⟨_, f1, rfl⟩⟩, fun r hr => ?_⟩
  obtain ⟨q2, hq2, rfl⟩ := (hrun r).1 hr
  obtain ⟨pre, hrd, rfl⟩ := f2 q2 hq2
  obtain ⟨c, hc1, hc2, -⟩ := e3 pre _ hrd
  refine ⟨c, ?_, hc2 rfl⟩
  rw [← C60_reverse (server_same (L.newKey q) _)] at hc1
  show (doRunReverse _ _ _ _ _ _ _ _ _ _).map _ = _
  rw [hc1]
  rfl

theorem right_block (hL : L.Sound δ Enc) (hN : 0 < N) (hl : 0 < l) (hbs : blockSize l N < 2 ^ 63) {S I K B C R : String}
    (hn : Usable S I K B C R) {specB inB : List Byte} (hne : inB ≠ [])
    {ap freq queue W : Nat} (hap : 0 < ap) (hf : 0 < freq)
    (hf64 : freq < 2 ^ 64) (hq : 0 < queue) (hqi : queue ≤ 2 ^ 31)
    (hW : ∀ g, Graph.fromIstream (textOf specB) = .ok g → LiveBits g W) (hWN : W < N) (hW31 : W < 31)
    (hbud : (queue + W) * δ.cmux + δ.cb < 2 ^ 29)
    {out : List Char} (hplain : doRunPlain (textOf specB) (some inB) ap = .ok out) :
    RunRight L S B C R specB inB ap out
      ["run", "block", "--bkey", B, "--out", R, "--spec", S, "--in", C, "--out-freq", toString freq, "--queue-size", toString queue] := by
  have wS := hn.words S (by simp)
  have hbs0 : 0 < blockSize l N := by unfold blockSize; positivity
  intro q q' rand fs' cs h1 h2 h3 h4 h5
  obtain ⟨file, e1, e2⟩ := C38_block (hL.pair q q') hN hl hbs rand _ (some inB) ap hap queue W hW hWN hW31
    (by rwa [Nat.max_eq_right hq]) hqi out hplain
  rw [h5] at e1
  cases e1
  obtain ⟨-, e3⟩ := e2 h4
  obtain ⟨⟨pre, -, f1⟩, f2⟩ := fetch_forward hbs0 hbs h4
  have hrun := fun r => run_block (L := L) (r := r) (hn.words B (by simp)) (hn.words R (by simp)) wS (hn.words C (by simp)) hL.bkey h3 h1
    h2 hf hf64 hq (by omega)
  refine ⟨⟨_, (hrun _).2 ⟨_, f1, rfl⟩⟩, fun r hr => ?_⟩
  obtain ⟨q2, hq2, rfl⟩ := (hrun r).1 hr
  obtain ⟨pre, hrd, rfl⟩ := f2 q2 hq2
  obtain ⟨c, hc1, hc2⟩ := (e3 pre _ hrd).1 (by simpa using hne)
  refine ⟨c, ?_, hc2⟩
  rw [← C60_block (server_same (L.newKey q) _)] at hc1
  show (doRunBlock _ _ _ _ _).map _ = _
  rw [hc1]
  rfl

theorem right_flut (hL : L.Sound δ Enc) (hN : 0 < N) (hl : 0 < l) (hbs : blockSize l N < 2 ^ 63) {S I K B C R : String}
    (hn : Usable S I K B C R) {specB inB : List Byte}
    {ap freq queue depth boot W : Nat} (hap : 0 < ap) (hf : 0 < freq)
    (hf64 : freq < 2 ^ 64) (hq : 0 < queue) (hq31 : queue < 31) (hd : 0 < depth) (hd31 : depth < 31) (hdN : 2 ^ depth ≤ N) (hb : 0 < boot)
    (hb64 : boot < 2 ^ 64) (hW : ∀ g, Graph.fromIstream (textOf specB) = .ok g → LiveMax g W) (hWd : W < 2 ^ depth)
    (hbud : W * 2 ^ (queue / 2) * flutErr δ W queue (boot - 1) + queue * δ.cmux + δ.ks + δ.ms < 2 ^ 30)
    {out : List Char} (hplain : doRunPlain (textOf specB) (some inB) ap = .ok out) :
    RunRight L S B C R specB inB ap out
      ["run", "flut", "--bkey", B, "--out", R, "--spec", S, "--in", C, "--out-freq", toString freq, "--queue-size", toString queue,
        "--max-second-lut-depth", toString depth, "--bootstrapping-freq", toString boot] := by
  have wS := hn.words S (by simp)
  have hbs0 : 0 < blockSize l N := by unfold blockSize; positivity
  intro q q' rand fs' cs h1 h2 h3 h4 h5
  obtain ⟨file, e1, e2⟩ := C39_flut (hL.pair q q') hN hl hbs rand _ (some inB) ap hap (some depth) queue boot W hW hq hq31 hd31 hdN hb hbud
    out hplain R freq
  rw [h5] at e1
  cases e1
  obtain ⟨-, e3⟩ := e2 h4
  obtain ⟨⟨pre, -, f1⟩, f2⟩ := fetch_forward hbs0 hbs h4
  have hrun := fun r => run_flut (L := L) (r := r) (hn.words B (by simp)) (hn.words R (by simp)) wS (hn.words C (by simp)) hL.bkey h3 h1
    h2 hf hf64 hq (by omega) hd (by omega) hb hb64
  refine ⟨⟨_, (hrun _).2 ⟨_, f1, rfl⟩⟩, fun r hr => ?_⟩
  obtain ⟨q2, hq2, rfl⟩ := (hrun r).1 hr
  obtain ⟨pre, hrd, rfl⟩ := f2 q2 hq2
  obtain ⟨nd, hc⟩ := e3 pre _ hrd
  obtain ⟨c, hc1, hc2⟩ := hc.resolve_left (nd hWd)
  refine ⟨c, ?_, hc2⟩
  rw [← C60_flut (server_same (L.newKey q) _)] at hc1
  show (doRunFlut _ _ _ _ _ _ _ _ _ _ _).map _ = _
  rw [hc1]
  rfl

end Homfa.Cli
