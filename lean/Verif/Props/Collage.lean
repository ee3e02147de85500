import Verif.Proof.Collage

/-!
# C112: ciphertexts carry no place

Nothing ties a ciphertext to its place in a file, to the file it came in or to the run of `enc` that made it.  Any file put together from
ciphertexts made with one key - in another order, some left out, some repeated, some from other inputs - is a file that `enc` could have written
for the bits in that arrangement, and the methods give the verdict on that arrangement.
-/

namespace Homfa.Cli

variable {N n l : Nat} {L : Lib N n l} {δ : Noise} {Enc : L.Key → Gsw l N → Bool → Prop}

/-- **C112.** What is put together from ciphertexts made with one key is what some run of `enc` with that key writes for their bits. -/
theorem C112_enc (hk : ∀ k, L.loadKey (L.saveKey k) = some k) {k : L.Key} {parts : List (List Byte × Bool)}
    (hp : ∀ p ∈ parts, Encrypted L (L.saveKey k) p.1 p.2) {fs : Files} {K J C : String} (wK : Word K) (wJ : Word J) (wC : Word C) (hne : J ≠ C)
    (hfk : fs K = some (L.saveKey k)) (hfj : fs J = some (bitBytes (parts.map (·.2)))) :
    ∃ fs1, RunHomfa L [] fs ["enc", "--ap", toString 1, "--key", K, "--in", J, "--out", C] (.ok (fs1, [])) ∧ fs1 C = some (parts.flatMap (·.1)) := by
  obtain ⟨rand, h⟩ := collage_enc hk hp
  exact ⟨_, (run_enc wK wJ wC hk hfk hfj hne (by decide) (by decide)).2 ⟨rand, by rw [h]; rfl⟩, Files.set_same _ _ _⟩

/-- **C112**, `run offline`: the verdict is that on the bits in the arrangement of the file, for fewer than 2^31 of them. -/
theorem C112_offline (hL : L.Sound δ Enc) (hN : 0 < N) (hl : 0 < l) (hbs : blockSize l N < 2 ^ 63) {q q' : Nat} {S K B C R : String}
    (hn : Usable S S K B C R) {fs : Files} {specB : List Byte} (hs : fs S = some specB) (hk : fs K = some (L.saveKey (L.newKey q)))
    (hb : fs B = some (L.saveBKey (L.newBKey q' (L.newKey q)))) {parts : List (List Byte × Bool)}
    (hp : ∀ p ∈ parts, Encrypted L (L.saveKey (L.newKey q)) p.1 p.2) (hc : fs C = some (parts.flatMap (·.1)))
    (hlen : parts.length * blockSize l N < 2 ^ 63) (h31 : parts.length < 2 ^ 31) {boot : Nat} (h0 : 0 < boot) (h64 : boot < 2 ^ 64)
    (hbud : δ.br + boot * δ.cmux + δ.ks + δ.ms < 2 ^ 30) {out : List Char} (hplain : PlainPrints L specB (bitBytes (parts.map (·.2))) 1 out) :
    AlwaysPrints L fs [["run", "offline", "--bkey", B, "--out", R, "--spec", S, "--in", C, "--bootstrapping-freq", toString boot],
      ["dec", "--key", K, "--in", R]] out [R] :=
  collage_run hL hl hN hn hs hk hb hp hc hlen (right_offline_few hL hN hl hbs hn (by decide) h0 h64 hbud (fun _ _ _ => enc_bitBytes_31 hl hN (by simpa using h31))
    ((plainPrints_iff (by decide) (by decide)).1 hplain))

/-- **C112**, `run reverse` -/
theorem C112_reverse (hL : L.Sound δ Enc) (hN : 0 < N) (hl : 0 < l) (hbs : blockSize l N < 2 ^ 63) {q q' : Nat} {S K B C R : String}
    (hn : Usable S S K B C R) {fs : Files} {specB : List Byte} (hs : fs S = some specB) (hk : fs K = some (L.saveKey (L.newKey q)))
    (hb : fs B = some (L.saveBKey (L.newBKey q' (L.newKey q)))) {parts : List (List Byte × Bool)}
    (hp : ∀ p ∈ parts, Encrypted L (L.saveKey (L.newKey q)) p.1 p.2) (hc : fs C = some (parts.flatMap (·.1)))
    (hlen : parts.length * blockSize l N < 2 ^ 63) {freq boot : Nat} (hf : 0 < freq) (hf64 : freq < 2 ^ 64) (h0 : 0 < boot) (h64 : boot < 2 ^ 64)
    (hbud : δ.br + boot * δ.cmux + δ.ks + δ.ms < 2 ^ 30) {out : List Char} (hplain : PlainPrints L specB (bitBytes (parts.map (·.2))) 1 out) :
    AlwaysPrints L fs [["run", "reverse", "--bkey", B, "--out", R, "--spec", S, "--in", C, "--out-freq", toString freq,
      "--bootstrapping-freq", toString boot], ["dec", "--key", K, "--in", R]] out [R] :=
  collage_run hL hl hN hn hs hk hb hp hc hlen (right_reverse hL hN hl hbs hn (by decide) hf hf64 h0 h64 hbud
    ((plainPrints_iff (by decide) (by decide)).1 hplain))

/-- **C112**, `run block`, for at least one ciphertext -/
theorem C112_block (hL : L.Sound δ Enc) (hN : 0 < N) (hl : 0 < l) (hbs : blockSize l N < 2 ^ 63) {q q' : Nat} {S K B C R : String}
    (hn : Usable S S K B C R) {fs : Files} {specB : List Byte} (hs : fs S = some specB) (hk : fs K = some (L.saveKey (L.newKey q)))
    (hb : fs B = some (L.saveBKey (L.newBKey q' (L.newKey q)))) {parts : List (List Byte × Bool)} (hne : parts ≠ [])
    (hp : ∀ p ∈ parts, Encrypted L (L.saveKey (L.newKey q)) p.1 p.2) (hc : fs C = some (parts.flatMap (·.1)))
    (hlen : parts.length * blockSize l N < 2 ^ 63) {freq queue W : Nat} (hf : 0 < freq) (hf64 : freq < 2 ^ 64) (hq : 0 < queue) (hqi : queue ≤ 2 ^ 31)
    (hW : ∀ g, Graph.fromIstream (textOf specB) = .ok g → LiveBits g W) (hWN : W < N) (hW31 : W < 31) (hbud : (queue + W) * δ.cmux + δ.cb < 2 ^ 29)
    {out : List Char} (hplain : PlainPrints L specB (bitBytes (parts.map (·.2))) 1 out) :
    AlwaysPrints L fs [["run", "block", "--bkey", B, "--out", R, "--spec", S, "--in", C, "--out-freq", toString freq,
      "--queue-size", toString queue], ["dec", "--key", K, "--in", R]] out [R] :=
  collage_run hL hl hN hn hs hk hb hp hc hlen (right_block hL hN hl hbs hn (by simpa [bitBytes] using hne) (by decide) hf hf64 hq hqi hW hWN hW31 hbud
    ((plainPrints_iff (by decide) (by decide)).1 hplain))

/-- **C112**, `run flut` -/
theorem C112_flut (hL : L.Sound δ Enc) (hN : 0 < N) (hl : 0 < l) (hbs : blockSize l N < 2 ^ 63) {q q' : Nat} {S K B C R : String}
    (hn : Usable S S K B C R) {fs : Files} {specB : List Byte} (hs : fs S = some specB) (hk : fs K = some (L.saveKey (L.newKey q)))
    (hb : fs B = some (L.saveBKey (L.newBKey q' (L.newKey q)))) {parts : List (List Byte × Bool)}
    (hp : ∀ p ∈ parts, Encrypted L (L.saveKey (L.newKey q)) p.1 p.2) (hc : fs C = some (parts.flatMap (·.1)))
    (hlen : parts.length * blockSize l N < 2 ^ 63) {freq queue depth boot W : Nat} (hf : 0 < freq) (hf64 : freq < 2 ^ 64) (hq : 0 < queue)
    (hq31 : queue < 31) (hd : 0 < depth) (hd31 : depth < 31) (hdN : 2 ^ depth ≤ N) (h0 : 0 < boot) (h64 : boot < 2 ^ 64)
    (hW : ∀ g, Graph.fromIstream (textOf specB) = .ok g → LiveMax g W) (hWd : W < 2 ^ depth)
    (hbud : W * 2 ^ (queue / 2) * flutErr δ W queue (boot - 1) + queue * δ.cmux + δ.ks + δ.ms < 2 ^ 30)
    {out : List Char} (hplain : PlainPrints L specB (bitBytes (parts.map (·.2))) 1 out) :
    AlwaysPrints L fs [["run", "flut", "--bkey", B, "--out", R, "--spec", S, "--in", C, "--out-freq", toString freq, "--queue-size", toString queue,
      "--max-second-lut-depth", toString depth, "--bootstrapping-freq", toString boot], ["dec", "--key", K, "--in", R]] out [R] :=
  collage_run hL hl hN hn hs hk hb hp hc hlen (right_flut hL hN hl hbs hn (by decide) hf hf64 hq hq31 hd hd31 hdN h0 h64 hW hWd hbud
    ((plainPrints_iff (by decide) (by decide)).1 hplain))

/-- Non-vacuity, and what it means: the spec asks for a 1 at the end.  `enc` encrypts 0, 1, and the verdict on its output is 1; whoever has the file, and
no key, exchanges the two ciphertexts, and the verdict is 0. -/
example : ∃ (L : Lib 16 2 1) (file : List Byte) (fs fs1 : Files), fs "k" = some (L.saveKey (L.newKey 0)) ∧ fs "i" = some [2#8] ∧
    RunHomfa L [] fs ["enc", "--ap", toString 2, "--key", "k", "--in", "i", "--out", "c"] (.ok (fs1, [])) ∧ fs1 "c" = some file ∧ file.length = 1024 ∧
    AlwaysPrints L fs1 [["run", "offline", "--bkey", "b", "--out", "r", "--spec", "s", "--in", "c", "--bootstrapping-freq", toString 5],
      ["dec", "--key", "k", "--in", "r"]] ['1'] ["r"] ∧
    AlwaysPrints L (fs1.set "c" (file.drop 512 ++ file.take 512)) [["run", "offline", "--bkey", "b", "--out", "r", "--spec", "s", "--in", "c",
      "--bootstrapping-freq", toString 5], ["dec", "--key", "k", "--in", "r"]] ['0'] ["r"] := by
  have q1 : doRunPlain (textOf (">0 0 1\n1* 0 1\n".toList.map fun c => BitVec.ofNat 8 c.toNat)) (some (bitBytes [false, true])) 1 = .ok ['1'] := by decide +kernel
  have q0 : doRunPlain (textOf (">0 0 1\n1* 0 1\n".toList.map fun c => BitVec.ofNat 8 c.toNat)) (some (bitBytes [true, false])) 1 = .ok ['0'] := by decide +kernel
  obtain ⟨φ, hφ⟩ := exists_numbering 16
  have hL := toyLib_sound (n := 2) (l := 1) (by omega) (by omega) hφ
  let L := toyLib 16 2 1 φ
  have w : ∀ f ∈ ["s", "k", "b", "c", "r", "i"], Word f := by unfold Word; decide
  have hn : Usable "s" "s" "k" "b" "c" "r" := ⟨fun f hf => w f (by revert hf; simp; tauto), by decide, by decide, by decide, by decide⟩
  let specB : List Byte := ">0 0 1\n1* 0 1\n".toList.map fun c => BitVec.ofNat 8 c.toNat
  let fs : Files := fun f => if f = "s" then some specB else if f = "k" then some [0#8] else if f = "b" then some [2#8] else if f = "i" then some [2#8] else none
  have hbs : blockSize 1 16 = 512 := by decide
  let cs := encryptions (L.client false) id 0 [false, true]
  let file : List Byte := cs.flatMap saveGsw
  have henc : doEnc (L.client false) id (some [2#8]) 2 = .ok file := enc_eq (L.client false) id (ap := 2) (by decide) (rs := [[2#8]]) (by decide)
  have hrun : RunHomfa L [] fs ["enc", "--ap", toString 2, "--key", "k", "--in", "i", "--out", "c"] (.ok ((fs.set "c" []).set "c" file, [])) :=
    (run_enc (L := L) (w _ (by simp)) (w _ (by simp)) (w _ (by simp)) hL.key (k := false) rfl rfl (by decide) (by decide) (by decide)).2 ⟨id, by rw [henc]; rfl⟩
  have hlen : file.length = 1024 := by
    show (cs.flatMap saveGsw).length = _
    rw [length_file, hbs, encryptions_length]
    decide
  have part : ∀ (i : Nat) (b : Bool), [false, true][i]? = some b → Encrypted L (L.saveKey (L.newKey 0)) ((file.drop (i * 512)).take 512) b := by
    intro i b h
    refine ⟨fs, _, "k", "i", "c", 2, [[2#8]], file, i, w _ (by simp), w _ (by simp), w _ (by simp), by decide, by decide, by decide, rfl, rfl, by decide, hrun,
      Files.set_same _ _ _, ?_, by rw [hbs]⟩
    rw [← h]
    rfl
  have p0 := part 0 false rfl
  have p1 := part 1 true rfl
  rw [Nat.zero_mul, List.drop_zero] at p0
  rw [Nat.one_mul, List.take_of_length_le (by rw [List.length_drop, hlen])] at p1
  have hp : ∀ {u : List Byte} {v : List Char}, doRunPlain (textOf specB) (some u) 1 = .ok v → PlainPrints L specB u 1 v :=
    fun h => (plainPrints_iff (by decide) (by decide)).2 h
  have key : ∀ (parts : List (List Byte × Bool)) (out : List Char), (∀ p ∈ parts, Encrypted L (L.saveKey (L.newKey 0)) p.1 p.2) → parts.length = 2 →
      doRunPlain (textOf specB) (some (bitBytes (parts.map (·.2)))) 1 = .ok out → ∀ fs2 : Files, fs2 "s" = some specB → fs2 "k" = some [0#8] → fs2 "b" = some [2#8] →
      fs2 "c" = some (parts.flatMap (·.1)) →
      AlwaysPrints L fs2 [["run", "offline", "--bkey", "b", "--out", "r", "--spec", "s", "--in", "c", "--bootstrapping-freq", toString 5],
      ["dec", "--key", "k", "--in", "r"]] out ["r"] := fun parts out h h2 h3 fs2 f1 f2 f3 f4 =>
    C112_offline hL (by decide) (by decide) (by decide) (q := 0) (q' := 0) hn f1 f2 f3 h f4 (by rw [h2, hbs]; decide) (by rw [h2]; decide) (by decide) (by decide)
      (by decide) (hp h3)
  refine ⟨L, file, fs, _, rfl, rfl, hrun, Files.set_same _ _ _, hlen, ?_, ?_⟩
  · refine key [(file.take 512, false), (file.drop 512, true)] ['1'] (by simpa using ⟨p0, p1⟩) rfl q1 _ rfl rfl rfl ?_
    simp [Files.set]
  · refine key [(file.drop 512, true), (file.take 512, false)] ['0'] (by simpa using ⟨p1, p0⟩) rfl q0 _ rfl rfl rfl ?_
    simp [Files.set]

end Homfa.Cli
