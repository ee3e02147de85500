import Verif.Proof.Tree
import Verif.Props.TfheAlg

/-!
# C110: a result of `run offline` or `run reverse` depends on nothing of the spec but the words it accepts

What the server sends back is, bit for bit, the value of the decision tree (Spec/Tree.lean) of the set of words the spec accepts that are as
long as the input.  So from the result nobody - not even the holder of the secret key, who can look at the noise - can tell apart two specs that
accept the same words of that length, whatever their states and however they are written.  (The time the run takes and what it logs on the server
do tell them apart.)

Nothing is assumed of the ciphertexts, the key or the library.
-/

namespace Homfa

variable {N n l : Nat}

/-- **C110 (offline).** `run offline` computes the decision tree.  The ciphertexts `cs` are in the order they are used, from the last to the
first. -/
theorem C110_offline (S : Scheme N n l) (hN : 0 < N) (spec : List Char) (g : Graph) (h : Graph.fromIstream spec = .ok g) (hs : 0 < g.size)
    (boot : Nat) (hb : 0 < boot) (cs : List (Gsw l N)) (h31 : cs.length < 2 ^ 31) (words : List Bool → Bool)
    (hw : ∀ w, w.length = cs.length → g.accepts w = .ok (words w)) :
    doRunOffline S spec cs.length cs boot false = treeAnswer S boot cs.reverse words := by
  have hg := wf_of_fromIstream h hs
  obtain ⟨m, m1, m2, m3⟩ := C04_minimized_language g hg
  obtain ⟨r, r', o1, o2, o3⟩ := offline_value S hN m2 hb h31
  obtain ⟨t, ht⟩ := totalCmux_ok m2 hN o1
  unfold doRunOffline
  rw [h, Res.bind_ok, m1, Res.bind_ok, o1, Res.bind_ok, ht, Res.bind_ok]
  show (r.evalAll S cs >>= fun r => r.result) = _
  rw [o2, Res.bind_ok, o3]
  refine treeAnswer_congr S boot fun w hl => ?_
  have h1 := m3 w
  rw [hw w (by rw [hl, List.length_reverse]), m2.accepts_eq] at h1
  exact Except.ok.inj h1

/-- **C110 (reverse, each result).** After each number of inputs the result of the runner of `run reverse` is the decision tree. -/
theorem C110_each (S : Scheme N n l) (hN : 0 < N) (g : Graph) (hg : g.WF) (boot : Nat) (hb : 0 < boot) (isRev : Bool) :
    ∃ r, reverseMake g boot isRev true false = .ok r ∧ ∀ (cs : List (Gsw l N)) (words : List Bool → Bool),
      (∀ w, w.length = cs.length → g.accepts (if isRev then w else w.reverse) = .ok (words w)) →
      ∃ r', r.evalAll S cs = .ok r' ∧ r'.result = treeAnswer S boot cs.reverse words := by
  obtain ⟨r, h1, h2⟩ := reverse_value S hN hg hb isRev
  refine ⟨r, h1, fun cs words hw => ?_⟩
  obtain ⟨r', k1, k2⟩ := h2 cs
  refine ⟨r', k1, k2.trans (treeAnswer_congr S boot fun w hl => ?_)⟩
  have := hw w (by rw [hl, List.length_reverse])
  rw [hg.accepts_eq] at this
  exact Except.ok.inj this

/-- **C110 (reverse).** `run reverse` computes the decision tree.  The last ciphertext is at its root: the words are read from their end, unless
the spec is given reversed. -/
theorem C110_reverse (S : Scheme N n l) (hN : 0 < N) (spec : List Char) (g : Graph) (h : Graph.fromIstream spec = .ok g) (hs : 0 < g.size)
    (boot : Nat) (hb : 0 < boot) (size freq : Nat) (out : String) (isRev : Bool) (cs : List (Gsw l N)) (words : List Bool → Bool)
    (hw : ∀ w, w.length = cs.length → g.accepts (if isRev then w else w.reverse) = .ok (words w)) :
    doRunReverse S spec size cs (some out) none freq boot isRev false =
      (treeAnswer S boot cs.reverse words).map fun c => [(.file out, c)] := by
  have hg := wf_of_fromIstream h hs
  obtain ⟨r, o1, o2⟩ := C110_each S hN g hg boot hb isRev
  obtain ⟨r', o3, o4⟩ := o2 cs words hw
  unfold doRunReverse
  rw [show cassert _ = .ok () from rfl, Res.bind_ok, h, Res.bind_ok, o1, Res.bind_ok]
  have key : ∀ (cs : List (Gsw l N)) (i : Nat) (r r' : Backstream N), r.evalAll S cs = .ok r' →
      onlineLoop (fun r c => r.eval S c) (fun r => do let c ← r.result; pure (c, r)) none freq cs i r = .ok ([], r') := by
    intro cs
    induction cs with
    | nil => intro i r r' h; cases h; rfl
    | cons c cs ih =>
      intro i r r' h
      obtain ⟨r1, h1, h2⟩ := Res.bind_eq_ok.1 (show (r.eval S c >>= fun r => r.evalAll S cs) = .ok r' from h)
      rw [onlineLoop, h1, Res.bind_ok]
      exact ih _ _ _ h2
  rw [key cs 0 r r' o3, Res.bind_ok, show lastOut (some out) none size = .ok (.file out) from rfl, Res.bind_ok]
  dsimp only
  rw [o4]
  cases treeAnswer S boot cs.reverse words <;> rfl

/-- the words that end in 1, with two states -/
def endsIn1 : List Char := ">0 0 1\n1* 0 1\n".toList

/-- the words that end in 1, with seven states -/
def endsIn1Long : List Char := ">0 1 2\n1 3 4\n2* 5 6\n3 0 2\n4* 1 2\n5 0 2\n6* 1 4\n".toList

theorem endsIn1_same : ∃ g g', Graph.fromIstream endsIn1 = .ok g ∧ Graph.fromIstream endsIn1Long = .ok g' ∧ g.WF ∧ g'.WF ∧
    ∀ w, g.accepts w = g'.accepts w := by
  have size : ∀ {s : List Char} {k : Nat}, (Graph.fromIstream s).map Graph.size = .ok k → ∃ g, Graph.fromIstream s = .ok g ∧ g.size = k := by
    intro s k h
    cases hs : Graph.fromIstream s with
    | error e => rw [hs] at h; cases h
    | ok g => rw [hs] at h; exact ⟨g, rfl, Except.ok.inj h⟩
  obtain ⟨g, h1, s1⟩ := size (s := endsIn1) (k := 2) (by decide +kernel)
  obtain ⟨g', h2, s2⟩ := size (s := endsIn1Long) (k := 7) (by decide +kernel)
  have w1 := wf_of_fromIstream h1 (by rw [s1]; decide)
  have w2 := wf_of_fromIstream h2 (by rw [s2]; decide)
  refine ⟨g, g', h1, h2, w1, w2, fun w => ?_⟩
  obtain ⟨m, a1, _, a3⟩ := C04_minimized_language g w1
  obtain ⟨m', b1, _, b3⟩ := C04_minimized_language g' w2
  have key : (Graph.fromIstream endsIn1 >>= Graph.minimized) = (Graph.fromIstream endsIn1Long >>= Graph.minimized) := by decide +kernel
  rw [h1, h2, Res.bind_ok, Res.bind_ok, a1, b1] at key
  cases key
  rw [← a3, b3]

/-- **C110 (block).** `run block` does not have this property.  There are a sound library, two specs of the same language and encryptions of three
bits such that the results are right and differ: the noise depends on the number of states. -/
theorem C110_block_tells_apart : ∃ (S : Scheme 4 1 1) (δ : Noise) (Enc : Gsw 1 4 → Bool → Prop) (cs : List (Gsw 1 4)) (c c' : TLWE 4) (g g' : Graph),
    S.Sound δ Enc ∧ List.Forall₂ Enc cs [true, true, true] ∧
    Graph.fromIstream endsIn1 = .ok g ∧ Graph.fromIstream endsIn1Long = .ok g' ∧ (∀ w, g.accepts w = g'.accepts w) ∧
    doRunBlock S endsIn1 cs 1 false = .ok c ∧ doRunBlock S endsIn1Long cs 1 false = .ok c' ∧
    decryptBit c S.sk = true ∧ decryptBit c' S.sk = true ∧ c.phase S.sk.lvl1 ≠ c'.phase S.sk.lvl1 := by
  have hs := toy_sound (N := 4) (n := 1) (l := 1) ⟨![1, 0, 1, 0], ![1]⟩ (by decide) (by decide)
  obtain ⟨g, g', h1, h2, -, -, h3⟩ := endsIn1_same
  have key : ∀ spec v, (doRunBlock (toyScheme 4 1 1 ⟨![1, 0, 1, 0], ![1]⟩) spec ([true, true, true].map
      ((toyScheme 4 1 1 ⟨![1, 0, 1, 0], ![1]⟩).encrypt 0)) 1 false).map (fun c => c.phase ![1, 0, 1, 0]) = .ok v →
      ∃ c, doRunBlock (toyScheme 4 1 1 ⟨![1, 0, 1, 0], ![1]⟩) spec ([true, true, true].map
        ((toyScheme 4 1 1 ⟨![1, 0, 1, 0], ![1]⟩).encrypt 0)) 1 false = .ok c ∧ c.phase ![1, 0, 1, 0] = v := by
    intro spec v h
    cases hc : doRunBlock (toyScheme 4 1 1 ⟨![1, 0, 1, 0], ![1]⟩) spec ([true, true, true].map
        ((toyScheme 4 1 1 ⟨![1, 0, 1, 0], ![1]⟩).encrypt 0)) 1 false with
    | error e => rw [hc] at h; cases h
    | ok c => rw [hc] at h; exact ⟨c, rfl, Except.ok.inj h⟩
  obtain ⟨c, k1, k2⟩ := key endsIn1 2147483651#32 (by decide +kernel)
  obtain ⟨c', k3, k4⟩ := key endsIn1Long 2147483652#32 (by decide +kernel)
  refine ⟨_, toyNoise, toyEnc, _, c, c', g, g', hs, .cons (hs.encrypt _ _) (.cons (hs.encrypt _ _) (.cons (hs.encrypt _ _) .nil)), h1, h2, h3, k1, k3, ?_, ?_, ?_⟩
  · show decide ((c.phase ![1, 0, 1, 0] + mu4).toNat > mu2.toNat) = true
    rw [k2]; decide
  · show decide ((c'.phase ![1, 0, 1, 0] + mu4).toNat > mu2.toNat) = true
    rw [k4]; decide
  · show c.phase ![1, 0, 1, 0] ≠ c'.phase ![1, 0, 1, 0]
    rw [k2, k4]; decide

namespace Cli

/-- **C110 (the program, offline).** `S` and `S'` are files of two specs that accept the same words of the length of the input.  Each
outcome of `homfa run offline` with the one - each exit, each bit of each file - is an outcome with the other. -/
theorem C110_offline_same (L : Lib N n l) (hN : 0 < N) (hl : 0 < l) (hbs : blockSize l N < 2 ^ 63) {fs : Files} {B R S S' C : String}
    {specB specB' file : List Byte} (hB : Word B) (hR : Word R) (hS : Word S) (hS' : Word S') (hC : Word C) (hb : (fs B).isSome)
    (hs : fs S = some specB) (hs' : fs S' = some specB') (hc : fs C = some file) (hlen : file.length < 2 ^ 63)
    {g g' : Graph} (h : Graph.fromIstream (textOf specB) = .ok g) (h' : Graph.fromIstream (textOf specB') = .ok g') (hz : 0 < g.size) (hz' : 0 < g'.size)
    (hw : ∀ w : List Bool, w.length * blockSize l N = file.length → g.accepts w = g'.accepts w)
    {boot : Nat} (h0 : 0 < boot) (h64 : boot < 2 ^ 64) (r : Res (Files × List Char)) :
    RunHomfa L [] fs ["run", "offline", "--bkey", B, "--out", R, "--spec", S, "--in", C, "--bootstrapping-freq", toString boot] r ↔
      RunHomfa L [] fs ["run", "offline", "--bkey", B, "--out", R, "--spec", S', "--in", C, "--bootstrapping-freq", toString boot] r := by
  refine (run_offline_line (L := L) hB hR hS hC hb (by rw [hs]; rfl) (by rw [hc]; rfl) h0 h64).trans
    (Iff.trans ?_ (run_offline_line (L := L) hB hR hS' hC hb (by rw [hs']; rfl) (by rw [hc]; rfl) h0 h64).symm)
  rw [exec_offline, exec_offline]
  have e1 : readSpec (fs S) = .ok (textOf specB) := by simp [readSpec, hs]
  have e2 : readSpec (fs S') = .ok (textOf specB') := by simp [readSpec, hs']
  have hbs0 : 0 < blockSize l N := by unfold blockSize; positivity
  have hg := wf_of_fromIstream h hz
  have hg' := wf_of_fromIstream h' hz'
  refine exists_congr fun q => and_congr_right fun hq => ?_
  rw [hc] at hq
  rcases fetch_size hbs0 hbs hlen hq with ⟨e, rfl⟩ | ⟨pre, cs, rfl, hp, hn⟩
  · rfl
  · rw [Res.bind_ok, Res.bind_ok]
    dsimp only
    rw [e1, e2, hp rfl]
    have key : ∀ b, doRunOffline (L.server b) (textOf specB) cs.length cs boot false = doRunOffline (L.server b) (textOf specB') cs.length cs boot false := by
      intro b
      by_cases h31 : 2 ^ 31 ≤ cs.length
      · rw [offline_too_many _ hN h hg h0 h31, offline_too_many _ hN h' hg' h0 h31]
      · rw [C110_offline _ hN _ g h hz boot h0 cs (by omega) g.dfa.accepts fun w _ => hg.accepts_eq w,
          C110_offline _ hN _ g' h' hz' boot h0 cs (by omega) g.dfa.accepts fun w hwl => by
            rw [← hw w (by rw [hwl, hn]), hg.accepts_eq]]
    simp only [Res.bind_ok, key]

/-- **C110 (the program, reverse).** The same of `homfa run reverse`, with the specs as they are or both reversed (`--spec-reversed`). -/
theorem C110_reverse_same (L : Lib N n l) (hN : 0 < N) (hl : 0 < l) (hbs : blockSize l N < 2 ^ 63) {fs : Files} {B R S S' C : String}
    {specB specB' file : List Byte} (hB : Word B) (hR : Word R) (hS : Word S) (hS' : Word S') (hC : Word C) (hb : (fs B).isSome)
    (hs : fs S = some specB) (hs' : fs S' = some specB') (hc : fs C = some file) (hlen : file.length < 2 ^ 63)
    {g g' : Graph} (h : Graph.fromIstream (textOf specB) = .ok g) (h' : Graph.fromIstream (textOf specB') = .ok g') (hz : 0 < g.size) (hz' : 0 < g'.size)
    (hw : ∀ w : List Bool, w.length * blockSize l N = file.length → g.accepts w = g'.accepts w)
    {freq boot : Nat} (hf0 : 0 < freq) (hf64 : freq < 2 ^ 64) (h0 : 0 < boot) (h64 : boot < 2 ^ 64) {flags : List String}
    (hfl : flags = [] ∨ flags = ["--spec-reversed"]) (r : Res (Files × List Char)) :
    RunHomfa L [] fs (["run", "reverse", "--bkey", B, "--out", R, "--spec", S, "--in", C, "--out-freq", toString freq,
        "--bootstrapping-freq", toString boot] ++ flags) r ↔
      RunHomfa L [] fs (["run", "reverse", "--bkey", B, "--out", R, "--spec", S', "--in", C, "--out-freq", toString freq,
        "--bootstrapping-freq", toString boot] ++ flags) r := by
  refine (run_reverse_line (L := L) hB hR hS hC hb (by rw [hs]; rfl) (by rw [hc]; rfl) hf0 hf64 h0 h64 hfl).trans
    (Iff.trans ?_ (run_reverse_line (L := L) hB hR hS' hC hb (by rw [hs']; rfl) (by rw [hc]; rfl) hf0 hf64 h0 h64 hfl).symm)
  rw [exec_reverse, exec_reverse]
  have e1 : readSpec (fs S) = .ok (textOf specB) := by simp [readSpec, hs]
  have e2 : readSpec (fs S') = .ok (textOf specB') := by simp [readSpec, hs']
  have hbs0 : 0 < blockSize l N := by unfold blockSize; positivity
  have hg := wf_of_fromIstream h hz
  have hg' := wf_of_fromIstream h' hz'
  refine exists_congr fun q => and_congr_right fun hq => ?_
  rw [hc] at hq
  rcases fetch_size hbs0 hbs hlen hq with ⟨e, rfl⟩ | ⟨pre, cs, rfl, -, hn⟩
  · rfl
  · rw [Res.bind_ok, Res.bind_ok]
    dsimp only
    rw [e1, e2]
    have key : ∀ b, doRunReverse (L.server b) (textOf specB) (pre.getLastD 0) cs (some R) none freq boot (decide (flags ≠ [])) false =
        doRunReverse (L.server b) (textOf specB') (pre.getLastD 0) cs (some R) none freq boot (decide (flags ≠ [])) false := by
      intro b
      generalize decide (flags ≠ []) = isRev
      rw [C110_reverse _ hN _ g h hz boot h0 _ _ _ isRev cs (fun w => g.dfa.accepts (if isRev then w else w.reverse)) fun w _ => hg.accepts_eq _,
        C110_reverse _ hN _ g' h' hz' boot h0 _ _ _ isRev cs (fun w => g.dfa.accepts (if isRev then w else w.reverse)) fun w hwl => by
          rw [← hw _ (by split <;> simp [hwl, hn]), hg.accepts_eq]]
    simp only [Res.bind_ok, key]

/-- the words that end in 1, and those whose third bit is 1; three blocks that no one encrypted and a byte as key -/
def treeFiles : Files := fun f =>
  if f = "last.spec" then some (">0 0 1\n1* 0 1\n".toList.map fun c => BitVec.ofNat 8 c.toNat)
  else if f = "third.spec" then some (">0 1 1\n1 2 2\n2 3 4\n3 3 3\n4* 4 4\n".toList.map fun c => BitVec.ofNat 8 c.toNat)
  else if f = "bk" then some [2#8]
  else if f = "three" then some (List.replicate 3072 170#8)
  else none

theorem treeFiles_case : ∃ g g' : Graph, Graph.fromIstream (textOf (">0 0 1\n1* 0 1\n".toList.map fun c => BitVec.ofNat 8 c.toNat)) = .ok g ∧
    Graph.fromIstream (textOf (">0 1 1\n1 2 2\n2 3 4\n3 3 3\n4* 4 4\n".toList.map fun c => BitVec.ofNat 8 c.toNat)) = .ok g' ∧ 0 < g.size ∧ 0 < g'.size ∧
    ∀ w : List Bool, w.length * blockSize 1 32 = (List.replicate 3072 (170#8 : Byte)).length → g.accepts w = g'.accepts w := by
  have get : ∀ {s : List Char} {v : Nat × List Bool}, (Graph.fromIstream s >>= fun g => do
      let bs ← [[false, false, false], [false, false, true], [false, true, false], [false, true, true], [true, false, false], [true, false, true],
        [true, true, false], [true, true, true]].mapM g.accepts
      pure (g.size, bs)) = .ok v → ∃ g, Graph.fromIstream s = .ok g ∧ g.size = v.1 ∧ [[false, false, false], [false, false, true], [false, true, false],
        [false, true, true], [true, false, false], [true, false, true], [true, true, false], [true, true, true]].mapM g.accepts = .ok v.2 := by
    intro s v h
    obtain ⟨g, h1, h⟩ := Res.bind_eq_ok.1 h
    obtain ⟨bs, h2, h⟩ := Res.bind_eq_ok.1 h
    cases h
    exact ⟨g, h1, rfl, h2⟩
  obtain ⟨g, a1, a2, a3⟩ := get (s := ">0 0 1\n1* 0 1\n".toList) (v := (2, [false, true, false, true, false, true, false, true])) (by decide +kernel)
  obtain ⟨g', b1, b2, b3⟩ := get (s := ">0 1 1\n1 2 2\n2 3 4\n3 3 3\n4* 4 4\n".toList) (v := (5, [false, true, false, true, false, true, false, true]))
    (by decide +kernel)
  refine ⟨g, g', ?_, ?_, by rw [a2]; decide, by rw [b2]; decide, ?_⟩
  · rw [← a1]; decide +kernel
  · rw [← b1]; decide +kernel
  · intro w hw
    have wf := wf_of_fromIstream a1 (by rw [a2]; decide)
    have wf' := wf_of_fromIstream b1 (by rw [b2]; decide)
    rw [List.length_replicate] at hw
    have h3 : w.length = 3 := by
      have : blockSize 1 32 = 1024 := by decide
      rw [this] at hw; omega
    obtain ⟨x, y, z, rfl⟩ : ∃ x y z, w = [x, y, z] := List.length_eq_three.1 h3
    rw [wf.accepts_eq, wf'.accepts_eq]
    simp only [wf.accepts_eq, List.mapM_cons, List.mapM_nil, Res.bind_ok, Res.pure_eq, Except.ok.injEq, List.cons.injEq, and_true] at a3
    simp only [wf'.accepts_eq, List.mapM_cons, List.mapM_nil, Res.bind_ok, Res.pure_eq, Except.ok.injEq, List.cons.injEq, and_true] at b3
    obtain ⟨p1, p2, p3, p4, p5, p6, p7, p8⟩ := a3
    obtain ⟨q1, q2, q3, q4, q5, q6, q7, q8⟩ := b3
    cases x <;> cases y <;> cases z <;> simp only [p1, p2, p3, p4, p5, p6, p7, p8, q1, q2, q3, q4, q5, q6, q7, q8]

/-- Non-vacuity: the two specs accept the same words of three bits, but not the same words.  Every hypothesis holds of these files, for any
library and any bootstrapping interval. -/
example (L : Lib 32 2 1) (boot : Nat) (h0 : 0 < boot) (h64 : boot < 2 ^ 64) (r : Res (Files × List Char)) :
    (RunHomfa L [] treeFiles ["run", "offline", "--bkey", "bk", "--out", "res", "--spec", "last.spec", "--in", "three", "--bootstrapping-freq", toString boot] r ↔
      RunHomfa L [] treeFiles ["run", "offline", "--bkey", "bk", "--out", "res", "--spec", "third.spec", "--in", "three", "--bootstrapping-freq", toString boot] r) ∧
    (RunHomfa L [] treeFiles ["run", "reverse", "--bkey", "bk", "--out", "res", "--spec", "last.spec", "--in", "three", "--out-freq", toString 1,
        "--bootstrapping-freq", toString boot] r ↔
      RunHomfa L [] treeFiles ["run", "reverse", "--bkey", "bk", "--out", "res", "--spec", "third.spec", "--in", "three", "--out-freq", toString 1,
        "--bootstrapping-freq", toString boot] r) ∧
    (Graph.fromIstream ">0 0 1\n1* 0 1\n".toList >>= fun g => g.accepts [false, false, false, true]) = .ok true ∧
    (Graph.fromIstream ">0 1 1\n1 2 2\n2 3 4\n3 3 3\n4* 4 4\n".toList >>= fun g => g.accepts [false, false, false, true]) = .ok false := by
  have w : ∀ f ∈ ["bk", "res", "last.spec", "third.spec", "three"], Word f := by unfold Word; decide
  obtain ⟨g, g', a1, b1, a2, b2, hw⟩ := treeFiles_case
  exact ⟨C110_offline_same L (by decide) (by decide) (by decide) (w _ (by simp)) (w _ (by simp)) (w _ (by simp)) (w _ (by simp)) (w _ (by simp))
      rfl (by rfl) (by rfl) (by rfl) (by rw [List.length_replicate]; decide) a1 b1 a2 b2 hw h0 h64 r,
    C110_reverse_same L (by decide) (by decide) (by decide) (w _ (by simp)) (w _ (by simp)) (w _ (by simp)) (w _ (by simp)) (w _ (by simp))
      rfl (by rfl) (by rfl) (by rfl) (by rw [List.length_replicate]; decide) a1 b1 a2 b2 hw (by decide) (by decide) h0 h64 (flags := []) (.inl rfl) r,
    by decide +kernel, by decide +kernel⟩

/-- Non-vacuity of the tree: two bits, the words `01` and `10`, bootstrapping at every second level -/
example (S : Scheme 4 1 1) (a b : Gsw 1 4) : tree S 2 [a, b] (fun w => w = [false, true] ∨ w = [true, false]) =
    S.bootHalf (S.cmux a (S.cmux b (trivialTRLWEZero 4) (trivialTRLWE2 4)) (S.cmux b (trivialTRLWE2 4) (trivialTRLWEZero 4))) := by
  simp [tree]
  rfl

end Cli
end Homfa
