import Verif.Proof.StreamRun

/-! # C20-C23: ciphertext files and input streams -/

namespace Homfa

variable {l N : Nat}

/-- **C20** Loading at the place where a ciphertext was saved, whatever is before and after it in the file and whatever
the target variable held, returns that ciphertext bit for bit and moves the position by exactly one block. -/
theorem C20_load_saved (c junk : Gsw l N) (before after : List Byte) (fail : Bool) :
    loadGsw { bytes := before ++ saveGsw c ++ after, pos := before.length, fail := fail } junk =
      .ok (c, { bytes := before ++ saveGsw c ++ after, pos := before.length + blockSize l N, fail := fail }) :=
  loadGsw_ok c junk _ after (by simp)

/-- **C20** Saving writes exactly one block. -/
theorem C20_save_size (c : Gsw l N) : (saveGsw c).length = blockSize l N := length_saveGsw c

/-- load `n` ciphertexts one after the other -/
def loadMany (junk : Gsw l N) : Nat → IStream → Res (List (Gsw l N) × IStream)
  | 0, is => .ok ([], is)
  | n + 1, is => do
    let (c, is) ← loadGsw is junk
    let (cs, is) ← loadMany junk n is
    pure (c :: cs, is)

/-- **C20** A sequence of saves is read back as the same sequence, and reading it consumes the whole file. -/
theorem C20_sequence (cs : List (Gsw l N)) (junk : Gsw l N) :
    loadMany junk cs.length { bytes := cs.flatMap saveGsw, pos := 0, fail := false } =
      .ok (cs, { bytes := cs.flatMap saveGsw, pos := (cs.flatMap saveGsw).length, fail := false }) := by
  have key : ∀ (cs : List (Gsw l N)) (before : List Byte),
      loadMany junk cs.length { bytes := before ++ cs.flatMap saveGsw, pos := before.length, fail := false } =
        .ok (cs, { bytes := before ++ cs.flatMap saveGsw, pos := (before ++ cs.flatMap saveGsw).length,
                   fail := false }) := by
    intro cs
    induction cs with
    | nil => intro before; simp [loadMany]
    | cons c cs ih =>
      intro before
      rw [List.length_cons, loadMany, List.flatMap_cons, ← List.append_assoc, C20_load_saved]
      have := ih (before ++ saveGsw c)
      rw [List.length_append, length_saveGsw] at this
      show Except.bind (loadMany junk cs.length _) _ = _
      rw [this]
      rfl
  exact key cs []

/-- **C20** If less than a block is left, loading aborts instead of returning a partly read ciphertext. -/
theorem C20_truncated (hbs : 0 < blockSize l N) (is : IStream) (junk : Gsw l N)
    (h : is.bytes.length < is.pos + blockSize l N) : loadGsw is junk = .error .assertFail := by
  rcases loadWords_short junk (gswIdx l N) (junk, is) (by
    rw [length_gswIdx]; dsimp only; unfold blockSize at h; omega) with h' | h'
  · exact h'
  · have := length_gswIdx l N
    rw [h'] at this
    unfold blockSize at hbs
    rw [← this] at hbs
    simp at hbs

/-- non-vacuity: a ciphertext with a NaN payload survives -/
example : loadGsw (l := 1) (N := 1)
    { bytes := 0xff#8 :: (saveGsw (l := 1) (N := 1) (fun i j _ => if i = 1 ∧ j = 0 then 0x7ff8dead00000001#64 else 5#64)),
      pos := 1, fail := false } (fun _ _ _ => 0#64) |>.isOk := by decide +kernel

/-- **C21** On a file of ciphertexts `cs` (written by `save`), whatever calls a user makes (`script`) and however the
loader thread and the caller are scheduled: the constructor returns; no execution is infinite (there is a bound on the
number of steps); at every moment the answers given so far are the first of the expected ones; and when nobody can move
any more all calls are answered as on a list of ciphertexts consumed from the front, or the program has aborted because
`next()` was called on the exhausted stream and for no other reason. -/
theorem C21_forward_stream (hbs : 0 < blockSize l N) (hbs' : blockSize l N < 2 ^ 63) (cs : List (Gsw l N))
    (hlen : (cs.flatMap saveGsw).length < 2 ^ 63) (junk : Gsw l N) (script : List StreamCall) :
    ∃ s₀, openStream .forward (some (cs.flatMap saveGsw)) junk script = .ok s₀ ∧
      (∃ bound, ∀ n t, StreamExec .forward n s₀ t → n ≤ bound) ∧
      ∀ n t, StreamExec .forward n s₀ t →
        (∃ more, t.out ++ more = (streamSpec cs script).1) ∧
        (StreamStuck .forward t → t.out = (streamSpec cs script).1 ∧
          t.died = if (streamSpec cs script).2 then some .assertFail else none) := by
  obtain ⟨s₀, h0, hi⟩ := open_inv hbs hbs' .forward cs hlen junk script
  refine ⟨s₀, h0, ⟨fuel .forward s₀, fun n t he => by have := exec_bound he; omega⟩, fun n t he => ?_⟩
  have hi' := inv_exec hbs hbs' he hi
  refine ⟨?_, stuck_done hi'⟩
  obtain ⟨done, rem, hord, hspec, -⟩ := hi'.spec
  exact ⟨_, (Prod.mk.inj hspec).1⟩

/-- **C22** The same for the reversed stream, which behaves as the list of ciphertexts in reverse order; and when it is
idle after delivering everything the file position is the beginning of the file. -/
theorem C22_reversed_stream (hbs : 0 < blockSize l N) (hbs' : blockSize l N < 2 ^ 63) (cs : List (Gsw l N))
    (hlen : (cs.flatMap saveGsw).length < 2 ^ 63) (junk : Gsw l N) (script : List StreamCall) :
    ∃ s₀, openStream .reversed (some (cs.flatMap saveGsw)) junk script = .ok s₀ ∧
      (∃ bound, ∀ n t, StreamExec .reversed n s₀ t → n ≤ bound) ∧
      ∀ n t, StreamExec .reversed n s₀ t →
        (∃ more, t.out ++ more = (streamSpec cs.reverse script).1) ∧
        (t.died = none → t.pc = [] → t.size = 0 → t.is.pos = 0 ∧ t.task = none) ∧
        (StreamStuck .reversed t → t.out = (streamSpec cs.reverse script).1 ∧
          t.died = if (streamSpec cs.reverse script).2 then some .assertFail else none) := by
  obtain ⟨s₀, h0, hi⟩ := open_inv hbs hbs' .reversed cs hlen junk script
  refine ⟨s₀, h0, ⟨fuel .reversed s₀, fun n t he => by have := exec_bound he; omega⟩, fun n t he => ?_⟩
  have hi' := inv_exec hbs hbs' he hi
  refine ⟨?_, ?_, stuck_done hi'⟩
  · obtain ⟨done, rem, hord, hspec, -⟩ := hi'.spec
    exact ⟨_, (Prod.mk.inj hspec).1⟩
  · intro hd hpc hz
    obtain ⟨done, rem, hord, hspec, hph | ⟨h, -⟩⟩ := hi'.spec
    · have hnil : ∀ {a b : List (CallOp l N)}, a ++ StreamKind.reversed.tail ≠ ([] : List (CallOp l N)) := by
        intro a _; simp [StreamKind.tail]
      cases hph.2 with
      | rest _ _ h1 h2 h3 =>
        cases rem with
        | nil => exact ⟨by rw [h3.2]; simp [StreamKind.idle, atBlock], h3.1⟩
        | cons c rem => rw [h2] at hz; simp at hz
      | begin _ _ h1 => rw [hpc, StreamKind.next_eq] at h1; simp at h1
      | wait _ _ _ h1 => rw [hpc] at h1; simp at h1
      | copy _ _ _ _ h1 => rw [hpc] at h1; exact absurd h1.symm (hnil (b := []))
      | fwdStart _ _ _ h0 h1 => rw [hpc] at h1; simp at h1
      | revDec _ _ _ h0 h1 => rw [hpc] at h1; simp at h1
      | last _ _ _ h1 => rw [hpc] at h1; simp at h1
    · rw [hd] at h; simp at h

/-- **C21/C22** A file that does not exist, or whose length is not a whole number of blocks, makes the constructor
abort. -/
theorem C21_bad_file (kind : StreamKind) (hbs : 0 < blockSize l N) (file : Option (List Byte))
    (h : ∀ bytes, file = some bytes → bytes.length < 2 ^ 63 ∧ ¬ blockSize l N ∣ bytes.length) (junk : Gsw l N)
    (script : List StreamCall) : openStream kind file junk script = .error .assertFail := by
  cases file with
  | none => rfl
  | some bytes =>
    obtain ⟨h1, h2⟩ := h bytes rfl
    unfold openStream
    show (Except.bind (deserTell l N _) _ : Res _) = _
    rw [deserSeek_zero _ _ rfl]
    have : deserTell l N { bytes := bytes, pos := bytes.length, fail := false } = .error .assertFail := by
      unfold deserTell
      dsimp only
      have ht : (BitVec.ofInt 64 ({ bytes := bytes, pos := bytes.length, fail := false } : IStream).tellg).toNat =
          bytes.length := by
        simp only [IStream.tellg, Bool.false_eq_true, if_false]
        rw [BitVec.ofInt_natCast, BitVec.toNat_ofNat, Nat.mod_eq_of_lt]
        exact Nat.lt_of_lt_of_le h1 (Nat.pow_le_pow_right (by omega) (by omega))
      rw [ht]
      have hm : (bytes.length % blockSize l N == 0) = false := by
        rw [beq_eq_false_iff_ne]
        exact fun h => h2 (Nat.dvd_of_mod_eq_zero h)
      rw [hm]
      rfl
    dsimp only at this ⊢
    rw [this]
    rfl

/-- The loader thread and the caller never touch the shared members at the same time: whenever the loader has a step to
make, the next step of the caller neither copies `loaded_`, nor looks at the file position, nor enqueues a task. -/
theorem C21_no_data_race (kind : StreamKind) (hbs : 0 < blockSize l N) (hbs' : blockSize l N < 2 ^ 63)
    (cs : List (Gsw l N)) (hlen : (cs.flatMap saveGsw).length < 2 ^ 63) (junk : Gsw l N) (script : List StreamCall)
    (s₀ : StreamState l N) (h0 : openStream kind (some (cs.flatMap saveGsw)) junk script = .ok s₀) (n : Nat)
    (t : StreamState l N) (he : StreamExec kind n s₀ t) (hd : t.died = none) (op : LoadOp l N) (ops : List (LoadOp l N))
    (ht : t.task = some (op :: ops)) :
    ∀ pc, (∀ x, t.pc ≠ .copy x :: pc) ∧ t.pc ≠ .startIfNotBeg :: pc ∧ t.pc ≠ .startIfNonEmpty :: pc := by
  obtain ⟨s₀', h0', hi⟩ := open_inv hbs hbs' kind cs hlen junk script
  rw [h0] at h0'
  obtain rfl := Except.ok.inj h0'
  obtain ⟨done, rem, hord, hspec, hph⟩ := (inv_exec hbs hbs' he hi).spec
  intro pc
  rcases hph with ⟨-, hph⟩ | ⟨h, -⟩
  · cases hph with
    | rest _ _ h1 => rw [h1]; simp
    | begin _ _ h1 => rw [h1, StreamKind.next_eq]; simp
    | wait _ _ _ h1 => rw [h1]; simp
    | copy _ _ _ _ _ _ _ _ h5 => rw [h5.1] at ht; simp at ht
    | fwdStart _ _ _ _ _ _ _ h4 => rw [h4.1] at ht; simp at ht
    | revDec _ _ _ _ h1 => rw [h1]; simp
    | last _ _ _ h1 => rw [h1]; simp
  · rw [hd] at h; simp at h

/-- non-vacuity: parameters of the 128-bit parameter set (`l = 3`, `N = 1024`), and a stream of two ciphertexts asked
for its size, its elements, its size and one element too many -/
example : 0 < blockSize 3 1024 ∧ blockSize 3 1024 < 2 ^ 63 := by decide
example (c d : Gsw 3 1024) : (([c, d] : List (Gsw 3 1024)).flatMap saveGsw).length < 2 ^ 63 := by
  rw [length_file]; simp [blockSize]
example (c d : Gsw 3 1024) : streamSpec [c, d] [.size, .next, .next, .size, .next, .size] =
    ([.size 2, .ctxt c, .ctxt d, .size 0], true) := rfl

/-- **C23** `seek(k, dir)` moves by exactly `k` blocks from the start, the current position or the end, also for
negative `k`, when that is not before the start of the file. -/
theorem C23_seek (is : IStream) (k : Int) (hk : -(2 ^ 31) ≤ k ∧ k < 2 ^ 31) (hbs : blockSize l N < 2 ^ 32)
    (dir : SeekDir) (base : Nat) (hbase : base = match dir with
      | .beg => 0
      | .cur => is.pos
      | .end_ => is.bytes.length) (hf : is.fail = false) (h0 : 0 ≤ (base : Int) + k * blockSize l N) :
    deserSeek l N is k dir = { is with pos := ((base : Int) + k * blockSize l N).toNat } := by
  have hb1 : -(2 ^ 63 : Int) ≤ k * blockSize l N := by
    have : -(2 ^ 31 : Int) * blockSize l N ≤ k * blockSize l N :=
      Int.mul_le_mul_of_nonneg_right hk.1 (Int.natCast_nonneg _)
    omega
  have hb2 : k * blockSize l N < 2 ^ 63 := by
    have : k * blockSize l N ≤ (2 ^ 31 : Int) * blockSize l N :=
      Int.mul_le_mul_of_nonneg_right (Int.le_of_lt hk.2) (Int.natCast_nonneg _)
    omega
  unfold deserSeek
  rw [seekOffset_eq _ hb1 hb2]
  apply seekg_ok _ _ _ _ hf
  subst hbase
  rw [Int.toNat_of_nonneg h0]
  cases dir <;> simp

/-- **C23** Seeking before the start of the file fails: the position is unknown afterwards and `tell()` aborts. -/
theorem C23_seek_before_start (is : IStream) (k : Int) (hk : -(2 ^ 31) ≤ k ∧ k < 2 ^ 31) (hbs : blockSize l N < 2 ^ 32)
    (hbs0 : 0 < blockSize l N) (hf : is.fail = false) (h0 : (is.pos : Int) + k * blockSize l N < 0) :
    deserTell l N (deserSeek l N is k .cur) = .error .assertFail := by
  have hb1 : -(2 ^ 63 : Int) ≤ k * blockSize l N := by
    have : -(2 ^ 31 : Int) * blockSize l N ≤ k * blockSize l N :=
      Int.mul_le_mul_of_nonneg_right hk.1 (Int.natCast_nonneg _)
    omega
  have h1 : deserSeek l N is k .cur = { is with fail := true } := by
    unfold deserSeek
    rw [seekOffset_eq _ hb1 (by omega)]
    unfold IStream.seekg
    rw [hf]
    simp [h0]
  rw [h1]
  unfold deserTell
  have : (BitVec.ofInt 64 ({ is with fail := true } : IStream).tellg).toNat = 2 ^ 64 - 1 := by
    simp only [IStream.tellg, if_true]; decide
  rw [this]
  dsimp only
  have hm : (((2 ^ 64 - 1) % blockSize l N) == 0) = false := by
    rw [beq_eq_false_iff_ne]
    intro h
    have hd := Nat.dvd_of_mod_eq_zero h
    have : 2 ∣ blockSize l N := ⟨(2 * l) * 2 * N * 4, by unfold blockSize; omega⟩
    have h2 := Nat.dvd_trans this hd
    revert h2; decide
  rw [hm]
  rfl

/-- **C23** At byte position `pos`, `tell()` returns the block index if the position is a whole number of blocks, and
aborts otherwise. -/
theorem C23_tell (is : IStream) (hf : is.fail = false) (hp : is.pos < 2 ^ 63) :
    deserTell l N is =
      if blockSize l N ∣ is.pos then .ok (is.pos / blockSize l N) else .error .assertFail := by
  unfold deserTell
  have ht : (BitVec.ofInt 64 is.tellg).toNat = is.pos := by
    simp only [IStream.tellg, hf, Bool.false_eq_true, if_false]
    rw [BitVec.ofInt_natCast, BitVec.toNat_ofNat, Nat.mod_eq_of_lt]
    exact Nat.lt_of_lt_of_le hp (Nat.pow_le_pow_right (by omega) (by omega))
  rw [ht]
  dsimp only
  by_cases h : blockSize l N ∣ is.pos
  · rw [if_pos h, Nat.mod_eq_zero_of_dvd h]; rfl
  · rw [if_neg h]
    have hm : (is.pos % blockSize l N == 0) = false := by
      rw [beq_eq_false_iff_ne]
      exact fun h' => h (Nat.dvd_of_mod_eq_zero h')
    rw [hm]; rfl

/-- **C23** `is_beg()` holds exactly at the start of the file. -/
theorem C23_is_beg (is : IStream) (hf : is.fail = false) : deserIsBeg is = true ↔ is.pos = 0 := by
  simp [deserIsBeg, IStream.tellg, hf, SeekDir.toInt]

/-- **C23** `is_end()` never holds at a block boundary, in particular not at the end of a file of ciphertexts. -/
theorem C23_is_end_never (hbs : 0 < blockSize l N) (is : IStream) (hf : is.fail = false)
    (ha : blockSize l N ∣ is.pos) : deserIsEnd is = false := by
  simp only [deserIsEnd, IStream.tellg, hf, SeekDir.toInt, Bool.false_eq_true, if_false]
  rw [beq_eq_false_iff_ne]
  intro h
  have h2 : is.pos = 2 := by omega
  rw [h2] at ha
  have h32 : 32 ∣ blockSize l N := ⟨l * N, by
    unfold blockSize
    rw [Nat.mul_comm (2 * l * 2 * N) 8, Nat.mul_right_comm (2 * l), Nat.mul_comm (2 * l * N) 2, Nat.mul_assoc 2 l N]
    omega⟩
  have := Nat.le_of_dvd (by omega) (Nat.dvd_trans h32 ha)
  omega

/-- **C23** So "`is_end()` iff at the end of the file" is false of this code, already for the empty file. -/
theorem C23_is_end_wrong : ∃ is : IStream, is.fail = false ∧ is.pos = is.bytes.length ∧ deserIsEnd is = false :=
  ⟨⟨[], 0, false⟩, rfl, rfl, rfl⟩

/-- non-vacuity: going back one block from the end of a two-block file -/
example : deserSeek 1 1 { bytes := List.replicate 64 0#8, pos := 64, fail := false } (-1) .cur =
    { bytes := List.replicate 64 0#8, pos := 32, fail := false } := by decide +kernel

end Homfa
