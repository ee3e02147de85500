import Verif.Proof.Phase

/-!
# C24, C25, C26, C46: decryption, rotation, linear operations and weight dumps

Every statement is for arbitrary dimensions `N` (level 1) and `n` (level 0), every key and every ciphertext.
-/

namespace Homfa

variable {N n : Nat}

/-! ## C24 -/

/-- Decryption returns `b` for every ciphertext whose phase is within less than 1/4 (2^30) of `b/2`. -/
theorem C24_decrypts (b : Bool) (c : TLWE N) (sk : SecretKey N n)
    (h : Near (2 ^ 30 - 1) (c.phase sk.lvl1) (half b)) : decryptBit c sk = b :=
  decrypt_threshold b _ h

/-- The threshold is exact: decryption says 1 for no other phase than those within less than 1/4 of 1/2. -/
theorem C24_threshold_exact (c : TLWE N) (sk : SecretKey N n) :
    decryptBit c sk = true ↔ Near (2 ^ 30 - 1) (c.phase sk.lvl1) mu2 := by
  constructor
  · intro h
    have hm4 : mu4.toNat = 2 ^ 30 := by decide
    have hm2 : mu2.toNat = 2 ^ 31 := by decide
    unfold decryptBit at h
    generalize c.phase sk.lvl1 = x at h ⊢
    have h1 := of_decide_eq_true h
    rw [BitVec.toNat_add, hm4, hm2] at h1
    unfold Near Torus.abs
    rw [BitVec.toInt_sub]
    have hmi : mu2.toInt = -2 ^ 31 := by decide
    rw [hmi, BitVec.toInt_eq_toNat_cond]
    have hx := x.isLt
    simp only [Int.bmod_def]
    split <;> omega
  · intro h
    exact C24_decrypts true c sk h

/-- Consequently decryption says 0 exactly up to and including distance 1/4 from 0. -/
theorem C24_threshold_zero (c : TLWE N) (sk : SecretKey N n) :
    decryptBit c sk = false ↔ Near (2 ^ 30) (c.phase sk.lvl1) 0 := by
  have h1 := C24_threshold_exact c sk
  have h2 : decryptBit c sk = false ↔ ¬ (decryptBit c sk = true) := by simp
  rw [h2, h1]
  generalize c.phase sk.lvl1 = x
  unfold Near Torus.abs
  rw [BitVec.toInt_sub, BitVec.toInt_sub]
  have hmi : mu2.toInt = -2 ^ 31 := by decide
  have h0 : (0 : Torus).toInt = 0 := by decide
  rw [hmi, h0, BitVec.toInt_eq_toNat_cond]
  have hx := x.isLt
  simp only [Int.bmod_def]
  split <;> omega

/-- a ciphertext with a non-zero mask and an error of 2^30 - 1: it meets the hypothesis and decrypts to 1, and one more
unit of error makes it 0 -/
example :
    let sk : SecretKey 2 1 := ⟨![1, 0], ![1]⟩
    let c : TLWE 2 := ⟨![5, 7], mu2 + 5 + (2 ^ 30 - 1)⟩
    let c' : TLWE 2 := ⟨![5, 7], mu2 + 5 + 2 ^ 30⟩
    Near (2 ^ 30 - 1) (c.phase sk.lvl1) (half true) ∧ decryptBit c sk = true ∧ decryptBit c' sk = false := by
  unfold Near; decide

/-! ## C25 -/

open Polynomial in
/-- For every `k ≤ 2N`, whatever the output variable held before, the result is a ciphertext each of whose two
polynomials is congruent to `X^k` times the source modulo `X^N + 1`. -/
theorem C25_is_multiplication (out src : TRLWE N) (k : Nat) (hk : k ≤ 2 * N) :
    ∃ r, out.multXk src k = .ok r ∧
      (X ^ N + 1 : Torus[X]) ∣ X ^ k * src.a.toPoly - r.a.toPoly ∧
      (X ^ N + 1 : Torus[X]) ∣ X ^ k * src.b.toPoly - r.b.toPoly :=
  ⟨_, multXk_ok out src k hk, toPoly_rot _ _, toPoly_rot _ _⟩

/-- Coefficient view, for `k < N`: coefficient `i` moves to `i + k`, and changes sign when that leaves the array. -/
theorem C25_coefficients (out src : TRLWE N) (k : Nat) (hk : k < N) :
    ∃ r, out.multXk src k = .ok r ∧ ∀ i : Fin N,
      (∀ h : i.val + k < N, r.a ⟨i.val + k, h⟩ = src.a i ∧ r.b ⟨i.val + k, h⟩ = src.b i) ∧
      (∀ h : N ≤ i.val + k, r.a ⟨i.val + k - N, by omega⟩ = -src.a i ∧ r.b ⟨i.val + k - N, by omega⟩ = -src.b i) := by
  refine ⟨_, multXk_ok out src k (by omega), fun i => ⟨fun h => ?_, fun h => ?_⟩⟩
  · constructor <;>
    · show ext _ ((i.val + k : Nat) - (k : Int)) = _
      rw [ext_nonneg_range _ _ (by omega) (by omega)]
      congr 1
      apply Fin.ext
      simp
  · constructor <;>
    · show ext _ ((i.val + k - N : Nat) - (k : Int)) = _
      rw [ext_neg_range _ _ (by omega) (by omega) (by omega)]
      congr 2
      apply Fin.ext
      simp only
      omega

/-- Rotating by 0 or by 2N is the identity. -/
theorem C25_identity (out src : TRLWE N) : out.multXk src 0 = .ok src ∧ out.multXk src (2 * N) = .ok src := by
  constructor
  · rfl
  · rw [multXk_ok _ _ _ (Nat.le_refl _)]
    have h : ((2 * N : Nat) : Int) = 2 * (N : Int) := by push_cast; rfl
    rw [h, rot_two_N, rot_two_N]

/-- Rotations compose additively. -/
theorem C25_compose (out src : TRLWE N) (j k : Nat) (h : j + k ≤ 2 * N) :
    (do let r ← out.multXk src j; out.multXk r k) = out.multXk src (j + k) := by
  rw [multXk_ok _ _ j (by omega), multXk_ok _ _ (j + k) h]
  show out.multXk _ k = _
  rw [multXk_ok _ _ k (by omega)]
  simp only [rot_rot]
  push_cast
  rw [add_comm (j : Int)]

/-- Rotating by `k` and then by `2N - k` restores the ciphertext (the way the LUT runner selects an entry). -/
theorem C25_inverse (out src : TRLWE N) (k : Nat) (h : k ≤ 2 * N) :
    (do let r ← out.multXk src k; out.multXk r (2 * N - k)) = .ok src := by
  rw [C25_compose out src k (2 * N - k) (by omega), Nat.add_sub_cancel' h]
  exact (C25_identity out src).2

/-- For `k > 2N` the code reads or writes outside the arrays. -/
theorem C25_out_of_range (out src : TRLWE N) (k : Nat) (hk : 2 * N < k) (hN : 0 < N) :
    out.multXk src k = .error .ub := by
  unfold TRLWE.multXk
  rw [polyMultXk_ub hN _ _ _ hk]
  rfl

/-- X^3 * (1 + 2X + 3X^2 + 4X^3) = X^3 - 2 - 3X - 4X^2 -/
example : (polyMultXk ![9, 9, 9, 9] ![1, 2, 3, 4] 3).toOption = some (![-2, -3, -4, 1] : Poly 4) := by decide
example : (polyMultXk ![9, 9, 9, 9] ![1, 2, 3, 4] 6).toOption = some (![3, 4, -1, -2] : Poly 4) := by decide

/-! ## C26 -/

/-- `polyMul`, used in the definition of the phase, is multiplication modulo `X^N + 1`. -/
theorem C26_product_is_negacyclic (p q : Poly N) :
    (Polynomial.X ^ N + 1 : Polynomial Torus) ∣ p.toPoly * q.toPoly - (polyMul p q).toPoly := toPoly_mul p q

theorem C26_add_tlwe (x y : TLWE n) (key : Fin n → Torus) : (x.add y).phase key = x.phase key + y.phase key :=
  tlwe_phase_add x y key

theorem C26_add_trlwe (x y : TRLWE N) (key : Fin N → Torus) (i : Fin N) :
    (x.add y).phase key i = x.phase key i + y.phase key i := by rw [phase_add]

/-- The phase of the rotated ciphertext is the rotated phase. -/
theorem C26_mult_X_k (out c : TRLWE N) (k : Nat) (hk : k ≤ 2 * N) (key out' : Fin N → Torus) :
    ∃ r, out.multXk c k = .ok r ∧ polyMultXk out' (c.phase key) k = .ok (r.phase key) := by
  refine ⟨_, multXk_ok out c k hk, ?_⟩
  rw [polyMultXk_ok _ _ _ hk, phase_rot]

/-- Trivial ciphertexts have their plaintext as phase under every key. -/
theorem C26_trivial (p : Poly N) (key : Fin N → Torus) : (trivialTRLWE p).phase key = p := phase_trivial p key

theorem setB0_phase (x : Torus) (key : Fin N → Torus) :
    ((trivialTRLWEZero N).setB0 x).phase key = fun i => if i.val = 0 then x else 0#32 := phase_trivial _ key

theorem C26_trivial_constants (key : Fin N → Torus) (key0 : Fin n → Torus) (i : Fin N) :
    (trivialTRLWEZero N).phase key i = 0 ∧
    (trivialTRLWE8 N).phase key i = (if i.val = 0 then eighth true else 0) ∧
    (trivialTRLWEMinus8 N).phase key i = (if i.val = 0 then eighth false else 0) ∧
    (trivialTRLWE2 N).phase key i = (if i.val = 0 then half true else 0) ∧
    (trivialTLWE8 n).phase key0 = eighth true ∧
    (trivialTLWEMinus8 n).phase key0 = eighth false := by
  refine ⟨congrFun (phase_trivial (fun _ => 0#32) key) i, congrFun (setB0_phase _ key) i, congrFun (setB0_phase _ key) i,
    congrFun (setB0_phase _ key) i, ?_, ?_⟩
  · rw [phase_eq_sum]
    simp [trivialTLWE8, eighth]
  · rw [phase_eq_sum]
    simp [trivialTLWEMinus8, eighth]

/-- Extracting coefficient `i` gives a TLWE ciphertext whose phase is coefficient `i` of the phase. -/
theorem C26_extract (c : TRLWE N) (i : Fin N) (key : Fin N → Torus) :
    (sampleExtract c i).phase key = c.phase key i := phase_sampleExtract c i key

example : (⟨![3, 5], ![10, 20]⟩ : TRLWE 2).phase ![1, 1] = ![12, 12] := by decide
example : (sampleExtract (⟨![3, 5], ![10, 20]⟩ : TRLWE 2) 1).phase ![1, 1] = 12 := by decide

/-! ## C46 -/

/-- Coefficient `i` is 1/2 or 0 according to bit `i` of `w`, and 0 from coefficient 64 on. -/
theorem C46_uint2weight (w : BitVec 64) (i : Fin N) :
    uint2weight N w i = half (decide (w.toNat / 2 ^ i.val % 2 = 1)) := by
  have hw := w.isLt
  unfold uint2weight half
  by_cases hi : i.val < 64
  · rw [if_pos hi]
    congr 1
    have h1 : (((w >>> i.val) &&& 1#64) != 0#64) = w.getLsbD i.val := by
      rw [BitVec.and_one_eq_setWidth_ofBool_getLsbD]
      rw [BitVec.getLsbD_ushiftRight]
      simp only [Nat.add_zero]
      cases w.getLsbD i.val <;> rfl
    rw [h1]
    simp only [BitVec.getLsbD, Nat.testBit, Nat.shiftRight_eq_div_pow, Nat.one_and_eq_mod_two]
    rw [decide_eq_true_iff]
    have := Nat.mod_two_eq_zero_or_one (w.toNat / 2 ^ i.val)
    rcases this with h | h <;> rw [h] <;> simp
  · rw [if_neg hi]
    have : w.toNat / 2 ^ i.val = 0 := by
      apply Nat.div_eq_of_lt
      exact Nat.lt_of_lt_of_le hw (Nat.pow_le_pow_right (by omega) (by omega))
    rw [this]
    rfl

theorem between_near (b : Bool) (x : Torus) (h : Near (2 ^ 30 - 1) x (half b)) : between25_75 x = b := by
  have hm4 : mu4.toNat = 2 ^ 30 := by decide
  have hm2 : (mu4 + mu2).toNat = 3 * 2 ^ 30 := by decide
  unfold Near Torus.abs at h
  rw [BitVec.toInt_sub] at h
  have hx := x.isLt
  unfold between25_75
  rw [hm4, hm2]
  cases b
  · have hmi : (half false).toInt = 0 := by decide
    rw [hmi, BitVec.toInt_eq_toNat_cond] at h
    simp only [Int.bmod_def] at h
    simp only [Bool.and_eq_false_iff, decide_eq_false_iff_not]
    split at h <;> omega
  · have hmi : (half true).toInt = -2 ^ 31 := by decide
    rw [hmi, BitVec.toInt_eq_toNat_cond] at h
    simp only [Int.bmod_def] at h
    simp only [Bool.and_eq_true, decide_eq_true_iff]
    split at h <;> omega

/-- The dump of any weight vector within less than 1/4 of `uint2weight w`, stripped of blanks and newlines, is the
`N`-digit binary string of `w`, low bit first. -/
theorem C46_dump (w : BitVec 64) (p : Poly N) (h : ∀ i, Near (2 ^ 30 - 1) (p i) (uint2weight N w i)) :
    (weight2bitstring p).filter (fun c => c != ' ' && c != '\n') =
      (List.range N).map fun i => if w.toNat / 2 ^ i % 2 = 1 then '1' else '0' := by
  unfold weight2bitstring
  rw [List.filter_append, List.filter_flatMap]
  have h1 : (['\n'].filter fun c => c != ' ' && c != '\n') = [] := by decide
  rw [h1, List.append_nil]
  have h2 : (fun a : Fin N => ((if a.val % 32 = 0 then ['\n'] else if a.val % 8 = 0 then [' '] else []) ++
      (if between25_75 (p a) = true then ['1'] else ['0'])).filter fun c => c != ' ' && c != '\n') =
      fun a => [if w.toNat / 2 ^ a.val % 2 = 1 then '1' else '0'] := by
    funext a
    have h3 := h a
    rw [C46_uint2weight] at h3
    rw [between_near _ _ h3, List.filter_append]
    have h4 : ((if a.val % 32 = 0 then ['\n'] else if a.val % 8 = 0 then [' '] else []).filter
        fun c => c != ' ' && c != '\n') = [] := by
      split
      · rfl
      · split <;> rfl
    rw [h4, List.nil_append]
    by_cases h5 : w.toNat / 2 ^ a.val % 2 = 1
    · simp only [h5]; decide
    · simp only [h5]; decide
  rw [h2, ← List.map_eq_flatMap, ← List.map_coe_finRange_eq_range, List.map_map]
  rfl

/-- The layout: a newline before every 32 digits, a blank before every other group of 8, a newline at the end.  Digit `i` is 1 exactly for
coefficients from 1/4 to 3/4, both included. -/
theorem C46_layout (p : Poly N) :
    weight2bitstring p = ((List.finRange N).flatMap fun i =>
      (if i.val % 32 = 0 then "\n" else if i.val % 8 = 0 then " " else "").toList ++
        [if 2 ^ 30 ≤ (p i).toNat ∧ (p i).toNat ≤ 3 * 2 ^ 30 then '1' else '0']) ++ "\n".toList := by
  unfold weight2bitstring
  congr 1
  congr 1
  funext i
  have h4 : mu4.toNat = 2 ^ 30 := by decide
  have h34 : (mu4 + mu2).toNat = 3 * 2 ^ 30 := by decide
  have hb : between25_75 (p i) = decide (2 ^ 30 ≤ (p i).toNat ∧ (p i).toNat ≤ 3 * 2 ^ 30) := by
    unfold between25_75
    rw [h4, h34, Bool.decide_and]
  rw [hb]
  simp only [decide_eq_true_iff]
  split
  · split <;> rfl
  · split <;> split <;> rfl

example : weight2bitstring (uint2weight 10 5#64) = "\n10100000 00\n".toList := by decide
example : weight2bitstring ![mu4 + 1, mu4 - 1, mu2 + mu4, mu2 + mu4 + 1] = "\n1010\n".toList := by decide

end Homfa
