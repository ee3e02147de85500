import Verif.Proof.Scheme

/-!
# C27, C49: bootstrapping wrappers and homomorphic XOR

For every backend satisfying `Scheme.Sound` (Spec/Scheme.lean).  `⟨0, hN⟩` is the constant coefficient.
-/

namespace Homfa

variable {N n l : Nat} {S : Scheme N n l} {δ : Noise} {Enc : Gsw l N → Bool → Prop}

/-- `do_SEI_IKS_GBTLWE2TRLWE_2`: an encoding of `b` in {0, 1/2} with any error `e` inside the margin becomes an encoding of the
same `b` whose error is at most that of a fresh blind rotation, whatever `e` was. -/
theorem C27_half_to_half (hS : S.Sound δ Enc) (hN : 0 < N) (w : TRLWE N) (b : Bool) (e : Nat)
    (h : Near e (w.phase S.sk.lvl1 ⟨0, hN⟩) (half b)) (he : e + δ.ks + δ.ms < 2 ^ 30) :
    ∃ r, S.bootHalf w = .ok r ∧ Near δ.br (r.phase S.sk.lvl1 ⟨0, hN⟩) (half b) := hS.bootHalf hN h he

/-- `do_SEI_IKS_GBTLWE2TRLWE_3`: {0, 1/2} to {-1/8, 1/8}. -/
theorem C27_half_to_eighth (hS : S.Sound δ Enc) (hN : 0 < N) (w : TRLWE N) (b : Bool) (e : Nat)
    (h : Near e (w.phase S.sk.lvl1 ⟨0, hN⟩) (half b)) (he : e + δ.ks + δ.ms < 2 ^ 30) :
    ∃ r, S.bootHalfToEighth w = .ok r ∧ Near δ.br (r.phase S.sk.lvl1 ⟨0, hN⟩) (eighth b) := hS.bootHalfToEighth hN h he

/-- `do_SEI_IKS_GBTLWE2TRLWE`: {-1/8, 1/8} to {-1/8, 1/8}. -/
theorem C27_eighth_to_eighth (hS : S.Sound δ Enc) (hN : 0 < N) (w : TRLWE N) (b : Bool) (e : Nat)
    (h : Near e (w.phase S.sk.lvl1 ⟨0, hN⟩) (eighth b)) (he : e + δ.ks + δ.ms < 2 ^ 29) :
    ∃ r, S.bootEighth w = .ok r ∧ Near δ.br (r.phase S.sk.lvl1 ⟨0, hN⟩) (eighth b) := hS.bootEighth hN h he

/-- The wrappers that start from a level 0 ciphertext (`BS_TLWE_0_1o2_to_TRLWE_0_1o2`, `..._m1o8_1o8`). -/
theorem C27_level0 (hS : S.Sound δ Enc) (hN : 0 < N) (c : TLWE n) (b : Bool) (e : Nat)
    (h : Near e (c.phase S.sk.lvl0) (half b)) (he : e + δ.ms < 2 ^ 30) :
    Near δ.br ((S.bsHalfToHalf c).phase S.sk.lvl1 ⟨0, hN⟩) (half b) ∧
    Near δ.br ((S.bsHalfToEighth c).phase S.sk.lvl1 ⟨0, hN⟩) (eighth b) :=
  ⟨hS.bsHalfToHalf h he _ rfl, hS.bsHalfToEighth h he _ rfl⟩

/-- **C49.** XOR of two bits in {-1/8, 1/8}. -/
theorem C49_hom_xor (hS : S.Sound δ Enc) (hN : 0 < N) (x y : TLWE n) (a b : Bool) (e e' : Nat)
    (hx : Near e (x.phase S.sk.lvl0) (eighth a)) (hy : Near e' (y.phase S.sk.lvl0) (eighth b))
    (he : 2 * (e + e') + δ.ms < 2 ^ 30) :
    Near δ.br ((S.homXor x y).phase S.sk.lvl1 ⟨0, hN⟩) (eighth (xor a b)) := by
  have h := hS.homXor hx hy he ⟨0, hN⟩ rfl
  have : xor a b = (a != b) := by cases a <;> cases b <;> rfl
  rw [this]; exact h

/-- The assumptions are satisfiable with non-zero errors, for every key. -/
theorem sound_satisfiable (N n l : Nat) (sk : SecretKey N n) (hN : 0 < N) (hl : 0 < l) :
    ∃ (S : Scheme N n l) (δ : Noise) (Enc : Gsw l N → Bool → Prop), S.sk = sk ∧ S.Sound δ Enc ∧ 0 < δ.cmux ∧ 0 < δ.br :=
  ⟨toyScheme N n l sk, toyNoise, toyEnc, rfl, toy_sound sk hl hN, by decide, by decide⟩

/-- A noisy encoding of 1 (error 2^29, other coefficients garbage) bootstrapped by the concrete backend. -/
example : ((Scheme.bootHalf (toyScheme 2 1 1 ⟨![1, 1], ![1]⟩) ⟨![4, 4], ![mu2 + 2 ^ 29, 99]⟩).toOption.map
    fun r => (r.b 0, r.b 1)) = some (mu2 + 1, 77) := by decide +kernel

end Homfa
