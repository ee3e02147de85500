import Verif.Model.Tfhe

/-!
# The TFHE backend (TFHEpp) as homfa sees it

TFHEpp is a submodule that is not part of the repository.  Its operations are fields of `Scheme`, with the secret key they
were made for and the evaluation keys built in.  What the proofs assume about them is `Scheme.Sound` (Spec/Scheme.lean).
-/

namespace Homfa

/-- `N = Lvl1::n`, `n = Lvl0::n`, `l = Lvl1::l`. (the calls of TFHEpp in src/tfhepp_util.cpp:303-461 and src/online_dfa.cpp:348-367) -/
structure Scheme (N n l : Nat) where
  /-- the secret key -/
  sk : SecretKey N n
  /-- `TFHEpp::CMUXFFT<Lvl1>(out, cs, c1, c0)` -/
  cmux : Gsw l N → TRLWE N → TRLWE N → TRLWE N
  /-- `TFHEpp::IdentityKeySwitch<lvl10param>` -/
  iks : TLWE N → TLWE n
  /-- `TFHEpp::BlindRotate<lvl01param>` with a test vector -/
  blindRotate : TLWE n → Poly N → TRLWE N
  /-- `TFHEpp::TLWE2TRLWEIKS<lvl11param>` -/
  tlwe2trlwe : TLWE N → TRLWE N
  /-- `TFHEpp::CircuitBootstrappingFFT<lvl10param, lvl02param, lvl21param>`, i.e. `CircuitBootstrappingFFTLvl11`
  (src/tfhepp_util.cpp:444-449) -/
  cb : TLWE N → Gsw l N
  /-- `TFHEpp::trgswfftSymEncrypt<Lvl1>({b}, Lvl1::α, key)` with its randomness; `encrypt_bit_to_TRGSWLvl1FFT`
  (src/tfhepp_util.cpp:390-393) -/
  encrypt : Nat → Bool → Gsw l N

/-- `TFHEpp::μpolygen<Lvl1, μ>`: the constant test vector -/
def muPoly (N : Nat) (mu : Torus) : Poly N := fun _ => mu

/-- `TFHEpp::SampleExtractIndex<Lvl1>(out, src, i)`; outside the array it is undefined. (src/online_dfa.cpp:352, 516) -/
def sampleExtractAt {N : Nat} (src : TRLWE N) (i : Nat) : Res (TLWE N) :=
  if h : i < N then .ok (sampleExtract src ⟨i, h⟩) else .error .ub

namespace Scheme

variable {N n l : Nat} (S : Scheme N n l)

/-- `do_SEI_IKS_GBTLWE2TRLWE` (src/tfhepp_util.cpp:317-327): {-1/8, 1/8} to {-1/8, 1/8}. -/
def bootEighth (w : TRLWE N) : Res (TRLWE N) := do
  let tlwel1 ← sampleExtractAt w 0
  let tlwel0 := S.iks tlwel1
  pure (S.blindRotate tlwel0 (muPoly N mu8))

/-- `BS_TLWE_0_1o2_to_TRLWE_0_1o2` (src/tfhepp_util.cpp:332-344): {0, 1/2} to {0, 1/2}. -/
def bsHalfToHalf (src : TLWE n) : TRLWE N :=
  let src := { src with b := src.b - mu4 }
  let out := S.blindRotate src (muPoly N mu4)
  { out with b := fun i => if i.val = 0 then out.b i + mu4 else out.b i }

/-- `BS_TLWE_0_1o2_to_TRLWE_m1o8_1o8` (src/tfhepp_util.cpp:349-359): {0, 1/2} to {-1/8, 1/8}. -/
def bsHalfToEighth (src : TLWE n) : TRLWE N :=
  let src := { src with b := src.b - mu4 }
  S.blindRotate src (muPoly N mu8)

/-- `do_SEI_IKS_GBTLWE2TRLWE_2` (src/tfhepp_util.cpp:363-374): {0, 1/2} to {0, 1/2}. -/
def bootHalf (w : TRLWE N) : Res (TRLWE N) := do
  let tlwel1 ← sampleExtractAt w 0
  let tlwel0 := S.iks tlwel1
  pure (S.bsHalfToHalf tlwel0)

/-- `do_SEI_IKS_GBTLWE2TRLWE_3` (src/tfhepp_util.cpp:378-388): {0, 1/2} to {-1/8, 1/8}. -/
def bootHalfToEighth (w : TRLWE N) : Res (TRLWE N) := do
  let tlwel1 ← sampleExtractAt w 0
  let tlwel0 := S.iks tlwel1
  pure (S.bsHalfToEighth tlwel0)

/-- `HomXORwoSE` (src/tfhepp_util.cpp:451-461); `Lvl0::μ` and `Lvl1::μ` are 1/8. -/
def homXor (lhs rhs : TLWE n) : TRLWE N :=
  let temp : TLWE n := ⟨fun i => 2 * lhs.a i + 2 * rhs.a i, 2 * lhs.b + 2 * rhs.b⟩
  let temp := { temp with b := temp.b + 2 * mu8 }
  S.blindRotate temp (muPoly N mu8)

end Scheme
end Homfa
