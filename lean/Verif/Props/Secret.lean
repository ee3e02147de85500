import Verif.Proof.Secret
import Verif.Proof.Scheme

/-!
# C60: the evaluating party needs no secret key

Two parties whose evaluation operations are the same but whose secret keys differ (one of them may hold a key of zeros) compute the same
ciphertexts.  `enc` uses nothing but the encryption function and `dec` nothing but the secret key.
-/

namespace Homfa

variable {N n l : Nat}

/-- `S` and `S'` evaluate alike: only the secret key and the encryption function may differ. -/
structure SameEvaluation (S S' : Scheme N n l) : Prop where
  cmux : S.cmux = S'.cmux
  iks : S.iks = S'.iks
  blindRotate : S.blindRotate = S'.blindRotate
  tlwe2trlwe : S.tlwe2trlwe = S'.tlwe2trlwe
  cb : S.cb = S'.cb

theorem SameEvaluation.eq {S S' : Scheme N n l} (h : SameEvaluation S S') : S' = S.withSecret S'.sk S'.encrypt := by
  obtain ⟨h1, h2, h3, h4, h5⟩ := h
  cases S; cases S'
  simp only at h1 h2 h3 h4 h5
  subst h1 h2 h3 h4 h5
  rfl

/-- **C60**, `run offline` -/
theorem C60_offline {S S' : Scheme N n l} (h : SameEvaluation S S') (spec : List Char) (size : Nat) (cs : List (Gsw l N)) (boot : Nat)
    (sanitize : Bool) : doRunOffline S spec size cs boot sanitize = doRunOffline S' spec size cs boot sanitize := by
  rw [h.eq]; rfl

/-- **C60**, `run reverse` -/
theorem C60_reverse {S S' : Scheme N n l} (h : SameEvaluation S S') (spec : List Char) (size : Nat) (cs : List (Gsw l N))
    (outFile outDir : Option String) (outFreq boot : Nat) (isRev sanitize : Bool) :
    doRunReverse S spec size cs outFile outDir outFreq boot isRev sanitize =
      doRunReverse S' spec size cs outFile outDir outFreq boot isRev sanitize := by
  rw [h.eq]; rfl

/-- **C60**, `run block` -/
theorem C60_block {S S' : Scheme N n l} (h : SameEvaluation S S') (spec : List Char) (cs : List (Gsw l N)) (queue : Nat) (sanitize : Bool) :
    doRunBlock S spec cs queue sanitize = doRunBlock S' spec cs queue sanitize := by
  rw [h.eq]
  simp only [doRunBlock, blockEvalOne_secret, blockResult_secret]

/-- **C60**, `run flut` -/
theorem C60_flut {S S' : Scheme N n l} (h : SameEvaluation S S') (spec : List Char) (size : Nat) (cs : List (Gsw l N))
    (outFile outDir : Option String) (outFreq queue boot : Nat) (maxSecond : Option Nat) (sanitize : Bool) :
    doRunFlut S spec size cs outFile outDir outFreq queue boot maxSecond sanitize =
      doRunFlut S' spec size cs outFile outDir outFreq queue boot maxSecond sanitize := by
  rw [h.eq]
  simp only [doRunFlut, flutEvalOne_secret, flutResult_secret]

/-- **C60**, the client: `enc` depends on the encryption function only -/
theorem C60_enc {S S' : Scheme N n l} (h : S.encrypt = S'.encrypt) (rand : Nat → Nat) (input : Option (List Byte)) (ap : Nat) :
    doEnc S rand input ap = doEnc S' rand input ap := by
  unfold doEnc encOne
  rw [h]

/-- **C60**, the client: `dec` depends on the secret key only -/
theorem C60_dec {S S' : Scheme N n l} (h : S.sk = S'.sk) (c : TLWE N) : doDec S c = doDec S' c := by
  unfold doDec
  rw [h]

/-- There are two schemes that evaluate alike of which one is sound, and whose secret keys read some ciphertext differently. -/
example : ∃ (S S' : Scheme 4 2 1) (δ : Noise) (Enc : Gsw 1 4 → Bool → Prop) (c : TLWE 4), S.Sound δ Enc ∧ SameEvaluation S S' ∧
    doDec S c = ['1'] ∧ doDec S' c = ['0'] :=
  ⟨toyScheme 4 2 1 ⟨fun _ => 0#32, fun _ => 0#32⟩,
    (toyScheme 4 2 1 ⟨fun _ => 0#32, fun _ => 0#32⟩).withSecret ⟨fun _ => 1#32, fun _ => 1#32⟩ (fun _ _ _ _ _ => 0#64), toyNoise, toyEnc,
    ⟨fun i => if i = 0 then 1#32 <<< 31 else 0#32, 1#32 <<< 31⟩, toy_sound _ (by omega) (by omega), ⟨rfl, rfl, rfl, rfl, rfl⟩,
    (by decide +kernel), (by decide +kernel)⟩

end Homfa
