import Verif.Proof.TfheSound
import Verif.Spec.Calls
import Verif.Props.Backstream
import Verif.Props.Block
import Verif.Props.Flut
import Verif.Props.Btt

/-!
# C89: the algorithms of TFHE meet the assumptions about the library

Spec/TfheAlg.lean defines the operations of TFHE as they are published, with the random choices (keys, masks, noises) as arguments.  For every choice in which the noises are bounded, they
are a `Scheme.Sound` with the error bounds `Bounds.noise`.  So the theorems of the runners hold for them without an assumption about the library.
-/

namespace Homfa.Tfhe

variable {P : Params} {C : Coins P} {β : Bounds}

/-- **C89, decomposition of the key switches.** `t` digits of `w` bits lie between 0 and 2^w-1 and add up to the element up to half of the last step. -/
theorem C89_digits_plain {t w : Nat} (hw : 1 ≤ w) (ht : t * w ≤ 32) : (plainGadget t w).Ok (2 ^ w - 1) (2 ^ (32 - t * w) / 2) := plainGadget_ok hw ht

/-- **C89, decomposition of the external product.** The digits are at most 2^(w-1) in size. -/
theorem C89_digits_signed {t w : Nat} (hw : 1 ≤ w) (ht : t * w ≤ 32) : (signedGadget t w).Ok (2 ^ (w - 1)) (2 ^ (32 - t * w) / 2) := signedGadget_ok hw ht

/-- 0xABCDEF12 in 3 signed digits of 8 bits: -84, -50, -17 -/
example : (List.finRange 3).map (fun j => ((signedGadget 3 8).digit 0xABCDEF12#32 j).toInt) = [-84, -50, -17] ∧
    (-84 : Int) * 2 ^ 24 - 50 * 2 ^ 16 - 17 * 2 ^ 8 = 0xABCDEF12 - 2 ^ 32 - 0x12 := by decide +kernel

/-- **C89.** The operations of TFHE satisfy all that is assumed of the library. -/
theorem C89_tfhe_sound (h : β.Hold P C) : (scheme P C).Sound (β.noise P) (β.Enc P C) := scheme_sound h

/-- **C89, encrypting is sensible.** A ciphertext whose noise is less than half of a step encrypts at most one bit. -/
theorem C89_enc_sensible (h : β.Hold P C) (j : Fin P.l) (hj : 2 * β.gswNoise P < Torus.abs (P.G.step j)) : SensibleEnc (β.Enc P C) where
  functional g := by
    rintro ⟨h1, h2⟩
    have k1 := h1.b j ⟨0, Nat.two_pow_pos _⟩
    have k2 := h2.b j ⟨0, Nat.two_pow_pos _⟩
    rw [if_pos rfl] at k1 k2
    have k3 := k1.symm.trans k2
    unfold Near at k3
    have : bit true * P.G.step j - bit false * P.G.step j = P.G.step j := by
      show 1 * _ - 0 * _ = _
      rw [one_mul, zero_mul, sub_zero]
    rw [this] at k3
    omega
  exists_enc b := ⟨_, (scheme_sound h).encrypt 0 b⟩

/-- **C89, the gates of the older library**, on ciphertexts with an error of at most `m`. -/
theorem C89_gates_sound (h : β.Hold P C) {m : Nat} (hm : 2 * m + (β.noise P).ms < 2 ^ 29) (hm2 : m + (P.n + 1) * 2 ^ (30 - P.k2) < 2 ^ 29) :
    (gateScheme P C).Sound (β.noise P) (β.Enc P C) m ((β.noise P).br + (β.noise P).ks) := gateScheme_sound h hm hm2

theorem Bounds.Hold.fresh (h : β.Hold P C) {c : Gsw P.l (2 ^ P.k)} {b : Bool} (hc : Fresh P C c b) : β.Enc P C c b := by
  obtain ⟨r, rfl⟩ := hc
  exact (scheme_sound h).encrypt r b

theorem Bounds.Hold.freshCall (h : β.Hold P C) {c : Call (Gsw P.l (2 ^ P.k))} {b : Call Bool} (hc : Call.Rel (Fresh P C) c b) : Call.Rel (β.Enc P C) c b := by
  cases hc with
  | feed hc => exact .feed (h.fresh hc)
  | result => exact .result

/-- **C89, OFFLINE.** -/
theorem C89_offline (h : β.Hold P C) (g : Graph) (hg : g.WF) (boot : Nat) (hb : 0 < boot) (w : List Bool) (cs : List (Gsw P.l (2 ^ P.k)))
    (hcs : List.Forall₂ (Fresh P C) cs w.reverse)
    (hbud : (β.noise P).br + min boot w.length * (β.noise P).cmux + (β.noise P).ks + (β.noise P).ms < 2 ^ 30) (h31 : w.length < 2 ^ 31) :
    ∃ r r' c, offlineMake g w.length boot true false = .ok r ∧ r.evalAll (scheme P C) cs = .ok r' ∧ r'.result = .ok c ∧
      g.accepts w = .ok (decryptBit c (scheme P C).sk) :=
  C28_offline_decides (scheme_sound h) (Nat.two_pow_pos _) g hg boot hb w cs (hcs.imp fun _ _ => h.fresh) hbud h31

/-- **C89, REVERSE**, after every number of inputs. -/
theorem C89_reverse (h : β.Hold P C) (g : Graph) (hg : g.WF) (boot : Nat) (hb : 0 < boot) (w : List Bool) (cs : List (Gsw P.l (2 ^ P.k)))
    (hcs : List.Forall₂ (Fresh P C) cs w)
    (hbud : (β.noise P).br + min boot w.length * (β.noise P).cmux + (β.noise P).ks + (β.noise P).ms < 2 ^ 30) :
    ∃ r, reverseMake g boot false true false = .ok r ∧ ∀ k ≤ w.length, ∃ r' c, r.evalAll (scheme P C) (cs.take k) = .ok r' ∧ r'.result = .ok c ∧
      g.accepts (w.take k) = .ok (decryptBit c (scheme P C).sk) :=
  C29_reverse_decides (scheme_sound h) (Nat.two_pow_pos _) g hg boot hb w cs (hcs.imp fun _ _ => h.fresh) hbud

/-- **C89, BLOCK.** -/
theorem C89_block (h : β.Hold P C) (g : Graph) (hg : g.WF) (qs B : Nat) (hB : LiveBits g B) (hBN : B < 2 ^ P.k) (hB31 : B < 31)
    (hbud : (max 1 qs + B) * (β.noise P).cmux + (β.noise P).cb < 2 ^ 29) (hint : qs ≤ 2 ^ 31)
    (cs : List (Call (Gsw P.l (2 ^ P.k)))) (ps : List (Call Bool)) (hcs : List.Forall₂ (Call.Rel (Fresh P C)) cs ps) (hfirst : ∀ rest, ps ≠ .result :: rest) :
    ∃ r r' outs, Block.make g qs false = .ok r ∧
      runCalls (fun r c => Block.evalOne (scheme P C) r c) (fun r => Block.result (scheme P C) r) r cs = .ok (outs, r') ∧
      outs.map (fun c => Except.ok (decryptBit c (scheme P C).sk)) = (resultWords [] ps).map g.accepts :=
  C30_block_decides (scheme_sound h) g hg qs B hB hBN hB31 hbud hint cs ps (hcs.imp fun _ _ hc => h.freshCall hc) hfirst

/-- **C89, FLUT.** -/
theorem C89_flut (h : β.Hold P C) (g : Graph) (hg : g.WF) (max qs boot L : Nat) (hL : LiveMax g L) (hqs0 : 0 < qs) (hqs : qs < 31) (hmax : max < 31)
    (hmaxN : 2 ^ max ≤ 2 ^ P.k) (hboot : 0 < boot)
    (hbud : L * 2 ^ (qs / 2) * flutErr (β.noise P) L qs (boot - 1) + qs * (β.noise P).cmux + (β.noise P).ks + (β.noise P).ms < 2 ^ 30)
    (cs : List (Call (Gsw P.l (2 ^ P.k)))) (ps : List (Call Bool)) (hcs : List.Forall₂ (Call.Rel (Fresh P C)) cs ps) :
    ∃ r, Flut.make g max qs boot false = .ok r ∧
      (runCalls (fun r c => Flut.evalOne (scheme P C) r c) (fun r => Flut.result (scheme P C) r) r cs = .error .die ∨
      ∃ r' outs, runCalls (fun r c => Flut.evalOne (scheme P C) r c) (fun r => Flut.result (scheme P C) r) r cs = .ok (outs, r') ∧
        outs.map (fun c => Except.ok (decryptBit c (scheme P C).sk)) = (resultWords [] ps).map g.accepts) :=
  C32_flut_decides (scheme_sound h) g hg max qs boot L hL hqs0 hqs hmax hmaxN hboot hbud cs ps (hcs.imp fun _ _ hc => h.freshCall hc)

/-- **C89, the BTT of the counter test program**, for every input history. -/
theorem C89_test_btt (h : β.Hold P C) (h64 : 64 < 2 ^ P.k / 2) {m : Nat} (hm : 4 * m + (β.noise P).ms < 2 ^ 29) (hm2 : m + (P.n + 1) * 2 ^ (30 - P.k2) < 2 ^ 29)
    (he : (β.noise P).ks + (β.noise P).br + 6 * (β.noise P).cmux ≤ m) {cs : List (Gsw P.l (2 ^ P.k) × (Nat → RedTree))} {bs : List Bool}
    (hin : List.Forall₂ (fun c x => Fresh P C c.1 x ∧ (c.2 0).Valid 11) cs bs) :
    ∃ p r, plainRun testBtt bs = .ok p ∧ bttRun (gateScheme P C) testBtt cs = .ok r ∧
      ∀ trees, ∃ c, r.result (gateScheme P C) trees = .ok (c, r) ∧ tlweSymDecrypt c (gateScheme P C).sk = p.accept :=
  C51_test_btt (gateScheme_sound h (m := m) (by omega) hm2) h64 he (by omega) (by omega) (hin.imp fun _ _ hc => ⟨h.fresh hc.1, hc.2⟩)

/-! ## Instances -/

/-- 15 digits of 2 bits for level 1 and 16 digits of 2 bits elsewhere -/
def exParams (k n k2 : Nat) : Params where
  k := k
  n := n
  k2 := k2
  l := 15
  l2 := 16
  t10 := 16
  t11 := 16
  t21 := 16
  G := signedGadget 15 2
  G2 := signedGadget 16 2
  G10 := plainGadget 16 2
  G11 := plainGadget 16 2
  G21 := plainGadget 16 2
  hs j := halfStep 2 j

/-- Some keys, masks and noises: `e` or `-e` in the first group of keys and in the input bits, `e'` or `-e'` inside the circuit bootstrapping. -/
def exCoins (k n k2 : Nat) (e e' : Torus) : Coins (exParams k n k2) where
  s0 i := i.val % 2 == 0
  s1 i := i.val % 3 != 0
  s2 i := i.val % 5 < 2
  a10 i j d x := 0x9E3779B9#32 * BitVec.ofNat 32 (i.val + 31 * j.val + 1001 * x.val) + d
  e10 i j _ := if (i.val + j.val) % 2 = 0 then e else -e
  a11 i j d x := 0x9E3779B9#32 * BitVec.ofNat 32 (i.val + 37 * j.val + 1003 * x.val) - d
  e11 i j _ x := if (i.val + j.val + x.val) % 2 = 0 then e else -e
  a21 b i j d x := 0x9E3779B9#32 * BitVec.ofNat 32 (b.toNat + i.elim 7 (·.val) + 41 * j.val + 1007 * x.val) - d
  e21 _ _ j _ x := if (j.val + x.val) % 2 = 0 then e' else -e'
  a01 i r x := 0x9E3779B9#32 * BitVec.ofNat 32 (i.val + 43 * r.val + 1009 * x.val)
  e01 i r x := if (i.val + r.val + x.val) % 2 = 0 then e else -e
  a02 i r x := 0x9E3779B9#32 * BitVec.ofNat 32 (i.val + 47 * r.val + 1011 * x.val)
  e02 i r x := if (i.val + r.val + x.val) % 2 = 0 then e' else -e'
  a q r x := 0x9E3779B9#32 * BitVec.ofNat 32 (q + 53 * r.val + 1013 * x.val)
  e q r x := if (q + r.val + x.val) % 2 = 0 then e else -e

def exBounds (η η' : Nat) : Bounds where
  B := 2
  r := 2
  B2 := 2
  r2 := 0
  B10 := 3
  r10 := 0
  B11 := 3
  r11 := 0
  B21 := 3
  r21 := 0
  η01 := η
  η02 := η'
  η10 := η
  η11 := η
  η21 := η'
  ηin := η

theorem ex_hold {k n k2 : Nat} (hk : k ≤ 30) (hk2 : k2 ≤ 30) {e e' : Torus} {η η' : Nat} (he : Torus.abs e ≤ η) (he' : Torus.abs e' ≤ η') :
    (exBounds η η').Hold (exParams k n k2) (exCoins k n k2 e e') := by
  have hs : ∀ {p : Prop} [Decidable p] {x : Torus} {m : Nat}, Torus.abs x ≤ m → Torus.abs (if p then x else -x) ≤ m := by
    intro p _ x m hx
    split
    · exact hx
    · rw [Torus.abs_neg]; exact hx
  exact
    { k := hk
      k2 := hk2
      half := by
        intro j
        show halfStep 2 j.val + halfStep 2 j.val = 1#32 <<< (32 - (j.val + 1) * 2)
        have hj : j.val < 15 := j.isLt
        generalize j.val = x at hj
        revert x
        decide
      G := signedGadget_ok (t := 15) (w := 2) (by decide) (by decide)
      G2 := signedGadget_ok (t := 16) (w := 2) (by decide) (by decide)
      G10 := plainGadget_ok (t := 16) (w := 2) (by decide) (by decide)
      G11 := plainGadget_ok (t := 16) (w := 2) (by decide) (by decide)
      G21 := plainGadget_ok (t := 16) (w := 2) (by decide) (by decide)
      e01 := fun _ _ _ => hs he
      e02 := fun _ _ _ => hs he'
      e10 := fun _ _ _ => hs he
      e11 := fun _ _ _ _ => hs he
      e21 := fun _ _ _ _ _ => hs he'
      e := fun _ _ _ => hs he }

/-- Dimensions 8, 2 and 32, and a noise of 4 units everywhere: the hypotheses of `C89_offline` (bootstrapping after 10 inputs), `C89_reverse`, `C89_block` (blocks of 2 inputs, 3 bits for the
states) and `C89_enc_sensible` hold. -/
example : (exBounds 4 4).Hold (exParams 3 2 5) (exCoins 3 2 5 4 4) ∧
    (let δ := (exBounds 4 4).noise (exParams 3 2 5)
     δ.br + 10 * δ.cmux + δ.ks + δ.ms < 2 ^ 30 ∧ (max 1 2 + 3) * δ.cmux + δ.cb < 2 ^ 29 ∧ 0 < δ.br ∧ 0 < δ.cmux ∧ 0 < δ.ks) ∧
    2 * (exBounds 4 4).gswNoise (exParams 3 2 5) < Torus.abs ((exParams 3 2 5).G.step (⟨0, by decide⟩ : Fin 15)) :=
  ⟨ex_hold (by decide) (by decide) (by decide) (by decide), by decide +kernel, by decide +kernel⟩

/-- The dimensions 1024, 635 and 2048 that TFHEpp uses, noises of 4 units in the input and the keys for bootstrapping and key switching, and no noise inside the circuit bootstrapping: the
hypotheses of `C89_offline` hold with a bootstrapping after 100 inputs. -/
example : (exBounds 4 0).Hold (exParams 10 635 11) (exCoins 10 635 11 4 0) ∧
    (let δ := (exBounds 4 0).noise (exParams 10 635 11)
     δ.br + 100 * δ.cmux + δ.ks + δ.ms < 2 ^ 30) :=
  ⟨ex_hold (by decide) (by decide) (by decide) (by decide), by decide +kernel⟩

/-- the hypotheses of `C89_flut` -/
example : let δ := (exBounds 1 0).noise (exParams 8 2 8)
    2 * 2 ^ (4 / 2) * flutErr δ 2 4 (2 - 1) + 4 * δ.cmux + δ.ks + δ.ms < 2 ^ 30 := by decide +kernel

/-- the hypotheses of `C89_test_btt` and `C89_gates_sound` -/
example : (exBounds 1 0).Hold (exParams 8 2 8) (exCoins 8 2 8 1 0) ∧ 64 < 2 ^ 8 / 2 ∧
    (let δ := (exBounds 1 0).noise (exParams 8 2 8)
     4 * 2 ^ 20 + δ.ms < 2 ^ 29 ∧ 2 ^ 20 + (2 + 1) * 2 ^ (30 - 8) < 2 ^ 29 ∧ δ.ks + δ.br + 6 * δ.cmux ≤ 2 ^ 20) :=
  ⟨ex_hold (by decide) (by decide) (by decide) (by decide), by decide, by decide +kernel⟩

end Homfa.Tfhe
