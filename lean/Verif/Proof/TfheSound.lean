import Verif.Proof.TfheRotate

/-! TFHE meets the assumptions about the library. -/

namespace Homfa.Tfhe

variable {N n l t k : Nat}

/-! ## Encryption -/

theorem near_add_right {η : Nat} {x e : Torus} (h : Torus.abs e ≤ η) : Near η (x + e) x := by
  unfold Near; rwa [add_sub_cancel_left]

theorem tlweEnc_near {η : Nat} (key a : Fin n → Torus) (m : Torus) {e : Torus} (he : Torus.abs e ≤ η) : Near η ((tlweEnc key a m e).phase key) m := by
  rw [phase_eq_sum]
  have : (tlweEnc key a m e).b - ∑ i, (tlweEnc key a m e).a i * key i = m + e := by
    show (∑ i, a i * key i) + m + e - ∑ i, a i * key i = _
    abel
  rw [this]
  exact near_add_right he

theorem trlweEnc_phase (key : Fin N → Torus) (a m e : Poly N) (i : Fin N) : (trlweEnc key a m e).phase key i = m i + e i := by
  show polyMul a key i + m i + e i - polyMul a key i = _
  abel

theorem trlweEnc_near {η : Nat} (key : Fin N → Torus) (a m : Poly N) {e : Poly N} (he : ∀ i, Torus.abs (e i) ≤ η) (i : Fin N) :
    Near η ((trlweEnc key a m e).phase key i) (m i) := by
  rw [trlweEnc_phase]; exact near_add_right (he i)

theorem polyMul_const_left (s : Poly N) (c : Torus) (i : Fin N) : polyMul (fun k => if k.val = 0 then c else 0) s i = c * s i := by
  rw [polyMul_eq, Finset.sum_eq_single ⟨0, i.pos⟩]
  · rw [if_pos rfl]
    congr 1
    have : ((i : Nat) : Int) - ((0 : Nat) : Int) = (i : Nat) := by omega
    show ext s (((i : Nat) : Int) - ((0 : Nat) : Int)) = _
    rw [this, ext_of_lt]
  · intro j _ hj
    rw [if_neg (fun h => hj (Fin.ext h)), zero_mul]
  · intro h; exact absurd (Finset.mem_univ _) h

theorem trgswEnc_ok {η : Nat} (G : Gadget l) (key : Fin N → Torus) (a : Fin (2 * l) → Poly N) {e : Fin (2 * l) → Poly N} (he : ∀ r i, Torus.abs (e r i) ≤ η) (b : Bool) :
    IsTrgsw G key η (trgswEnc G key a e b) b := by
  constructor
  · intro j i
    have hj : (⟨(rowA j).val % l, Nat.mod_lt _ (by have := j.isLt; omega)⟩ : Fin l) = j := Fin.ext (Nat.mod_eq_of_lt j.isLt)
    unfold trgswEnc
    dsimp only
    rw [if_pos (show (rowA j).val < l from j.isLt), hj]
    have e1 : (TRLWE.mk (fun i => (trlweEnc key (a (rowA j)) (fun _ => 0) (e (rowA j))).a i + if i.val = 0 then bit b * G.step j else 0)
        (trlweEnc key (a (rowA j)) (fun _ => 0) (e (rowA j))).b).phase key i =
        (trlweEnc key (a (rowA j)) (fun _ => 0) (e (rowA j))).phase key i - bit b * G.step j * key i := by
      unfold TRLWE.phase
      dsimp only
      rw [polyMul_add]
      dsimp only
      rw [polyMul_const_left]
      abel
    rw [e1, trlweEnc_phase]
    have h := near_add_right (x := -(bit b * G.step j * key i)) (he (rowA j) i)
    have e2 : -(bit b * G.step j * key i) + e (rowA j) i = 0 + e (rowA j) i - bit b * G.step j * key i := by abel
    rwa [e2] at h
  · intro j i
    have hj : (⟨(rowB j).val % l, Nat.mod_lt _ (by have := j.isLt; omega)⟩ : Fin l) = j :=
      Fin.ext (by show (l + j.val) % l = j.val; rw [Nat.add_mod_left]; exact Nat.mod_eq_of_lt j.isLt)
    unfold trgswEnc
    dsimp only
    rw [if_neg (show ¬ (rowB j).val < l by show ¬ l + j.val < l; omega), hj]
    have e1 : (TRLWE.mk (trlweEnc key (a (rowB j)) (fun _ => 0) (e (rowB j))).a
        (fun i => (trlweEnc key (a (rowB j)) (fun _ => 0) (e (rowB j))).b i + if i.val = 0 then bit b * G.step j else 0)).phase key i =
        (trlweEnc key (a (rowB j)) (fun _ => 0) (e (rowB j))).phase key i + if i.val = 0 then bit b * G.step j else 0 := by
      unfold TRLWE.phase
      dsimp only
      abel
    rw [e1, trlweEnc_phase]
    have h := near_add_right (x := if i.val = 0 then bit b * G.step j else 0) (he (rowB j) i)
    have e2 : (if i.val = 0 then bit b * G.step j else 0) + e (rowB j) i = 0 + e (rowB j) i + if i.val = 0 then bit b * G.step j else 0 := by abel
    rwa [e2] at h

theorem IsTrgsw.mono {G : Gadget l} {key : Fin N → Torus} {η η' : Nat} {g : Rows l N} {b : Bool} (h : IsTrgsw G key η g b) (hη : η ≤ η') : IsTrgsw G key η' g b :=
  ⟨fun j i => (h.a j i).mono hη, fun j i => (h.b j i).mono hη⟩

theorem toRows_ofRows (g : Rows l N) : toRows (ofRows g) = g := by
  funext r
  unfold toRows ofRows
  have h : ∀ x : Torus, (x.setWidth 64).setWidth 32 = x := by
    intro x; apply BitVec.eq_of_toNat_eq; simp only [BitVec.toNat_setWidth]; have := x.isLt; omega
  have h0 : (1 : Fin 2) = 0 ↔ False := by decide
  simp only [h, if_true, h0, if_false]

theorem keyOf_abs {M : Nat} (s : Fin M → Bool) (i : Fin M) : Torus.abs (keyOf s i) ≤ 1 := by
  unfold keyOf; cases s i <;> decide

/-! ## The scheme -/

variable {P : Params} {C : Coins P} {β : Bounds}

theorem Bounds.Hold.iks (h : β.Hold P C) (c : TLWE (2 ^ P.k)) :
    Near (2 ^ P.k * (P.t10 * β.η10 + β.r10)) ((Tfhe.iks P.G10 C.ik10 c).phase (keyOf C.s0)) (c.phase (keyOf C.s1)) :=
  iks_near h.G10 (keyOf_abs C.s1) (fun i j d _ => tlweEnc_near _ _ _ (h.e10 i j d)) c

theorem Bounds.Hold.bk01 (h : β.Hold P C) (i : Fin P.n) : IsTrgsw P.G (keyOf C.s1) β.η01 (C.bk01 i) (C.s0 i) := trgswEnc_ok _ _ _ (h.e01 i) _
theorem Bounds.Hold.bk02 (h : β.Hold P C) (i : Fin P.n) : IsTrgsw P.G2 (keyOf C.s2) β.η02 (C.bk02 i) (C.s0 i) := trgswEnc_ok _ _ _ (h.e02 i) _

/-- circuit bootstrapping from level 0 -/
theorem Bounds.Hold.cb0 (h : β.Hold P C) (c : TLWE P.n) (b : Bool)
    (hb : if b then (((P.n + 1) * 2 ^ (30 - P.k2) : Nat) : Int) < (c.phase (keyOf C.s0)).toInt ∧ (c.phase (keyOf C.s0)).toInt < 2 ^ 31 - (((P.n + 1) * 2 ^ (30 - P.k2) : Nat) : Int)
      else -(2 : Int) ^ 31 + (((P.n + 1) * 2 ^ (30 - P.k2) : Nat) : Int) < (c.phase (keyOf C.s0)).toInt ∧ (c.phase (keyOf C.s0)).toInt < -(((P.n + 1) * 2 ^ (30 - P.k2) : Nat) : Int)) :
    β.Enc P C (ofRows (circuitBootstrap P.k2 P.G2 C.bk02 P.G21 C.pk21 P.hs c)) b := by
  unfold Bounds.Enc
  rw [toRows_ofRows]
  refine (circuitBootstrap_rows (key2 := keyOf C.s2) (η3 := β.η21) (E := P.n * (2 * P.l2 * (2 ^ P.k2 * (β.B2 * β.η02)) + (2 ^ P.k2 + 1) * β.r2)) h.G21 (keyOf_abs C.s1) (keyOf_abs C.s2)
    (fun body i j d _ k => trlweEnc_near _ _ _ (h.e21 body i j d) k) h.half ?_).mono (Nat.le_max_right _ _)
  intro j i hi
  cases b with
  | true => exact blindRotate_pos h.G2 (keyOf_abs C.s2) h.bk02 h.k2 c _ i hi hb.1 hb.2
  | false => exact blindRotate_neg h.G2 (keyOf_abs C.s2) h.bk02 h.k2 c _ i hi hb.1 hb.2

theorem scheme_sound (h : β.Hold P C) : (scheme P C).Sound (β.noise P) (β.Enc P C) where
  cmux g b c1 c0 i hg := cmux_near h.G (keyOf_abs C.s1) hg c1 c0 i
  iks c := h.iks c
  blindRotate_pos c mu i hi h1 h2 := blindRotate_pos h.G (keyOf_abs C.s1) h.bk01 h.k c mu i hi h1 h2
  blindRotate_neg c mu i hi h1 h2 := blindRotate_neg h.G (keyOf_abs C.s1) h.bk01 h.k c mu i hi h1 h2
  tlwe2trlwe c i := tlwe2trlwe_near h.G11 (keyOf_abs C.s1) (fun i j d _ k => trlweEnc_near _ _ _ (h.e11 i j d) k) c i
  cb_pos c h1 h2 := h.cb0 _ true (toInt_near_pos' (h.iks c) h1 h2)
  cb_neg c h1 h2 := h.cb0 _ false (toInt_near_neg' (h.iks c) h1 h2)
  encrypt r b := by
    show IsTrgsw _ _ _ _ _
    rw [show toRows ((scheme P C).encrypt r b) = _ from toRows_ofRows _]
    exact (trgswEnc_ok P.G (keyOf C.s1) (C.a r) (h.e r) b).mono (Nat.le_max_left _ _)

/-! ## Gates -/

theorem gate_near (h : β.Hold P C) (c : TLWE P.n) (b : Bool)
    (hb : if b then ((β.noise P).ms : Int) < (c.phase (keyOf C.s0)).toInt ∧ (c.phase (keyOf C.s0)).toInt < 2 ^ 31 - ((β.noise P).ms : Int)
      else -(2 : Int) ^ 31 + ((β.noise P).ms : Int) < (c.phase (keyOf C.s0)).toInt ∧ (c.phase (keyOf C.s0)).toInt < -((β.noise P).ms : Int)) :
    Near ((β.noise P).br + (β.noise P).ks) ((gate P C c).phase (keyOf C.s0)) (eighth b) := by
  unfold gate
  refine ((h.iks _).trans (e' := (β.noise P).br) ?_).mono (by rw [Nat.add_comm]; exact Nat.le_refl _)
  rw [phase_sampleExtract]
  cases b with
  | true => exact blindRotate_pos h.G (keyOf_abs C.s1) h.bk01 h.k c _ _ rfl hb.1 hb.2
  | false => exact blindRotate_neg h.G (keyOf_abs C.s1) h.bk01 h.k c _ _ rfl hb.1 hb.2

theorem sign_of_near {e m d : Nat} {x y : Torus} {b : Bool} (h : Near e x y) (hd : if b then y.toInt = d else y.toInt = -(d : Int)) (h1 : e + m < d) (h2 : d + e + m < 2 ^ 31) :
    if b then (m : Int) < x.toInt ∧ x.toInt < 2 ^ 31 - (m : Int) else -(2 : Int) ^ 31 + (m : Int) < x.toInt ∧ x.toInt < -(m : Int) := by
  cases b with
  | true =>
    have := toInt_pos_of_near (m := d) hd h (by omega) (by omega)
    rw [if_pos rfl]; omega
  | false =>
    have := toInt_neg_of_near (m := d) hd h (by omega) (by omega)
    rw [if_neg (by decide)]; omega

theorem gateScheme_sound (h : β.Hold P C) {m : Nat} (hm : 2 * m + (β.noise P).ms < 2 ^ 29) (hm2 : m + (P.n + 1) * 2 ^ (30 - P.k2) < 2 ^ 29) :
    (gateScheme P C).Sound (β.noise P) (β.Enc P C) m ((β.noise P).br + (β.noise P).ks) where
  base := scheme_sound h
  homOR x y a b hx hy := by
    refine gate_near h _ _ ?_
    have e1 : (⟨fun i => x.a i + y.a i, x.b + y.b + mu8⟩ : TLWE P.n).phase (keyOf C.s0) = x.phase (keyOf C.s0) + y.phase (keyOf C.s0) + mu8 := by
      simp only [phase_eq_sum, add_mul, Finset.sum_add_distrib]; abel
    rw [e1]
    have h1 := (hx.add hy).add_const mu8
    cases a <;> cases b
    · exact sign_of_near (d := 2 ^ 29) h1 (by decide) (by omega) (by omega)
    · exact sign_of_near (d := 2 ^ 29) h1 (by decide) (by omega) (by omega)
    · exact sign_of_near (d := 2 ^ 29) h1 (by decide) (by omega) (by omega)
    · exact sign_of_near (d := 3 * 2 ^ 29) h1 (by decide) (by omega) (by omega)
  homANDNY x y a b hx hy := by
    refine gate_near h _ _ ?_
    have e1 : (⟨fun i => -x.a i + y.a i, -x.b + y.b - mu8⟩ : TLWE P.n).phase (keyOf C.s0) = -x.phase (keyOf C.s0) + y.phase (keyOf C.s0) - mu8 := by
      simp only [phase_eq_sum, add_mul, neg_mul, Finset.sum_add_distrib, Finset.sum_neg_distrib]; abel
    rw [e1]
    have h1 := (hx.neg.add hy).sub_const mu8
    cases a <;> cases b
    · exact sign_of_near (d := 2 ^ 29) h1 (by decide) (by omega) (by omega)
    · exact sign_of_near (d := 2 ^ 29) h1 (by decide) (by omega) (by omega)
    · exact sign_of_near (d := 3 * 2 ^ 29) h1 (by decide) (by omega) (by omega)
    · exact sign_of_near (d := 2 ^ 29) h1 (by decide) (by omega) (by omega)
  cb01 c b hc := by
    refine h.cb0 c b (sign_of_near (d := 2 ^ 29) hc ?_ (by omega) (by omega))
    cases b <;> decide

/-! ## Gadgets -/

theorem abs_ofInt (z : Int) : Torus.abs (BitVec.ofInt 32 z) ≤ z.natAbs := by
  unfold Torus.abs
  rw [BitVec.toInt_ofInt]
  have h1 := Int.bmod_le (x := z) (m := 2 ^ 32) (by decide)
  have h2 := Int.le_bmod (x := z) (m := 2 ^ 32) (by decide)
  rw [Int.bmod_def] at *
  split at * <;> omega

theorem shift_eq {s : Nat} (hs : s ≤ 31) : 1#32 <<< s = BitVec.ofNat 32 (2 ^ s) := by
  apply BitVec.eq_of_toNat_eq
  rw [BitVec.toNat_shiftLeft, Nat.shiftLeft_eq]
  simp

theorem digits_sum {w t : Nat} (hw : 1 ≤ w) (ht : t * w ≤ 32) (x : Torus) :
    (∑ j : Fin t, bitsDigit w x j * 1#32 <<< (32 - (j.val + 1) * w)) = x - BitVec.ofNat 32 (x.toNat % 2 ^ (32 - t * w)) := by
  induction t with
  | zero =>
    rw [Fin.sum_univ_zero, Nat.zero_mul, Nat.sub_zero, Nat.mod_eq_of_lt x.isLt, BitVec.ofNat_toNat]
    simp
  | succ t ih =>
    rw [Fin.sum_univ_castSucc]
    have h1 : t * w ≤ 32 := by
      have : (t + 1) * w = t * w + w := by ring
      omega
    have ih' := ih h1
    simp only [Fin.val_castSucc, Fin.val_last] at *
    rw [ih']
    have hs : 32 - t * w = 32 - (t + 1) * w + w := by
      have : (t + 1) * w = t * w + w := by ring
      omega
    have hs31 : 32 - (t + 1) * w ≤ 31 := by
      have : (t + 1) * w = t * w + w := by ring
      omega
    unfold bitsDigit
    rw [hs]
    generalize 32 - (t + 1) * w = s at *
    rw [pow_add, Nat.mod_mul, shift_eq hs31, BitVec.ofNat_add, BitVec.ofNat_mul]
    ring

theorem abs_le_toNat (x : Torus) : Torus.abs x ≤ x.toNat := by
  unfold Torus.abs
  rw [BitVec.toInt_eq_toNat_cond]
  have := x.isLt
  split <;> omega

theorem bitsDigit_toNat (w : Nat) (x : Torus) (j : Nat) : (bitsDigit w x j).toNat < 2 ^ w := by
  unfold bitsDigit
  rw [BitVec.toNat_ofNat]
  exact Nat.lt_of_le_of_lt (Nat.mod_le _ _) (Nat.mod_lt _ (Nat.two_pow_pos w))

/-- rounding to a multiple of 2^(32-t w) -/
theorem round_near {t w : Nat} (ht : t * w ≤ 32) (x : Torus) :
    Near (2 ^ (32 - t * w) / 2) (x + roundOffset t w - BitVec.ofNat 32 ((x + roundOffset t w).toNat % 2 ^ (32 - t * w))) x := by
  unfold roundOffset
  by_cases h : t * w < 32
  · rw [if_pos h, shift_eq (by omega)]
    have hs : 32 - t * w = 31 - t * w + 1 := by omega
    rw [hs]
    generalize 31 - t * w = s
    generalize (x + BitVec.ofNat 32 (2 ^ s)).toNat = y
    have h1 := Nat.mod_lt y (Nat.two_pow_pos (s + 1))
    rw [pow_succ] at *
    rw [Nat.mul_div_cancel _ (by decide)]
    generalize y % (2 ^ s * 2) = r at *
    unfold Near
    have e1 : x + BitVec.ofNat 32 (2 ^ s) - BitVec.ofNat 32 r - x = BitVec.ofInt 32 (((2 ^ s : Nat) : Int) - r) := by
      have : BitVec.ofInt 32 (((2 ^ s : Nat) : Int) - r) + BitVec.ofNat 32 r = BitVec.ofNat 32 (2 ^ s) := by
        rw [← BitVec.ofInt_natCast, ← BitVec.ofInt_natCast, ← BitVec.ofInt_add, sub_add_cancel]
      rw [← this]; abel
    rw [e1]
    refine Nat.le_trans (abs_ofInt _) ?_
    generalize 2 ^ s = q at *
    omega
  · rw [if_neg h]
    have hs : 32 - t * w = 0 := by omega
    rw [hs, pow_zero, Nat.mod_one]
    have : x + 0#32 - 0#32 = x := by simp
    rw [this]; exact Near.rfl'

theorem plainGadget_ok {t w : Nat} (hw : 1 ≤ w) (ht : t * w ≤ 32) : (plainGadget t w).Ok (2 ^ w - 1) (2 ^ (32 - t * w) / 2) where
  small x j := by
    have h1 := bitsDigit_toNat w (x + roundOffset t w) j
    have h2 := abs_le_toNat (bitsDigit w (x + roundOffset t w) j)
    show Torus.abs (bitsDigit w (x + roundOffset t w) j) ≤ _
    omega
  close x := by
    have h := digits_sum hw ht (x + roundOffset t w)
    show Near _ (∑ j : Fin t, bitsDigit w (x + roundOffset t w) j * 1#32 <<< (32 - (j.val + 1) * w)) x
    rw [h]
    exact round_near ht x

theorem signedGadget_ok {t w : Nat} (hw : 1 ≤ w) (ht : t * w ≤ 32) : (signedGadget t w).Ok (2 ^ (w - 1)) (2 ^ (32 - t * w) / 2) where
  small x j := by
    have hw' : w ≤ 32 := by
      have := j.isLt
      have : 1 * w ≤ t * w := Nat.mul_le_mul_right _ (by omega)
      omega
    have h1 := bitsDigit_toNat w (x + signOffset t w + roundOffset t w) j
    show Torus.abs (bitsDigit w (x + signOffset t w + roundOffset t w) j - 1#32 <<< (w - 1)) ≤ _
    generalize bitsDigit w (x + signOffset t w + roundOffset t w) j = d at *
    rw [shift_eq (by omega)]
    have e1 : d - BitVec.ofNat 32 (2 ^ (w - 1)) = BitVec.ofInt 32 ((d.toNat : Int) - ((2 ^ (w - 1) : Nat) : Int)) := by
      rw [sub_eq_iff_eq_add, ← BitVec.ofInt_natCast, ← BitVec.ofInt_add, sub_add_cancel, BitVec.ofInt_natCast, BitVec.ofNat_toNat]
      simp
    rw [e1]
    refine Nat.le_trans (abs_ofInt _) ?_
    have h2 : 2 ^ w = 2 ^ (w - 1) * 2 := by rw [← pow_succ]; congr 1; omega
    generalize 2 ^ (w - 1) = q at *
    omega
  close x := by
    have h := digits_sum hw ht (x + signOffset t w + roundOffset t w)
    show Near _ (∑ j : Fin t, (bitsDigit w (x + signOffset t w + roundOffset t w) j - 1#32 <<< (w - 1)) * 1#32 <<< (32 - (j.val + 1) * w)) x
    simp only [sub_mul, Finset.sum_sub_distrib]
    rw [h]
    have h2 := (round_near ht (x + signOffset t w)).sub_const (signOffset t w)
    rw [add_sub_cancel_right] at h2
    exact h2

end Homfa.Tfhe
