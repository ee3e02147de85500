import Verif.Proof.TfheAlg

/-! The blind rotation and the circuit bootstrapping of TFHE. -/

namespace Homfa.Tfhe

variable {N n l t k : Nat}

theorem phase_mulX (c : TRLWE N) (m : Int) (key : Fin N → Torus) : (c.mulX m).phase key = rot m (c.phase key) := phase_rot c m key

theorem near_rot {e : Nat} {p q : Poly N} (h : ∀ i, Near e (p i) (q i)) (m : Int) (i : Fin N) : Near e (rot m p i) (rot m q i) := near_ext h _

/-- the exponent by which the blind rotation has rotated after the steps `is` -/
def rotSum (k : Nat) (s : Fin n → Bool) (c : TLWE n) (is : List (Fin n)) : Int :=
  (is.map fun i => if s i then (modSwitch k (c.a i) : Int) else 0).sum

theorem rot_steps {G : Gadget l} {B e η : Nat} (hG : G.Ok B e) {key : Fin (2 ^ k) → Torus} (hkey : ∀ i, Torus.abs (key i) ≤ 1) {bk : Fin n → Rows l (2 ^ k)}
    {s : Fin n → Bool} (hbk : ∀ i, IsTrgsw G key η (bk i) (s i)) (c : TLWE n) (v : Poly (2 ^ k)) (is : List (Fin n)) (acc : TRLWE (2 ^ k)) (m : Int) (E : Nat)
    (hacc : ∀ i, Near E (acc.phase key i) (rot m v i)) (i : Fin (2 ^ k)) :
    Near (E + is.length * (2 * l * (2 ^ k * (B * η)) + (2 ^ k + 1) * e))
      ((is.foldl (fun acc i => cmux G (bk i) (acc.mulX (modSwitch k (c.a i))) acc) acc).phase key i) (rot (m + rotSum k s c is) v i) := by
  induction is generalizing acc m E with
  | nil =>
    have := hacc i
    simpa [rotSum] using this
  | cons x is ih =>
    rw [List.foldl_cons]
    have h1 : ∀ i, Near (E + (2 * l * (2 ^ k * (B * η)) + (2 ^ k + 1) * e))
        ((cmux G (bk x) (acc.mulX (modSwitch k (c.a x))) acc).phase key i) (rot (m + if s x then (modSwitch k (c.a x) : Int) else 0) v i) := by
      intro i
      have h2 := cmux_near hG hkey (hbk x) (acc.mulX (modSwitch k (c.a x))) acc i
      refine (h2.trans (e' := E) ?_).mono (by omega)
      cases s x with
      | false => simpa using hacc i
      | true =>
        simp only [if_true]
        rw [phase_mulX, add_comm m, ← rot_rot]
        exact near_rot hacc _ i
    have h3 := ih _ _ _ h1
    have e1 : m + rotSum k s c (x :: is) = (m + if s x then (modSwitch k (c.a x) : Int) else 0) + rotSum k s c is := by
      unfold rotSum; rw [List.map_cons, List.sum_cons]; ring
    rw [e1]
    refine h3.mono ?_
    rw [List.length_cons]
    ring_nf
    omega

theorem blindRotate_near {G : Gadget l} {B e η : Nat} (hG : G.Ok B e) {key : Fin (2 ^ k) → Torus} (hkey : ∀ i, Torus.abs (key i) ≤ 1) {bk : Fin n → Rows l (2 ^ k)}
    {s : Fin n → Bool} (hbk : ∀ i, IsTrgsw G key η (bk i) (s i)) (c : TLWE n) (v : Poly (2 ^ k)) (i : Fin (2 ^ k)) :
    Near (n * (2 * l * (2 ^ k * (B * η)) + (2 ^ k + 1) * e)) ((blindRotate k G bk c v).phase key i)
      (ext v (i + (modSwitch k c.b - rotSum k s c (List.finRange n)))) := by
  have h := rot_steps hG hkey hbk c v (List.finRange n) ((trivialTRLWE v).mulX (-(modSwitch k c.b : Int))) (-(modSwitch k c.b : Int)) 0
    (fun i => by rw [phase_mulX, phase_trivial]; exact Near.rfl') i
  rw [List.length_finRange, Nat.zero_add] at h
  have e1 : rot (-(modSwitch k c.b : Int) + rotSum k s c (List.finRange n)) v i = ext v (i + (modSwitch k c.b - rotSum k s c (List.finRange n))) := by
    unfold rot; congr 1; ring
  rwa [e1] at h

/-! ### Rounding -/

theorem modSwitch_near (hk : k ≤ 30) (x : Torus) : Near (2 ^ (30 - k)) (BitVec.ofInt 32 ((modSwitch k x : Int) * 2 ^ (31 - k))) x := by
  unfold modSwitch
  obtain ⟨m, hm, rfl⟩ : ∃ m, m ≤ 30 ∧ k = 30 - m := ⟨30 - k, by omega, by omega⟩
  have e1 : 30 - (30 - m) = m := by omega
  have e2 : 31 - (30 - m) = m + 1 := by omega
  rw [e1, e2]
  have h1 := Nat.div_add_mod (x + 1#32 <<< m).toNat (2 ^ (m + 1))
  have h2 := Nat.mod_lt (x + 1#32 <<< m).toNat (Nat.two_pow_pos (m + 1))
  have h3 : (1#32 <<< m).toNat = 2 ^ m := by
    rw [BitVec.toNat_shiftLeft, Nat.shiftLeft_eq]
    have : 2 ^ m ≤ 2 ^ 30 := Nat.pow_le_pow_right (by decide) hm
    simp; omega
  generalize hq : (x + 1#32 <<< m).toNat / 2 ^ (m + 1) = q at h1
  generalize hr : (x + 1#32 <<< m).toNat % 2 ^ (m + 1) = r at h1 h2
  have e3 : BitVec.ofInt 32 ((q : Int) * 2 ^ (m + 1)) - x = BitVec.ofInt 32 ((2 ^ m : Int) - r) := by
    have : x = BitVec.ofInt 32 ((x + 1#32 <<< m).toNat : Int) - BitVec.ofInt 32 (2 ^ m : Int) := by
      rw [show (2 ^ m : Int) = ((2 ^ m : Nat) : Int) by push_cast; rfl, BitVec.ofInt_natCast, BitVec.ofInt_natCast, BitVec.ofNat_toNat, ← h3, BitVec.ofNat_toNat]
      simp
    conv_lhs => rw [this]
    rw [← h1]
    push_cast
    rw [sub_sub_eq_add_sub, ← BitVec.ofInt_add, sub_eq_iff_eq_add, ← BitVec.ofInt_add]
    congr 1
    ring
  unfold Near Torus.abs
  rw [e3, BitVec.toInt_ofInt]
  have h4 : (2 : Nat) ^ m ≤ 2 ^ 30 := Nat.pow_le_pow_right (by decide) hm
  have h4' : (2 : Nat) ^ (m + 1) = 2 ^ m * 2 := Nat.pow_succ ..
  have h5 : (2 : Int) ^ m = ((2 ^ m : Nat) : Int) := by push_cast; rfl
  rw [h5]
  rw [h4'] at h2
  generalize (2 : Nat) ^ m = P at *
  rw [Int.bmod_eq_of_le (by omega) (by omega)]
  omega

theorem near_mul_bit {e : Nat} {x y : Torus} (b : Bool) (h : Near e x y) : Near e (x * bit b) (y * bit b) := by
  have hb : Torus.abs (bit b) ≤ 1 := by cases b <;> decide
  have := near_mul_right hb h
  rwa [one_mul] at this

theorem rotSum_near (hk : k ≤ 30) (s : Fin n → Bool) (c : TLWE n) :
    Near ((n + 1) * 2 ^ (30 - k)) (BitVec.ofInt 32 (((modSwitch k c.b : Int) - rotSum k s c (List.finRange n)) * 2 ^ (31 - k))) (c.phase fun i => bit (s i)) := by
  have e1 : BitVec.ofInt 32 (((modSwitch k c.b : Int) - rotSum k s c (List.finRange n)) * 2 ^ (31 - k)) =
      BitVec.ofInt 32 ((modSwitch k c.b : Int) * 2 ^ (31 - k)) - ∑ i, BitVec.ofInt 32 ((modSwitch k (c.a i) : Int) * 2 ^ (31 - k)) * bit (s i) := by
    have h : ∀ is : List (Fin n), BitVec.ofInt 32 (rotSum k s c is * 2 ^ (31 - k)) = (is.map fun i => BitVec.ofInt 32 ((modSwitch k (c.a i) : Int) * 2 ^ (31 - k)) * bit (s i)).sum := by
      intro is
      induction is with
      | nil => simp [rotSum]
      | cons x is ih =>
        rw [List.map_cons, List.sum_cons, ← ih]
        unfold rotSum
        rw [List.map_cons, List.sum_cons, add_mul, BitVec.ofInt_add]
        congr 1
        cases s x with
        | true => simp [bit]
        | false => simp [bit]
    rw [← List.sum_ofFn, List.ofFn_eq_map, ← h, sub_mul, eq_sub_iff_add_eq, ← BitVec.ofInt_add, sub_add_cancel]
  rw [e1, phase_eq_sum]
  have h1 := near_sum_const (fun i : Fin n => BitVec.ofInt 32 ((modSwitch k (c.a i) : Int) * 2 ^ (31 - k)) * bit (s i)) (fun i => c.a i * bit (s i)) (2 ^ (30 - k))
    (fun i => near_mul_bit _ (modSwitch_near hk _))
  rw [Fintype.card_fin] at h1
  refine ((modSwitch_near hk c.b).sub h1).mono ?_
  rw [add_mul, one_mul, add_comm]

theorem ext_muPoly (mu : Torus) (z : Int) (hN : 0 < N) : ext (muPoly N mu) z = if (z / N) % 2 = 0 then mu else -mu := by
  unfold ext muPoly
  rw [dif_pos hN]

theorem bmod_sign (hk : k ≤ 30) (z : Int) : 0 ≤ (z * 2 ^ (31 - k)).bmod (2 ^ 32) ↔ z / (2 ^ k : Nat) % 2 = 0 := by
  have h1 := Int.mul_ediv_add_emod z ((2 ^ k : Nat) : Int)
  have hp : (0 : Int) < (2 ^ k : Nat) := by have := Nat.two_pow_pos k; omega
  have h2 := Int.emod_nonneg z (b := ((2 ^ k : Nat) : Int)) (by omega)
  have h3 := Int.emod_lt_of_pos z hp
  generalize z / ((2 ^ k : Nat) : Int) = q at *
  generalize z % ((2 ^ k : Nat) : Int) = r at *
  have h4 : ((2 ^ k : Nat) : Int) * 2 ^ (31 - k) = 2 ^ 31 := by
    push_cast
    rw [← pow_add, show k + (31 - k) = 31 by omega]; norm_num
  have h5 : (0 : Int) < 2 ^ (31 - k) := by positivity
  have h6 : z * 2 ^ (31 - k) = 2 ^ 31 * q + r * 2 ^ (31 - k) := by
    rw [← h1, ← h4]; ring
  have h7 : 0 ≤ r * 2 ^ (31 - k) := mul_nonneg h2 (le_of_lt h5)
  have h8 : r * 2 ^ (31 - k) < 2 ^ 31 := by
    rw [← h4]; exact mul_lt_mul_of_pos_right h3 h5
  rw [h6]
  generalize r * 2 ^ (31 - k) = y at *
  rw [Int.bmod_def]
  split <;> omega

/-- the sign of the rotated constant test vector -/
theorem ext_muPoly_pos (hk : k ≤ 30) (mu : Torus) (z : Int) (h0 : 0 ≤ (BitVec.ofInt 32 (z * 2 ^ (31 - k))).toInt) : ext (muPoly (2 ^ k) mu) z = mu := by
  rw [BitVec.toInt_ofInt] at h0
  rw [ext_muPoly _ _ (Nat.two_pow_pos k), if_pos ((bmod_sign hk z).1 h0)]

theorem ext_muPoly_neg (hk : k ≤ 30) (mu : Torus) (z : Int) (h0 : (BitVec.ofInt 32 (z * 2 ^ (31 - k))).toInt < 0) : ext (muPoly (2 ^ k) mu) z = -mu := by
  rw [BitVec.toInt_ofInt] at h0
  rw [ext_muPoly _ _ (Nat.two_pow_pos k), if_neg (fun h => by have := (bmod_sign hk z).2 h; omega)]

/-- an element near another one inside a half circle is in the closed half circle -/
theorem toInt_near_pos {e : Nat} {x y : Torus} (h : Near e x y) (h1 : (e : Int) < y.toInt) (h2 : y.toInt < 2 ^ 31 - (e : Int)) : 0 ≤ x.toInt := by
  have := toInt_pos_of_near (m := y.toInt.toNat) (by omega) h (by omega) (by omega)
  omega

theorem toInt_near_neg {e : Nat} {x y : Torus} (h : Near e x y) (h1 : -(2 : Int) ^ 31 + e < y.toInt) (h2 : y.toInt < -(e : Int)) : x.toInt < 0 := by
  have := toInt_neg_of_near (m := (-y.toInt).toNat) (by omega) h (by omega) (by omega)
  omega

section

variable {G : Gadget l} {B e η : Nat} (hG : G.Ok B e) {key : Fin (2 ^ k) → Torus} (hkey : ∀ i, Torus.abs (key i) ≤ 1) {bk : Fin n → Rows l (2 ^ k)}
  {s : Fin n → Bool} (hbk : ∀ i, IsTrgsw G key η (bk i) (s i)) (hk : k ≤ 30)
include hG hkey hbk hk

theorem blindRotate_pos (c : TLWE n) (mu : Torus) (i : Fin (2 ^ k)) (hi : i.val = 0) (h1 : (((n + 1) * 2 ^ (30 - k) : Nat) : Int) < (c.phase fun i => bit (s i)).toInt)
    (h2 : (c.phase fun i => bit (s i)).toInt < 2 ^ 31 - (((n + 1) * 2 ^ (30 - k) : Nat) : Int)) :
    Near (n * (2 * l * (2 ^ k * (B * η)) + (2 ^ k + 1) * e)) ((blindRotate k G bk c (muPoly _ mu)).phase key i) mu := by
  have h := blindRotate_near hG hkey hbk c (muPoly _ mu) i
  rw [hi, Int.ofNat_zero, zero_add, ext_muPoly_pos hk mu _ (toInt_near_pos (rotSum_near hk s c) h1 h2)] at h
  exact h

theorem blindRotate_neg (c : TLWE n) (mu : Torus) (i : Fin (2 ^ k)) (hi : i.val = 0) (h1 : -(2 : Int) ^ 31 + (((n + 1) * 2 ^ (30 - k) : Nat) : Int) < (c.phase fun i => bit (s i)).toInt)
    (h2 : (c.phase fun i => bit (s i)).toInt < -(((n + 1) * 2 ^ (30 - k) : Nat) : Int)) :
    Near (n * (2 * l * (2 ^ k * (B * η)) + (2 ^ k + 1) * e)) ((blindRotate k G bk c (muPoly _ mu)).phase key i) (-mu) := by
  have h := blindRotate_near hG hkey hbk c (muPoly _ mu) i
  rw [hi, Int.ofNat_zero, zero_add, ext_muPoly_neg hk mu _ (toInt_near_neg (rotSum_near hk s c) h1 h2)] at h
  exact h

end

/-! ### Circuit bootstrapping -/

theorem toInt_near_pos' {e m : Nat} {x y : Torus} (h : Near e x y) (h1 : ((e + m : Nat) : Int) < y.toInt) (h2 : y.toInt < 2 ^ 31 - ((e + m : Nat) : Int)) :
    (m : Int) < x.toInt ∧ x.toInt < 2 ^ 31 - (m : Int) := by
  have := toInt_pos_of_near (m := y.toInt.toNat) (by omega) h (by omega) (by omega)
  omega

theorem toInt_near_neg' {e m : Nat} {x y : Torus} (h : Near e x y) (h1 : -(2 : Int) ^ 31 + ((e + m : Nat) : Int) < y.toInt) (h2 : y.toInt < -((e + m : Nat) : Int)) :
    -(2 : Int) ^ 31 + (m : Int) < x.toInt ∧ x.toInt < -(m : Int) := by
  have := toInt_neg_of_near (m := (-y.toInt).toNat) (by omega) h (by omega) (by omega)
  omega

theorem pksFactor_abs {key : Fin N → Torus} (hkey : ∀ i, Torus.abs (key i) ≤ 1) (body : Bool) (k : Fin N) : Torus.abs (pksFactor key body k) ≤ 1 := by
  unfold pksFactor
  cases body
  · rw [if_neg (by decide), Torus.abs_neg]; exact hkey k
  · rw [if_pos rfl]; split <;> decide

section

variable {t2 l2 k2 : Nat} {G : Gadget l} {G2 : Gadget l2} {G3 : Gadget t2} {B3 e3 η3 : Nat} {key1 : Fin N → Torus} {key2 : Fin (2 ^ k2) → Torus}
  {bk : Fin n → Rows l2 (2 ^ k2)} {pk : Bool → Option (Fin (2 ^ k2)) → Fin t2 → Torus → TRLWE N}
  {hs : Fin l → Torus}

/-- The rows after the circuit bootstrapping, given what the blind rotations give. -/
theorem circuitBootstrap_rows (hG3 : G3.Ok B3 e3) (hkey1 : ∀ i, Torus.abs (key1 i) ≤ 1) (hkey2 : ∀ i, Torus.abs (key2 i) ≤ 1)
    (hpk : ∀ body i j d, Torus.abs d ≤ B3 → ∀ k, Near η3 ((pk body i j d).phase key1 k) (d * G3.step j * (withBody key2 i * pksFactor key1 body k)))
    (hhs : ∀ j, hs j + hs j = G.step j) {c : TLWE n} {b : Bool} {E : Nat}
    (hbr : ∀ j i, i.val = 0 → Near E ((blindRotate k2 G2 bk c (muPoly _ (hs j))).phase key2 i) (if b then hs j else -hs j)) :
    IsTrgsw G key1 (E + (2 ^ k2 + 1) * (t2 * η3 + e3)) (circuitBootstrap k2 G2 bk G3 pk hs c) b := by
  have hx : ∀ (r : Fin (2 * l)) (j : Fin l), r.val % l = j.val → ∀ k, Near (E + (2 ^ k2 + 1) * (t2 * η3 + e3))
      ((circuitBootstrap k2 G2 bk G3 pk hs c r).phase key1 k) (bit b * G.step j * pksFactor key1 (decide (l ≤ r.val)) k) := by
    intro r j hr k
    have hj : (⟨r.val % l, Nat.mod_lt _ (by have := r.isLt; omega)⟩ : Fin l) = j := Fin.ext hr
    unfold circuitBootstrap
    dsimp only
    rw [hj]
    have h1 := privKs_near hG3 hkey2 (pksFactor_abs hkey1 (decide (l ≤ r.val))) (hpk (decide (l ≤ r.val)))
      { sampleExtract (blindRotate k2 G2 bk c (muPoly _ (hs j))) ⟨0, Nat.two_pow_pos _⟩ with
        b := (sampleExtract (blindRotate k2 G2 bk c (muPoly _ (hs j))) ⟨0, Nat.two_pow_pos _⟩).b + hs j } k
    rw [tlwe_phase_shift, phase_sampleExtract] at h1
    have h2 := (hbr j ⟨0, Nat.two_pow_pos _⟩ rfl).add_const (hs j)
    have h3 : (if b then hs j else -hs j) + hs j = bit b * G.step j := by
      cases b
      · show -hs j + hs j = 0 * _
        rw [zero_mul]; abel
      · show hs j + hs j = 1 * _
        rw [one_mul, hhs]
    rw [h3] at h2
    have h4 := near_mul_right (pksFactor_abs hkey1 (decide (l ≤ r.val)) k) h2
    rw [one_mul] at h4
    exact (h1.trans h4).mono (by omega)
  constructor
  · intro j i
    have h := hx (rowA j) j (Nat.mod_eq_of_lt j.isLt) i
    have hd : decide (l ≤ (rowA j).val) = false := by
      have := j.isLt
      exact decide_eq_false (by show ¬ l ≤ j.val; omega)
    rw [hd] at h
    have e1 : bit b * G.step j * pksFactor key1 false i = -(bit b * G.step j * key1 i) := by
      unfold pksFactor; rw [if_neg (by decide), mul_neg]
    rwa [e1] at h
  · intro j i
    have h := hx (rowB j) j (by show (l + j.val) % l = j.val; rw [Nat.add_mod_left]; exact Nat.mod_eq_of_lt j.isLt) i
    have hd : decide (l ≤ (rowB j).val) = true := by simp [rowB]
    rw [hd] at h
    have e1 : bit b * G.step j * pksFactor key1 true i = if i.val = 0 then bit b * G.step j else 0 := by
      unfold pksFactor; rw [if_pos rfl]; split
      · rw [mul_one]
      · rw [mul_zero]
    rwa [e1] at h

end

end Homfa.Tfhe
