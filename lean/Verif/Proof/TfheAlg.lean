import Verif.Spec.TfheAlg
import Verif.Proof.Scheme

/-! TFHE's operations have bounded errors. -/

namespace Homfa.Tfhe

variable {N n l t : Nat}

/-! ## Products -/

theorem abs_mul (x y : Torus) : Torus.abs (x * y) ≤ Torus.abs x * Torus.abs y := by
  unfold Torus.abs
  rw [BitVec.toInt_mul, ← Int.natAbs_mul]
  generalize x.toInt * y.toInt = z
  have h1 := Int.bmod_le (x := z) (m := 2 ^ 32) (by decide)
  have h2 := Int.le_bmod (x := z) (m := 2 ^ 32) (by decide)
  obtain ⟨k, hk⟩ : ∃ k : Int, z.bmod (2 ^ 32) = z + 2 ^ 32 * k := by
    obtain ⟨k, hk⟩ := Int.bmod_eq_self_sub_mul_bdiv z (2 ^ 32) ▸ (⟨-z.bdiv (2 ^ 32), by push_cast; ring⟩ : ∃ k : Int, z - (2 ^ 32 : Nat) * z.bdiv (2 ^ 32) = z + 2 ^ 32 * k)
    exact ⟨k, hk⟩
  rcases lt_trichotomy k 0 with h | h | h
  · rw [hk] at h1 h2 ⊢; omega
  · subst h; omega
  · rw [hk] at h1 h2 ⊢; omega

theorem near_mul {e : Nat} {x y d : Torus} {B : Nat} (hd : Torus.abs d ≤ B) (h : Near e x y) : Near (B * e) (d * x) (d * y) := by
  unfold Near at *
  rw [← mul_sub]
  exact Nat.le_trans (abs_mul _ _) (Nat.mul_le_mul hd h)

theorem near_mul_right {e : Nat} {x y d : Torus} {B : Nat} (hd : Torus.abs d ≤ B) (h : Near e x y) : Near (B * e) (x * d) (y * d) := by
  rw [mul_comm x, mul_comm y]; exact near_mul hd h

theorem near_sum_const {ι : Type} [Fintype ι] (f g : ι → Torus) (e : Nat) (h : ∀ i, Near e (f i) (g i)) :
    Near (Fintype.card ι * e) (∑ i, f i) (∑ i, g i) := by
  have := near_sum Finset.univ f g (fun _ => e) (fun i _ => h i)
  rwa [Finset.sum_const, smul_eq_mul, Finset.card_univ] at this

theorem near_ext {e : Nat} {p q : Poly N} (h : ∀ i, Near e (p i) (q i)) (z : Int) : Near e (ext p z) (ext q z) := by
  unfold ext
  split
  · split
    · exact h _
    · exact (h _).neg
  · exact Near.rfl'

theorem near_polyMul {B e : Nat} {d p q : Poly N} (hd : ∀ j, Torus.abs (d j) ≤ B) (h : ∀ i, Near e (p i) (q i)) (i : Fin N) :
    Near (N * (B * e)) (polyMul d p i) (polyMul d q i) := by
  rw [polyMul_eq, polyMul_eq]
  have := near_sum_const (fun j : Fin N => d j * ext p (i - j)) (fun j => d j * ext q (i - j)) (B * e)
    (fun j => near_mul (hd j) (near_ext h _))
  rwa [Fintype.card_fin] at this

theorem abs_ext {B : Nat} {p : Poly N} (h : ∀ i, Torus.abs (p i) ≤ B) (z : Int) : Torus.abs (ext p z) ≤ B := by
  unfold ext
  split
  · split
    · exact h _
    · rw [Torus.abs_neg]; exact h _
  · rw [Torus.abs_zero]; exact Nat.zero_le _

theorem near_polyMul_left {B e : Nat} {p q s : Poly N} (hs : ∀ j, Torus.abs (s j) ≤ B) (h : ∀ i, Near e (p i) (q i)) (i : Fin N) :
    Near (N * (B * e)) (polyMul p s i) (polyMul q s i) := by
  rw [polyMul_eq, polyMul_eq]
  have := near_sum_const (fun j : Fin N => p j * ext s (i - j)) (fun j => q j * ext s (i - j)) (B * e)
    (fun j => near_mul_right (abs_ext hs _) (h j))
  rwa [Fintype.card_fin] at this

theorem polyMul_sum_left {ι : Type} [Fintype ι] (p : ι → Poly N) (s : Poly N) (i : Fin N) :
    polyMul (fun k => ∑ j, p j k) s i = ∑ j, polyMul (p j) s i := by
  simp only [polyMul_eq, Finset.sum_mul]
  exact Finset.sum_comm

theorem polyMul_smul (c : Torus) (p s : Poly N) (i : Fin N) : polyMul (fun k => c * p k) s i = c * polyMul p s i := by
  simp only [polyMul_eq, Finset.mul_sum, mul_assoc]

theorem polyMul_sub_right (d p q : Poly N) (i : Fin N) : polyMul d (fun k => p k - q k) i = polyMul d p i - polyMul d q i := by
  simp only [polyMul_eq, ext_subp, mul_sub, Finset.sum_sub_distrib]

theorem polyMul_sub_left (p q s : Poly N) (i : Fin N) : polyMul (fun k => p k - q k) s i = polyMul p s i - polyMul q s i := by
  simp only [polyMul_eq, sub_mul, Finset.sum_sub_distrib]

theorem ext_smul (c : Torus) (p : Poly N) (z : Int) : ext (fun k => c * p k) z = c * ext p z := by
  unfold ext
  split
  · split
    · rfl
    · rw [mul_neg]
  · rw [mul_zero]

theorem polyMul_smul_right (c : Torus) (d p : Poly N) (i : Fin N) : polyMul d (fun k => c * p k) i = c * polyMul d p i := by
  simp only [polyMul_eq, ext_smul, Finset.mul_sum]
  exact Finset.sum_congr rfl fun j _ => by ring

theorem polyMul_eq_rot (p q : Poly N) (i : Fin N) : polyMul p q i = ∑ j : Fin N, p j * rot j q i := polyMul_eq p q i

theorem polyMul_assoc (p q s : Poly N) (i : Fin N) : polyMul (polyMul p q) s i = polyMul p (polyMul q s) i := by
  have h : polyMul p q = fun i => ∑ j : Fin N, p j * rot j q i := by funext i; exact polyMul_eq_rot p q i
  rw [h, polyMul_sum_left, polyMul_eq_rot]
  refine Finset.sum_congr rfl fun j _ => ?_
  rw [polyMul_smul, polyMul_rot]

theorem polyMul_const (d : Poly N) (c : Torus) (i : Fin N) : polyMul d (fun k => if k.val = 0 then c else 0) i = d i * c := by
  rw [polyMul_eq, Finset.sum_eq_single i]
  · have hN : 0 < N := i.pos
    rw [sub_self]
    have := ext_of_lt (fun k : Fin N => if k.val = 0 then c else 0) ⟨0, hN⟩
    simp only [Int.ofNat_zero, Nat.cast_zero, if_true] at this
    rw [this]
  · intro j _ hj
    have hz : ext (fun k : Fin N => if k.val = 0 then c else 0) ((i : Int) - j) = 0 := by
      unfold ext
      rw [dif_pos i.pos]
      have hne : ((i : Int) - j) % N ≠ 0 := by
        intro h0
        have hd := Int.dvd_of_emod_eq_zero h0
        obtain ⟨m, hm⟩ := hd
        have hi := i.isLt
        have hj' := j.isLt
        have : m = 0 := by
          rcases lt_trichotomy m 0 with h | h | h
          · have : (N : Int) * m ≤ N * (-1) := Int.mul_le_mul_of_nonneg_left (by omega) (by omega)
            omega
          · exact h
          · have : (N : Int) * 1 ≤ N * m := Int.mul_le_mul_of_nonneg_left (by omega) (by omega)
            omega
        subst this
        exact hj (Fin.ext (by omega))
      have h1 := Int.emod_nonneg ((i : Int) - j) (b := N) (by have := i.pos; omega)
      have hne' : (((i : Int) - j) % N).toNat ≠ 0 := by omega
      simp only [hne', if_false, neg_zero, ite_self]
    rw [hz, mul_zero]
  · intro h; exact absurd (Finset.mem_univ _) h

/-! ## The external product -/

theorem extProd_phase (G : Gadget l) (g : Rows l N) (c : TRLWE N) (key : Fin N → Torus) (i : Fin N) :
    (extProd G g c).phase key i = (∑ j, polyMul (G.poly c.a j) ((g (rowA j)).phase key) i) + ∑ j, polyMul (G.poly c.b j) ((g (rowB j)).phase key) i := by
  have h1 : ∀ (d : Poly N) (r : TRLWE N), polyMul d (r.phase key) i = polyMul d r.b i - polyMul (polyMul d r.a) key i := by
    intro d r
    rw [polyMul_assoc]
    exact polyMul_sub_right d r.b (polyMul r.a key) i
  simp only [h1, Finset.sum_sub_distrib]
  have h2 : (extProd G g c).phase key i = (extProd G g c).b i - polyMul (extProd G g c).a key i := rfl
  rw [h2]
  have h3 : (extProd G g c).a = fun i => (fun i => ∑ j, polyMul (G.poly c.a j) (g (rowA j)).a i) i + (fun i => ∑ j, polyMul (G.poly c.b j) (g (rowB j)).a i) i := rfl
  rw [h3, polyMul_add]
  dsimp only
  rw [polyMul_sum_left, polyMul_sum_left]
  show (_ + _) - _ = _
  abel

/-- the message of the external product -/
theorem extProd_near {G : Gadget l} {B e η : Nat} (hG : G.Ok B e) {key : Fin N → Torus} (hkey : ∀ i, Torus.abs (key i) ≤ 1) {g : Rows l N} {b : Bool}
    (hg : IsTrgsw G key η g b) (c : TRLWE N) (i : Fin N) :
    Near (2 * l * (N * (B * η)) + (N + 1) * e) ((extProd G g c).phase key i) (bit b * c.phase key i) := by
  rw [extProd_phase]
  have ha := near_sum_const (fun j => polyMul (G.poly c.a j) ((g (rowA j)).phase key) i)
    (fun j => polyMul (G.poly c.a j) (fun k => -(bit b * G.step j) * key k) i) (N * (B * η))
    (fun j => near_polyMul (fun k => hG.small _ _) (fun k => by
      have := hg.a j k
      rwa [← neg_mul] at this) i)
  have hb := near_sum_const (fun j => polyMul (G.poly c.b j) ((g (rowB j)).phase key) i)
    (fun j => polyMul (G.poly c.b j) (fun k => if k.val = 0 then bit b * G.step j else 0) i) (N * (B * η))
    (fun j => near_polyMul (fun k => hG.small _ _) (fun k => hg.b j k) i)
  rw [Fintype.card_fin] at ha hb
  have h1 := ha.add hb
  simp only [polyMul_smul_right, polyMul_const] at h1
  have e1 : (∑ j, -(bit b * G.step j) * polyMul (G.poly c.a j) key i) + ∑ j, G.poly c.b j i * (bit b * G.step j) =
      bit b * ((∑ j, G.digit (c.b i) j * G.step j) - polyMul (fun k => ∑ j, G.digit (c.a k) j * G.step j) key i) := by
    have e2 : polyMul (fun k => ∑ j, G.digit (c.a k) j * G.step j) key i = ∑ j, G.step j * polyMul (G.poly c.a j) key i := by
      rw [polyMul_sum_left (fun j k => G.digit (c.a k) j * G.step j)]
      refine Finset.sum_congr rfl fun j _ => ?_
      rw [← polyMul_smul]
      congr 1
      funext k
      exact mul_comm _ _
    rw [e2, mul_sub, Finset.mul_sum, Finset.mul_sum, add_comm, sub_eq_add_neg, ← Finset.sum_neg_distrib]
    congr 1
    · exact Finset.sum_congr rfl fun j _ => by show G.digit (c.b i) j * _ = _; ring
    · exact Finset.sum_congr rfl fun j _ => by ring
  rw [e1] at h1
  have h2 := (hG.close (c.b i)).sub (near_polyMul_left hkey (fun k => hG.close (c.a k)) i)
  have hbit : Torus.abs (bit b) ≤ 1 := by cases b <;> decide
  have h3 := near_mul hbit h2
  have h4 := h1.trans h3
  exact h4.mono (by ring_nf; omega)

theorem minus_phase (x y : TRLWE N) (key : Fin N → Torus) (i : Fin N) : (x.minus y).phase key i = x.phase key i - y.phase key i := by
  show (x.b i - y.b i) - polyMul (fun k => x.a k - y.a k) key i = (x.b i - polyMul x.a key i) - (y.b i - polyMul y.a key i)
  rw [polyMul_sub_left]
  abel

theorem cmux_near {G : Gadget l} {B e η : Nat} (hG : G.Ok B e) {key : Fin N → Torus} (hkey : ∀ i, Torus.abs (key i) ≤ 1) {g : Rows l N} {b : Bool}
    (hg : IsTrgsw G key η g b) (c1 c0 : TRLWE N) (i : Fin N) :
    Near (2 * l * (N * (B * η)) + (N + 1) * e) ((cmux G g c1 c0).phase key i) ((if b then c1 else c0).phase key i) := by
  unfold cmux
  rw [phase_add]
  have h := (extProd_near hG hkey hg (c1.minus c0) i).add_const (c0.phase key i)
  rw [minus_phase, add_comm ((extProd G g (c1.minus c0)).phase key i), add_comm (bit b * _)] at h
  have e1 : c0.phase key i + bit b * (c1.phase key i - c0.phase key i) = (if b then c1 else c0).phase key i := by
    cases b
    · show c0.phase key i + 0 * _ = _
      rw [zero_mul, add_zero]; rfl
    · show c0.phase key i + 1 * _ = _
      rw [one_mul, add_sub_cancel]; rfl
  rwa [e1] at h

/-! ## Key switches -/

theorem ksSum_near {ι : Type} [Fintype ι] {G : Gadget t} {B e η : Nat} (hG : G.Ok B e) (x : ι → Torus) (P : ι → Fin t → Torus → Torus) (F : ι → Torus)
    (hF : ∀ i, Torus.abs (F i) ≤ 1) (hP : ∀ i j d, Torus.abs d ≤ B → Near η (P i j d) (d * G.step j * F i)) :
    Near (Fintype.card ι * (t * η + e)) (ksSum G x P) (∑ i, x i * F i) := by
  unfold ksSum
  refine near_sum_const _ _ _ fun i => ?_
  have h1 := near_sum_const (fun j => if G.digit (x i) j = 0 then 0 else P i j (G.digit (x i) j)) (fun j => G.digit (x i) j * G.step j * F i) η (fun j => by
    split
    · rename_i h
      rw [h, zero_mul, zero_mul]; exact Near.rfl'
    · exact hP i j _ (hG.small _ _))
  rw [Fintype.card_fin, ← Finset.sum_mul] at h1
  have h2 := near_mul_right (hF i) (hG.close (x i))
  rw [one_mul] at h2
  exact h1.trans h2

theorem ksSum_sub {ι : Type} [Fintype ι] (G : Gadget t) (x : ι → Torus) (P Q : ι → Fin t → Torus → Torus) :
    ksSum G x (fun i j d => P i j d - Q i j d) = ksSum G x P - ksSum G x Q := by
  unfold ksSum
  simp only [← Finset.sum_sub_distrib]
  refine Finset.sum_congr rfl fun i _ => Finset.sum_congr rfl fun j _ => ?_
  split
  · rw [sub_zero]
  · rfl

theorem ksSum_sum {ι κ : Type} [Fintype ι] [Fintype κ] (G : Gadget t) (x : ι → Torus) (P : κ → ι → Fin t → Torus → Torus) :
    ksSum G x (fun i j d => ∑ k, P k i j d) = ∑ k, ksSum G x (P k) := by
  unfold ksSum
  rw [Finset.sum_comm (s := (Finset.univ : Finset κ))]
  refine Finset.sum_congr rfl fun i _ => ?_
  rw [Finset.sum_comm (s := (Finset.univ : Finset κ))]
  refine Finset.sum_congr rfl fun j _ => ?_
  split
  · rw [Finset.sum_const_zero]
  · rfl

theorem ksSum_mul {ι : Type} [Fintype ι] (G : Gadget t) (x : ι → Torus) (P : ι → Fin t → Torus → Torus) (c : Torus) :
    ksSum G x (fun i j d => P i j d * c) = ksSum G x P * c := by
  unfold ksSum
  simp only [Finset.sum_mul]
  refine Finset.sum_congr rfl fun i _ => Finset.sum_congr rfl fun j _ => ?_
  split
  · rw [zero_mul]
  · rfl

theorem iks_phase (G : Gadget t) (tab : Fin N → Fin t → Torus → TLWE n) (c : TLWE N) (key0 : Fin n → Torus) :
    (iks G tab c).phase key0 = c.b - ksSum G c.a fun i j d => (tab i j d).phase key0 := by
  simp only [phase_eq_sum]
  rw [ksSum_sub, ksSum_sum]
  simp only [ksSum_mul]
  show (c.b - _) - (∑ k, (-ksSum G c.a fun i j d => (tab i j d).a k) * key0 k) = _
  simp only [neg_mul, Finset.sum_neg_distrib]
  abel

theorem iks_near {G : Gadget t} {B e η : Nat} (hG : G.Ok B e) {tab : Fin N → Fin t → Torus → TLWE n} {key1 : Fin N → Torus} {key0 : Fin n → Torus}
    (hkey : ∀ i, Torus.abs (key1 i) ≤ 1) (htab : ∀ i j d, Torus.abs d ≤ B → Near η ((tab i j d).phase key0) (d * G.step j * key1 i)) (c : TLWE N) :
    Near (N * (t * η + e)) ((iks G tab c).phase key0) (c.phase key1) := by
  rw [iks_phase, phase_eq_sum c]
  have h := ksSum_near hG c.a _ key1 hkey htab
  rw [Fintype.card_fin] at h
  have := (Near.rfl' (x := c.b) (e := 0)).sub h
  rwa [Nat.zero_add] at this

theorem trlwe_ks_phase {ι : Type} [Fintype ι] (G : Gadget t) (tab : ι → Fin t → Torus → TRLWE N) (x : ι → Torus) (p : Poly N) (key : Fin N → Torus) (i : Fin N) :
    (⟨fun k => -ksSum G x fun i j d => (tab i j d).a k, fun k => p k - ksSum G x fun i j d => (tab i j d).b k⟩ : TRLWE N).phase key i =
      p i - ksSum G x fun m j d => (tab m j d).phase key i := by
  have h1 : (ksSum G x fun m j d => (tab m j d).phase key i) = (ksSum G x fun m j d => (tab m j d).b i) - ksSum G x fun m j d => polyMul (tab m j d).a key i :=
    ksSum_sub G x _ _
  rw [h1]
  have h2 : (ksSum G x fun m j d => polyMul (tab m j d).a key i) = polyMul (fun k => ksSum G x fun m j d => (tab m j d).a k) key i := by
    simp only [polyMul_eq]
    rw [ksSum_sum]
    simp only [ksSum_mul]
  have h3 : polyMul (fun k => -ksSum G x fun i j d => (tab i j d).a k) key i = -polyMul (fun k => ksSum G x fun m j d => (tab m j d).a k) key i := by
    simp only [polyMul_eq, neg_mul, Finset.sum_neg_distrib]
  rw [h2]
  show (p i - ksSum G x fun m j d => (tab m j d).b i) - polyMul (fun k => -ksSum G x fun i j d => (tab i j d).a k) key i = _
  rw [h3]
  abel

theorem tlwe2trlwe_near {G : Gadget t} {B e η : Nat} (hG : G.Ok B e) {tab : Fin N → Fin t → Torus → TRLWE N} {key : Fin N → Torus}
    (hkey : ∀ i, Torus.abs (key i) ≤ 1)
    (htab : ∀ i j d, Torus.abs d ≤ B → ∀ k, Near η ((tab i j d).phase key k) (if k.val = 0 then d * G.step j * key i else 0)) (c : TLWE N) (k : Fin N) :
    Near (N * (t * η + e)) ((tlwe2trlwe G tab c).phase key k) (if k.val = 0 then c.phase key else 0) := by
  have h0 := trlwe_ks_phase G tab c.a (fun k => if k.val = 0 then c.b else 0) key k
  have e0 : (tlwe2trlwe G tab c).phase key k = _ := h0
  rw [e0]
  have h := ksSum_near hG c.a (fun m j d => (tab m j d).phase key k) (fun i => if k.val = 0 then key i else 0)
    (fun i => by split; exact hkey i; rw [Torus.abs_zero]; exact Nat.zero_le _) (fun i j d hd => by
      have := htab i j d hd k
      split at this <;> rename_i hk
      · rw [if_pos hk]; exact this
      · rw [if_neg hk, mul_zero]; exact this)
  rw [Fintype.card_fin] at h
  have h' := (Near.rfl' (x := if k.val = 0 then c.b else 0) (e := 0)).sub h
  rw [Nat.zero_add] at h'
  by_cases hk : k.val = 0
  · simp only [hk, if_true] at h' ⊢
    rw [phase_eq_sum c]; exact h'
  · simp only [hk, if_false, mul_zero, Finset.sum_const_zero, sub_zero] at h' ⊢
    exact h'

theorem privKs_near {M : Nat} {G : Gadget t} {B e η : Nat} (hG : G.Ok B e) {tab : Option (Fin M) → Fin t → Torus → TRLWE N} {key : Fin N → Torus}
    {key2 : Fin M → Torus} (hkey : ∀ i, Torus.abs (key2 i) ≤ 1) {f : Poly N} (hf : ∀ k, Torus.abs (f k) ≤ 1)
    (htab : ∀ i j d, Torus.abs d ≤ B → ∀ k, Near η ((tab i j d).phase key k) (d * G.step j * (withBody key2 i * f k))) (c : TLWE M) (k : Fin N) :
    Near ((M + 1) * (t * η + e)) ((privKs G tab c).phase key k) (c.phase key2 * f k) := by
  have h0 := trlwe_ks_phase G tab (elems c) (fun _ => 0) key k
  have e0 : (privKs G tab c).phase key k = 0 - ksSum G (elems c) fun m j d => (tab m j d).phase key k := by
    rw [← h0]
    unfold privKs
    simp only [zero_sub]
  rw [e0]
  have h := ksSum_near hG (elems c) (fun m j d => (tab m j d).phase key k) (fun i => withBody key2 i * f k)
    (fun i => Nat.le_trans (abs_mul _ _) (by
      have h1 : Torus.abs (withBody key2 i) ≤ 1 := by
        cases i with
        | none => show Torus.abs (-1) ≤ 1; decide
        | some i => exact hkey i
      exact Nat.le_trans (Nat.mul_le_mul h1 (hf k)) (by decide))) (fun i j d hd => htab i j d hd k)
  rw [Fintype.card_option, Fintype.card_fin] at h
  have h' := (Near.rfl' (x := (0 : Torus)) (e := 0)).sub h
  rw [Nat.zero_add] at h'
  have e1 : (0 : Torus) - ∑ i, elems c i * (withBody key2 i * f k) = c.phase key2 * f k := by
    rw [Fintype.sum_option, phase_eq_sum]
    show 0 - (c.b * (-1 * f k) + ∑ i, c.a i * (key2 i * f k)) = _
    simp only [← mul_assoc, ← Finset.sum_mul]
    ring
  rwa [e1] at h'

end Homfa.Tfhe
