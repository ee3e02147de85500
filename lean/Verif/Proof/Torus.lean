import Verif.Spec.Torus
import Mathlib.Tactic.Ring
import Mathlib.Tactic.Abel
import Mathlib.Tactic.Linarith

namespace Homfa

theorem Torus.abs_add (x y : Torus) : Torus.abs (x + y) ≤ Torus.abs x + Torus.abs y := by
  unfold Torus.abs
  rw [BitVec.toInt_add]
  have h1 := Int.bmod_le (x := x.toInt + y.toInt) (m := 2 ^ 32) (by decide)
  have h2 := Int.le_bmod (x := x.toInt + y.toInt) (m := 2 ^ 32) (by decide)
  have hx := BitVec.toInt_lt (x := x)
  have hx' := BitVec.le_toInt (x := x)
  have hy := BitVec.toInt_lt (x := y)
  have hy' := BitVec.le_toInt (x := y)
  have hb : (x.toInt + y.toInt).bmod (2 ^ 32) = x.toInt + y.toInt ∨
    (x.toInt + y.toInt).bmod (2 ^ 32) = x.toInt + y.toInt + 2 ^ 32 ∨
    (x.toInt + y.toInt).bmod (2 ^ 32) = x.toInt + y.toInt - 2 ^ 32 := by
    unfold Int.bmod
    simp at *
    omega
  simp at *
  omega

theorem Torus.abs_neg (x : Torus) : Torus.abs (-x) = Torus.abs x := by
  unfold Torus.abs
  rw [BitVec.toInt_neg]
  have hx := BitVec.toInt_lt (x := x)
  have hx' := BitVec.le_toInt (x := x)
  unfold Int.bmod
  simp at *
  omega

@[simp] theorem Torus.abs_zero : Torus.abs 0 = 0 := by decide

theorem Torus.abs_sub_le (x y z : Torus) : Torus.abs (x - z) ≤ Torus.abs (x - y) + Torus.abs (y - z) := by
  have := Torus.abs_add (x - y) (y - z)
  rwa [sub_add_sub_cancel] at this

theorem Near.refl (x : Torus) : Near 0 x x := by unfold Near; rw [sub_self]; decide
theorem Near.rfl' {x : Torus} {e : Nat} : Near e x x := by unfold Near; rw [sub_self]; exact Nat.zero_le _
theorem Near.of_eq {x y : Torus} (h : x = y) : Near 0 x y := by subst h; exact Near.refl _
theorem Near.mono {e e' : Nat} {x y : Torus} (h : Near e x y) (he : e ≤ e') : Near e' x y := Nat.le_trans h he
theorem Near.symm {e : Nat} {x y : Torus} (h : Near e x y) : Near e y x := by
  unfold Near at *; rwa [← Torus.abs_neg, neg_sub]
theorem Near.trans {e e' : Nat} {x y z : Torus} (h : Near e x y) (h' : Near e' y z) : Near (e + e') x z :=
  Nat.le_trans (Torus.abs_sub_le x y z) (Nat.add_le_add h h')
theorem Near.add {e e' : Nat} {x y x' y' : Torus} (h : Near e x y) (h' : Near e' x' y') :
    Near (e + e') (x + x') (y + y') := by
  unfold Near at *
  rw [add_sub_add_comm]
  exact Nat.le_trans (Torus.abs_add _ _) (Nat.add_le_add h h')
theorem Near.neg {e : Nat} {x y : Torus} (h : Near e x y) : Near e (-x) (-y) := by
  unfold Near at *
  rw [neg_sub_neg]
  rw [← Torus.abs_neg, neg_sub]; exact h
theorem Near.sub {e e' : Nat} {x y x' y' : Torus} (h : Near e x y) (h' : Near e' x' y') :
    Near (e + e') (x - x') (y - y') := by
  rw [sub_eq_add_neg, sub_eq_add_neg]; exact h.add h'.neg
theorem Near.add_const {e : Nat} {x y : Torus} (h : Near e x y) (z : Torus) : Near e (x + z) (y + z) := by
  unfold Near at *; rwa [add_sub_add_right_eq_sub]
theorem Near.sub_const {e : Nat} {x y : Torus} (h : Near e x y) (z : Torus) : Near e (x - z) (y - z) := by
  unfold Near at *; rwa [sub_sub_sub_cancel_right]

theorem near_sum {ι : Type*} (s : Finset ι) (f g : ι → Torus) (e : ι → Nat) (h : ∀ i ∈ s, Near (e i) (f i) (g i)) :
    Near (∑ i ∈ s, e i) (∑ i ∈ s, f i) (∑ i ∈ s, g i) := by
  classical
  induction s using Finset.induction_on with
  | empty => simp only [Finset.sum_empty]; exact Near.refl _
  | insert a s ha ih =>
    rw [Finset.sum_insert ha, Finset.sum_insert ha, Finset.sum_insert ha]
    exact (h a (Finset.mem_insert_self _ _)).add (ih fun i hi => h i (Finset.mem_insert_of_mem hi))

/-- the threshold of the decryption -/
theorem decrypt_threshold (b : Bool) (x : Torus) (h : Near (2 ^ 30 - 1) x (half b)) :
    decide ((x + mu4).toNat > mu2.toNat) = b := by
  have hm4 : mu4.toNat = 2 ^ 30 := by decide
  have hm2 : mu2.toNat = 2 ^ 31 := by decide
  unfold Near Torus.abs at h
  rw [BitVec.toNat_add, hm4, hm2]
  cases b with
  | false =>
    have : x - half false = x := by simp [half]
    rw [this] at h
    simp only [decide_eq_false_iff_not]
    have hx := x.isLt
    rw [BitVec.toInt_eq_toNat_cond] at h
    split at h <;> omega
  | true =>
    have hs : (x - half true).toNat = (x.toNat + 2 ^ 31) % 2 ^ 32 := by
      simp only [half, if_true, BitVec.toNat_sub, hm2]
      omega
    simp only [decide_eq_true_eq]
    have hx := x.isLt
    rw [BitVec.toInt_eq_toNat_cond, hs] at h
    split at h <;> omega

/-- sign of a torus element near ±1/8 or ±1/4 -/
theorem toInt_pos_of_near {x : Torus} {e m : Nat} {μ : Torus} (hμ : μ.toInt = m) (h : Near e x μ)
    (h1 : e < m) (h2 : m + e < 2 ^ 31) : (m : Int) - e ≤ x.toInt ∧ x.toInt ≤ m + e := by
  unfold Near Torus.abs at h
  have hx : x = μ + (x - μ) := by abel
  have h3 : x.toInt = (μ.toInt + (x - μ).toInt).bmod (2 ^ 32) := by
    conv_lhs => rw [hx]
    rw [BitVec.toInt_add]
  rw [hμ] at h3
  generalize (x - μ).toInt = d at h h3
  have : (m + d : Int).bmod (2 ^ 32) = m + d := by
    rw [Int.bmod_eq_of_le] <;> simp <;> omega
  rw [this] at h3
  omega

theorem toInt_neg_of_near {x : Torus} {e m : Nat} {μ : Torus} (hμ : μ.toInt = -(m : Int)) (h : Near e x μ)
    (h1 : e < m) (h2 : m + e < 2 ^ 31) : -(m : Int) - e ≤ x.toInt ∧ x.toInt ≤ -(m : Int) + e := by
  unfold Near Torus.abs at h
  have hx : x = μ + (x - μ) := by abel
  have h3 : x.toInt = (μ.toInt + (x - μ).toInt).bmod (2 ^ 32) := by
    conv_lhs => rw [hx]
    rw [BitVec.toInt_add]
  rw [hμ] at h3
  generalize (x - μ).toInt = d at h h3
  have : (-m + d : Int).bmod (2 ^ 32) = -m + d := by
    rw [Int.bmod_eq_of_le] <;> simp <;> omega
  rw [this] at h3
  omega

end Homfa
