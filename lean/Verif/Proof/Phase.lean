import Verif.Proof.Nega
import Mathlib.Algebra.Polynomial.Monomial

/-! Phases of the linear operations. -/

namespace Homfa

variable {N n : Nat}

theorem phase_eq_sum (c : TLWE n) (key : Fin n → Torus) : c.phase key = c.b - ∑ i, c.a i * key i := by
  have h : ∀ (l : List (Fin n)) (x : Torus),
      l.foldl (fun phase i => phase - c.a i * key i) x = x - (l.map fun i => c.a i * key i).sum := by
    intro l
    induction l with
    | nil => intro x; simp
    | cons i l ih => intro x; rw [List.foldl_cons, ih, List.map_cons, List.sum_cons, sub_sub]
  unfold TLWE.phase
  rw [h, Fin.sum_univ_def]

theorem tlwe_phase_add (x y : TLWE n) (key : Fin n → Torus) : (x.add y).phase key = x.phase key + y.phase key := by
  simp only [phase_eq_sum, TLWE.add, add_mul, Finset.sum_add_distrib]
  abel

theorem polyMul_add (p q s : Poly N) : polyMul (fun i => p i + q i) s = fun i => polyMul p s i + polyMul q s i := by
  funext i
  simp only [polyMul_eq, add_mul, Finset.sum_add_distrib]

theorem polyMul_zero (s : Poly N) : polyMul (fun _ => 0#32) s = fun _ => 0#32 := by
  funext i
  rw [polyMul_eq]
  refine Finset.sum_eq_zero fun j _ => ?_
  exact zero_mul _

theorem phase_add (x y : TRLWE N) (key : Fin N → Torus) :
    (x.add y).phase key = fun i => x.phase key i + y.phase key i := by
  funext i
  simp only [TRLWE.phase, TRLWE.add, polyMul_add]
  abel

theorem phase_trivial (p : Poly N) (key : Fin N → Torus) : (trivialTRLWE p).phase key = p := by
  funext i
  simp only [TRLWE.phase, trivialTRLWE, polyMul_zero]
  exact sub_zero _

theorem phase_rot (c : TRLWE N) (k : Int) (key : Fin N → Torus) :
    (⟨rot k c.a, rot k c.b⟩ : TRLWE N).phase key = rot k (c.phase key) := by
  funext i
  simp only [TRLWE.phase, polyMul_rot]
  show ext c.b _ - ext _ _ = ext _ _
  rw [← ext_subp]

theorem multXk_ok (out src : TRLWE N) (k : Nat) (hk : k ≤ 2 * N) :
    out.multXk src k = .ok ⟨rot k src.a, rot k src.b⟩ := by
  unfold TRLWE.multXk
  rw [polyMultXk_ok _ _ _ hk, polyMultXk_ok _ _ _ hk]
  rfl

theorem phase_sampleExtract (c : TRLWE N) (i : Fin N) (key : Fin N → Torus) :
    (sampleExtract c i).phase key = c.phase key i := by
  rw [phase_eq_sum]
  simp only [TRLWE.phase, sampleExtract]
  congr 1
  unfold polyMul
  -- substitute j ↦ i - j (mod N)
  have hN : 0 < N := i.pos
  let σ : Fin N → Fin N := fun j => if h : j.val ≤ i.val then ⟨i.val - j.val, by omega⟩ else ⟨N + i.val - j.val, by omega⟩
  refine Finset.sum_nbij' σ σ (fun _ _ => Finset.mem_univ _) (fun _ _ => Finset.mem_univ _) ?_ ?_ ?_
  · intro j _
    apply Fin.ext
    simp only [σ]
    by_cases h : j.val ≤ i.val
    · simp [h]
      omega
    · simp only [h, dif_neg, not_false_iff]
      rw [dif_neg (by omega)]
      simp only
      omega
  · intro j _
    apply Fin.ext
    simp only [σ]
    by_cases h : j.val ≤ i.val
    · simp [h]
      omega
    · simp only [h, dif_neg, not_false_iff]
      rw [dif_neg (by omega)]
      simp only
      omega
  · intro j _
    simp only [σ]
    by_cases h : j.val ≤ i.val
    · simp only [h, dif_pos]
      rw [dif_pos (by omega)]
      congr 2
      apply Fin.ext
      simp only
      omega
    · simp only [h, dif_neg, not_false_iff]
      rw [dif_neg (by omega), neg_mul]
      congr 3
      apply Fin.ext
      simp only
      omega

open Polynomial in
theorem toPoly_rot_one (p : Poly N) :
    (X ^ N + 1 : Torus[X]) ∣ X * p.toPoly - (rot 1 p).toPoly := by
  cases N with
  | zero => simp [Poly.toPoly]
  | succ m =>
    refine ⟨C (p (Fin.last m)), ?_⟩
    have h0 : rot 1 p 0 = -p (Fin.last m) := by
      show ext p (((0 : Fin (m + 1)).val : Int) - 1) = _
      rw [ext_neg_range _ _ (by simp) (by simp) (by simp)]
      congr 2
      apply Fin.ext
      simp
    have h1 : ∀ i : Fin m, rot 1 p i.succ = p i.castSucc := by
      intro i
      show ext p ((i.succ.val : Int) - 1) = _
      rw [ext_nonneg_range _ _ (by simp) (by simp)]
      congr 1
      apply Fin.ext
      simp
    unfold Poly.toPoly
    rw [Fin.sum_univ_succ (fun i => monomial i.val (rot 1 p i)), Fin.sum_univ_castSucc (fun i => monomial i.val (p i)), h0]
    simp only [h1]
    rw [mul_add, Finset.mul_sum]
    have h2 : ∀ i : Fin m, (X : Torus[X]) * monomial i.castSucc.val (p i.castSucc) = monomial i.succ.val (p i.castSucc) := by
      intro i
      rw [X_mul_monomial]
      rfl
    simp only [h2]
    rw [X_mul_monomial]
    simp only [Fin.val_last, Fin.val_zero, monomial_zero_left, map_neg]
    rw [← C_mul_X_pow_eq_monomial (n := m + 1)]
    ring

open Polynomial in
theorem toPoly_rot (p : Poly N) (k : Nat) :
    (X ^ N + 1 : Torus[X]) ∣ X ^ k * p.toPoly - (rot k p).toPoly := by
  induction k with
  | zero =>
    have : rot ((0 : Nat) : Int) p = p := rot_zero p
    rw [this]; simp
  | succ k ih =>
    have h1 := toPoly_rot_one (rot k p)
    have h2 : rot ((k + 1 : Nat) : Int) p = rot 1 (rot k p) := by
      rw [rot_rot]; congr 1; push_cast; ring
    rw [h2]
    have h3 : (X ^ (k + 1) * p.toPoly - (rot 1 (rot k p)).toPoly : Torus[X]) =
        X * (X ^ k * p.toPoly - (rot k p).toPoly) + (X * (rot k p).toPoly - (rot 1 (rot k p)).toPoly) := by ring
    rw [h3]
    exact dvd_add (Dvd.dvd.mul_left ih X) h1

open Polynomial in
theorem toPoly_mul (p q : Poly N) :
    (X ^ N + 1 : Torus[X]) ∣ p.toPoly * q.toPoly - (polyMul p q).toPoly := by
  have h1 : (polyMul p q).toPoly = ∑ j : Fin N, C (p j) * (rot j.val q).toPoly := by
    unfold Poly.toPoly
    have : ∀ i : Fin N, monomial i.val (polyMul p q i) = ∑ j : Fin N, C (p j) * monomial i.val (rot j.val q i) := by
      intro i
      rw [polyMul_eq, map_sum]
      refine Finset.sum_congr rfl fun j _ => ?_
      rw [C_mul_monomial]
      rfl
    simp only [this]
    rw [Finset.sum_comm]
    simp only [Finset.mul_sum]
  have h2 : p.toPoly * q.toPoly = ∑ j : Fin N, C (p j) * (X ^ j.val * q.toPoly) := by
    conv_lhs => rw [Poly.toPoly, Finset.sum_mul]
    refine Finset.sum_congr rfl fun j _ => ?_
    rw [← C_mul_X_pow_eq_monomial, mul_assoc]
  rw [h1, h2, ← Finset.sum_sub_distrib]
  refine Finset.dvd_sum fun j _ => ?_
  rw [← mul_sub]
  exact Dvd.dvd.mul_left (toPoly_rot q j.val) _

end Homfa
