import Verif.Proof.Torus
import Verif.Proof.Cpp
import Mathlib.Algebra.BigOperators.Intervals

/-! Negacyclic shifts and products. -/

namespace Homfa

variable {N : Nat}

/-- antiperiodic extension of a coefficient array to all integers -/
def ext (p : Poly N) (z : Int) : Torus :=
  if h : 0 < N then
    (if (z / N) % 2 = 0 then p ⟨(z % N).toNat, by
        have h1 := Int.emod_nonneg z (b := N) (by omega)
        have h2 := Int.emod_lt_of_pos z (b := N) (by omega)
        omega⟩
      else -p ⟨(z % N).toNat, by
        have h1 := Int.emod_nonneg z (b := N) (by omega)
        have h2 := Int.emod_lt_of_pos z (b := N) (by omega)
        omega⟩)
  else 0

theorem ext_of_lt (p : Poly N) (i : Fin N) : ext p i = p i := by
  have hN : 0 < N := i.pos
  unfold ext
  have h1 : (i.val : Int) / N = 0 := Int.ediv_eq_zero_of_lt (by omega) (by omega)
  have h2 : (i.val : Int) % N = i.val := Int.emod_eq_of_lt (by omega) (by omega)
  rw [dif_pos hN, h1]
  simp [h2]

theorem ext_add (p : Poly N) (z : Int) : ext p (z + N) = - ext p z := by
  unfold ext
  by_cases hN : 0 < N
  · rw [dif_pos hN, dif_pos hN]
    have h1 : (z + N) / (N : Int) = z / N + 1 := by
      rw [Int.add_ediv_of_dvd_right (Int.dvd_refl _), Int.ediv_self (by omega)]
    have h2 : (z + N) % (N : Int) = z % N := by simp
    simp only [h1, h2]
    by_cases h : z / N % 2 = 0
    · rw [if_neg (by omega), if_pos h]
    · rw [if_pos (by omega), if_neg h, neg_neg]
  · rw [dif_neg hN, dif_neg hN, neg_zero]

theorem ext_sub (p : Poly N) (z : Int) : ext p (z - N) = - ext p z := by
  have := ext_add p (z - N)
  rw [Int.sub_add_cancel] at this
  rw [this, neg_neg]

/-- the extension at an index just outside the array -/
theorem ext_neg_range (p : Poly N) (z : Int) (h1 : -N ≤ z) (_h2 : z < 0) (h3 : (z + N).toNat < N) :
    ext p z = - p ⟨(z + N).toNat, h3⟩ := by
  have := ext_sub p (z + N)
  rw [Int.add_sub_cancel] at this
  rw [this]
  have := ext_of_lt p ⟨(z + N).toNat, h3⟩
  rw [← this]
  congr 2
  simp only
  omega

theorem ext_nonneg_range (p : Poly N) (z : Int) (h1 : 0 ≤ z) (h3 : z.toNat < N) :
    ext p z = p ⟨z.toNat, h3⟩ := by
  have := ext_of_lt p ⟨z.toNat, h3⟩
  rw [← this]
  congr 1
  simp only
  omega

/-- p * X^k -/
def rot (k : Int) (p : Poly N) : Poly N := fun i => ext p (i - k)

theorem ext_rot (p : Poly N) (k z : Int) : ext (rot k p) z = ext p (z - k) := by
  by_cases hN : 0 < N
  · -- write z = N * q + r
    have hr0 := Int.emod_nonneg z (b := N) (by omega)
    have hr1 := Int.emod_lt_of_pos z (b := N) (by omega)
    have key : ∀ (n : Nat) (w : Int), 0 ≤ w → w < N →
        ext (rot k p) (w + N * n) = ext p (w + N * n - k) ∧ ext (rot k p) (w - N * n) = ext p (w - N * n - k) := by
      intro n
      induction n with
      | zero =>
        intro w h1 h2
        have : ext (rot k p) w = ext p (w - k) := by
          rw [ext_nonneg_range _ w h1 (by omega)]
          unfold rot
          congr 2
          simp only
          omega
        simp [this]
      | succ n ih =>
        intro w h1 h2
        obtain ⟨e1, e2⟩ := ih w h1 h2
        constructor
        · have hz : w + (N : Int) * ((n + 1 : Nat) : Int) = (w + N * n) + N := by push_cast; ring
          rw [hz, ext_add, e1, ← ext_add]
          congr 1; ring
        · have hz : w - (N : Int) * ((n + 1 : Nat) : Int) = (w - N * n) - N := by push_cast; ring
          rw [hz, ext_sub, e2, ← ext_sub]
          congr 1; ring
    have hz := Int.emod_add_mul_ediv z N
    rcases Int.le_total 0 (z / N) with hq | hq
    · obtain ⟨n, hn⟩ := Int.eq_ofNat_of_zero_le hq
      rw [hn] at hz
      have := (key n (z % N) hr0 hr1).1
      rw [hz] at this
      exact this
    · obtain ⟨n, hn⟩ := Int.eq_ofNat_of_zero_le (Int.neg_nonneg_of_nonpos hq)
      have hn' : z / N = -(n : Int) := by omega
      rw [hn'] at hz
      have := (key n (z % N) hr0 hr1).2
      have hz' : z % N - N * n = z := by
        conv_rhs => rw [← hz]
        ring
      rw [hz'] at this
      exact this
  · unfold ext
    rw [dif_neg hN, dif_neg hN]

theorem rot_zero (p : Poly N) : rot 0 p = p := by
  funext i; unfold rot; rw [Int.sub_zero, ext_of_lt]

theorem rot_rot (p : Poly N) (j k : Int) : rot j (rot k p) = rot (j + k) p := by
  funext i
  show ext (rot k p) (i - j) = ext p (i - (j + k))
  rw [ext_rot]; congr 1; ring

theorem rot_two_N (p : Poly N) : rot (2 * N) p = p := by
  funext i
  show ext p (i - 2 * N) = p i
  have : (i.val : Int) - 2 * N = i.val - N - N := by ring
  rw [this, ext_sub, ext_sub, neg_neg, ext_of_lt]

theorem ext_addp (p q : Poly N) (z : Int) : ext (fun i => p i + q i) z = ext p z + ext q z := by
  unfold ext
  split
  · split
    · rfl
    · simp only [neg_add]
  · simp

theorem ext_subp (p q : Poly N) (z : Int) : ext (fun i => p i - q i) z = ext p z - ext q z := by
  unfold ext
  split
  · split
    · rfl
    · simp only [neg_sub_neg, neg_sub]
  · simp

/-- the product through extensions -/
theorem polyMul_eq (p q : Poly N) (i : Fin N) : polyMul p q i = ∑ j : Fin N, p j * ext q (i - j) := by
  unfold polyMul
  refine Finset.sum_congr rfl fun j _ => ?_
  by_cases h : j.val ≤ i.val
  · rw [dif_pos h, ext_nonneg_range _ _ (by omega) (by omega)]
    congr 3
    omega
  · rw [dif_neg h, ext_neg_range _ _ (by omega) (by omega) (by omega), mul_neg]
    congr 4
    omega

/-- sums over one period do not depend on where the period starts -/
theorem sum_shift (f : Int → Torus) (hf : ∀ z, f (z + N) = f z) (k : Int) :
    ∑ j : Fin N, f (j + k) = ∑ j : Fin N, f j := by
  have one : ∀ k : Int, ∑ j : Fin N, f (j + (k + 1)) = ∑ j : Fin N, f (j + k) := by
    intro k
    rw [Fin.sum_univ_eq_sum_range (fun j => f ((j : Int) + (k + 1))) N, Fin.sum_univ_eq_sum_range (fun j => f ((j : Int) + k)) N]
    have h1 := Finset.sum_range_succ' (fun j => f ((j : Int) + k)) N
    have h2 := Finset.sum_range_succ (fun j => f ((j : Int) + k)) N
    rw [h1] at h2
    have h3 : f ((N : Int) + k) = f (((0 : Nat) : Int) + k) := by
      rw [← hf (((0 : Nat) : Int) + k)]; congr 1; push_cast; ring
    rw [h3] at h2
    have h4 := add_right_cancel h2
    rw [← h4]
    refine Finset.sum_congr rfl fun j _ => ?_
    congr 1; push_cast; ring
  have nat : ∀ n : Nat, ∑ j : Fin N, f (j + (n : Int)) = ∑ j : Fin N, f j := by
    intro n
    induction n with
    | zero => simp
    | succ n ih =>
      have := one n
      rw [ih] at this
      rw [← this]
      push_cast
      rfl
  have negn : ∀ n : Nat, ∑ j : Fin N, f (j + (-(n : Int))) = ∑ j : Fin N, f j := by
    intro n
    induction n with
    | zero => simp
    | succ n ih =>
      rw [← ih, ← one]
      refine Finset.sum_congr rfl fun j _ => ?_
      congr 1; push_cast; ring
  rcases Int.le_total 0 k with h | h
  · obtain ⟨n, rfl⟩ := Int.eq_ofNat_of_zero_le h
    exact nat n
  · obtain ⟨n, hn⟩ := Int.eq_ofNat_of_zero_le (Int.neg_nonneg_of_nonpos h)
    have : k = -(n : Int) := by omega
    rw [this]; exact negn n

theorem polyMul_eq' (p q : Poly N) (i : Fin N) : polyMul p q i = ∑ j : Fin N, ext p j * ext q (i - j) := by
  rw [polyMul_eq]
  refine Finset.sum_congr rfl fun j _ => ?_
  rw [ext_of_lt]

/-- `(p X^k) q = (p q) X^k` -/
theorem polyMul_rot (p q : Poly N) (k : Int) : polyMul (rot k p) q = rot k (polyMul p q) := by
  funext i
  rw [polyMul_eq']
  have h0 : ∀ j : Fin N, ext (rot k p) j = ext p (j - k) := fun j => ext_rot p k j
  simp only [h0]
  have hf : ∀ z, (fun z => ext p (z - k) * ext q (i - z)) (z + N) = (fun z => ext p (z - k) * ext q (i - z)) z := by
    intro z
    simp only
    have e1 : z + N - k = z - k + N := by ring
    have e2 : (i.val : Int) - (z + N) = i.val - z - N := by ring
    rw [e1, e2, ext_add, ext_sub, neg_mul_neg]
  have h1 := sum_shift (N := N) (fun z => ext p (z - k) * ext q (i - z)) hf k
  rw [← h1]
  have h2 : ∀ z : Int, ext (polyMul p q) z = ∑ j : Fin N, ext p j * ext q (z - j) := by
    have hN : 0 < N := i.pos
    -- both sides are antiperiodic and agree on one period
    have anti : ∀ (n : Nat) (w : Int), 0 ≤ w → w < N →
        (ext (polyMul p q) (w + N * n) = ∑ j : Fin N, ext p j * ext q (w + N * n - j)) ∧
        (ext (polyMul p q) (w - N * n) = ∑ j : Fin N, ext p j * ext q (w - N * n - j)) := by
      intro n
      induction n with
      | zero =>
        intro w h1 h2
        have : ext (polyMul p q) w = ∑ j : Fin N, ext p j * ext q (w - j) := by
          rw [ext_nonneg_range _ w h1 (by omega), polyMul_eq']
          refine Finset.sum_congr rfl fun j _ => ?_
          congr 2
          simp only
          omega
        simp [this]
      | succ n ih =>
        intro w h1 h2
        obtain ⟨e1, e2⟩ := ih w h1 h2
        constructor
        · have hz : w + (N : Int) * ((n + 1 : Nat) : Int) = (w + N * n) + N := by push_cast; ring
          rw [hz, ext_add, e1, ← Finset.sum_neg_distrib]
          refine Finset.sum_congr rfl fun j _ => ?_
          have : w + N * n + N - j.val = w + N * n - j.val + N := by ring
          rw [this, ext_add, mul_neg]
        · have hz : w - (N : Int) * ((n + 1 : Nat) : Int) = (w - N * n) - N := by push_cast; ring
          rw [hz, ext_sub, e2, ← Finset.sum_neg_distrib]
          refine Finset.sum_congr rfl fun j _ => ?_
          have : w - N * n - N - j.val = w - N * n - j.val - N := by ring
          rw [this, ext_sub, mul_neg]
    intro z
    have hr0 := Int.emod_nonneg z (b := N) (by omega)
    have hr1 := Int.emod_lt_of_pos z (b := N) (by omega)
    have hz := Int.emod_add_mul_ediv z N
    rcases Int.le_total 0 (z / N) with hq | hq
    · obtain ⟨n, hn⟩ := Int.eq_ofNat_of_zero_le hq
      rw [hn] at hz
      have := (anti n (z % N) hr0 hr1).1
      rw [hz] at this
      exact this
    · obtain ⟨n, hn⟩ := Int.eq_ofNat_of_zero_le (Int.neg_nonneg_of_nonpos hq)
      have hn' : z / N = -(n : Int) := by omega
      rw [hn'] at hz
      have := (anti n (z % N) hr0 hr1).2
      have hz' : z % N - N * n = z := by
        conv_rhs => rw [← hz]
        ring
      rw [hz'] at this
      exact this
  show _ = ext (polyMul p q) (i - k)
  rw [h2]
  refine Finset.sum_congr rfl fun j _ => ?_
  congr 2 <;> ring

/-! ## The C++ loops compute `rot` -/

theorem pget_ok {p : Poly N} {i : Int} (h1 : 0 ≤ i) (h2 : i.toNat < N) : pget p i = .ok (p ⟨i.toNat, h2⟩) := by
  unfold pget; rw [dif_pos ⟨h1, by omega⟩]

theorem loop_set (n : Nat) (f : Nat → Res Torus) (v : Nat → Torus) (off : Nat) (hf : ∀ i < n, f i = .ok (v i))
    (hn : n + off ≤ N) (out : Poly N) :
    (List.range n).foldlM (fun out (i : Nat) => do
      let x ← f i
      pset out ((i : Int) + off) x) out =
    .ok (fun j => if off ≤ j.val ∧ j.val < n + off then v (j.val - off) else out j) := by
  induction n with
  | zero =>
    simp only [List.range_zero, List.foldlM_nil]
    rw [Res.pure_eq]
    congr 1
    funext j
    rw [if_neg (by omega)]
  | succ n ih =>
    rw [List.range_succ, List.foldlM_append, ih (fun i hi => hf i (by omega)) (by omega)]
    rw [Res.bind_ok, List.foldlM_cons, hf n (by omega), Res.bind_ok, pset, if_pos ⟨by omega, by omega⟩]
    rw [Res.bind_ok, List.foldlM_nil, Res.pure_eq]
    congr 1
    funext j
    by_cases h : j.val = n + off
    · rw [if_pos (by rw [h]; push_cast; rfl), if_pos (by omega), h, Nat.add_sub_cancel]
    · rw [if_neg (by omega)]
      by_cases h' : off ≤ j.val ∧ j.val < n + off
      · rw [if_pos h', if_pos (by omega)]
      · rw [if_neg h', if_neg (by omega)]

theorem loop_set0 (n : Nat) (f : Nat → Res Torus) (v : Nat → Torus) (hf : ∀ i < n, f i = .ok (v i))
    (hn : n ≤ N) (out : Poly N) :
    (List.range n).foldlM (fun out (i : Nat) => do
      let x ← f i
      pset out (i : Int) x) out =
    .ok (fun j => if j.val < n then v j.val else out j) := by
  have := loop_set n f v 0 hf (by omega) out
  simpa using this

theorem polyMultXk_ok (out src : Poly N) (k : Nat) (hk : k ≤ 2 * N) : polyMultXk out src k = .ok (rot k src) := by
  unfold polyMultXk
  by_cases h0 : k = 0
  · rw [if_pos h0, h0]
    congr 1
    exact (rot_zero src).symm
  · rw [if_neg h0]
    by_cases hN : k < N
    · rw [if_pos hN]
      have e1 := loop_set0 (N := N) k (fun i => (pget src ((i : Int) - k + N)).map (- ·))
        (fun i => if h : i + N - k < N then -src ⟨i + N - k, h⟩ else 0) (by
          intro i hi
          rw [pget_ok (by omega) (by omega), dif_pos (by omega)]
          show Except.ok _ = _
          congr 3
          simp only [Fin.mk.injEq]; omega) (by omega) out
      have e1' : (List.range k).foldlM (fun out (i : Nat) => do
          let v ← pget src ((i : Int) - k + N)
          pset out i (-v)) out = _ := Eq.trans (by
            congr 1
            funext o i
            cases pget src ((i : Int) - k + N) <;> rfl) e1
      rw [e1', Res.bind_ok]
      rw [loop_set (N := N) (N - k) (fun i => pget src i) (fun i => if h : i < N then src ⟨i, h⟩ else 0) k (by
        intro i hi
        rw [pget_ok (by omega) (by omega), dif_pos (by omega)]
        rfl) (by omega)]
      congr 1
      funext j
      by_cases hj : k ≤ j.val
      · rw [if_pos ⟨hj, by omega⟩, dif_pos (by omega)]
        show _ = ext src (j - k)
        rw [ext_nonneg_range _ _ (by omega) (by omega)]
        congr 1
        simp only [Fin.mk.injEq]; omega
      · rw [if_neg (by omega), if_pos (by omega), dif_pos (by omega)]
        show _ = ext src (j - k)
        rw [ext_neg_range _ _ (by omega) (by omega) (by omega)]
        congr 2
        simp only [Fin.mk.injEq]; omega
    · rw [if_neg hN]
      dsimp only
      have e1 := loop_set0 (N := N) (k - N) (fun i => pget src ((i : Int) - (k - N : Nat) + N))
        (fun i => if h : i + N - (k - N) < N then src ⟨i + N - (k - N), h⟩ else 0) (by
          intro i hi
          rw [pget_ok (by omega) (by omega), dif_pos (by omega)]
          congr 2
          simp only [Fin.mk.injEq]; omega) (by omega) out
      rw [e1, Res.bind_ok]
      have e2 := loop_set (N := N) (N - (k - N)) (fun i => (pget src i).map (- ·))
        (fun i => if h : i < N then -src ⟨i, h⟩ else 0) (k - N) (by
        intro i hi
        rw [pget_ok (by omega) (by omega), dif_pos (by omega)]
        rfl) (by omega) (fun j => if j.val < k - N then
          (fun i => if h : i + N - (k - N) < N then src ⟨i + N - (k - N), h⟩ else 0) j.val else out j)
      refine Eq.trans (by
        congr 1
        funext o i
        cases pget src (i : Int) <;> rfl) (Eq.trans e2 ?_)
      congr 1
      funext j
      by_cases hj : k - N ≤ j.val
      · rw [if_pos ⟨hj, by omega⟩, dif_pos (by omega)]
        show _ = ext src (j - k)
        rw [ext_neg_range _ _ (by omega) (by omega) (by omega)]
        congr 2
        simp only [Fin.mk.injEq]; omega
      · rw [if_neg (by omega), if_pos (by omega)]
        dsimp only
        rw [dif_pos (by omega)]
        show _ = ext src (j - k)
        have := ext_sub src (j - k + N)
        rw [Int.add_sub_cancel] at this
        rw [this, ext_neg_range _ _ (by omega) (by omega) (by omega), neg_neg]
        congr 1
        simp only [Fin.mk.injEq]; omega

theorem polyMultXk_ub (hN : 0 < N) (out src : Poly N) (k : Nat) (hk : 2 * N < k) :
    polyMultXk out src k = .error .ub := by
  unfold polyMultXk
  rw [if_neg (by omega), if_neg (by omega)]
  dsimp only
  obtain ⟨m, hm⟩ : ∃ m, k - N = m + 1 := ⟨k - N - 1, by omega⟩
  rw [hm, List.range_succ_eq_map, List.foldlM_cons]
  have : pget src (((0 : Nat) : Int) - ((m + 1 : Nat) : Int) + N) = .error .ub := by
    unfold pget; rw [dif_neg (by omega)]
  rw [this]
  rfl

end Homfa
