import Verif.Model.Lut
import Verif.Spec.Lut
import Verif.Proof.Backstream

/-! The lookup table: a tree of CMUXes. -/

namespace Homfa

variable {N n l : Nat}

theorem shl1_ok {i : Nat} (h : i < 31) : shl1 i = .ok (2 ^ i) := if_pos h

theorem shl1Cap_ok {i : Nat} (h : i < 32) : shl1Cap i = .ok (2 ^ i) := if_pos h

theorem shl1Int_ok {i : Nat} (h : i < 31) : shl1Int i = .ok (2 ^ i) := if_pos h

theorem lt_of_shl1 {i c : Nat} (h : shl1 i = .ok c) : i < 31 ∧ c = 2 ^ i := by
  unfold shl1 at h
  split_ifs at h with h1
  cases h
  exact ⟨h1, rfl⟩

theorem lsbIndex_lt (bs : List Bool) : lsbIndex bs < 2 ^ bs.length := by
  induction bs with
  | nil => simp [lsbIndex]
  | cons b bs ih =>
    simp only [lsbIndex, List.length_cons, Nat.pow_succ]
    have : b.toNat ≤ 1 := Bool.toNat_le b
    omega

theorem lsbIndex_testBit (k x : Nat) (h : x < 2 ^ k) : lsbIndex ((List.range k).map x.testBit) = x := by
  induction k generalizing x with
  | zero => simp [lsbIndex] at *; omega
  | succ k ih =>
    rw [List.range_succ_eq_map, List.map_cons, List.map_map, lsbIndex]
    have : (List.range k).map (x.testBit ∘ Nat.succ) = (List.range k).map (x / 2).testBit := by
      apply List.map_congr_left
      intro i _
      simp [Nat.testBit_succ]
    rw [this, ih (x / 2) (by rw [Nat.pow_succ] at h; omega)]
    rw [Nat.testBit_zero]
    rcases Nat.mod_two_eq_zero_or_one x with h | h <;> simp [h] <;> omega

/-- The value computed by the tree on the entries `T`. -/
def lutPure (S : Scheme N n l) : List (Gsw l N) → (Nat → TRLWE N) → TRLWE N
  | [], T => T 0
  | c :: cs, T => lutPure S cs (fun j => S.cmux c (T (j * 2 + 1)) (T (j * 2)))

theorem lutPure_congr (S : Scheme N n l) (cs : List (Gsw l N)) {T T' : Nat → TRLWE N}
    (h : ∀ j < 2 ^ cs.length, T j = T' j) : lutPure S cs T = lutPure S cs T' := by
  induction cs generalizing T T' with
  | nil => exact h 0 (by simp)
  | cons c cs ih =>
    refine ih (fun j hj => ?_)
    rw [List.length_cons, Nat.pow_succ] at h
    rw [h (j * 2 + 1) (by omega), h (j * 2) (by omega)]

theorem lutPure_near {S : Scheme N n l} {δ : Noise} {Enc : Gsw l N → Bool → Prop} (hS : S.Sound δ Enc)
    {cs : List (Gsw l N)} {bs : List Bool} (h : List.Forall₂ Enc cs bs) (T : Nat → TRLWE N) (i : Fin N) :
    Near (bs.length * δ.cmux) ((lutPure S cs T).phase S.sk.lvl1 i) ((T (lsbIndex bs)).phase S.sk.lvl1 i) := by
  induction h generalizing T with
  | nil => exact Near.rfl'
  | @cons c b cs bs hc _ ih =>
    have h1 := ih (fun j => S.cmux c (T (j * 2 + 1)) (T (j * 2)))
    have h2 := hS.cmux c b (T (lsbIndex bs * 2 + 1)) (T (lsbIndex bs * 2)) i hc
    have h3 : (if b then T (lsbIndex bs * 2 + 1) else T (lsbIndex bs * 2)) = T (lsbIndex (b :: bs)) := by
      cases b
      · simp [lsbIndex, Nat.mul_comm]
      · simp [lsbIndex, Nat.mul_comm, Nat.add_comm]
    rw [h3] at h2
    refine (h1.trans h2).mono ?_
    rw [List.length_cons, Nat.add_mul]; omega

/-- the recorded samples of one table lookup with `k` inputs -/
def lutSamples (k : Nat) : List (Target × Nat) := (List.range k).map fun i => (Target.cmux, 2 ^ (k - i - 1))

theorem lutLoop_ok (S : Scheme N n l) (k : Nat) (hk : k < 32) (rest : List (Gsw l N)) (i : Nat) (tmp table : List (TRLWE N))
    (timer : List (Target × Nat)) (z : TRLWE N) (hi : i + rest.length = k) (h1 : 2 ^ rest.length ≤ table.length)
    (h2 : rest ≠ [] → 2 ^ (rest.length - 1) ≤ tmp.length) :
    ∃ tmp' table', lutLoop S k rest i tmp table timer = .ok (tmp', table',
        timer ++ (List.range rest.length).map fun j => (Target.cmux, 2 ^ (rest.length - j - 1))) ∧
      table'[0]? = some (lutPure S rest (fun j => table.getD j z)) := by
  induction rest generalizing i tmp table timer with
  | nil =>
    refine ⟨tmp, table, by simp [lutLoop], ?_⟩
    have : 0 < table.length := by rw [List.length_nil, Nat.pow_zero] at h1; omega
    simp [lutPure, List.getElem?_eq_getElem this]
  | cons c rest ih =>
    have hl : (c :: rest).length - 1 = rest.length := rfl
    have h2' := h2 (by simp)
    rw [hl] at h2'
    rw [List.length_cons, Nat.pow_succ] at h1
    rw [List.length_cons] at hi
    have hlen : k - i - 1 = rest.length := by omega
    rw [lutLoop, hlen, shl1_ok (by omega), Res.bind_ok]
    obtain ⟨w', e1, e2, e3, e4⟩ := parFor_write (task := lutTask S c) (rest := [table])
      (P := fun j x => x = S.cmux c (table.getD (j * 2 + 1) z) (table.getD (j * 2) z))
      (w0 := tmp) (List.range (2 ^ rest.length)) List.nodup_range (by
        intro j hj w hw _
        rw [List.mem_range] at hj
        have g1 : j * 2 + 1 < table.length := by omega
        have g0 : j * 2 < table.length := by omega
        refine ⟨_, rfl, ?_⟩
        unfold lutTask
        rw [Prog.run_read1 (List.getElem?_eq_getElem g1), Prog.run_read1 (List.getElem?_eq_getElem g0),
          Prog.run_write0 (by omega)]
        simp [g1, g0]) (by intro j hj; rw [List.mem_range] at hj; omega)
    rw [e1, Res.bind_ok]
    show ∃ tmp' table', lutLoop S k rest (i + 1) table w' _ = _ ∧ _
    obtain ⟨t1, t2, f1, f2⟩ := ih (i + 1) table w' (timer ++ [(Target.cmux, 2 ^ rest.length)]) (by omega)
      (by rw [e2]; exact h2') (by
        intro hne
        have : 2 ^ (rest.length - 1) ≤ 2 ^ rest.length := Nat.pow_le_pow_right (by omega) (by omega)
        omega)
    refine ⟨t1, t2, ?_, ?_⟩
    · rw [f1]
      congr 3
      rw [List.length_cons, List.range_succ_eq_map, List.map_cons, List.map_map, List.append_assoc]
      congr 1
      simp only [List.singleton_append]
      congr 1
      apply List.map_congr_left
      intro j hj
      simp only [Function.comp]
      congr 2
      omega
    · rw [f2, lutPure]
      congr 1
      refine lutPure_congr S rest (fun j hj => ?_)
      obtain ⟨x, hx1, hx2⟩ := e3 j (List.mem_range.2 hj)
      rw [List.getD_eq_getElem?_getD, hx1, ← hx2]; rfl

theorem lookupTableTimer_ok (S : Scheme N n l) (table : List (TRLWE N)) (inputs : List (Gsw l N)) (ws : List (TRLWE N))
    (timer : List (Target × Nat)) (z : TRLWE N) (hk : inputs.length < 31) (ht : table.length = 2 ^ inputs.length) :
    ∃ table' ws', lookupTableTimer S table inputs ws timer = .ok (table', ws', timer ++ lutSamples inputs.length) ∧
      table'[0]? = some (lutPure S inputs (fun j => table.getD j z)) := by
  unfold lookupTableTimer
  dsimp only
  rw [shl1_ok hk, Res.bind_ok, decide_eq_true ht, cassert_true, Res.bind_ok]
  by_cases h0 : inputs.length = 0
  · rw [if_pos h0]
    have : inputs = [] := List.eq_nil_of_length_eq_zero h0
    subst this
    have ht' : 0 < table.length := by simp at ht; omega
    exact ⟨table, ws, by simp [lutSamples, Res.pure_eq], by simp [lutPure, List.getElem?_eq_getElem ht']⟩
  · rw [if_neg h0, shl1_ok (by omega), Res.bind_ok]
    obtain ⟨t1, t2, f1, f2⟩ := lutLoop_ok S inputs.length (by omega) inputs 0
      (List.replicate (2 ^ (inputs.length - 1)) (trivialTRLWEZero N)) table timer z (by omega) (by omega) (by simp)
    rw [f1, Res.bind_ok]
    exact ⟨t2, t1, rfl, f2⟩

theorem lookupTable_ok (S : Scheme N n l) (table : List (TRLWE N)) (inputs : List (Gsw l N)) (ws : List (TRLWE N))
    (z : TRLWE N) (hk : inputs.length < 31) (ht : table.length = 2 ^ inputs.length) :
    ∃ table' ws', lookupTable S table inputs ws = .ok (table', ws') ∧
      table'[0]? = some (lutPure S inputs (fun j => table.getD j z)) := by
  obtain ⟨t, w, h1, h2⟩ := lookupTableTimer_ok S table inputs ws [] z hk ht
  unfold lookupTable
  rw [h1]
  exact ⟨t, w, rfl, h2⟩

theorem lookupTableTimer_abort (S : Scheme N n l) (table : List (TRLWE N)) (inputs : List (Gsw l N)) (ws : List (TRLWE N))
    (timer : List (Target × Nat)) (hk : inputs.length < 31) (ht : table.length ≠ 2 ^ inputs.length) :
    lookupTableTimer S table inputs ws timer = .error .assertFail := by
  unfold lookupTableTimer
  dsimp only
  rw [shl1_ok hk, Res.bind_ok, decide_eq_false ht]; rfl

end Homfa
