import Verif.Spec.Counter
import Verif.Proof.Block

/-! Encrypted counters. -/

namespace Homfa

variable {N n l : Nat} {S : GateScheme N n l} {δ : Noise} {Enc : Gsw l N → Bool → Prop} {m g : Nat}

theorem lsbIndex_snoc (xs : List Bool) (b : Bool) : lsbIndex (xs ++ [b]) = lsbIndex xs + 2 ^ xs.length * b.toNat := by
  induction xs with
  | nil => simp [lsbIndex]
  | cons x xs ih =>
    rw [List.cons_append, lsbIndex, ih, lsbIndex, List.length_cons, Nat.pow_succ, Nat.mul_assoc, Nat.mul_left_comm]
    omega

/-- the borrow into bit `i` -/
def borrowAt (f : Nat → Bool) (b : Bool) : Nat → Bool
  | 0 => b
  | i + 1 => !f i && borrowAt f b i

theorem lsb_sub (f : Nat → Bool) (b : Bool) (w : Nat) :
    lsbIndex ((List.range w).map fun i => f i != borrowAt f b i) + b.toNat =
      lsbIndex ((List.range w).map f) + 2 ^ w * (borrowAt f b w).toNat := by
  induction w with
  | zero => simp [lsbIndex, borrowAt]
  | succ w ih =>
    rw [List.range_succ, List.map_append, List.map_append, List.map_singleton, List.map_singleton, lsbIndex_snoc, lsbIndex_snoc]
    simp only [List.length_map, List.length_range, borrowAt, Nat.pow_succ]
    cases f w <;> cases hb : borrowAt f b w <;> simp [hb] at ih ⊢ <;> omega

theorem lsb_sub_mod (f : Nat → Bool) (b : Bool) (w : Nat) :
    lsbIndex ((List.range w).map fun i => f i != borrowAt f b i) =
      (lsbIndex ((List.range w).map f) + 2 ^ w - b.toNat) % 2 ^ w := by
  have h := lsb_sub f b w
  have h1 := lsbIndex_lt ((List.range w).map fun i => f i != borrowAt f b i)
  have h2 := lsbIndex_lt ((List.range w).map f)
  simp only [List.length_map, List.length_range] at h1 h2
  have hp : 0 < 2 ^ w := Nat.two_pow_pos w
  have hb : b.toNat ≤ 1 := Bool.toNat_le b
  cases hc : borrowAt f b w
  · rw [hc] at h
    simp at h
    have : lsbIndex ((List.range w).map f) + 2 ^ w - b.toNat = lsbIndex ((List.range w).map fun i => f i != borrowAt f b i) + 2 ^ w := by
      omega
    rw [this, Nat.add_mod_right, Nat.mod_eq_of_lt h1]
  · rw [hc] at h
    simp at h
    have : lsbIndex ((List.range w).map f) + 2 ^ w - b.toNat = lsbIndex ((List.range w).map fun i => f i != borrowAt f b i) := by
      omega
    rw [this, Nat.mod_eq_of_lt h1]

theorem lsb_mod (v w : Nat) : lsbIndex ((List.range w).map v.testBit) = v % 2 ^ w := by
  rw [← lsbIndex_testBit w (v % 2 ^ w) (Nat.mod_lt _ (Nat.two_pow_pos w))]
  congr 1
  apply List.map_congr_left
  intro i hi
  rw [List.mem_range] at hi
  rw [Nat.testBit_mod_two_pow, decide_eq_true hi, Bool.true_and]

theorem lsb_zero_iff (bs : List Bool) : lsbIndex bs = 0 ↔ bs.any id = false := by
  induction bs with
  | nil => simp [lsbIndex]
  | cons b bs ih =>
    rw [lsbIndex, List.any_cons]
    cases b
    · simp at *; rw [ih]
    · simp

/-- bit `f i` in ciphertext `i`, with error at most `e` -/
structure Counter.Bits (S : GateScheme N n l) (e : Nat) (ctr : Counter N) (f : Nat → Bool) : Prop where
  len : ctr.c.length = ctr.width
  near : ∀ i c, ctr.c[i]? = some c → ∀ k : Fin N, k.val = 0 → Near e (c.phase S.sk.lvl1 k) (eighth (f i))

theorem Counter.Bits.mono {e e' : Nat} {ctr : Counter N} {f : Nat → Bool} (h : ctr.Bits S e f) (he : e ≤ e') : ctr.Bits S e' f :=
  ⟨h.len, fun i c hc k hk => (h.near i c hc k hk).mono he⟩

theorem bit64_ok (v : BitVec 64) {i : Nat} (h : i < 64) : bit64 v i = .ok (v.toNat.testBit i) := by
  unfold bit64
  rw [if_pos h]
  congr 1
  rw [Bool.eq_iff_iff]
  simp only [bne_iff_ne, ne_eq]
  rw [BitVec.testBit_toNat]
  constructor
  · intro h'
    by_contra hc
    apply h'
    ext j hj
    simp only [BitVec.getElem_and, BitVec.getElem_ushiftRight, BitVec.getElem_one, BitVec.getElem_zero]
    by_cases h0 : j = 0
    · subst h0
      simp at hc ⊢; exact hc
    · simp [h0]
  · intro h' hc
    have := congrArg (fun x : BitVec 64 => x.getLsbD 0) hc
    simp [h'] at this

theorem phase_trivial8 (b : Bool) (key : Fin N → Torus) (k : Fin N) (hk : k.val = 0) :
    (if b then trivialTRLWE8 N else trivialTRLWEMinus8 N).phase key k = eighth b := by
  have h : ∀ x : Torus, ((trivialTRLWEZero N).setB0 x) = trivialTRLWE (fun i => if i.val = 0 then x else 0#32) := fun x => rfl
  cases b
  · show ((trivialTRLWEZero N).setB0 (-mu8)).phase key k = _
    rw [h, phase_trivial]; simp [hk, eighth]
  · show ((trivialTRLWEZero N).setB0 mu8).phase key k = _
    rw [h, phase_trivial]; simp [hk, eighth]

theorem Counter.reset_ok (ctr : Counter N) (hw : ctr.width ≤ 64) :
    ∃ r, ctr.reset = .ok r ∧ r.width = ctr.width ∧ r.init = ctr.init ∧ r.Bits S 0 ctr.init.toNat.testBit := by
  unfold Counter.reset
  dsimp only
  obtain ⟨c, h1, h2, h3⟩ := foldlM_range_inv
    (fun i (c : List (TRLWE N)) => c.length = ctr.width ∧ ∀ j < i, c[j]? = some
      (if ctr.init.toNat.testBit j then trivialTRLWE8 N else trivialTRLWEMinus8 N))
    (f := fun (c : List (TRLWE N)) i => do
      let b ← bit64 ctr.init i
      vset c i (if b then trivialTRLWE8 N else trivialTRLWEMinus8 N)) ctr.width
    (b := vresize ctr.c ctr.width (trivialTRLWEZero N)) ⟨vresize_length _ _ _, by simp⟩ (by
      rintro i c hi ⟨h1, h2⟩
      rw [bit64_ok _ (by omega), Res.bind_ok]
      refine ⟨_, if_pos (by omega), by simp [h1], fun j hj => ?_⟩
      by_cases hji : j = i
      · subst hji
        rw [List.getElem?_set_self (by omega)]
      · rw [List.getElem?_set_ne (by omega)]
        exact h2 j (by omega))
  rw [h1, Res.bind_ok]
  refine ⟨_, rfl, rfl, rfl, h2, fun i c hc k hk => ?_⟩
  have hi : i < ctr.width := by
    rw [← h2]; exact (List.getElem?_eq_some_iff.1 hc).1
  have := h3 i hi
  rw [hc] at this
  cases this
  rw [phase_trivial8 _ _ _ hk]
  exact Near.rfl'

theorem bitToLvl0_ok (hS : S.Sound δ Enc m g) (hN : 0 < N) {c : TRLWE N} {b : Bool} {e : Nat}
    (h : ∀ k : Fin N, k.val = 0 → Near e (c.phase S.sk.lvl1 k) (eighth b)) :
    ∃ t, bitToLvl0 S.toScheme c = .ok t ∧ Near (δ.ks + e) (t.phase S.sk.lvl0) (eighth b) := by
  unfold bitToLvl0
  rw [sampleExtractAt_ok hN, Res.bind_ok]
  exact ⟨_, rfl, hS.base.iks_near (h ⟨0, hN⟩ rfl)⟩

theorem Counter.minusOne_ok (hS : S.Sound δ Enc m g) (hN : 0 < N) {e : Nat} (he : δ.ks + e ≤ m) (hg : g ≤ m)
    (hm : 4 * m + δ.ms < 2 ^ 30) {ctr : Counter N} {f : Nat → Bool} (hb : ctr.Bits S e f) {c : TLWE n} {b : Bool}
    (hc : Near m (c.phase S.sk.lvl0) (eighth b)) :
    ∃ r, ctr.minusOne S c = .ok r ∧ r.width = ctr.width ∧ r.init = ctr.init ∧
      r.Bits S δ.br (fun i => f i != borrowAt f b i) := by
  unfold Counter.minusOne
  obtain ⟨p, h1, h2, h3, h4⟩ := foldlM_range_inv
    (fun i (p : List (TLWE n) × TLWE n) => p.1.length = i * 2 ∧ Near m (p.2.phase S.sk.lvl0) (eighth (borrowAt f b i)) ∧
      ∀ j < i, ∃ x y, p.1[j * 2]? = some x ∧ p.1[j * 2 + 1]? = some y ∧ Near m (x.phase S.sk.lvl0) (eighth (f j)) ∧
        Near m (y.phase S.sk.lvl0) (eighth (borrowAt f b j)))
    (f := fun (p : List (TLWE n) × TLWE n) i => do
      let ci ← vat ctr.c i
      let t0 ← bitToLvl0 S.toScheme ci
      pure (p.1 ++ [t0, p.2], S.homANDNY t0 p.2)) ctr.width (b := ([], c)) ⟨rfl, hc, by simp⟩ (by
      rintro i p hi ⟨h1, h2, h3⟩
      have hil : i < ctr.c.length := by rw [hb.len]; exact hi
      have e1 : vat ctr.c i = .ok ctr.c[i] := by unfold vat; rw [List.getElem?_eq_getElem hil]
      rw [e1, Res.bind_ok]
      obtain ⟨t, ht, hn⟩ := bitToLvl0_ok hS hN (hb.near i _ (List.getElem?_eq_getElem hil))
      rw [ht, Res.bind_ok]
      have hn' := hn.mono he
      refine ⟨_, rfl, by simp [h1]; omega, (hS.homANDNY _ _ _ _ hn' h2).mono hg, fun j hj => ?_⟩
      by_cases hji : j = i
      · subst hji
        refine ⟨t, p.2, ?_, ?_, hn', h2⟩
        · rw [List.getElem?_append_right (by omega)]; simp [h1]
        · rw [List.getElem?_append_right (by omega)]; simp [h1]
      · obtain ⟨x, y, a1, a2, a3⟩ := h3 j (by omega)
        refine ⟨x, y, ?_, ?_, a3⟩
        · rw [List.getElem?_append_left (by omega)]; exact a1
        · rw [List.getElem?_append_left (by omega)]; exact a2)
  rw [h1, Res.bind_ok]
  obtain ⟨w', e1, e2, e3, e4⟩ := parFor_write (task := minusTask S.toScheme p.1) (rest := [])
    (P := fun i x => ∀ k : Fin N, k.val = 0 → Near δ.br (x.phase S.sk.lvl1 k) (eighth (f i != borrowAt f b i)))
    (w0 := ctr.c) (List.range ctr.width) List.nodup_range (by
      intro i hi w hw _
      rw [List.mem_range] at hi
      obtain ⟨x, y, a1, a2, a3, a4⟩ := h4 i hi
      refine ⟨S.homXor x y, fun k hk => hS.base.homXor a3 a4 (by omega) k hk, ?_⟩
      have b1 : vat p.1 (i * 2) = .ok x := by unfold vat; rw [a1]
      have b2 : vat p.1 (i * 2 + 1) = .ok y := by unfold vat; rw [a2]
      unfold minusTask
      rw [b1, b2]
      exact Prog.run_write0 (by rw [hw, hb.len]; exact hi)) (by
      intro i hi; rw [List.mem_range] at hi; rw [hb.len]; exact hi)
  rw [e1, Res.bind_ok]
  refine ⟨{ ctr with c := w' }, rfl, rfl, rfl, by rw [e2, hb.len], fun i c hc => ?_⟩
  have hi : i < ctr.width := by
    rw [← hb.len, ← e2]; exact (List.getElem?_eq_some_iff.1 hc).1
  obtain ⟨x, hx, hP⟩ := e3 i (List.mem_range.2 hi)
  rw [hx] at hc
  cases hc
  exact hP

/-- a reduction by OR -/
theorem RedTree.eval_or (hS : S.Sound δ Enc m g) (hg : g ≤ m) {vals : List (TLWE n)} {v : Nat → Bool}
    (hv : ∀ i c, vals[i]? = some c → Near m (c.phase S.sk.lvl0) (eighth (v i))) (t : RedTree) (ht : ∀ i ∈ t.leaves, i < vals.length) :
    ∃ x, t.eval S.homOR vals = .ok x ∧ Near m (x.phase S.sk.lvl0) (eighth (t.leaves.any v)) := by
  induction t with
  | leaf i =>
    have hi := ht i (by simp [RedTree.leaves])
    refine ⟨vals[i], ?_, ?_⟩
    · unfold RedTree.eval vat; rw [List.getElem?_eq_getElem hi]
    · have := hv i _ (List.getElem?_eq_getElem hi)
      simpa [RedTree.leaves] using this
  | node a b iha ihb =>
    obtain ⟨x, hx, hx'⟩ := iha (fun i hi => ht i (by simp [RedTree.leaves, hi]))
    obtain ⟨y, hy, hy'⟩ := ihb (fun i hi => ht i (by simp [RedTree.leaves, hi]))
    refine ⟨S.homOR x y, ?_, ?_⟩
    · rw [RedTree.eval, hx, Res.bind_ok, hy, Res.bind_ok]; rfl
    · rw [RedTree.leaves, List.any_append]
      exact (hS.homOR _ _ _ _ hx' hy').mono hg

theorem homNOT_phase (c : TLWE n) (key : Fin n → Torus) : (homNOT c).phase key = -c.phase key := by
  unfold homNOT
  rw [phase_eq_sum, phase_eq_sum]
  simp only [neg_mul, Finset.sum_neg_distrib]
  abel

theorem Counter.isZero_ok (hS : S.Sound δ Enc m g) (hN : 0 < N) {e : Nat} (he : δ.ks + e ≤ m) (hg : g ≤ m)
    {ctr : Counter N} {f : Nat → Bool} (hb : ctr.Bits S e f) {t : RedTree} (ht : t.Valid (ctr.width + 1)) :
    ∃ z, ctr.isZero S t = .ok z ∧
      Near m (z.phase S.sk.lvl0) (eighth (decide (lsbIndex ((List.range ctr.width).map f) = 0))) := by
  unfold Counter.isZero
  have hm : ∀ (cs : List (TRLWE N)) (f : Nat → Bool), (∀ i c, cs[i]? = some c → ∀ k : Fin N, k.val = 0 → Near e (c.phase S.sk.lvl1 k) (eighth (f i))) →
      ∃ ts, cs.mapM (bitToLvl0 S.toScheme) = .ok ts ∧ ts.length = cs.length ∧
        ∀ i c, ts[i]? = some c → Near m (c.phase S.sk.lvl0) (eighth (f i)) := by
    intro cs
    induction cs with
    | nil => intro f _; exact ⟨[], rfl, rfl, by simp⟩
    | cons c cs ih =>
      intro f h
      obtain ⟨x, hx, hx'⟩ := bitToLvl0_ok hS hN (h 0 c rfl)
      obtain ⟨ts, h1, h2, h3⟩ := ih (fun i => f (i + 1)) (fun i c hc => h (i + 1) c (by simpa using hc))
      refine ⟨x :: ts, ?_, by simp [h2], fun i c hc => ?_⟩
      · rw [List.mapM_cons, hx, Res.bind_ok, h1, Res.bind_ok]; rfl
      · cases i with
        | zero => simp at hc; subst hc; exact hx'.mono he
        | succ i => exact h3 i c (by simpa using hc)
  obtain ⟨ts, h1, h2, h3⟩ := hm ctr.c f hb.near
  rw [h1, Res.bind_ok]
  obtain ⟨x, hx, hx'⟩ := RedTree.eval_or hS hg (vals := trivialTLWEMinus8 n :: ts) (v := fun i => if i = 0 then false else f (i - 1)) (by
    intro i c hc
    cases i with
    | zero =>
      simp at hc; subst hc
      rw [trivialTLWEMinus8, show (0#32 : Torus) = 0 from rfl, trivialTLWE_phase]
      simp only [if_true]
      exact Near.rfl'
    | succ i => simpa using h3 i c (by simpa using hc)) t (by
    intro i hi
    have := ht.mem_iff.1 hi
    rw [List.mem_range] at this
    simp [h2, hb.len]; omega)
  rw [hx, Res.bind_ok]
  refine ⟨_, rfl, ?_⟩
  rw [homNOT_phase]
  have hany : t.leaves.any (fun i => if i = 0 then false else f (i - 1)) = ((List.range ctr.width).map f).any id := by
    rw [ht.any_eq, List.range_succ_eq_map, List.any_cons, List.any_map, List.any_map]
    simp [Function.comp_def]
  rw [hany] at hx'
  have hz : eighth (decide (lsbIndex ((List.range ctr.width).map f) = 0)) = -eighth (((List.range ctr.width).map f).any id) := by
    cases hc : ((List.range ctr.width).map f).any id
    · rw [decide_eq_true ((lsb_zero_iff _).2 hc)]; decide
    · rw [decide_eq_false (fun h => by rw [lsb_zero_iff] at h; rw [h] at hc; cases hc)]; decide
  rw [hz]
  exact hx'.neg

theorem sign_eighth {x : Torus} {e : Nat} {b : Bool} (h : Near e x (eighth b)) (he : e < 2 ^ 29) : decide (0 < x.toInt) = b := by
  cases b
  · have := toInt_neg_of_near (m := 2 ^ 29) (by decide) h (by omega) (by omega)
    simp; omega
  · have := toInt_pos_of_near (m := 2 ^ 29) (by decide) h (by omega) (by omega)
    simp; omega

theorem Counter.decrypt_eq (hN : 0 < N) {e : Nat} (he : e < 2 ^ 29) {ctr : Counter N} {f : Nat → Bool} (hb : ctr.Bits S e f) :
    ctr.decrypt S.sk = if lsbIndex ((List.range ctr.width).map f) < 2 ^ 32
      then .ok (BitVec.ofNat 64 (lsbIndex ((List.range ctr.width).map f))) else .error .ub := by
  unfold Counter.decrypt
  have key : ∀ k, k ≤ ctr.width → (List.range k).foldlM (fun (res : BitVec 64) i => do
      let ci ← vat ctr.c i
      let b ← trlweSymDecryptAt ci S.sk 0
      if b then do
        let m ← shlU32 i
        pure (res ||| m)
      else pure res) 0#64 = if lsbIndex ((List.range k).map f) < 2 ^ 32
      then .ok (BitVec.ofNat 64 (lsbIndex ((List.range k).map f))) else .error .ub := by
    intro k
    induction k with
    | zero => intro _; rfl
    | succ i ih =>
      intro hi
      have hil : i < ctr.c.length := by rw [hb.len]; exact hi
      have e1 : vat ctr.c i = .ok ctr.c[i] := by unfold vat; rw [List.getElem?_eq_getElem hil]
      have e2 : trlweSymDecryptAt ctr.c[i] S.sk 0 = .ok (f i) := by
        unfold trlweSymDecryptAt
        rw [dif_pos hN, sign_eighth (hb.near i _ (List.getElem?_eq_getElem hil) ⟨0, hN⟩ rfl) he]
      rw [List.range_succ, List.foldlM_append, ih (by omega), List.map_append, List.map_singleton, lsbIndex_snoc]
      have hlt := lsbIndex_lt ((List.range i).map f)
      simp only [List.length_map, List.length_range] at hlt ⊢
      have hp0 : 0 < 2 ^ i := Nat.two_pow_pos i
      by_cases hsm : lsbIndex ((List.range i).map f) < 2 ^ 32
      · rw [if_pos hsm, Res.bind_ok, List.foldlM_cons, e1, Res.bind_ok, e2, Res.bind_ok]
        cases hf : f i
        · rw [if_neg (by simp), if_pos (by simpa using hsm)]
          simp
          rfl
        · rw [if_pos rfl]
          by_cases hi32 : i < 32
          · have e3 : shlU32 i = .ok (((1#32) <<< i).setWidth 64) := if_pos hi32
            have hp : 2 ^ i ≤ 2 ^ 31 := Nat.pow_le_pow_right (by omega) (by omega)
            rw [e3, Res.bind_ok, Res.pure_eq, Res.bind_ok, List.foldlM_nil, Res.pure_eq, if_pos (by simp; omega)]
            congr 1
            apply BitVec.eq_of_toNat_eq
            simp only [BitVec.toNat_or, BitVec.toNat_ofNat, BitVec.toNat_setWidth, BitVec.toNat_shiftLeft, Bool.toNat_true, Nat.mul_one,
              Nat.shiftLeft_eq]
            rw [Nat.mod_eq_of_lt (a := lsbIndex _) (by omega), Nat.one_mod_eq_one.2 (by omega), Nat.one_mul,
              Nat.mod_eq_of_lt (a := 2 ^ i) (b := 2 ^ 32) (by omega),
              Nat.mod_eq_of_lt (a := 2 ^ i) (b := 2 ^ 64) (by omega), Nat.mod_eq_of_lt (b := 2 ^ 64) (by omega), Nat.add_comm, Nat.or_comm]
            exact (Nat.two_pow_add_eq_or_of_lt hlt 1 |> fun h => by simpa using h.symm)
          · have e3 : shlU32 i = .error .ub := if_neg hi32
            have hp : 2 ^ 32 ≤ 2 ^ i := Nat.pow_le_pow_right (by omega) (by omega)
            rw [e3, if_neg (by simp; omega)]
            rfl
      · rw [if_neg hsm, if_neg (by intro h; apply hsm; omega)]
        rfl
  exact key _ (Nat.le_refl _)

end Homfa
