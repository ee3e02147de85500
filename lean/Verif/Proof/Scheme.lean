import Verif.Spec.Scheme
import Verif.Proof.Phase

/-! The bootstrapping wrappers. -/

namespace Homfa

variable {N n l : Nat}

theorem tlwe_phase_shift (c : TLWE n) (x : Torus) (key : Fin n → Torus) :
    ({ c with b := c.b + x } : TLWE n).phase key = c.phase key + x := by
  simp only [phase_eq_sum]; abel

theorem tlwe_phase_shift_sub (c : TLWE n) (x : Torus) (key : Fin n → Torus) :
    ({ c with b := c.b - x } : TLWE n).phase key = c.phase key - x := by
  simp only [phase_eq_sum]; abel

theorem sampleExtractAt_ok {w : TRLWE N} {i : Nat} (h : i < N) :
    sampleExtractAt w i = .ok (sampleExtract w ⟨i, h⟩) := dif_pos h

theorem trlwe_phase_shift0 (c : TRLWE N) (x : Torus) (key : Fin N → Torus) (i : Fin N) :
    ({ c with b := fun i => if i.val = 0 then c.b i + x else c.b i } : TRLWE N).phase key i =
      c.phase key i + if i.val = 0 then x else 0 := by
  simp only [TRLWE.phase]
  split
  · abel
  · simp

namespace Scheme
variable {S : Scheme N n l} {δ : Noise} {Enc : Gsw l N → Bool → Prop}

/-- blind rotation on a level 0 ciphertext whose phase is near ±m -/
theorem Sound.br (hS : S.Sound δ Enc) {c : TLWE n} {mu ν : Torus} {m e : Nat} {b : Bool} (i : Fin N) (hi : i.val = 0)
    (hν : ν.toInt = m) (hν' : (-ν).toInt = -(m : Int))
    (h : Near e (c.phase S.sk.lvl0) (if b then ν else -ν)) (h1 : e + δ.ms < m) (h2 : m + e + δ.ms < 2 ^ 31) :
    Near δ.br ((S.blindRotate c (muPoly N mu)).phase S.sk.lvl1 i) (if b then mu else -mu) := by
  cases b
  · simp only [Bool.false_eq_true, if_false] at h ⊢
    have := toInt_neg_of_near hν' h (by omega) (by omega)
    exact hS.blindRotate_neg c mu i hi (by omega) (by omega)
  · simp only [if_true] at h ⊢
    have := toInt_pos_of_near hν h (by omega) (by omega)
    exact hS.blindRotate_pos c mu i hi (by omega) (by omega)

theorem Sound.bsHalfToHalf (hS : S.Sound δ Enc) {c : TLWE n} {b : Bool} {e : Nat}
    (h : Near e (c.phase S.sk.lvl0) (half b)) (he : e + δ.ms < 2 ^ 30) (i : Fin N) (hi : i.val = 0) :
    Near δ.br ((S.bsHalfToHalf c).phase S.sk.lvl1 i) (half b) := by
  unfold Scheme.bsHalfToHalf
  dsimp only
  rw [trlwe_phase_shift0, if_pos hi]
  have h1 : Near e (({ c with b := c.b - mu4 } : TLWE n).phase S.sk.lvl0) (if b then mu4 else -mu4) := by
    rw [tlwe_phase_shift_sub]
    have := h.sub_const mu4
    have e1 : half b - mu4 = if b then mu4 else -mu4 := by cases b <;> decide
    rwa [e1] at this
  have h2 := (hS.br i hi (m := 2 ^ 30) (by decide) (by decide) h1 (mu := mu4) (by omega) (by omega)).add_const mu4
  have e2 : (if b then mu4 else -mu4) + mu4 = half b := by cases b <;> decide
  rwa [e2] at h2

theorem Sound.bsHalfToEighth (hS : S.Sound δ Enc) {c : TLWE n} {b : Bool} {e : Nat}
    (h : Near e (c.phase S.sk.lvl0) (half b)) (he : e + δ.ms < 2 ^ 30) (i : Fin N) (hi : i.val = 0) :
    Near δ.br ((S.bsHalfToEighth c).phase S.sk.lvl1 i) (eighth b) := by
  unfold Scheme.bsHalfToEighth
  dsimp only
  have h1 : Near e (({ c with b := c.b - mu4 } : TLWE n).phase S.sk.lvl0) (if b then mu4 else -mu4) := by
    rw [tlwe_phase_shift_sub]
    have := h.sub_const mu4
    have e1 : half b - mu4 = if b then mu4 else -mu4 := by cases b <;> decide
    rwa [e1] at this
  exact hS.br i hi (m := 2 ^ 30) (by decide) (by decide) h1 (mu := mu8) (by omega) (by omega)

theorem Sound.iks_near (hS : S.Sound δ Enc) {w : TRLWE N} {x : Torus} {e : Nat} {i : Fin N}
    (h : Near e (w.phase S.sk.lvl1 i) x) : Near (δ.ks + e) ((S.iks (sampleExtract w i)).phase S.sk.lvl0) x := by
  have := hS.iks (sampleExtract w i)
  rw [phase_sampleExtract] at this
  exact this.trans h

theorem Sound.bootHalf (hS : S.Sound δ Enc) {w : TRLWE N} {b : Bool} {e : Nat} (hN : 0 < N)
    (h : Near e (w.phase S.sk.lvl1 ⟨0, hN⟩) (half b)) (he : e + δ.ks + δ.ms < 2 ^ 30) :
    ∃ r, S.bootHalf w = .ok r ∧ Near δ.br (r.phase S.sk.lvl1 ⟨0, hN⟩) (half b) := by
  unfold Scheme.bootHalf
  rw [sampleExtractAt_ok hN]
  exact ⟨_, rfl, hS.bsHalfToHalf (hS.iks_near h) (by omega) _ rfl⟩

theorem Sound.bootHalfToEighth (hS : S.Sound δ Enc) {w : TRLWE N} {b : Bool} {e : Nat} (hN : 0 < N)
    (h : Near e (w.phase S.sk.lvl1 ⟨0, hN⟩) (half b)) (he : e + δ.ks + δ.ms < 2 ^ 30) :
    ∃ r, S.bootHalfToEighth w = .ok r ∧ Near δ.br (r.phase S.sk.lvl1 ⟨0, hN⟩) (eighth b) := by
  unfold Scheme.bootHalfToEighth
  rw [sampleExtractAt_ok hN]
  exact ⟨_, rfl, hS.bsHalfToEighth (hS.iks_near h) (by omega) _ rfl⟩

theorem Sound.bootEighth (hS : S.Sound δ Enc) {w : TRLWE N} {b : Bool} {e : Nat} (hN : 0 < N)
    (h : Near e (w.phase S.sk.lvl1 ⟨0, hN⟩) (eighth b)) (he : e + δ.ks + δ.ms < 2 ^ 29) :
    ∃ r, S.bootEighth w = .ok r ∧ Near δ.br (r.phase S.sk.lvl1 ⟨0, hN⟩) (eighth b) := by
  unfold Scheme.bootEighth
  rw [sampleExtractAt_ok hN]
  exact ⟨_, rfl, hS.br _ rfl (m := 2 ^ 29) (ν := mu8) (by decide) (by decide) (hS.iks_near h) (by omega) (by omega)⟩

theorem Sound.homXor (hS : S.Sound δ Enc) {x y : TLWE n} {a b : Bool} {e e' : Nat}
    (hx : Near e (x.phase S.sk.lvl0) (eighth a)) (hy : Near e' (y.phase S.sk.lvl0) (eighth b))
    (he : 2 * (e + e') + δ.ms < 2 ^ 30) (i : Fin N) (hi : i.val = 0) :
    Near δ.br ((S.homXor x y).phase S.sk.lvl1 i) (eighth (a != b)) := by
  unfold Scheme.homXor
  dsimp only
  have hp : (⟨fun i => 2 * x.a i + 2 * y.a i, 2 * x.b + 2 * y.b + 2 * mu8⟩ : TLWE n).phase S.sk.lvl0 =
      (x.phase S.sk.lvl0 + x.phase S.sk.lvl0) + (y.phase S.sk.lvl0 + y.phase S.sk.lvl0) + 2 * mu8 := by
    simp only [phase_eq_sum]
    have : ∀ i, (2 * x.a i + 2 * y.a i) * S.sk.lvl0 i = 2 * (x.a i * S.sk.lvl0 i) + 2 * (y.a i * S.sk.lvl0 i) := by
      intro i; ring
    simp only [this, Finset.sum_add_distrib, ← Finset.mul_sum]
    ring
  have h1 : Near (2 * (e + e')) ((⟨fun i => 2 * x.a i + 2 * y.a i, 2 * x.b + 2 * y.b + 2 * mu8⟩ : TLWE n).phase S.sk.lvl0)
      (if (a != b) then mu4 else -mu4) := by
    rw [hp]
    have := (((hx.add hx).add (hy.add hy)).add_const (2 * mu8)).mono (e' := 2 * (e + e')) (by omega)
    have e1 : eighth a + eighth a + (eighth b + eighth b) + 2 * mu8 = if (a != b) then mu4 else -mu4 := by
      cases a <;> cases b <;> decide
    rwa [e1] at this
  exact hS.br i hi (m := 2 ^ 30) (by decide) (by decide) h1 (mu := mu8) (by omega) (by omega)

end Scheme

/-! ## A concrete backend -/

/-- A backend that satisfies `Sound`: every operation decrypts, adds an error of one unit, and encrypts trivially.  TRGSW
ciphertexts carry their bit in the first word. -/
def toyScheme (N n l : Nat) (sk : SecretKey N n) : Scheme N n l where
  sk := sk
  cmux := fun g c1 c0 =>
    let b := if h : 0 < l ∧ 0 < N then g ⟨0, by omega⟩ 0 ⟨0, h.2⟩ == 1#64 else false
    trivialTRLWE (fun i => (if b then c1 else c0).phase sk.lvl1 i + 1)
  iks := fun c => ⟨fun _ => 0, c.phase sk.lvl1 - 1⟩
  blindRotate := fun c v =>
    trivialTRLWE (fun i => if i.val = 0 then (if 0 < (c.phase sk.lvl0).toInt then v i else -v i) + 1 else 77)
  tlwe2trlwe := fun c => trivialTRLWE (fun i => (if i.val = 0 then c.phase sk.lvl1 else 0) + 1)
  cb := fun c => fun _ _ _ => if 0 < (c.phase sk.lvl1).toInt then 1#64 else 0#64
  encrypt := fun _ b => fun _ _ _ => if b then 1#64 else 0#64

/-- the bit carried by a toy TRGSW ciphertext -/
def toyEnc {N l : Nat} (g : Gsw l N) (b : Bool) : Prop :=
  ∃ (h : 0 < l) (h' : 0 < N), g ⟨0, by omega⟩ 0 ⟨0, h'⟩ = if b then 1#64 else 0#64

def toyNoise : Noise := ⟨1, 1, 1, 1, 1, 1⟩

theorem trivialTLWE_phase (x : Torus) (key : Fin n → Torus) : (⟨fun _ => 0, x⟩ : TLWE n).phase key = x := by
  rw [phase_eq_sum]; simp

theorem near_add_one (x : Torus) : Near 1 (x + 1) x := by
  unfold Near
  rw [add_sub_cancel_left]; decide

theorem near_sub_one (x : Torus) : Near 1 (x - 1) x := by
  unfold Near
  have : x - 1 - x = -1 := by abel
  rw [this]; decide

theorem toy_sound (sk : SecretKey N n) (hl : 0 < l) (hN : 0 < N) : (toyScheme N n l sk).Sound toyNoise toyEnc where
  cmux := by
    rintro g b c1 c0 i ⟨h, h', hb⟩
    simp only [toyScheme]
    rw [phase_trivial, dif_pos ⟨h, h'⟩]
    have : (g ⟨0, by omega⟩ 0 ⟨0, h'⟩ == 1#64) = b := by rw [hb]; cases b <;> rfl
    rw [this]
    exact near_add_one _
  iks := by
    intro c
    simp only [toyScheme]
    rw [trivialTLWE_phase]
    exact near_sub_one _
  blindRotate_pos := by
    intro c mu i hi h1 _
    simp only [toyScheme, toyNoise] at *
    rw [phase_trivial]
    rw [if_pos hi, if_pos (by omega)]
    exact near_add_one _
  blindRotate_neg := by
    intro c mu i hi _ h1
    simp only [toyScheme, toyNoise] at *
    rw [phase_trivial]
    rw [if_pos hi, if_neg (by omega)]
    exact near_add_one _
  tlwe2trlwe := by
    intro c i
    simp only [toyScheme]
    rw [phase_trivial]
    exact near_add_one _
  cb_pos := by
    intro c h1 _
    simp only [toyScheme, toyNoise] at *
    exact ⟨hl, hN, by rw [if_pos (by omega)]; rfl⟩
  cb_neg := by
    intro c _ h1
    simp only [toyScheme, toyNoise] at *
    exact ⟨hl, hN, by rw [if_neg (by omega)]; rfl⟩
  encrypt := by
    intro r b
    exact ⟨hl, hN, rfl⟩

end Homfa
