import Verif.Spec.Calls
import Verif.Proof.Calls
import Verif.Proof.Scheme
import Verif.Proof.Commands

/-! # A sound library that agrees with a given one wherever that one is within its bounds -/

namespace Homfa

variable {N n l : Nat} {S : Scheme N n l} {δ : Noise} {Enc : Gsw l N → Bool → Prop}

open Classical in
/-- `S`, with every answer outside the bounds replaced by an exact one -/
noncomputable def Scheme.patch (S : Scheme N n l) (δ : Noise) (Enc : Gsw l N → Bool → Prop) (E : Bool → Gsw l N) : Scheme N n l where
  sk := S.sk
  cmux g c1 c0 := if (OpCall.cmux g c1 c0).Within S δ Enc then S.cmux g c1 c0 else if Enc g true then c1 else c0
  iks c := if (OpCall.iks c).Within S δ Enc then S.iks c else ⟨fun _ => 0, c.phase S.sk.lvl1⟩
  blindRotate c tv := if (OpCall.blindRotate c tv).Within S δ Enc then S.blindRotate c tv else
    trivialTRLWE fun i => if (δ.ms : Int) < (c.phase S.sk.lvl0).toInt ∧ (c.phase S.sk.lvl0).toInt < (2 : Int) ^ 31 - δ.ms then tv i else -tv i
  tlwe2trlwe c := if (OpCall.tlwe2trlwe c).Within S δ Enc then S.tlwe2trlwe c else
    trivialTRLWE fun i => if i.val = 0 then c.phase S.sk.lvl1 else 0
  cb c := if (OpCall.cb c).Within S δ Enc then S.cb c else
    E (decide ((δ.cb : Int) < (c.phase S.sk.lvl1).toInt ∧ (c.phase S.sk.lvl1).toInt < (2 : Int) ^ 31 - δ.cb))
  encrypt r b := if Enc (S.encrypt r b) b then S.encrypt r b else E b

theorem Scheme.patch_sound {E : Bool → Gsw l N} (hE : ∀ b, Enc (E b) b) (hf : ∀ g, ¬ (Enc g true ∧ Enc g false)) :
    (S.patch δ Enc E).Sound δ Enc where
  cmux g b c1 c0 i h := by
    have hsk : (S.patch δ Enc E).sk = S.sk := rfl
    rw [hsk]
    by_cases hw : (OpCall.cmux g c1 c0).Within S δ Enc
    · have e : (S.patch δ Enc E).cmux g c1 c0 = S.cmux g c1 c0 := if_pos hw
      rw [e]; exact hw b i h
    · have e : (S.patch δ Enc E).cmux g c1 c0 = _ := if_neg hw
      rw [e]
      cases b
      · rw [if_neg fun ht => hf g ⟨ht, h⟩]; exact Near.rfl'
      · rw [if_pos h]; exact Near.rfl'
  iks c := by
    have hsk : (S.patch δ Enc E).sk = S.sk := rfl
    rw [hsk]
    by_cases hw : (OpCall.iks c).Within S δ Enc
    · have e : (S.patch δ Enc E).iks c = S.iks c := if_pos hw
      rw [e]; exact hw
    · have e : (S.patch δ Enc E).iks c = _ := if_neg hw
      rw [e, trivialTLWE_phase]; exact Near.rfl'
  blindRotate_pos c mu i hi h1 h2 := by
    have hsk : (S.patch δ Enc E).sk = S.sk := rfl
    rw [hsk] at h1 h2 ⊢
    by_cases hw : (OpCall.blindRotate c (muPoly N mu)).Within S δ Enc
    · have e : (S.patch δ Enc E).blindRotate c (muPoly N mu) = S.blindRotate c (muPoly N mu) := if_pos hw
      rw [e]; exact (hw mu i rfl hi).1 h1 h2
    · have e : (S.patch δ Enc E).blindRotate c (muPoly N mu) = _ := if_neg hw
      rw [e, phase_trivial, if_pos ⟨h1, h2⟩]; exact Near.rfl'
  blindRotate_neg c mu i hi h1 h2 := by
    have hsk : (S.patch δ Enc E).sk = S.sk := rfl
    rw [hsk] at h1 h2 ⊢
    by_cases hw : (OpCall.blindRotate c (muPoly N mu)).Within S δ Enc
    · have e : (S.patch δ Enc E).blindRotate c (muPoly N mu) = S.blindRotate c (muPoly N mu) := if_pos hw
      rw [e]; exact (hw mu i rfl hi).2 h1 h2
    · have e : (S.patch δ Enc E).blindRotate c (muPoly N mu) = _ := if_neg hw
      rw [e, phase_trivial, if_neg]
      · exact Near.rfl'
      · rintro ⟨h, _⟩
        omega
  tlwe2trlwe c i := by
    have hsk : (S.patch δ Enc E).sk = S.sk := rfl
    rw [hsk]
    by_cases hw : (OpCall.tlwe2trlwe c).Within S δ Enc
    · have e : (S.patch δ Enc E).tlwe2trlwe c = S.tlwe2trlwe c := if_pos hw
      rw [e]; exact hw i
    · have e : (S.patch δ Enc E).tlwe2trlwe c = _ := if_neg hw
      rw [e, phase_trivial]; exact Near.rfl'
  cb_pos c h1 h2 := by
    have hsk : (S.patch δ Enc E).sk = S.sk := rfl
    rw [hsk] at h1 h2
    by_cases hw : (OpCall.cb c).Within S δ Enc
    · have e : (S.patch δ Enc E).cb c = S.cb c := if_pos hw
      rw [e]; exact hw.1 h1 h2
    · have e : (S.patch δ Enc E).cb c = _ := if_neg hw
      rw [e, decide_eq_true ⟨h1, h2⟩]; exact hE true
  cb_neg c h1 h2 := by
    have hsk : (S.patch δ Enc E).sk = S.sk := rfl
    rw [hsk] at h1 h2
    by_cases hw : (OpCall.cb c).Within S δ Enc
    · have e : (S.patch δ Enc E).cb c = S.cb c := if_pos hw
      rw [e]; exact hw.2 h1 h2
    · have e : (S.patch δ Enc E).cb c = _ := if_neg hw
      rw [e, decide_eq_false (by rintro ⟨h, _⟩; omega)]; exact hE false
  encrypt r b := by
    by_cases hw : Enc (S.encrypt r b) b
    · have e : (S.patch δ Enc E).encrypt r b = S.encrypt r b := if_pos hw
      rw [e]; exact hw
    · have e : (S.patch δ Enc E).encrypt r b = E b := if_neg hw
      rw [e]; exact hE b

/-- inside the bounds nothing is replaced -/
theorem patch_answer {E : Bool → Gsw l N} {c : OpCall N n l} (h : c.Within S δ Enc) : c.answer (S.patch δ Enc E) = c.answer S := by
  cases c <;> exact if_pos h

/-- a run inside the bounds is the same with the patched library -/
theorem patch_run {α : Type} (E : Bool → Gsw l N) (p : Comp N n l α) (h : ∀ c ∈ p.trace S, c.Within S δ Enc) :
    p.run (S.patch δ Enc E) = p.run S :=
  p.run_congr fun c hc => patch_answer (h c hc)

theorem encryptions_congr {S S' : Scheme N n l} {rand : Nat → Nat} : ∀ (w : List Bool) (k : Nat),
    (∀ m b, w[m]? = some b → S.encrypt (rand (k + m)) b = S'.encrypt (rand (k + m)) b) → encryptions S rand k w = encryptions S' rand k w
  | [], _, _ => rfl
  | b :: w, k, h => by
    have e : encryptions S rand (k + 1) w = encryptions S' rand (k + 1) w := encryptions_congr w (k + 1) fun m b' hm => by
      have := h (m + 1) b' (by simpa using hm)
      rwa [show k + (m + 1) = k + 1 + m by omega] at this
    rw [encryptions, encryptions, e, show S.encrypt (rand k) b = S'.encrypt (rand k) b from h 0 b rfl]

/-- good encryptions are the same with the patched library -/
theorem patch_enc (E : Bool → Gsw l N) {rand : Nat → Nat} {ap : Nat} (hap : 0 < ap) {rs : List (List Byte)}
    (hrs : ∀ r ∈ rs, r.length = recordBytes ap) (h : EncryptsWell S Enc rand ap (some rs.flatten)) :
    doEnc (S.patch δ Enc E) rand (some rs.flatten) ap = doEnc S rand (some rs.flatten) ap := by
  rw [enc_eq _ _ hap hrs, enc_eq _ _ hap hrs, encryptions_congr (S' := S)]
  intro m b hm
  refine if_pos ?_
  rw [Nat.zero_add]
  refine h _ _ rfl ⟨rs, [], by simp, hrs, ?_, ?_⟩ m b hm
  · show 0 < recordBytes ap
    unfold recordBytes; omega
  · simp [recordBits]

end Homfa
