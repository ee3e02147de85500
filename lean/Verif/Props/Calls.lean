import Verif.Proof.Patch
import Verif.Props.Commands

/-!
# C69: what counts are the library calls a run makes

The theorems on the commands assume error bounds for every ciphertext the library could be given.  Here the bounds are assumed for the calls
made in the run at hand, which `Comp.trace` lists, and for the encryptions made for its input; nothing is assumed about the library on other
arguments, where a worst-case bound may well fail.
-/

namespace Homfa

variable {N n l : Nat} {S : Scheme N n l} {δ : Noise} {Enc : Gsw l N → Bool → Prop}

/-- `Scheme.Sound` is the statement that every possible call is within its bounds and every encryption is good. -/
theorem C69_sound_iff : S.Sound δ Enc ↔ (∀ c : OpCall N n l, c.Within S δ Enc) ∧ ∀ r b, Enc (S.encrypt r b) b := by
  constructor
  · intro h
    refine ⟨fun c => ?_, h.encrypt⟩
    cases c with
    | cmux g c1 c0 => exact fun b i he => h.cmux g b c1 c0 i he
    | iks c => exact h.iks c
    | blindRotate c tv =>
      rintro mu i rfl hi
      exact ⟨h.blindRotate_pos c mu i hi, h.blindRotate_neg c mu i hi⟩
    | tlwe2trlwe c => exact h.tlwe2trlwe c
    | cb c => exact ⟨h.cb_pos c, h.cb_neg c⟩
  · rintro ⟨h, he⟩
    exact {
      cmux := fun g b c1 c0 i hb => h (.cmux g c1 c0) b i hb
      iks := fun c => h (.iks c)
      blindRotate_pos := fun c mu i hi => (h (.blindRotate c (muPoly N mu)) mu i rfl hi).1
      blindRotate_neg := fun c mu i hi => (h (.blindRotate c (muPoly N mu)) mu i rfl hi).2
      tlwe2trlwe := fun c => h (.tlwe2trlwe c)
      cb_pos := fun c => (h (.cb c)).1
      cb_neg := fun c => (h (.cb c)).2
      encrypt := he }

/-- **C69**: the programs whose calls are listed are the commands. -/
theorem C69_same_program (S : Scheme N n l) (spec : List Char) (size : Nat) (cs : List (Gsw l N)) (outFile outDir : Option String)
    (outFreq qs boot : Nat) (maxSecond : Option Nat) (isRev sanitize : Bool) :
    (doRunOfflineC spec size cs boot sanitize).run S = doRunOffline S spec size cs boot sanitize ∧
    (doRunReverseC spec size cs outFile outDir outFreq boot isRev sanitize).run S =
      doRunReverse S spec size cs outFile outDir outFreq boot isRev sanitize ∧
    (doRunBlockC spec cs qs sanitize).run S = doRunBlock S spec cs qs sanitize ∧
    (doRunFlutC spec size cs outFile outDir outFreq qs boot maxSecond sanitize).run S =
      doRunFlut S spec size cs outFile outDir outFreq qs boot maxSecond sanitize :=
  ⟨doRunOfflineC_run .., doRunReverseC_run .., doRunBlockC_run .., doRunFlutC_run ..⟩

/-- **C69**: the result of a run depends on the answers to its own calls and on nothing else of the library. -/
theorem C69_own_calls {α : Type} (S S' : Scheme N n l) (p : Comp N n l α) (h : ∀ c ∈ p.trace S, c.answer S' = c.answer S) :
    p.run S' = p.run S ∧ p.trace S' = p.trace S :=
  ⟨p.run_congr h, p.trace_congr h⟩

/-- **C69** (OFFLINE): C36 with bounds for the calls of the run only. -/
theorem C69_offline (hE : SensibleEnc Enc) (hN : 0 < N) (hl : 0 < l) (hbs : blockSize l N < 2 ^ 63) (rand : Nat → Nat) (spec : List Char)
    (input : Option (List Byte)) (ap : Nat) (hap : 0 < ap) (henc : EncryptsWell S Enc rand ap input) (boot : Nat) (hb : 0 < boot)
    (hbud : δ.br + boot * δ.cmux + δ.ks + δ.ms < 2 ^ 30) (out : List Char) (hplain : doRunPlain spec input ap = .ok out) :
    ∃ file, doEnc S rand input ap = .ok file ∧ (file.length < 2 ^ 63 → file.length < 2 ^ 31 * blockSize l N →
      ∀ (pre : List Nat) (cs : List (Gsw l N)), ReadsReversed file pre cs →
        (∀ c ∈ (doRunOfflineC spec (pre.headD 0) cs boot false).trace S, c.Within S δ Enc) →
        ∃ c, doRunOffline S spec (pre.headD 0) cs boot false = .ok c ∧ doDec S c = out) := by
  obtain ⟨E, hEE⟩ := Classical.axiomOfChoice hE.exists_enc
  obtain ⟨file, h1, h2⟩ := C36_offline (Scheme.patch_sound (S := S) (δ := δ) hEE hE.functional) hN hl hbs rand spec input ap hap boot hb hbud out hplain
  obtain ⟨g, rs, b, p1, p2, p3, p4, p5, p6⟩ := plain_ok hap hplain
  subst p3
  rw [patch_enc E hap p4 henc] at h1
  refine ⟨file, h1, fun hlen h31 pre cs hr hw => ?_⟩
  obtain ⟨c, k1, k2⟩ := (h2 hlen).2 h31 pre cs hr
  rw [← doRunOfflineC_run, patch_run E _ hw, doRunOfflineC_run] at k1
  exact ⟨c, k1, k2⟩

/-- **C69** (REVERSE): C37 with bounds for the calls of the run only. -/
theorem C69_reverse (hE : SensibleEnc Enc) (hN : 0 < N) (hl : 0 < l) (hbs : blockSize l N < 2 ^ 63) (rand : Nat → Nat) (spec : List Char)
    (input : Option (List Byte)) (ap : Nat) (hap : 0 < ap) (henc : EncryptsWell S Enc rand ap input) (boot : Nat) (hb : 0 < boot)
    (hbud : δ.br + boot * δ.cmux + δ.ks + δ.ms < 2 ^ 30) (out : List Char) (hplain : doRunPlain spec input ap = .ok out)
    (outName : String) (outFreq : Nat) (isRev : Bool) :
    ∃ file, doEnc S rand input ap = .ok file ∧ (file.length < 2 ^ 63 →
      ∀ (pre : List Nat) (cs : List (Gsw l N)), ReadsForward file pre cs →
        (∀ c ∈ (doRunReverseC spec (pre.getLastD 0) cs (some outName) none outFreq boot isRev false).trace S, c.Within S δ Enc) →
        ∃ c, doRunReverse S spec (pre.getLastD 0) cs (some outName) none outFreq boot isRev false = .ok [(.file outName, c)] ∧
          (isRev = false → doDec S c = out) ∧
          (isRev = true → ∃ (g : Graph) (rs : List (List Byte)) (b : Bool), Graph.fromIstream spec = .ok g ∧ input = some rs.flatten ∧
            (∀ r ∈ rs, r.length = recordBytes ap) ∧
            g.accepts (rs.flatMap (recordBits ap)).reverse = .ok b ∧ doDec S c = printResult b)) := by
  obtain ⟨E, hEE⟩ := Classical.axiomOfChoice hE.exists_enc
  obtain ⟨file, h1, h2⟩ := C37_reverse (Scheme.patch_sound (S := S) (δ := δ) hEE hE.functional) hN hl hbs rand spec input ap hap boot hb hbud out hplain
    outName outFreq isRev
  obtain ⟨g, rs, b, p1, p2, p3, p4, p5, p6⟩ := plain_ok hap hplain
  subst p3
  rw [patch_enc E hap p4 henc] at h1
  refine ⟨file, h1, fun hlen pre cs hr hw => ?_⟩
  obtain ⟨c, k1, k2⟩ := (h2 hlen).2 pre cs hr
  rw [← doRunReverseC_run, patch_run E _ hw, doRunReverseC_run] at k1
  exact ⟨c, k1, k2⟩

/-- **C69** (BLOCK): C38 with bounds for the calls of the run only. -/
theorem C69_block (hE : SensibleEnc Enc) (hN : 0 < N) (hl : 0 < l) (hbs : blockSize l N < 2 ^ 63) (rand : Nat → Nat) (spec : List Char)
    (input : Option (List Byte)) (ap : Nat) (hap : 0 < ap) (henc : EncryptsWell S Enc rand ap input) (qs B : Nat)
    (hB : ∀ g, Graph.fromIstream spec = .ok g → LiveBits g B)
    (hBN : B < N) (hB31 : B < 31) (hbud : (max 1 qs + B) * δ.cmux + δ.cb < 2 ^ 29) (hint : qs ≤ 2 ^ 31) (out : List Char)
    (hplain : doRunPlain spec input ap = .ok out) :
    ∃ file, doEnc S rand input ap = .ok file ∧ (file.length < 2 ^ 63 →
      ∀ (pre : List Nat) (cs : List (Gsw l N)), ReadsForward file pre cs → input ≠ some [] →
        (∀ c ∈ (doRunBlockC spec cs qs false).trace S, c.Within S δ Enc) →
        ∃ c, doRunBlock S spec cs qs false = .ok c ∧ doDec S c = out) := by
  obtain ⟨E, hEE⟩ := Classical.axiomOfChoice hE.exists_enc
  obtain ⟨file, h1, h2⟩ := C38_block (Scheme.patch_sound (S := S) (δ := δ) hEE hE.functional) hN hl hbs rand spec input ap hap qs B hB hBN hB31 hbud
    hint out hplain
  obtain ⟨g, rs, b, p1, p2, p3, p4, p5, p6⟩ := plain_ok hap hplain
  subst p3
  rw [patch_enc E hap p4 henc] at h1
  refine ⟨file, h1, fun hlen pre cs hr hne hw => ?_⟩
  obtain ⟨c, k1, k2⟩ := ((h2 hlen).2 pre cs hr).1 hne
  rw [← doRunBlockC_run, patch_run E _ hw, doRunBlockC_run] at k1
  exact ⟨c, k1, k2⟩

/-- **C69** (FLUT): C39 with bounds for the calls of the run only. -/
theorem C69_flut (hE : SensibleEnc Enc) (hN : 0 < N) (hl : 0 < l) (hbs : blockSize l N < 2 ^ 63) (rand : Nat → Nat) (spec : List Char)
    (input : Option (List Byte)) (ap : Nat) (hap : 0 < ap) (henc : EncryptsWell S Enc rand ap input) (maxSecond : Option Nat) (qs boot L : Nat)
    (hL : ∀ g, Graph.fromIstream spec = .ok g → LiveMax g L) (hqs0 : 0 < qs) (hqs : qs < 31)
    (hmax : maxSecond.getD 8 < 31) (hmaxN : 2 ^ maxSecond.getD 8 ≤ N) (hb : 0 < boot)
    (hbud : L * 2 ^ (qs / 2) * flutErr δ L qs (boot - 1) + qs * δ.cmux + δ.ks + δ.ms < 2 ^ 30) (out : List Char)
    (hplain : doRunPlain spec input ap = .ok out) (outName : String) (outFreq : Nat) :
    ∃ file, doEnc S rand input ap = .ok file ∧ (file.length < 2 ^ 63 →
      ∀ (pre : List Nat) (cs : List (Gsw l N)), ReadsForward file pre cs →
        (∀ c ∈ (doRunFlutC spec (pre.getLastD 0) cs (some outName) none outFreq qs boot maxSecond false).trace S, c.Within S δ Enc) →
        (L < 2 ^ maxSecond.getD 8 →
          doRunFlut S spec (pre.getLastD 0) cs (some outName) none outFreq qs boot maxSecond false ≠ .error .die) ∧
        (doRunFlut S spec (pre.getLastD 0) cs (some outName) none outFreq qs boot maxSecond false = .error .die ∨
        ∃ c, doRunFlut S spec (pre.getLastD 0) cs (some outName) none outFreq qs boot maxSecond false = .ok [(.file outName, c)] ∧
          doDec S c = out)) := by
  obtain ⟨E, hEE⟩ := Classical.axiomOfChoice hE.exists_enc
  obtain ⟨file, h1, h2⟩ := C39_flut (Scheme.patch_sound (S := S) (δ := δ) hEE hE.functional) hN hl hbs rand spec input ap hap maxSecond qs boot L hL
    hqs0 hqs hmax hmaxN hb hbud out hplain outName outFreq
  obtain ⟨g, rs, b, p1, p2, p3, p4, p5, p6⟩ := plain_ok hap hplain
  subst p3
  rw [patch_enc E hap p4 henc] at h1
  refine ⟨file, h1, fun hlen pre cs hr hw => ?_⟩
  have k := (h2 hlen).2 pre cs hr
  rw [← doRunFlutC_run, patch_run E _ hw, doRunFlutC_run] at k
  exact k

/-- **C69** (REVERSE, output directory): C40 with bounds for the calls of the run only. -/
theorem C69_reverse_outputs (hE : SensibleEnc Enc) (hN : 0 < N) (hl : 0 < l) (hbs : blockSize l N < 2 ^ 63) (spec : List Char) (g : Graph)
    (hspec : Graph.fromIstream spec = .ok g) (hg : 0 < g.size) (w : List Bool) (enc : List (Gsw l N)) (henc : List.Forall₂ Enc enc w)
    (hfile : (enc.flatMap saveGsw).length < 2 ^ 63) (boot : Nat) (hb : 0 < boot)
    (hbud : δ.br + boot * δ.cmux + δ.ks + δ.ms < 2 ^ 30) (dir : String) (f : Nat) (hf : f ≠ 0) (isRev : Bool) (size1 size2 : Nat)
    (cs : List (Gsw l N)) (hr : ReadsForward (enc.flatMap saveGsw) [size1, size2] cs)
    (hw : ∀ c ∈ (doRunReverseC spec size2 cs none (some dir) f boot isRev false).trace S, c.Within S δ Enc) :
    ∃ files, doRunReverse S spec size2 cs none (some dir) f boot isRev false = .ok files ∧
      PrefixVerdicts S dir f w.length (fun k => g.accepts (if isRev then (w.take k).reverse else w.take k)) files := by
  obtain ⟨E, hEE⟩ := Classical.axiomOfChoice hE.exists_enc
  obtain ⟨files, h1, h2⟩ := C40_reverse_outputs (Scheme.patch_sound (S := S) (δ := δ) hEE hE.functional) hN hl hbs spec g hspec hg w enc henc hfile
    boot hb hbud dir f hf isRev size1 size2 cs hr
  rw [← doRunReverseC_run, patch_run E _ hw, doRunReverseC_run] at h1
  exact ⟨files, h1, h2⟩

/-- **C69** (FLUT, output directory): C40 with bounds for the calls of the run only. -/
theorem C69_flut_outputs (hE : SensibleEnc Enc) (hl : 0 < l) (hbs : blockSize l N < 2 ^ 63) (spec : List Char) (g : Graph)
    (hspec : Graph.fromIstream spec = .ok g) (hg : 0 < g.size) (w : List Bool) (enc : List (Gsw l N)) (henc : List.Forall₂ Enc enc w)
    (hfile : (enc.flatMap saveGsw).length < 2 ^ 63) (maxSecond : Option Nat) (qs boot L : Nat) (hL : LiveMax g L) (hqs0 : 0 < qs)
    (hqs : qs < 31) (hmax : maxSecond.getD 8 < 31) (hmaxN : 2 ^ maxSecond.getD 8 ≤ N) (hb : 0 < boot)
    (hbud : L * 2 ^ (qs / 2) * flutErr δ L qs (boot - 1) + qs * δ.cmux + δ.ks + δ.ms < 2 ^ 30) (dir : String) (f : Nat) (hf : f ≠ 0)
    (size1 size2 : Nat) (cs : List (Gsw l N)) (hr : ReadsForward (enc.flatMap saveGsw) [size1, size2] cs)
    (hw : ∀ c ∈ (doRunFlutC spec size2 cs none (some dir) f qs boot maxSecond false).trace S, c.Within S δ Enc) :
    (L < 2 ^ maxSecond.getD 8 → doRunFlut S spec size2 cs none (some dir) f qs boot maxSecond false ≠ .error .die) ∧
    (doRunFlut S spec size2 cs none (some dir) f qs boot maxSecond false = .error .die ∨
    ∃ files, doRunFlut S spec size2 cs none (some dir) f qs boot maxSecond false = .ok files ∧
      PrefixVerdicts S dir f w.length (fun k => g.accepts (w.take k)) files) := by
  obtain ⟨E, hEE⟩ := Classical.axiomOfChoice hE.exists_enc
  have k := C40_flut_outputs (Scheme.patch_sound (S := S) (δ := δ) hEE hE.functional) hl hbs spec g hspec hg w enc henc hfile maxSecond qs boot L hL
    hqs0 hqs hmax hmaxN hb hbud dir f hf size1 size2 cs hr
  rw [← doRunFlutC_run, patch_run E _ hw, doRunFlutC_run] at k
  exact k

/-! ## A library that is wrong on some ciphertexts -/

/-- `toyScheme`, except that CMUX errs by 1/4 on a first argument with a non-zero mask -/
def unsoundScheme : Scheme 4 2 1 :=
  let T := toyScheme 4 2 1 ⟨![1, 0, 1, 1], ![1, 0]⟩
  { T with cmux := fun g c1 c0 => if c1.a 0 = 0 then T.cmux g c1 c0 else trivialTRLWE fun i => (T.cmux g c1 c0).phase T.sk.lvl1 i + mu4 }

/-- calls on which it is right -/
def goodCall : OpCall 4 2 1 → Bool
  | .cmux _ c1 _ => c1.a 0 = 0
  | _ => true

theorem goodCall_within {c : OpCall 4 2 1} (h : goodCall c = true) : c.Within unsoundScheme toyNoise toyEnc := by
  have := (C69_sound_iff.1 (toy_sound (N := 4) (n := 2) (l := 1) ⟨![1, 0, 1, 1], ![1, 0]⟩ (by decide) (by decide))).1 c
  cases c with
  | cmux g c1 c0 =>
    intro b i hb
    have h' : c1.a 0 = 0 := by simpa [goodCall] using h
    have e : unsoundScheme.cmux g c1 c0 = (toyScheme 4 2 1 ⟨![1, 0, 1, 1], ![1, 0]⟩).cmux g c1 c0 := if_pos h'
    rw [e]
    exact this b i hb
  | iks c => exact this
  | blindRotate c tv => exact this
  | tlwe2trlwe c => exact this
  | cb c => exact this

theorem toyEnc_sensible : SensibleEnc (toyEnc : Gsw 1 4 → Bool → Prop) where
  functional := by
    rintro g ⟨⟨_, _, h1⟩, ⟨_, _, h2⟩⟩
    rw [h1] at h2
    simp at h2
  exists_enc b := ⟨fun _ _ _ => if b then 1#64 else 0#64, by decide, by decide, rfl⟩

/-- This library does not satisfy `Sound`, but every call made by the four commands on three bits and the spec `exSpec` is within the bounds: C69
applies where C36 to C39 do not.  The runs make calls of every kind. -/
example :
    let cs := [true, false, true].map (unsoundScheme.encrypt 0)
    ¬ unsoundScheme.Sound toyNoise toyEnc ∧ SensibleEnc (toyEnc : Gsw 1 4 → Bool → Prop) ∧
    (∀ rand ap input, EncryptsWell unsoundScheme toyEnc rand ap input) ∧
    (∀ c ∈ (doRunOfflineC exSpec 3 cs 2 false).trace unsoundScheme, c.Within unsoundScheme toyNoise toyEnc) ∧
    (∀ c ∈ (doRunReverseC exSpec 0 cs (some "o") none 1 2 false false).trace unsoundScheme, c.Within unsoundScheme toyNoise toyEnc) ∧
    (∀ c ∈ (doRunBlockC exSpec cs 2 false).trace unsoundScheme, c.Within unsoundScheme toyNoise toyEnc) ∧
    (∀ c ∈ (doRunFlutC exSpec 0 cs (some "o") none 1 2 1 (some 2) false).trace unsoundScheme, c.Within unsoundScheme toyNoise toyEnc) := by
  have key : ∀ {t : List (OpCall 4 2 1)}, t.all goodCall = true → ∀ c ∈ t, c.Within unsoundScheme toyNoise toyEnc :=
    fun h c hc => goodCall_within (List.all_eq_true.1 h c hc)
  refine ⟨fun h => ?_, toyEnc_sensible, fun rand ap input bytes w _ _ m b _ => ⟨by decide, by decide, rfl⟩, key ?_, key ?_, key ?_, key ?_⟩
  · have := h.cmux (fun _ _ _ => 1#64) true ⟨fun _ => 1#32, fun _ => 0#32⟩ (trivialTRLWEZero 4) 0 ⟨by decide, by decide, rfl⟩
    revert this
    unfold Near
    decide +kernel
  all_goals decide +kernel

end Homfa
