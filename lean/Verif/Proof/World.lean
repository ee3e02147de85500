import Verif.Spec.World
import Verif.Proof.Pieces

/-! # Histories of commands -/

namespace Homfa.Cli

variable {N n l : Nat} {L : Lib N n l} {δ : Noise} {Enc : L.Key → Gsw l N → Bool → Prop}

/-- A file holds what the account says, when the `i`-th key was made with the random number `q i`, for `i < m`. -/
def HoldsAs (L : Lib N n l) (q : Nat → Nat) (m : Nat) (file : Option (List Byte)) : Content → Prop
  | .absent => file = none
  | .bytes b => file = some b
  | .key i => i < m ∧ file = some (L.saveKey (L.newKey (q i)))
  | .bkey i => i < m ∧ ∃ q', file = some (L.saveBKey (L.newBKey q' (L.newKey (q i))))
  | .ctxts i ap w => i < m ∧ 0 < ap ∧ ap < 2 ^ 64 ∧ Whole ap w ∧ ∃ rand f, file = some f ∧ doEnc (L.client (L.newKey (q i))) rand (some w) ap = .ok f
  | .result i out => i < m ∧ ∃ c, file = some (L.saveRes c) ∧ doDec (L.client (L.newKey (q i))) c = out
  | .other => True

theorem HoldsAs.mono {q q' : Nat → Nat} {m m' : Nat} (hm : m ≤ m') (hq : ∀ i < m, q' i = q i) {file : Option (List Byte)} {c : Content}
    (h : HoldsAs L q m file c) : HoldsAs L q' m' file c := by
  cases c with
  | absent => exact h
  | bytes b => exact h
  | key i => obtain ⟨h1, h2⟩ := h; exact ⟨by omega, by rw [hq i h1]; exact h2⟩
  | bkey i => obtain ⟨h1, h2⟩ := h; exact ⟨by omega, by rw [hq i h1]; exact h2⟩
  | ctxts i ap w => obtain ⟨h1, h2⟩ := h; exact ⟨by omega, by rw [hq i h1]; exact h2⟩
  | result i out => obtain ⟨h1, h2⟩ := h; exact ⟨by omega, by rw [hq i h1]; exact h2⟩
  | other => trivial

/-- all files hold what the account says -/
def World.Fits (L : Lib N n l) (w : World) (fs : Files) : Prop := ∃ q, ∀ f, HoldsAs L q w.keys (fs f) (w.holds f)

theorem World.Fits.known {w : World} {fs : Files} (h : w.Fits L fs) : w.Known fs := by
  obtain ⟨q, h⟩ := h
  refine ⟨fun f b hb => ?_, fun f hf => ?_⟩
  · have := h f; rw [hb] at this; exact this
  · have := h f; rw [hf] at this; exact this

theorem fits_set {w : World} {fs : Files} {q : Nat → Nat} (h : ∀ f, HoldsAs L q w.keys (fs f) (w.holds f)) (g : String) {b : List Byte} {c : Content}
    (hc : HoldsAs L q w.keys (some b) c) (f : String) : HoldsAs L q w.keys ((fs.set g b) f) ((w.set g c).holds f) := by
  show HoldsAs L q w.keys ((fs.set g b) f) (if f = g then c else w.holds f)
  by_cases e : f = g
  · subst e; rw [Files.set_same, if_pos rfl]; exact hc
  · rw [Files.set_other _ _ e, if_neg e]; exact h f

theorem World.start_fits (fs : Files) : (World.start fs).Fits L fs := by
  refine ⟨fun _ => 0, fun f => ?_⟩
  show HoldsAs L _ _ (fs f) (match fs f with | some b => .bytes b | none => .absent)
  cases fs f <;> rfl

theorem set_set (fs : Files) (f : String) (a b : List Byte) : (fs.set f a).set f b = fs.set f b := by
  funext g
  by_cases h : g = f
  · subst h; rw [Files.set_same, Files.set_same]
  · rw [Files.set_other _ _ h, Files.set_other _ _ h, Files.set_other _ _ h]

theorem runLine_right (hL : L.Sound δ Enc) (hN : 0 < N) (hl : 0 < l) (hbs : blockSize l N < 2 ^ 63) {S B C R K : String}
    (hn : Usable S S K B C R) {specB inB : List Byte} {ap : Nat} (hap : 0 < ap) {X : List String} (hX : RunLine N l δ specB inB ap B S C R X)
    {out : List Char} (h : doRunPlain (textOf specB) (some inB) ap = .ok out) : RunRight L S B C R specB inB ap out X := by
  cases hX with
  | offline h1 h2 h3 h4 => exact right_offline hL hN hl hbs hn hap h1 h2 h3 h4 h
  | reverse h1 h2 h3 h4 h5 => exact right_reverse hL hN hl hbs hn hap h1 h2 h3 h4 h5 h
  | block h0 h1 h2 h3 h4 h5 h6 h7 h8 => exact right_block hL hN hl hbs hn h0 hap h1 h2 h3 h4 h5 h6 h7 h8 h
  | flut h1 h2 h3 h4 h5 h6 h7 h8 h9 h10 h11 h12 => exact right_flut hL hN hl hbs hn hap h1 h2 h3 h4 h5 h6 h7 h8 h9 h10 h11 h12 h

/-- a name not used -/
theorem exists_word (l : List String) : ∃ K, Word K ∧ K ∉ l := by
  let K := String.ofList (List.replicate ((l.map String.length).sum + 1) 'k')
  refine ⟨K, ?_, fun h => ?_⟩
  · show (String.ofList _).toList.head? ≠ _
    rw [String.toList_ofList, List.replicate_succ]
    simp
  · have h1 : K.length ≤ (l.map String.length).sum := List.le_sum_of_mem (List.mem_map_of_mem h)
    have h2 : K.length = (l.map String.length).sum + 1 := by
      show (String.ofList _).length = _
      rw [String.length_ofList, List.length_replicate]
    omega

/-- the numbers of the keys made before stay the same -/
theorem step_homfa_as (hL : L.Sound δ Enc) (hN : 0 < N) (hl : 0 < l) (hbs : blockSize l N < 2 ^ 63) {w w' : World} {c : ShellCmd} {o : List Char}
    (hs : Step L δ w c w' o) {args : List String} (hc : c = .homfa args) {fs : Files} {q : Nat → Nat}
    (hq : ∀ f, HoldsAs L q w.keys (fs f) (w.holds f)) :
    (∃ r, RunHomfa L [] fs args r) ∧ ∀ r, RunHomfa L [] fs args r →
      ∃ fs', r = .ok (fs', o) ∧ ∃ q', (∀ i < w.keys, q' i = q i) ∧ ∀ f, HoldsAs L q' w'.keys (fs' f) (w'.holds f) := by
  have hknown : w.Known fs := World.Fits.known ⟨q, hq⟩
  cases hs with
  | redirect => cases hc
  | copy => cases hc
  | remove => cases hc
  | write => cases hc
  | append => cases hc
  | appendCtxts => cases hc
  | appendNew => cases hc
  | known h =>
    obtain rfl := ShellCmd.homfa.inj hc
    refine ⟨⟨_, (h fs hknown _).2 rfl⟩, fun r hr => ⟨fs, (h fs hknown r).1 hr, q, fun _ _ => rfl, hq⟩⟩
  | @genkey _ K wK =>
    obtain rfl := ShellCmd.homfa.inj hc
    refine ⟨⟨_, (run_genkey wK).2 ⟨0, rfl⟩⟩, fun r hr => ?_⟩
    obtain ⟨q0, rfl⟩ := (run_genkey wK).1 hr
    have : ∀ i < w.keys, (if i = w.keys then q0 else q i) = q i := fun i hi => if_neg (by omega)
    refine ⟨_, rfl, fun i => if i = w.keys then q0 else q i, this, fun f => ?_⟩
    show HoldsAs L _ (w.keys + 1) ((fs.set K _) f) (if f = K then .key w.keys else w.holds f)
    by_cases e : f = K
    · subst e; rw [Files.set_same, if_pos rfl]; exact ⟨by omega, by beta_reduce; rw [if_pos rfl]⟩
    · rw [Files.set_other _ _ e, if_neg e]; exact (hq f).mono (by omega) this
  | @genbkey _ K B i wK wB hK =>
    obtain rfl := ShellCmd.homfa.inj hc
    have hk := hq K
    rw [hK] at hk
    have hrun := fun r => run_genbkey (L := L) (r := r) wK wB hL.key hk.2
    refine ⟨⟨_, (hrun _).2 ⟨0, rfl⟩⟩, fun r hr => ?_⟩
    obtain ⟨q', rfl⟩ := (hrun r).1 hr
    exact ⟨_, rfl, q, fun _ _ => rfl, fits_set hq B ⟨hk.1, q', rfl⟩⟩
  | @enc _ K I C i ap b wK wI wC hK hI hne hap hap64 hdvd =>
    obtain rfl := ShellCmd.homfa.inj hc
    have hk := hq K
    rw [hK] at hk
    have hi := hq I
    rw [hI] at hi
    have hw := whole_of_dvd hap hdvd
    have hrun := fun r => run_enc (L := L) (r := r) wK wI wC hL.key hk.2 hi hne hap hap64
    refine ⟨⟨_, (hrun _).2 ⟨fun _ => 0, rfl⟩⟩, fun r hr => ?_⟩
    obtain ⟨rand, rfl⟩ := (hrun r).1 hr
    obtain ⟨f, ef⟩ := hw.enc hap (L.client (L.newKey (q i))) rand
    rw [ef]
    refine ⟨_, rfl, q, fun _ _ => rfl, ?_⟩
    rw [set_set]
    exact fits_set hq C ⟨hk.1, hap, hap64, hw, rand, f, rfl, ef⟩
  | @dec _ K R i o wK wR hK hR =>
    obtain rfl := ShellCmd.homfa.inj hc
    have hk := hq K
    rw [hK] at hk
    have hr' := hq R
    rw [hR] at hr'
    obtain ⟨-, c, hc1, hc2⟩ := hr'
    have hrun := fun r => run_dec (L := L) (r := r) wK wR hL.key hL.res hk.2 hc1
    refine ⟨⟨_, (hrun _).2 rfl⟩, fun r hr => ⟨fs, ?_, q, fun _ _ => rfl, hq⟩⟩
    rw [(hrun r).1 hr, hc2]
  | @run _ B S C R i ap s b out X wB wS wC wR hB hS hC hlen hX hp =>
    obtain rfl := ShellCmd.homfa.inj hc
    have hb := hq B
    rw [hB] at hb
    have hs := hq S
    rw [hS] at hs
    have hcx := hq C
    rw [hC] at hcx
    obtain ⟨hi, q', hb⟩ := hb
    obtain ⟨-, hap, hap64, hw, rand, f, hf1, hf2⟩ := hcx
    have hplain := (plainPrints_iff hap hap64).1 hp
    obtain ⟨K, wK, hK⟩ := exists_word [S, B, C, R]
    simp only [List.mem_cons, List.not_mem_nil, or_false, not_or] at hK
    obtain ⟨k1, k2, k3, k4⟩ := hK
    have dSB : S ≠ B := fun e => by rw [e, hB] at hS; cases hS
    have dSC : S ≠ C := fun e => by rw [e, hC] at hS; cases hS
    have dBC : B ≠ C := fun e => by rw [e, hC] at hB; cases hB
    have hn : Usable S S K B C R := by
      refine ⟨fun f hf => ?_, by simp [Ne.symm k1, dSB, dSC], by simp [Ne.symm k1, dSB, dSC], by simp [k2, k3, dBC], Ne.symm k4⟩
      simp only [List.mem_cons, List.not_mem_nil, or_false] at hf
      rcases hf with rfl | rfl | rfl | rfl | rfl | rfl <;> assumption
    have hright := runLine_right hL hN hl hbs hn hap hX hplain
    obtain ⟨cs, c1, c2⟩ := enc_file hlen hap hplain (L.pair (L.newKey (q i)) (L.newBKey q' (L.newKey (q i)))) rand
    have e : f = cs.flatMap saveGsw := Except.ok.inj (hf2.symm.trans c2)
    subst e
    obtain ⟨⟨r0, x1⟩, x2⟩ := hright (q i) q' rand fs cs hs hf1 hb c1 c2
    refine ⟨⟨_, x1⟩, fun r hr => ?_⟩
    obtain ⟨c, rfl, hc⟩ := x2 _ hr
    exact ⟨_, rfl, q, fun _ _ => rfl, fits_set hq R ⟨hi, c, rfl, hc⟩⟩

theorem step_homfa (hL : L.Sound δ Enc) (hN : 0 < N) (hl : 0 < l) (hbs : blockSize l N < 2 ^ 63) {w w' : World} {c : ShellCmd} {o : List Char}
    (hs : Step L δ w c w' o) {args : List String} (hc : c = .homfa args) {fs : Files} (hf : w.Fits L fs) :
    (∃ r, RunHomfa L [] fs args r) ∧ ∀ r, RunHomfa L [] fs args r → ∃ fs', r = .ok (fs', o) ∧ w'.Fits L fs' := by
  obtain ⟨q, hq⟩ := hf
  obtain ⟨h1, h2⟩ := step_homfa_as hL hN hl hbs hs hc hq
  exact ⟨h1, fun r hr => by obtain ⟨fs', e, q', -, h⟩ := h2 r hr; exact ⟨fs', e, q', h⟩⟩

theorem step_session (hL : L.Sound δ Enc) (hN : 0 < N) (hl : 0 < l) (hbs : blockSize l N < 2 ^ 63) {w w' : World} {c : ShellCmd} {o : List Char}
    (hs : Step L δ w c w' o) {fs : Files} (hf : w.Fits L fs) (rest : List ShellCmd) (Q : World → Files → List Char → Prop) (out : List Char)
    (hr : ∀ fs', w'.Fits L fs' → (∃ r, Session L fs' rest r) ∧ ∀ r, Session L fs' rest r → ∃ fs'', r = .ok (fs'', out) ∧ Q w' fs'' out) :
    (∃ r, Session L fs (c :: rest) r) ∧ ∀ r, Session L fs (c :: rest) r → ∃ fs'', r = .ok (fs'', o ++ out) ∧ Q w' fs'' out := by
  have one : ∀ fs', w'.Fits L fs' → (∀ r, Session L fs (c :: rest) r ↔ Session L fs' rest r) → o = [] →
      (∃ r, Session L fs (c :: rest) r) ∧ ∀ r, Session L fs (c :: rest) r → ∃ fs'', r = .ok (fs'', o ++ out) ∧ Q w' fs'' out := by
    intro fs' h1 h2 h3
    subst h3
    obtain ⟨⟨r, h⟩, h'⟩ := hr fs' h1
    exact ⟨⟨r, (h2 r).2 h⟩, fun r h => h' r ((h2 r).1 h)⟩
  cases hc : c with
  | homfa args =>
    obtain ⟨⟨r, h1⟩, h2⟩ := step_homfa hL hN hl hbs hs hc hf
    constructor
    · obtain ⟨fs', rfl, h3⟩ := h2 r h1
      obtain ⟨⟨r, h4⟩, -⟩ := hr fs' h3
      exact ⟨_, .next h1 h4⟩
    · intro r h
      cases h with
      | stop h => obtain ⟨_, h, -⟩ := h2 _ h; cases h
      | next h h' =>
        obtain ⟨fs', e, h3⟩ := h2 _ h
        obtain ⟨rfl, rfl⟩ := Prod.mk.inj (Except.ok.inj e)
        obtain ⟨fs'', rfl, h4⟩ := (hr _ h3).2 _ h'
        exact ⟨fs'', rfl, h4⟩
  | redirect args file =>
    subst hc
    cases hs with
    | @redirect _ _ _ w1 o1 hs1 =>
    obtain ⟨q, hq⟩ := hf
    have hf1 : (w.set file (.bytes [])).Fits L (fs.set file []) := ⟨q, fits_set hq file rfl⟩
    obtain ⟨⟨r, h1⟩, h2⟩ := step_homfa hL hN hl hbs hs1 rfl hf1
    have after : ∀ fs', w1.Fits L fs' → (w1.set file (.bytes (o1.map fun c => BitVec.ofNat 8 c.toNat))).Fits L (fs'.set file (o1.map fun c => BitVec.ofNat 8 c.toNat)) := by
      rintro fs' ⟨q', hq'⟩
      exact ⟨q', fits_set hq' file rfl⟩
    constructor
    · obtain ⟨fs', rfl, h3⟩ := h2 r h1
      obtain ⟨⟨r, h4⟩, -⟩ := hr _ (after fs' h3)
      exact ⟨_, .redirect h1 h4⟩
    · intro r h
      cases h with
      | redirectStop h => obtain ⟨_, h, -⟩ := h2 _ h; cases h
      | redirect h h' =>
        obtain ⟨fs', e, h3⟩ := h2 _ h
        obtain ⟨rfl, rfl⟩ := Prod.mk.inj (Except.ok.inj e)
        exact (hr _ (after _ h3)).2 _ h'
  | copy src dst =>
    subst hc
    obtain ⟨q, hq⟩ := hf
    cases hs with
    | copy h1 h2 =>
    have hsrc := hq src
    have : ∃ b, fs src = some b := by
      revert hsrc h1 h2
      cases w.holds src <;> simp +contextual [HoldsAs]
    obtain ⟨b, hb⟩ := this
    rw [hb] at hsrc
    refine one (fs.set dst b) ⟨q, fits_set hq dst hsrc⟩ (fun r => ⟨fun h => ?_, fun h => .copy hb h⟩) rfl
    cases h with
    | noCopy h => rw [hb] at h; cases h
    | copy h h' => rw [hb] at h; cases h; exact h'
  | remove file =>
    subst hc
    obtain ⟨q, hq⟩ := hf
    cases hs with
    | remove =>
    refine one (fs.del file) ⟨q, fun f => ?_⟩ (fun r => ⟨fun h => by cases h; assumption, fun h => .remove h⟩) rfl
    show HoldsAs L q w.keys (if f = file then none else fs f) (if f = file then .absent else w.holds f)
    by_cases e : f = file
    · rw [if_pos e, if_pos e]; rfl
    · rw [if_neg e, if_neg e]; exact hq f
  | write file b =>
    subst hc
    obtain ⟨q, hq⟩ := hf
    cases hs with
    | write =>
    exact one (fs.set file b) ⟨q, fits_set hq file rfl⟩ (fun r => ⟨fun h => by cases h; assumption, fun h => .write h⟩) rfl
  | append src dst =>
    subst hc
    obtain ⟨q, hq⟩ := hf
    have go : ∀ b, fs src = some b → o = [] → w'.Fits L (fs.set dst ((fs dst).getD [] ++ b)) →
        (∃ r, Session L fs (.append src dst :: rest) r) ∧
          ∀ r, Session L fs (.append src dst :: rest) r → ∃ fs'', r = .ok (fs'', o ++ out) ∧ Q w' fs'' out := by
      intro b hb ho hf
      refine one _ hf (fun r => ⟨fun h => ?_, fun h => .cat hb h⟩) ho
      cases h with
      | noFile h => rw [hb] at h; cases h
      | cat h h' => rw [hb] at h; cases h; exact h'
    cases hs with
    | append _ h1 h2 =>
      have a := hq src
      rw [h1] at a
      have d := hq dst
      rw [h2] at d
      refine go _ a rfl ⟨q, ?_⟩
      rw [show fs dst = some _ from d]
      exact fits_set hq dst rfl
    | appendCtxts _ h1 h2 =>
      have a := hq src
      rw [h1] at a
      have d := hq dst
      rw [h2] at d
      obtain ⟨hi, hap, hap64, hw, r1, f1, e1, e2⟩ := a
      obtain ⟨-, -, -, hw', r2, f2, e3, e4⟩ := d
      refine go _ e1 rfl ⟨q, ?_⟩
      rw [e3]
      obtain ⟨r, hr⟩ := enc_append hap hw' hw e4 e2
      exact fits_set hq dst ⟨hi, hap, hap64, hw'.append hw, r, _, rfl, hr⟩
    | appendNew h1 h2 h3 =>
      have hsrc := hq src
      have : ∃ b, fs src = some b := by
        revert hsrc h1 h2
        cases w.holds src <;> simp +contextual [HoldsAs]
      obtain ⟨b, hb⟩ := this
      rw [hb] at hsrc
      have d := hq dst
      rw [h3] at d
      refine go b hb rfl ⟨q, ?_⟩
      rw [show fs dst = none from d]
      exact fits_set hq dst hsrc

theorem history_session (hL : L.Sound δ Enc) (hN : 0 < N) (hl : 0 < l) (hbs : blockSize l N < 2 ^ 63) {w w' : World} {cs : List ShellCmd}
    {out : List Char} (h : History L δ w cs w' out) {fs : Files} (hf : w.Fits L fs) :
    (∃ r, Session L fs cs r) ∧ ∀ r, Session L fs cs r → ∃ fs', r = .ok (fs', out) ∧ w'.Fits L fs' := by
  induction h generalizing fs with
  | nil =>
    refine ⟨⟨_, .nil⟩, fun r hr => ?_⟩
    cases hr
    exact ⟨fs, rfl, hf⟩
  | @cons w c w1 o cs w2 out hs _ ih => exact step_session hL hN hl hbs hs hf cs (fun _ fs _ => w2.Fits L fs) out fun fs' h => ih h

end Homfa.Cli
