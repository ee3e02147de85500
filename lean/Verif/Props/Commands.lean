import Verif.Proof.Commands

/-!
# C36 to C40: the commands, end to end

`enc`, then a run command on the ciphertext file (under any schedule of the loader thread of the input stream), then `dec`, compared with
`run plain` on the same spec and input files.
-/

namespace Homfa

variable {N n l : Nat} {S : Scheme N n l} {δ : Noise} {Enc : Gsw l N → Bool → Prop}

/-- what `dec` prints -/
theorem dec_of {c : TLWE N} {g : Graph} {w : List Bool} {b : Bool} (h1 : g.accepts w = .ok b)
    (h2 : g.accepts w = .ok (decryptBit c S.sk)) : doDec S c = printResult b := by
  rw [h1] at h2
  unfold doDec
  rw [Except.ok.inj h2]

/-- the number of bits of whole records -/
theorem length_bits {ap : Nat} (hap : 0 < ap) {rs : List (List Byte)} (h : ∀ r ∈ rs, r.length = recordBytes ap) :
    (rs.flatMap (recordBits ap)).length = rs.flatten.length / recordBytes ap * ap := by
  have h0 : 0 < recordBytes ap := by unfold recordBytes; omega
  have h1 : rs.flatten.length = rs.length * recordBytes ap := by
    rw [List.length_flatten, List.map_congr_left (g := fun _ => recordBytes ap) h]
    simp
  rw [h1, Nat.mul_div_cancel _ h0]
  simp [List.length_flatMap, recordBits]

theorem length_bits_le {ap : Nat} {rs : List (List Byte)} (h : ∀ r ∈ rs, r.length = recordBytes ap) :
    (rs.flatMap (recordBits ap)).length ≤ 8 * rs.flatten.length := by
  induction rs with
  | nil => simp
  | cons r rs ih =>
    have := ih (fun r hr => h r (by simp [hr]))
    have h2 := h r (by simp)
    have h3 : (recordBits ap r).length ≤ 8 * r.length := by
      unfold recordBits
      rw [h2, List.length_map, List.length_range, recordBytes]
      omega
    simp only [List.flatMap_cons, List.flatten_cons, List.length_append]
    omega

/-- counting the CMUXes to come (src/main.cpp:272-275) succeeds -/
theorem totalCmux_ok {g : Graph} (hg : g.WF) (hN : 0 < N) {boot k : Nat} {r : Backstream N} (h : offlineMake g k boot true false = .ok r) :
    ∃ t, r.totalCmux k = .ok t := by
  obtain ⟨r0, q1, q2, _⟩ := Backstream.make_ok (n := 0) (l := 0) hg hN boot (some k)
  have q1 : offlineMake g k boot true false = .ok r0 := q1
  rw [h] at q1
  cases q1
  have key : ∀ (js : List Nat) (t0 : Nat), (∀ j ∈ js, j < k) →
      ∃ t, js.foldlM (fun (cnt : Nat) j => do
        let sts ← r.graph.statesAtDepthAt j
        (pure (cnt + sts.length) : Res Nat)) t0 = .ok t := by
    intro js
    induction js with
    | nil => intro t0 _; exact ⟨t0, rfl⟩
    | cons j js ih =>
      intro t0 hj
      obtain ⟨t, ht⟩ := ih (t0 + (g.levelSet [g.init] j).length) (fun i hi => hj i (by simp [hi]))
      refine ⟨t, ?_⟩
      rw [List.foldlM_cons, q2]
      have hv : Graph.statesAtDepthAt { g with statesAtDepth := (List.range k).map (g.levelSet [g.init]) } j = .ok (g.levelSet [g.init] j) :=
        vat_map (hj j (by simp))
      rw [q2] at ht
      rw [hv, Res.bind_ok, Res.pure_eq, Res.bind_ok]
      exact ht
  exact key _ 0 (fun j hj => List.mem_range.1 hj)

/-- the OFFLINE command on 2^31 ciphertexts or more -/
theorem offline_too_many (S : Scheme N n l) (hN : 0 < N) {spec : List Char} {g : Graph} (h : Graph.fromIstream spec = .ok g) (hg : g.WF)
    {boot : Nat} (hb : 0 < boot) {cs : List (Gsw l N)} (hcs : 2 ^ 31 ≤ cs.length) :
    doRunOffline S spec cs.length cs boot false = .error .assertFail := by
  obtain ⟨m, m1, m2, _⟩ := C04_minimized_language g hg
  obtain ⟨r, o1, o2⟩ := C28_offline_aborts S hN m m2 boot hb cs.length cs (.inr ⟨hcs, Nat.le_refl _⟩)
  obtain ⟨t, ht⟩ := totalCmux_ok m2 hN o1
  unfold doRunOffline
  rw [h, Res.bind_ok, m1, Res.bind_ok, o1, Res.bind_ok, ht, Res.bind_ok]
  show (r.evalAll S cs >>= fun r => r.result) = _
  rw [o2]; rfl

/-- **C36.** If `run plain` prints `out` then `enc` succeeds, and under every schedule `run offline` on its output succeeds and `dec` of
the result prints `out`; some schedule completes, however often the command asks for the size. -/
theorem C36_offline (hS : S.Sound δ Enc) (hN : 0 < N) (hl : 0 < l) (hbs : blockSize l N < 2 ^ 63) (rand : Nat → Nat) (spec : List Char)
    (input : Option (List Byte)) (ap : Nat) (hap : 0 < ap) (boot : Nat) (hb : 0 < boot)
    (hbud : δ.br + boot * δ.cmux + δ.ks + δ.ms < 2 ^ 30) (out : List Char) (hplain : doRunPlain spec input ap = .ok out) :
    ∃ file, doEnc S rand input ap = .ok file ∧ (file.length < 2 ^ 63 →
      (∃ size cs, ∀ k, ReadsReversed file (List.replicate (k + 1) size) (cs : List (Gsw l N))) ∧
      (file.length < 2 ^ 31 * blockSize l N → ∀ (pre : List Nat) (cs : List (Gsw l N)), ReadsReversed file pre cs →
        ∃ c, doRunOffline S spec (pre.headD 0) cs boot false = .ok c ∧ doDec S c = out)) := by
  obtain ⟨g, rs, b, h1, h2, h3, h4, h5, h6⟩ := plain_ok hap hplain
  subst h3
  obtain ⟨cs, e1, e2⟩ := enc_ok S rand hap h4
  have hbs0 : 0 < blockSize l N := by unfold blockSize; positivity
  refine ⟨_, e1, fun hlen => ⟨⟨_, _, fun k => readsReversed_exists hbs0 hbs cs k hlen⟩, fun h31 pre cs' hr => ?_⟩⟩
  obtain ⟨k1, k2, k3⟩ := readsReversed_eq hbs0 hbs hlen hr
  subst k1
  have hcs := enc_sound hS e2
  have hsz : pre.headD 0 = (rs.flatMap (recordBits ap)).length := by
    cases pre with
    | nil => exact absurd rfl k2
    | cons p pre => rw [← hcs.length_eq]; exact k3 p (by simp)
  obtain ⟨m, m1, m2, m3⟩ := C04_minimized_language g h2
  obtain ⟨r, r', c, o1, o2, o3, o4⟩ := C28_offline_decides hS hN m m2 boot hb (rs.flatMap (recordBits ap)) cs.reverse
    (List.rel_reverse hcs) (by
      have : min boot (rs.flatMap (recordBits ap)).length * δ.cmux ≤ boot * δ.cmux := Nat.mul_le_mul_right _ (Nat.min_le_left _ _)
      omega) (by
      rw [length_file] at h31
      rw [← hcs.length_eq]
      exact Nat.lt_of_mul_lt_mul_right h31)
  refine ⟨c, ?_, ?_⟩
  · unfold doRunOffline
    rw [h1, Res.bind_ok, m1, Res.bind_ok, hsz, o1, Res.bind_ok]
    obtain ⟨t, ht⟩ := totalCmux_ok m2 hN o1
    rw [ht, Res.bind_ok]
    show (r.evalAll S cs.reverse >>= fun r => r.result) = _
    rw [o2, Res.bind_ok, o3]
  · rw [h6]
    exact dec_of h5 (by rw [← o4, m3])

/-- the REVERSE runner on a history of calls -/
theorem reverse_history (hS : S.Sound δ Enc) (hN : 0 < N) (g : Graph) (hg : g.WF) (boot : Nat) (hb : 0 < boot) (isRev : Bool)
    (hbud : δ.br + boot * δ.cmux + δ.ks + δ.ms < 2 ^ 30)
    (cs : List (Call (Gsw l N))) (ps : List (Call Bool)) (hcs : List.Forall₂ (Call.Rel Enc) cs ps) :
    ∃ r r' outs, reverseMake g boot isRev true false = .ok r ∧
      runCalls (fun r c => Backstream.eval S r c) (fun r => do let c ← r.result; pure (c, r)) r cs = .ok (outs, r') ∧
      outs.map (fun c => Except.ok (decryptBit c S.sk)) =
        (resultWords [] ps).map (fun u => g.accepts (if isRev then u.reverse else u)) := by
  have hH : ∀ (us : List (Gsw l N)) (u : List Bool), List.Forall₂ Enc us u →
      ∃ r r' c, reverseMake g boot isRev true false = .ok r ∧ r.evalAll S us = .ok r' ∧ r'.result = .ok c ∧
        g.accepts (if isRev then u.reverse else u) = .ok (decryptBit c S.sk) := by
    intro us u h
    have hbud' : δ.br + min boot u.length * δ.cmux + δ.ks + δ.ms < 2 ^ 30 := by
      have : min boot u.length * δ.cmux ≤ boot * δ.cmux := Nat.mul_le_mul_right _ (Nat.min_le_left _ _)
      omega
    cases isRev with
    | false =>
      obtain ⟨r, h1, h2⟩ := C29_reverse_decides hS hN g hg boot hb u us h hbud'
      obtain ⟨r', c, h3, h4, h5⟩ := h2 u.length (Nat.le_refl _)
      rw [List.take_of_length_le (by rw [h.length_eq])] at h3
      rw [List.take_length] at h5
      exact ⟨r, r', c, h1, h3, h4, h5⟩
    | true =>
      obtain ⟨r, h1, h2⟩ := C29_reverse_spec_reversed hS hN g hg boot hb u us h hbud'
      obtain ⟨r', c, h3, h4, h5⟩ := h2 u.length (Nat.le_refl _)
      rw [List.take_of_length_le (by rw [h.length_eq])] at h3
      rw [List.take_length] at h5
      exact ⟨r, r', c, h1, h3, h4, h5⟩
  obtain ⟨r0, _, _, hr0, _⟩ := hH [] [] .nil
  have key : ∀ (cs : List (Call (Gsw l N))) (ps : List (Call Bool)), List.Forall₂ (Call.Rel Enc) cs ps →
      ∀ (us : List (Gsw l N)) (u : List Bool) (r : Backstream N), List.Forall₂ Enc us u → r0.evalAll S us = .ok r →
      ∃ r' outs, runCalls (fun r c => Backstream.eval S r c) (fun r => do let c ← r.result; pure (c, r)) r cs = .ok (outs, r') ∧
      outs.map (fun c => Except.ok (decryptBit c S.sk)) =
        (resultWords u ps).map (fun u => g.accepts (if isRev then u.reverse else u)) := by
    intro cs ps h
    induction h with
    | nil => intro us u r _ _; exact ⟨r, [], rfl, rfl⟩
    | cons h _ ih =>
      intro us u r hu hr
      cases h with
      | @feed x y hxy =>
        have hu' : List.Forall₂ Enc (us ++ [x]) (u ++ [y]) := List.rel_append hu (.cons hxy .nil)
        obtain ⟨r1, r2, c, h1, h2, _⟩ := hH _ _ hu'
        rw [hr0] at h1
        cases h1
        obtain ⟨r', outs, h3, h4⟩ := ih _ _ r2 hu' h2
        refine ⟨r', outs, ?_, h4⟩
        rw [Backstream.evalAll_append, hr] at h2
        rw [runCalls]
        have : r.eval S x = .ok r2 := by
          rw [Res.bind_ok] at h2
          unfold Backstream.evalAll at h2
          rw [List.foldlM_cons] at h2
          cases he : r.eval S x with
          | error e => rw [he] at h2; cases h2
          | ok r3 => rw [he] at h2; exact h2
        rw [this, Res.bind_ok, h3]
      | result =>
        obtain ⟨r1, r2, c, h1, h2, h3, h4⟩ := hH _ _ hu
        rw [hr0] at h1
        cases h1
        rw [hr] at h2
        cases h2
        obtain ⟨r', outs, h5, h6⟩ := ih _ _ r hu hr
        refine ⟨r', c :: outs, ?_, ?_⟩
        · rw [runCalls, h3, Res.bind_ok, Res.pure_eq, Res.bind_ok]
          dsimp only
          rw [h5, Res.bind_ok, Res.pure_eq]
        · rw [List.map_cons, resultWords, List.map_cons, h6, h4]
  obtain ⟨r', outs, h1, h2⟩ := key cs ps hcs [] [] r0 .nil rfl
  exact ⟨r0, r', outs, hr0, h1, h2⟩

/-- the plain calls of a run that feeds `w` and asks once at the end -/
theorem resultWords_feed : ∀ (w u : List Bool), resultWords u (w.map .feed ++ [.result]) = [u ++ w]
  | [], u => by simp [resultWords]
  | b :: w, u => by
    rw [List.map_cons, List.cons_append, resultWords, resultWords_feed w]
    simp

theorem feedCalls_rel {P : Gsw l N → Bool → Prop} {cs : List (Gsw l N)} {w : List Bool} (h : List.Forall₂ P cs w) :
    List.Forall₂ (Call.Rel P) (cs.map .feed ++ [.result]) (w.map .feed ++ [.result]) := by
  induction h with
  | nil => exact .cons .result .nil
  | cons h _ ih => exact .cons (.feed h) ih

/-- a successful history ending in `result` splits into the loop and the last call -/
theorem runCalls_last {ρ α β : Type} {evalOne : ρ → α → Res ρ} {result : ρ → Res (β × ρ)} {r r' : ρ} {h : List (Call α)} {outs : List β}
    (hr : runCalls evalOne result r (h ++ [.result]) = .ok (outs, r')) :
    ∃ os r1 c, runCalls evalOne result r h = .ok (os, r1) ∧ result r1 = .ok (c, r') ∧ outs = os ++ [c] := by
  rw [runCalls_append] at hr
  obtain ⟨p, h1, hr⟩ := Res.bind_eq_ok.1 hr
  obtain ⟨q, h2, hr⟩ := Res.bind_eq_ok.1 hr
  rw [runCalls] at h2
  obtain ⟨c, h3, h2⟩ := Res.bind_eq_ok.1 h2
  have h2 := Except.ok.inj h2
  subst h2
  have hr := Except.ok.inj hr
  cases hr
  exact ⟨p.1, p.2, c.1, h1, h3, rfl⟩

/-- **C37.** The same for `run reverse` with an output file, which is the only file written.  With `--spec-reversed` what `dec` prints
is whether the given spec accepts the reversed input. -/
theorem C37_reverse (hS : S.Sound δ Enc) (hN : 0 < N) (hl : 0 < l) (hbs : blockSize l N < 2 ^ 63) (rand : Nat → Nat) (spec : List Char)
    (input : Option (List Byte)) (ap : Nat) (hap : 0 < ap) (boot : Nat) (hb : 0 < boot)
    (hbud : δ.br + boot * δ.cmux + δ.ks + δ.ms < 2 ^ 30) (out : List Char) (hplain : doRunPlain spec input ap = .ok out)
    (outName : String) (outFreq : Nat) (isRev : Bool) :
    ∃ file, doEnc S rand input ap = .ok file ∧ (file.length < 2 ^ 63 →
      (∃ size cs, ∀ k, ReadsForward file (List.replicate k size) (cs : List (Gsw l N))) ∧
      ∀ (pre : List Nat) (cs : List (Gsw l N)), ReadsForward file pre cs →
        ∃ c, doRunReverse S spec (pre.getLastD 0) cs (some outName) none outFreq boot isRev false = .ok [(.file outName, c)] ∧
          (isRev = false → doDec S c = out) ∧
          (isRev = true → ∃ (g : Graph) (rs : List (List Byte)) (b : Bool), Graph.fromIstream spec = .ok g ∧ input = some rs.flatten ∧ (∀ r ∈ rs, r.length = recordBytes ap) ∧
            g.accepts (rs.flatMap (recordBits ap)).reverse = .ok b ∧ doDec S c = printResult b)) := by
  obtain ⟨g, rs, b, h1, h2, h3, h4, h5, h6⟩ := plain_ok hap hplain
  subst h3
  obtain ⟨cs, e1, e2⟩ := enc_ok S rand hap h4
  have hbs0 : 0 < blockSize l N := by unfold blockSize; positivity
  refine ⟨_, e1, fun hlen => ⟨⟨_, _, fun k => readsForward_exists hbs0 hbs cs k hlen⟩, fun pre cs' hr => ?_⟩⟩
  obtain ⟨k1, -⟩ := readsForward_eq hbs0 hbs hlen hr
  subst k1
  have hcs := enc_sound hS e2
  obtain ⟨r, r', outs, o1, o2, o3⟩ := reverse_history hS hN g h2 boot hb isRev hbud _ _ (feedCalls_rel hcs)
  rw [resultWords_feed, List.nil_append] at o3
  obtain ⟨os, r1, c, q1, q2, rfl⟩ := runCalls_last o2
  have hos : os = [] := by
    have := congrArg List.length o3
    simp at this
    exact this
  subst hos
  have o3 := (List.cons.inj o3).1
  refine ⟨c, ?_, ?_, ?_⟩
  · unfold doRunReverse
    simp only [Option.isSome_some, Option.isSome_none, Bool.not_false, Bool.and_true, Bool.true_or, cassert_true, Res.bind_ok]
    rw [h1, Res.bind_ok, o1, Res.bind_ok, onlineLoop_none, q1]
    show (lastOut (some outName) none (pre.getLastD 0) >>= fun f => r1.result >>= fun c => pure ([] ++ [(f, c)])) = _
    obtain ⟨c', q3, q4⟩ := Res.bind_eq_ok.1 q2
    have q4 := Except.ok.inj q4
    cases q4
    rw [lastOut, Res.bind_ok, q3]
    rfl
  · rintro rfl
    rw [h6]
    exact dec_of h5 o3.symm
  · rintro rfl
    refine ⟨g, rs, _, h1, rfl, h4, o3.symm, rfl⟩

/-- **C38.** The same for `run block` on every input with at least one bit; on an input without bits `run block` aborts although `run
plain` prints a result. -/
theorem C38_block (hS : S.Sound δ Enc) (hN : 0 < N) (hl : 0 < l) (hbs : blockSize l N < 2 ^ 63) (rand : Nat → Nat) (spec : List Char)
    (input : Option (List Byte)) (ap : Nat) (hap : 0 < ap) (qs B : Nat) (hB : ∀ g, Graph.fromIstream spec = .ok g → LiveBits g B)
    (hBN : B < N) (hB31 : B < 31) (hbud : (max 1 qs + B) * δ.cmux + δ.cb < 2 ^ 29) (hint : qs ≤ 2 ^ 31) (out : List Char)
    (hplain : doRunPlain spec input ap = .ok out) :
    ∃ file, doEnc S rand input ap = .ok file ∧ (file.length < 2 ^ 63 →
      (∃ size cs, ∀ k, ReadsForward file (List.replicate k size) (cs : List (Gsw l N))) ∧
      ∀ (pre : List Nat) (cs : List (Gsw l N)), ReadsForward file pre cs →
        (input ≠ some [] → ∃ c, doRunBlock S spec cs qs false = .ok c ∧ doDec S c = out) ∧
        (input = some [] → doRunBlock S spec cs qs false = .error .assertFail)) := by
  obtain ⟨g, rs, b, h1, h2, h3, h4, h5, h6⟩ := plain_ok hap hplain
  subst h3
  obtain ⟨cs, e1, e2⟩ := enc_ok S rand hap h4
  have hbs0 : 0 < blockSize l N := by unfold blockSize; positivity
  refine ⟨_, e1, fun hlen => ⟨⟨_, _, fun k => readsForward_exists hbs0 hbs cs k hlen⟩, fun pre cs' hr => ?_⟩⟩
  obtain ⟨k1, -⟩ := readsForward_eq hbs0 hbs hlen hr
  subst k1
  have hcs := enc_sound hS e2
  have hfeed : ∀ (cs : List (Gsw l N)) (r : Block N l),
      runCalls (fun r c => Block.evalOne S r c) (fun r => Block.result S r) r (cs.map .feed) =
        (cs.foldlM (fun r c => Block.evalOne S r c) r).map fun r => ([], r) := by
    intro cs
    induction cs with
    | nil => intro r; rfl
    | cons c cs ih =>
      intro r
      rw [List.map_cons, runCalls, List.foldlM_cons]
      cases Block.evalOne S r c with
      | error e => rfl
      | ok r => exact ih r
  have hrec : 0 < recordBytes ap := by unfold recordBytes; omega
  refine ⟨fun hne => ?_, fun he => ?_⟩
  · have hw : rs.flatMap (recordBits ap) ≠ [] := by
      cases rs with
      | nil => exact absurd rfl hne
      | cons r rs =>
        intro h0
        have := congrArg List.length h0
        simp [recordBits] at this
        exact absurd this.1 (by omega)
    obtain ⟨r, r', outs, o1, o2, o3⟩ := C30_block_decides hS g h2 qs B (hB g h1) hBN hB31 hbud hint _ _ (feedCalls_rel hcs) (by
      intro rest h
      cases hw' : rs.flatMap (recordBits ap) with
      | nil => exact hw hw'
      | cons x xs => rw [hw'] at h; cases h)
    rw [resultWords_feed, List.nil_append] at o3
    obtain ⟨os, r1, c, q1, q2, rfl⟩ := runCalls_last o2
    have hos : os = [] := by
      have := congrArg List.length o3
      simp at this
      exact this
    subst hos
    have o3 := (List.cons.inj o3).1
    refine ⟨c, ?_, by rw [h6]; exact dec_of h5 o3.symm⟩
    unfold doRunBlock
    rw [h1, Res.bind_ok, o1, Res.bind_ok]
    rw [hfeed] at q1
    cases hf : cs'.foldlM (fun r c => Block.evalOne S r c) r with
    | error e => rw [hf] at q1; cases q1
    | ok r2 =>
      rw [hf] at q1
      cases q1
      rw [Res.bind_ok, q2]
      rfl
  · have he := Option.some.inj he
    have hrs : rs = [] := by
      cases rs with
      | nil => rfl
      | cons r rs =>
        have := congrArg List.length he
        have hr := h4 r (by simp)
        rw [List.flatten_cons, List.length_append, List.length_nil] at this
        omega
    subst hrs
    cases hcs
    unfold doRunBlock
    rw [h1, Res.bind_ok]
    rfl

/-- **C39.** The same for `run flut` with an output file: it prints an error message and exits, or the result decrypts to what `run plain`
prints. -/
theorem C39_flut (hS : S.Sound δ Enc) (hN : 0 < N) (hl : 0 < l) (hbs : blockSize l N < 2 ^ 63) (rand : Nat → Nat) (spec : List Char)
    (input : Option (List Byte)) (ap : Nat) (hap : 0 < ap) (maxSecond : Option Nat) (qs boot L : Nat)
    (hL : ∀ g, Graph.fromIstream spec = .ok g → LiveMax g L) (hqs0 : 0 < qs) (hqs : qs < 31)
    (hmax : maxSecond.getD 8 < 31) (hmaxN : 2 ^ maxSecond.getD 8 ≤ N) (hb : 0 < boot)
    (hbud : L * 2 ^ (qs / 2) * flutErr δ L qs (boot - 1) + qs * δ.cmux + δ.ks + δ.ms < 2 ^ 30) (out : List Char)
    (hplain : doRunPlain spec input ap = .ok out) (outName : String) (outFreq : Nat) :
    ∃ file, doEnc S rand input ap = .ok file ∧ (file.length < 2 ^ 63 →
      (∃ size cs, ∀ k, ReadsForward file (List.replicate k size) (cs : List (Gsw l N))) ∧
      ∀ (pre : List Nat) (cs : List (Gsw l N)), ReadsForward file pre cs →
        (L < 2 ^ maxSecond.getD 8 →
          doRunFlut S spec (pre.getLastD 0) cs (some outName) none outFreq qs boot maxSecond false ≠ .error .die) ∧
        (doRunFlut S spec (pre.getLastD 0) cs (some outName) none outFreq qs boot maxSecond false = .error .die ∨
        ∃ c, doRunFlut S spec (pre.getLastD 0) cs (some outName) none outFreq qs boot maxSecond false = .ok [(.file outName, c)] ∧
          doDec S c = out)) := by
  obtain ⟨g, rs, b, h1, h2, h3, h4, h5, h6⟩ := plain_ok hap hplain
  subst h3
  obtain ⟨cs, e1, e2⟩ := enc_ok S rand hap h4
  have hbs0 : 0 < blockSize l N := by unfold blockSize; positivity
  refine ⟨_, e1, fun hlen => ⟨⟨_, _, fun k => readsForward_exists hbs0 hbs cs k hlen⟩, fun pre cs' hr => ?_⟩⟩
  obtain ⟨k1, -⟩ := readsForward_eq hbs0 hbs hlen hr
  subst k1
  have hcs := enc_sound hS e2
  have hrun : ∀ r, Flut.make g (maxSecond.getD 8) qs boot false = .ok r →
      doRunFlut S spec (pre.getLastD 0) cs' (some outName) none outFreq qs boot maxSecond false =
        (runCalls (fun r c => Flut.evalOne S r c) (fun r => Flut.result S r) r (cs'.map .feed)).bind fun p =>
          (Flut.result S p.2).bind fun c => .ok [(.file outName, c.1)] := by
    intro r hr
    unfold doRunFlut
    rw [h1, Res.bind_ok, hr, Res.bind_ok]
    simp only [Option.isSome_none, Bool.false_eq_true, false_and, if_false]
    rw [onlineLoop_none]
    cases runCalls (fun r c => Flut.evalOne S r c) (fun r => Flut.result S r) r (cs'.map .feed) with
    | error e => rfl
    | ok p => rfl
  have hdec : ∀ r outs r', Flut.make g (maxSecond.getD 8) qs boot false = .ok r →
      runCalls (fun r c => Flut.evalOne S r c) (fun r => Flut.result S r) r (cs'.map .feed ++ [.result]) = .ok (outs, r') →
      outs.map (fun c => Except.ok (decryptBit c S.sk)) =
        (resultWords [] ((rs.flatMap (recordBits ap)).map .feed ++ [.result])).map g.accepts →
      ∃ c, doRunFlut S spec (pre.getLastD 0) cs' (some outName) none outFreq qs boot maxSecond false = .ok [(.file outName, c)] ∧
          doDec S c = out := by
    intro r outs r' o1 o2 o3
    rw [resultWords_feed, List.nil_append] at o3
    obtain ⟨os, r1, c, q1, q2, rfl⟩ := runCalls_last o2
    have hos : os = [] := by
      have := congrArg List.length o3
      simp at this
      exact this
    subst hos
    have o3 := (List.cons.inj o3).1
    refine ⟨c, ?_, by rw [h6]; exact dec_of h5 o3.symm⟩
    rw [hrun r o1, q1]
    show (Flut.result S r1).bind _ = _
    rw [q2]
    rfl
  refine ⟨fun hLm hd => ?_, ?_⟩
  · obtain ⟨r, r', outs, o1, o2, o3⟩ := C32_flut_no_exit hS g h2 _ qs boot L (hL g h1) hLm hqs0 hqs hmax hmaxN hb hbud _ _
      (feedCalls_rel hcs)
    obtain ⟨c, q, _⟩ := hdec r outs r' o1 o2 o3
    rw [q] at hd
    cases hd
  · obtain ⟨r, o1, o2⟩ := C32_flut_decides hS g h2 _ qs boot L (hL g h1) hqs0 hqs hmax hmaxN hb hbud _ _ (feedCalls_rel hcs)
    rcases o2 with o2 | ⟨r', outs, o2, o3⟩
    · left
      rw [hrun r o1]
      rw [runCalls_append] at o2
      cases hc : runCalls (fun r c => Flut.evalOne S r c) (fun r => Flut.result S r) r (cs'.map .feed) with
      | error e => rw [hc] at o2; cases o2; rfl
      | ok p =>
        rw [hc, Res.bind_ok, runCalls] at o2
        show (Flut.result S p.2).bind _ = _
        cases hp : Flut.result S p.2 with
        | error e => rw [hp] at o2; cases o2; rfl
        | ok c => rw [hp] at o2; cases o2
    · exact .inr (hdec r outs r' o1 o2 o3)

/-! ## Directory mode -/

/-- The files `<k>.out` in `dir` are exactly those for the multiples `k` of `f` up to `len` and for `len` itself, and each decrypts to
`verdict k`. -/
def PrefixVerdicts (S : Scheme N n l) (dir : String) (f len : Nat) (verdict : Nat → Res Bool) (files : List (OutFile × TLWE N)) : Prop :=
  (∀ p ∈ files, ∃ k, p.1 = .inDir dir k) ∧
  (∀ k, (∃ c, (OutFile.inDir dir k, c) ∈ files) ↔ (0 < k ∧ k ≤ len ∧ f ∣ k) ∨ k = len) ∧
  (∀ k c, (OutFile.inDir dir k, c) ∈ files → verdict k = .ok (decryptBit c S.sk))

theorem mem_loopMarks {f len k : Nat} : k ∈ loopMarks (some f) len 0 ↔ 0 < k ∧ k ≤ len ∧ f ∣ k := by
  unfold loopMarks
  simp only [List.mem_filter, List.mem_map, List.mem_range, decide_eq_true_eq]
  constructor
  · rintro ⟨⟨j, hj, rfl⟩, hd⟩; exact ⟨by omega, by omega, hd⟩
  · rintro ⟨h1, h2, h3⟩; exact ⟨⟨k - 1, by omega, by omega⟩, h3⟩

theorem prefixVerdicts_of {dir : String} {f : Nat} {w : List Bool} {verdict : List Bool → Res Bool} {os : List (TLWE N)} {c : TLWE N}
    (h : (os ++ [c]).map (fun c => Except.ok (decryptBit c S.sk)) =
      ((loopMarks (some f) w.length 0 ++ [w.length]).map (fun k => w.take k)).map verdict) :
    PrefixVerdicts S dir f w.length (fun k => verdict (w.take k))
      (((loopMarks (some f) w.length 0).map (OutFile.inDir dir)).zip os ++ [(.inDir dir w.length, c)]) := by
  have hlen : os.length = (loopMarks (some f) w.length 0).length := by
    have := congrArg List.length h
    simp at this
    exact this
  have hzip : ((loopMarks (some f) w.length 0).map (OutFile.inDir dir)).zip os ++ [(OutFile.inDir dir w.length, c)] =
      ((loopMarks (some f) w.length 0 ++ [w.length]).map (OutFile.inDir dir)).zip (os ++ [c]) := by
    rw [List.map_append, List.zip_append (by simp [hlen])]
    rfl
  have hmem : ∀ k, k ∈ loopMarks (some f) w.length 0 ++ [w.length] ↔ (0 < k ∧ k ≤ w.length ∧ f ∣ k) ∨ k = w.length := by
    intro k
    rw [List.mem_append, mem_loopMarks, List.mem_singleton]
  rw [hzip]
  generalize hks : loopMarks (some f) w.length 0 ++ [w.length] = ks at *
  have hl2 : (os ++ [c]).length = ks.length := by
    have := congrArg List.length h
    simpa using this
  generalize os ++ [c] = cs at *
  refine ⟨?_, ?_, ?_⟩
  · intro p hp
    obtain ⟨k, _, hk⟩ := List.mem_map.1 (List.of_mem_zip (show (p.1, p.2) ∈ _ from hp)).1
    exact ⟨k, hk.symm⟩
  · intro k
    rw [← hmem]
    constructor
    · rintro ⟨c, hc⟩
      obtain ⟨k', h1, h2⟩ := List.mem_map.1 (List.of_mem_zip hc).1
      cases h2
      exact h1
    · intro hk
      obtain ⟨i, hi, rfl⟩ := List.mem_iff_getElem.1 hk
      refine ⟨cs[i]'(by omega), List.mem_iff_getElem.2 ⟨i, by simp; omega, ?_⟩⟩
      simp
  · intro k c hc
    obtain ⟨i, hi, he⟩ := List.mem_iff_getElem.1 hc
    simp at hi
    simp only [List.getElem_zip, List.getElem_map, Prod.mk.injEq, OutFile.inDir.injEq, true_and] at he
    have := congrArg (fun L => L[i]?) h
    simp only [List.getElem?_map] at this
    rw [List.getElem?_eq_getElem hi.2, List.getElem?_eq_getElem hi.1] at this
    simp only [Option.map_some, Option.some.injEq] at this
    rw [he.1, he.2] at this
    exact this.symm

theorem resultWords_last : ∀ (h : List (Call Bool)) (u : List Bool), resultWords u (h ++ [.result]) = resultWords u h ++ [u ++ fedWord h] := by
  intro h
  induction h with
  | nil => intro u; simp [resultWords, fedWord]
  | cons c h ih =>
    intro u
    cases c with
    | feed b => rw [List.cons_append, resultWords, resultWords, ih, fedWord]; simp
    | result => rw [List.cons_append, resultWords, resultWords, ih, fedWord]; simp

theorem fedWord_loop {f : Nat} : ∀ (w : List Bool) (i : Nat), fedWord (loopCalls (some f) w i) = w := by
  intro w
  induction w with
  | nil => intro i; rfl
  | cons b w ih =>
    intro i
    rw [loopCalls, fedWord]
    split
    · rw [List.singleton_append, fedWord, ih]
    · rw [List.nil_append, ih]

/-- **C40.** `run reverse` with an output directory, on an encrypted input of bits `w`: the files written are exactly `<k>.out` for the
multiples `k` of the output frequency and for the total length, and each decrypts to whether the spec accepts the first `k` bits. -/
theorem C40_reverse_outputs (hS : S.Sound δ Enc) (hN : 0 < N) (hl : 0 < l) (hbs : blockSize l N < 2 ^ 63) (spec : List Char) (g : Graph)
    (hspec : Graph.fromIstream spec = .ok g) (hg : 0 < g.size) (w : List Bool) (enc : List (Gsw l N)) (henc : List.Forall₂ Enc enc w)
    (hfile : (enc.flatMap saveGsw).length < 2 ^ 63) (boot : Nat) (hb : 0 < boot)
    (hbud : δ.br + boot * δ.cmux + δ.ks + δ.ms < 2 ^ 30) (dir : String) (f : Nat) (hf : f ≠ 0) (isRev : Bool) (size1 size2 : Nat)
    (cs : List (Gsw l N)) (hr : ReadsForward (enc.flatMap saveGsw) [size1, size2] cs) :
    ∃ files, doRunReverse S spec size2 cs none (some dir) f boot isRev false = .ok files ∧
      PrefixVerdicts S dir f w.length (fun k => g.accepts (if isRev then (w.take k).reverse else w.take k)) files := by
  have hwf := wf_of_fromIstream hspec hg
  have hbs0 : 0 < blockSize l N := by unfold blockSize; positivity
  obtain ⟨k1, k2⟩ := readsForward_eq hbs0 hbs hfile hr
  subst k1
  have hs2 : size2 = w.length := by rw [k2 size2 (by simp), henc.length_eq]
  obtain ⟨r, r', outs, o1, o2, o3⟩ := reverse_history hS hN g hwf boot hb isRev hbud (loopCalls (some f) cs 0 ++ [.result])
    (loopCalls (some f) w 0 ++ [.result]) (List.rel_append (loopCalls_rel _ henc _) (.cons .result .nil))
  obtain ⟨os, r1, c, q1, q2, rfl⟩ := runCalls_last o2
  refine ⟨_, ?_, prefixVerdicts_of (verdict := fun u => g.accepts (if isRev then u.reverse else u)) (os := os) (c := c) ?_⟩
  · unfold doRunReverse
    simp only [Option.isSome_some, Option.isSome_none, Bool.not_false, Bool.and_true, Bool.or_true, cassert_true, Res.bind_ok]
    rw [hspec, Res.bind_ok, o1, Res.bind_ok, onlineLoop_calls _ _ _ _ hf, q1]
    show (lastOut none (some dir) size2 >>= fun f => r1.result >>= fun c => pure (_ ++ [(f, c)])) = _
    obtain ⟨c', q3, q4⟩ := Res.bind_eq_ok.1 q2
    have q4 := Except.ok.inj q4
    cases q4
    rw [lastOut, Res.bind_ok, q3, hs2, henc.length_eq]
    rfl
  · rw [o3]
    congr 1
    have hw := resultWords_loop (some f) w []
    rw [resultWords_last, fedWord_loop, List.map_append]
    rw [List.nil_append, List.length_nil] at hw
    rw [hw]
    simp

/-- **C40 (FLUT).** The same for `run flut`, unless it prints an error message and exits. -/
theorem C40_flut_outputs (hS : S.Sound δ Enc) (hl : 0 < l) (hbs : blockSize l N < 2 ^ 63) (spec : List Char) (g : Graph)
    (hspec : Graph.fromIstream spec = .ok g) (hg : 0 < g.size) (w : List Bool) (enc : List (Gsw l N)) (henc : List.Forall₂ Enc enc w)
    (hfile : (enc.flatMap saveGsw).length < 2 ^ 63) (maxSecond : Option Nat) (qs boot L : Nat) (hL : LiveMax g L) (hqs0 : 0 < qs)
    (hqs : qs < 31) (hmax : maxSecond.getD 8 < 31) (hmaxN : 2 ^ maxSecond.getD 8 ≤ N) (hb : 0 < boot)
    (hbud : L * 2 ^ (qs / 2) * flutErr δ L qs (boot - 1) + qs * δ.cmux + δ.ks + δ.ms < 2 ^ 30) (dir : String) (f : Nat) (hf : f ≠ 0)
    (size1 size2 : Nat) (cs : List (Gsw l N)) (hr : ReadsForward (enc.flatMap saveGsw) [size1, size2] cs) :
    (L < 2 ^ maxSecond.getD 8 → doRunFlut S spec size2 cs none (some dir) f qs boot maxSecond false ≠ .error .die) ∧
    (doRunFlut S spec size2 cs none (some dir) f qs boot maxSecond false = .error .die ∨
    ∃ files, doRunFlut S spec size2 cs none (some dir) f qs boot maxSecond false = .ok files ∧
      PrefixVerdicts S dir f w.length (fun k => g.accepts (w.take k)) files) := by
  have hwf := wf_of_fromIstream hspec hg
  have hN : 0 < N := Nat.lt_of_lt_of_le (Nat.pos_of_ne_zero (by simp)) hmaxN
  have hbs0 : 0 < blockSize l N := by unfold blockSize; positivity
  obtain ⟨k1, k2⟩ := readsForward_eq hbs0 hbs hfile hr
  subst k1
  have hs2 : size2 = w.length := by rw [k2 size2 (by simp), henc.length_eq]
  have hrel := List.rel_append (loopCalls_rel (some f) henc 0) (.cons Call.Rel.result .nil)
  have hrun : ∀ r, Flut.make g (maxSecond.getD 8) qs boot false = .ok r →
      doRunFlut S spec size2 cs none (some dir) f qs boot maxSecond false =
        (runCalls (fun r c => Flut.evalOne S r c) (fun r => Flut.result S r) r (loopCalls (some f) cs 0)).bind fun p =>
          (Flut.result S p.2).bind fun c => .ok (((loopMarks (some f) w.length 0).map (OutFile.inDir dir)).zip p.1 ++
            [(.inDir dir w.length, c.1)]) := by
    intro r hr
    unfold doRunFlut
    rw [hspec, Res.bind_ok, hr, Res.bind_ok]
    simp only [Nat.pos_iff_ne_zero.1 hqs0, and_false, if_false]
    rw [onlineLoop_calls _ _ _ _ hf, hs2, henc.length_eq]
    cases runCalls (fun r c => Flut.evalOne S r c) (fun r => Flut.result S r) r (loopCalls (some f) cs 0) with
    | error e => rfl
    | ok p => rfl
  have hdec : ∀ r outs r', Flut.make g (maxSecond.getD 8) qs boot false = .ok r →
      runCalls (fun r c => Flut.evalOne S r c) (fun r => Flut.result S r) r (loopCalls (some f) cs 0 ++ [.result]) = .ok (outs, r') →
      outs.map (fun c => Except.ok (decryptBit c S.sk)) = (resultWords [] (loopCalls (some f) w 0 ++ [.result])).map g.accepts →
      ∃ files, doRunFlut S spec size2 cs none (some dir) f qs boot maxSecond false = .ok files ∧
        PrefixVerdicts S dir f w.length (fun k => g.accepts (w.take k)) files := by
    intro r outs r' o1 o2 o3
    obtain ⟨os, r1, c, q1, q2, rfl⟩ := runCalls_last o2
    refine ⟨_, ?_, prefixVerdicts_of (verdict := g.accepts) (os := os) (c := c) ?_⟩
    · rw [hrun r o1, q1]
      show (Flut.result S r1).bind _ = _
      rw [q2]
      rfl
    · rw [o3]
      congr 1
      have hw := resultWords_loop (some f) w []
      rw [resultWords_last, fedWord_loop, List.map_append]
      rw [List.nil_append, List.length_nil] at hw
      rw [hw]
      simp
  refine ⟨fun hLm hd => ?_, ?_⟩
  · obtain ⟨r, r', outs, o1, o2, o3⟩ := C32_flut_no_exit hS g hwf _ qs boot L hL hLm hqs0 hqs hmax hmaxN hb hbud _ _ hrel
    obtain ⟨c, q, _⟩ := hdec r outs r' o1 o2 o3
    rw [q] at hd
    cases hd
  · obtain ⟨r, o1, o2⟩ := C32_flut_decides hS g hwf _ qs boot L hL hqs0 hqs hmax hmaxN hb hbud _ _ hrel
    rcases o2 with o2 | ⟨r', outs, o2, o3⟩
    · left
      rw [hrun r o1]
      rw [runCalls_append] at o2
      cases hc : runCalls (fun r c => Flut.evalOne S r c) (fun r => Flut.result S r) r (loopCalls (some f) cs 0) with
      | error e => rw [hc] at o2; cases o2; rfl
      | ok p =>
        rw [hc, Res.bind_ok, runCalls] at o2
        show (Flut.result S p.2).bind _ = _
        cases hp : Flut.result S p.2 with
        | error e => rw [hp] at o2; cases o2; rfl
        | ok c => rw [hp] at o2; cases o2
    · exact .inr (hdec r outs r' o1 o2 o3)

/-- **C40 (output frequency 0).** With an output directory and frequency 0 the first input makes the program divide by zero. -/
theorem C40_freq0 {ρ : Type} (evalOne : ρ → Gsw l N → Res ρ) (result : ρ → Res (TLWE N × ρ)) (dir : String) (c : Gsw l N)
    (cs : List (Gsw l N)) (r r' : ρ) (h : evalOne r c = .ok r') :
    onlineLoop evalOne result (some dir) 0 (c :: cs) 0 r = .error .ub := by
  rw [onlineLoop, h]
  rfl

/-- **C40**, the choice of the output: `run reverse` given both or neither of an output file and an output directory aborts before it
writes anything. -/
theorem C40_one_output (spec : List Char) (hidden : Nat) (cs : List (Gsw l N)) (outFile outDir : Option String) (outFreq boot : Nat)
    (isRev sanitize : Bool) (h : outFile.isSome = outDir.isSome) :
    doRunReverse S spec hidden cs outFile outDir outFreq boot isRev sanitize = .error .assertFail := by
  unfold doRunReverse
  rw [h]
  cases outDir <;> rfl

/-- **C40**: the last file written is the output file if one is given, and `<size>.out` in the output directory otherwise; `run flut` given
both writes the prefixes to the directory and the last result to the file. -/
theorem C40_last_output (spec : List Char) (hidden : Nat) (cs : List (Gsw l N)) (outFile outDir : Option String)
    (outFreq qs boot : Nat) (maxSecond : Option Nat) (isRev sanitize : Bool) (files : List (OutFile × TLWE N))
    (h : doRunFlut S spec hidden cs outFile outDir outFreq qs boot maxSecond sanitize = .ok files ∨
      doRunReverse S spec hidden cs outFile outDir outFreq boot isRev sanitize = .ok files) :
    ∃ c, (∀ f, outFile = some f → files.getLast? = some (.file f, c)) ∧
      (∀ d, outFile = none → outDir = some d → files.getLast? = some (.inDir d hidden, c)) ∧ (outFile = none → outDir ≠ none) := by
  have key : ∀ (fs : List (OutFile × TLWE N)) (f : OutFile) (c : TLWE N), lastOut outFile outDir hidden = .ok f →
      ∃ c', (∀ f', outFile = some f' → (fs ++ [(f, c)]).getLast? = some (.file f', c')) ∧
      (∀ d, outFile = none → outDir = some d → (fs ++ [(f, c)]).getLast? = some (.inDir d hidden, c')) ∧ (outFile = none → outDir ≠ none) := by
    intro fs f c hf
    refine ⟨c, ?_, ?_, ?_⟩
    · rintro f' rfl
      cases hf
      simp
    · rintro d rfl rfl
      cases hf
      simp
    · rintro rfl rfl
      cases hf
  rcases h with h | h
  · unfold doRunFlut at h
    obtain ⟨g, _, h⟩ := Res.bind_eq_ok.1 h
    obtain ⟨r, _, h⟩ := Res.bind_eq_ok.1 h
    dsimp only at h
    split at h
    · cases h
    obtain ⟨p, _, h⟩ := Res.bind_eq_ok.1 h
    obtain ⟨f, hf, h⟩ := Res.bind_eq_ok.1 h
    obtain ⟨c, _, h⟩ := Res.bind_eq_ok.1 h
    cases h
    exact key _ _ _ hf
  · unfold doRunReverse at h
    obtain ⟨_, _, h⟩ := Res.bind_eq_ok.1 h
    obtain ⟨g, _, h⟩ := Res.bind_eq_ok.1 h
    obtain ⟨r, _, h⟩ := Res.bind_eq_ok.1 h
    obtain ⟨p, _, h⟩ := Res.bind_eq_ok.1 h
    obtain ⟨f, hf, h⟩ := Res.bind_eq_ok.1 h
    obtain ⟨c, _, h⟩ := Res.bind_eq_ok.1 h
    cases h
    exact key _ _ _ hf

/-! ## The hypotheses are met -/

/-- The two-state NFA spec `exSpec`, an input file with three records of five propositions, and the toy backend meet the hypotheses of C36 and
C37; the plain run prints 1.  The noise budget allows a bootstrapping frequency of 100. -/
example : ∃ (S : Scheme 4 2 1) (δ : Noise) (Enc : Gsw 1 4 → Bool → Prop), S.Sound δ Enc ∧ blockSize 1 4 < 2 ^ 63 ∧
    δ.br + 100 * δ.cmux + δ.ks + δ.ms < 2 ^ 30 ∧ (max 1 2 + 3) * δ.cmux + δ.cb < 2 ^ 29 ∧
    doRunPlain exSpec (some [0x1f#8, 0xe1#8, 0x10#8]) 5 = .ok ['1'] ∧
    doRunPlain exSpec (some [0x1f#8, 0xe1#8, 0x00#8]) 5 = .ok ['0'] ∧
    ((enc : List (Gsw 1 4)) → enc = (recordBits 5 [0x1f#8]).map (S.encrypt 0) → List.Forall₂ Enc enc (recordBits 5 [0x1f#8]) ∧
      ReadsForward (enc.flatMap saveGsw) [5, 5] enc) := by
  have hs := toy_sound (N := 4) (n := 2) (l := 1) ⟨![1, 0, 1, 0], ![1, 0]⟩ (by decide) (by decide)
  refine ⟨_, toyNoise, toyEnc, hs, by decide, by decide, by decide, by decide +kernel, by decide +kernel, ?_⟩
  rintro enc rfl
  refine ⟨?_, readsForward_exists (by decide) (by decide) _ 2 (by rw [length_file]; decide)⟩
  generalize recordBits 5 [0x1f#8] = w
  induction w with
  | nil => exact .nil
  | cons b w ih => exact .cons (hs.encrypt _ _) ih

end Homfa
