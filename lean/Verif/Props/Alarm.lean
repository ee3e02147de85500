import Verif.Proof.Alarm
import Verif.Props.Temporal
import Verif.Props.Block
import Verif.Props.Flut
/-!
# C113: an alarm is justified and never taken back

A specification made by `ltl2spec` describes what has not gone wrong so far.  With `--make-all-live-states-final` the verdict after any number
of bits, also in the middle of a time step, says whether some behaviour that satisfies the formula begins with them; once it is 0, it stays 0.
Without the flag this holds between time steps only: in the middle of a step the verdict is 0 whatever the bits are.
-/

namespace Homfa
open Spec

variable {N n l : Nat} {S : Scheme N n l} {δ : Noise} {Enc : Gsw l N → Bool → Prop}

/-- **C113 (justified).** With the flag, the specification accepts a recording, complete time steps or not, if and only if it is empty or some
behaviour that satisfies the formula begins with it. -/
theorem C113_justified {M : Monitor} {ap : Nat} (hap : 0 < ap) {φ : Formula} (hM : MonitorFor M ap φ) {out : List Char}
    (hout : doLtl2spec M ap true = .ok out) (hlen : out.length ≤ 2 ^ 31) :
    ∃ g, Graph.fromIstream out = .ok g ∧ g.WF ∧ ∀ w, ∃ b, g.accepts w = .ok b ∧ (b = true ↔ w = [] ∨ ∃ σ, Records σ ap w ∧ φ.Holds σ) := by
  obtain ⟨g, h1, h2, h3⟩ := ltl_graph hM.toMonitorOk hout hlen
  refine ⟨g, h1, h2, fun w => ?_⟩
  obtain ⟨b, h4, h5⟩ := h3 w
  refine ⟨b, h4, h5.trans ⟨?_, ?_⟩⟩
  · rintro ⟨v, letters, q, -, hl, hw, hrun⟩
    by_cases hne : w = []
    · exact .inl hne
    · have hne' : letters ≠ [] := by
        rintro rfl
        rw [List.flatten_nil, List.append_eq_nil_iff] at hw
        exact hne hw.1
      obtain ⟨σ, k1, k2⟩ := (hM.reads letters hne' hl).1 ⟨q, hrun⟩
      refine .inr ⟨σ, fun k b hk => ?_, k2⟩
      have e : letters.flatten[k]? = some b := by
        rw [← hw, List.getElem?_append_left (List.getElem?_eq_some_iff.1 hk).1, hk]
      rw [flatten_getElem? hap letters hl] at e
      obtain ⟨a, ha, hb⟩ := Option.bind_eq_some_iff.1 e
      exact k1 _ a ha _ b hb
  · rintro (rfl | ⟨σ, hσ, hφ⟩)
    · exact ⟨[], [], M.init, fun _ => rfl, by simp, rfl, .nil _⟩
    · have hl : ∀ a ∈ (List.range (w.length + 1)).map (fun t => (List.range ap).map (σ t)), a.length = ap := by simp
      obtain ⟨q, hq⟩ := (hM.reads _ (by simp) hl).2 ⟨σ, fun t a ha i b hb => by
        rw [List.getElem?_map] at ha
        obtain ⟨t', ht, rfl⟩ := Option.map_eq_some_iff.1 ha
        rw [List.getElem?_map] at hb
        obtain ⟨i', hi, rfl⟩ := Option.map_eq_some_iff.1 hb
        rw [List.getElem?_eq_some_iff] at ht hi
        simp only [List.getElem_range] at ht hi
        rw [ht.2, hi.2], hφ⟩
      refine ⟨_, _, q, by simp, hl, (?_ : w ++ (((List.range (w.length + 1)).map (fun t => (List.range ap).map (σ t))).flatten).drop w.length = _), hq⟩
      have hlw : w.length ≤ (w.length + 1) * ap := by nlinarith
      have hw : w = (((List.range (w.length + 1)).map (fun t => (List.range ap).map (σ t))).flatten).take w.length := by
        apply List.ext_getElem?
        intro k
        rw [List.getElem?_take]
        split
        · rename_i hk
          rw [flatten_getElem? hap _ hl, List.getElem?_map, List.getElem?_range (show k / ap < w.length + 1 from Nat.lt_of_le_of_lt (Nat.div_le_self _ _) (by omega))]
          simp only [Option.map_some, Option.bind_some]
          rw [List.getElem?_map, List.getElem?_range (Nat.mod_lt _ hap), Option.map_some]
          rw [List.getElem?_eq_getElem hk, hσ k _ (List.getElem?_eq_getElem hk)]
        · rename_i hk
          exact List.getElem?_eq_none (by omega)
      conv_lhs => enter [1]; rw [hw]
      exact List.take_append_drop _ _

/-- what all methods have in common -/
theorem ltl_prefix {M : Monitor} {ap : Nat} (hap : 0 < ap) (hM : MonitorOk M ap) {allFinal : Bool} {out : List Char} (hout : doLtl2spec M ap allFinal = .ok out)
    (hlen : out.length ≤ 2 ^ 31) {g : Graph} (hg : Graph.fromIstream out = .ok g) {u w : List Bool} (hp : u <+: w) (hu : allFinal = true ∨ ap ∣ u.length)
    (h : g.accepts w = .ok true) : g.accepts u = .ok true := by
  obtain ⟨g', h1, h2, h3⟩ := ltl_graph hM hout hlen
  rw [hg] at h1
  cases h1
  obtain ⟨b, h4, h5⟩ := h3 w
  rw [h] at h4
  cases h4
  obtain ⟨v, letters, q, k1, k2, k3, k4⟩ := h5.1 rfl
  obtain ⟨b', h6, h7⟩ := h3 u
  rw [h6, h7.2]
  obtain ⟨x, rfl⟩ := hp
  rcases hu with rfl | ⟨k, hk⟩
  · exact ⟨x ++ v, letters, q, by simp, k2, by rw [← List.append_assoc, k3], k4⟩
  · obtain ⟨as, e1, e2⟩ := letters_of_dvd (n := ap) k u (by rw [hk, Nat.mul_comm])
    obtain ⟨cs, rfl⟩ := flatten_letters hap as letters e1 k2 (x ++ v) (by rw [← e2, ← List.append_assoc, k3])
    obtain ⟨q', hq'⟩ := monitorRun_prefix _ _ _ _ k4
    exact ⟨[], as, q', fun _ => rfl, e1, by rw [List.append_nil, e2], hq'⟩

/-- **C113 (never taken back), REVERSE.** In any history of inputs and results, no 0 is followed by a 1: with the flag, or if results are asked for
between time steps only. -/
theorem C113_reverse (hS : S.Sound δ Enc) (hN : 0 < N) {M : Monitor} {ap : Nat} (hap : 0 < ap) (hM : MonitorOk M ap) {allFinal : Bool} {out : List Char}
    (hout : doLtl2spec M ap allFinal = .ok out) (hlen : out.length ≤ 2 ^ 31) {g : Graph} (hg : Graph.fromIstream out = .ok g) (boot : Nat) (hb : 0 < boot)
    (hbud : δ.br + boot * δ.cmux + δ.ks + δ.ms < 2 ^ 30)
    (cs : List (Call (Gsw l N))) (ps : List (Call Bool)) (hcs : List.Forall₂ (Call.Rel Enc) cs ps)
    (hps : allFinal = true ∨ ∀ u ∈ resultWords [] ps, ap ∣ u.length) :
    ∃ r r' outs, reverseMake g boot false true false = .ok r ∧
      runCalls (fun r c => Backstream.eval S r c) (fun r => do let c ← r.result; pure (c, r)) r cs = .ok (outs, r') ∧
      outs.length = (resultWords [] ps).length ∧ NeverTakenBack (outs.map fun c => decryptBit c S.sk) := by
  obtain ⟨g', h1, h2, -⟩ := ltl_graph hM hout hlen
  rw [hg] at h1
  cases h1
  obtain ⟨r, r', outs, k1, k2, k3⟩ := reverse_history hS hN g h2 boot hb false hbud cs ps hcs
  refine ⟨r, r', outs, k1, k2, by simpa using congrArg List.length k3, neverTakenBack_of g.accepts (resultWords_prefix ps []) ?_ ?_⟩
  · intro u hu w _ hp h
    exact ltl_prefix hap hM hout hlen hg hp (hps.imp id fun h => h u hu) h
  · rw [List.map_map]
    exact k3

/-- **C113 (never taken back), BLOCK.** -/
theorem C113_block (hS : S.Sound δ Enc) {M : Monitor} {ap : Nat} (hap : 0 < ap) (hM : MonitorOk M ap) {allFinal : Bool} {out : List Char}
    (hout : doLtl2spec M ap allFinal = .ok out) (hlen : out.length ≤ 2 ^ 31) {g : Graph} (hg : Graph.fromIstream out = .ok g) (qs B : Nat) (hB : LiveBits g B)
    (hBN : B < N) (hB31 : B < 31) (hbud : (max 1 qs + B) * δ.cmux + δ.cb < 2 ^ 29) (hint : qs ≤ 2 ^ 31)
    (cs : List (Call (Gsw l N))) (ps : List (Call Bool)) (hcs : List.Forall₂ (Call.Rel Enc) cs ps) (hfirst : ∀ rest, ps ≠ .result :: rest)
    (hps : allFinal = true ∨ ∀ u ∈ resultWords [] ps, ap ∣ u.length) :
    ∃ r r' outs, Block.make g qs false = .ok r ∧
      runCalls (fun r c => Block.evalOne S r c) (fun r => Block.result S r) r cs = .ok (outs, r') ∧
      outs.length = (resultWords [] ps).length ∧ NeverTakenBack (outs.map fun c => decryptBit c S.sk) := by
  obtain ⟨g', h1, h2, -⟩ := ltl_graph hM hout hlen
  rw [hg] at h1
  cases h1
  obtain ⟨r, r', outs, k1, k2, k3⟩ := C30_block_decides hS g h2 qs B hB hBN hB31 hbud hint cs ps hcs hfirst
  refine ⟨r, r', outs, k1, k2, by simpa using congrArg List.length k3, neverTakenBack_of g.accepts (resultWords_prefix ps []) ?_ ?_⟩
  · intro u hu w _ hp h
    exact ltl_prefix hap hM hout hlen hg hp (hps.imp id fun h => h u hu) h
  · rw [List.map_map]
    exact k3

/-- **C113 (never taken back), FLUT.** -/
theorem C113_flut (hS : S.Sound δ Enc) {M : Monitor} {ap : Nat} (hap : 0 < ap) (hM : MonitorOk M ap) {allFinal : Bool} {out : List Char}
    (hout : doLtl2spec M ap allFinal = .ok out) (hlen : out.length ≤ 2 ^ 31) {g : Graph} (hg : Graph.fromIstream out = .ok g)
    (max qs boot L : Nat) (hL : LiveMax g L) (hLmax : L < 2 ^ max) (hqs0 : 0 < qs) (hqs : qs < 31) (hmax : max < 31) (hmaxN : 2 ^ max ≤ N) (hboot : 0 < boot)
    (hbud : L * 2 ^ (qs / 2) * flutErr δ L qs (boot - 1) + qs * δ.cmux + δ.ks + δ.ms < 2 ^ 30)
    (cs : List (Call (Gsw l N))) (ps : List (Call Bool)) (hcs : List.Forall₂ (Call.Rel Enc) cs ps)
    (hps : allFinal = true ∨ ∀ u ∈ resultWords [] ps, ap ∣ u.length) :
    ∃ r r' outs, Flut.make g max qs boot false = .ok r ∧
      runCalls (fun r c => Flut.evalOne S r c) (fun r => Flut.result S r) r cs = .ok (outs, r') ∧
      outs.length = (resultWords [] ps).length ∧ NeverTakenBack (outs.map fun c => decryptBit c S.sk) := by
  obtain ⟨g', h1, h2, -⟩ := ltl_graph hM hout hlen
  rw [hg] at h1
  cases h1
  obtain ⟨r, r', outs, k1, k2, k3⟩ := C32_flut_no_exit hS g h2 max qs boot L hL hLmax hqs0 hqs hmax hmaxN hboot hbud cs ps hcs
  refine ⟨r, r', outs, k1, k2, by simpa using congrArg List.length k3, neverTakenBack_of g.accepts (resultWords_prefix ps []) ?_ ?_⟩
  · intro u hu w _ hp h
    exact ltl_prefix hap hM hout hlen hg hp (hps.imp id fun h => h u hu) h
  · rw [List.map_map]
    exact k3

/-- **C113 (in the middle of a step).** Without the flag, the specification rejects every recording that ends in the middle of a time step, whatever
the formula and the bits. -/
theorem C113_mid_step {M : Monitor} {ap : Nat} (hM : MonitorOk M ap) {out : List Char} (hout : doLtl2spec M ap false = .ok out)
    (hlen : out.length ≤ 2 ^ 31) {g : Graph} (hg : Graph.fromIstream out = .ok g) (w : List Bool) (hw : ¬ ap ∣ w.length) : g.accepts w = .ok false := by
  obtain ⟨g', h1, -, h3⟩ := ltl_graph hM hout hlen
  rw [hg] at h1
  cases h1
  obtain ⟨b, h4, h5⟩ := h3 w
  rw [h4]
  cases b with
  | false => rfl
  | true =>
    obtain ⟨v, letters, q, k1, k2, k3, -⟩ := h5.1 rfl
    have hv := k1 rfl
    subst hv
    rw [List.append_nil] at k3
    exact absurd ⟨letters.length, by rw [k3, length_flatten k2, Nat.mul_comm]⟩ hw

/-- the specification of G(p0 -> X p1) with all live states final -/
def exLtlSpecAll : List Char := (doLtl2spec exMonitor 2 true).toOption.getD []

theorem exLtlSpecAll_printed : doLtl2spec exMonitor 2 true = .ok exLtlSpecAll := by decide +kernel

theorem exLtlSpecAll_length : exLtlSpecAll.length ≤ 2 ^ 31 := by decide +kernel

/-- some secret key -/
def exAlarmKey : SecretKey 16 2 := ⟨fun i => if i.val % 2 = 0 then 1#32 else 0#32, fun _ => 1#32⟩

/-- **C113 (taken back without the flag).** The monitor of G(p0 -> X p1), without the flag, and REVERSE with a result after each bit of the recording
00: the verdicts are 0, an alarm in the middle of the first step, and then 1. -/
theorem C113_taken_back_wrong : ∃ (S : Scheme 16 2 1) (Enc : Gsw 1 16 → Bool → Prop) (out : List Char) (g : Graph) (cs : List (Call (Gsw 1 16)))
    (r r' : Backstream 16) (outs : List (TLWE 16)), S.Sound toyNoise Enc ∧ MonitorFor exMonitor 2 Cli.exFormula ∧ doLtl2spec exMonitor 2 false = .ok out ∧
      Graph.fromIstream out = .ok g ∧ List.Forall₂ (Call.Rel Enc) cs [.feed false, .result, .feed false, .result] ∧ reverseMake g 5 false true false = .ok r ∧
      runCalls (fun r c => Backstream.eval S r c) (fun r => do let c ← r.result; pure (c, r)) r cs = .ok (outs, r') ∧
      outs.map (fun c => decryptBit c S.sk) = [false, true] := by
  have hs := toy_sound (l := 1) exAlarmKey (by decide) (by decide)
  have hlen : Cli.exLtlSpec.length ≤ 2 ^ 31 := Cli.exLtlSpec_length
  obtain ⟨g, h1, h2, -⟩ := ltl_graph exMonitor_ok Cli.exLtlSpec_printed hlen
  have e1 : (do let g ← Graph.fromIstream Cli.exLtlSpec; g.accepts [false]) = .ok false := by decide +kernel
  have e2 : (do let g ← Graph.fromIstream Cli.exLtlSpec; g.accepts [false, false]) = .ok true := by decide +kernel
  rw [h1, Res.bind_ok] at e1 e2
  have hcs : List.Forall₂ (Call.Rel toyEnc) [.feed (Scheme.encrypt _ 0 false), .result, .feed (Scheme.encrypt _ 0 false), .result]
      [.feed false, .result, .feed false, .result] := .cons (.feed (hs.encrypt _ _)) (.cons .result (.cons (.feed (hs.encrypt _ _)) (.cons .result .nil)))
  obtain ⟨r, r', outs, k1, k2, k3⟩ := reverse_history hs (by decide) g h2 5 (by decide) false (by decide) _ _ hcs
  refine ⟨_, toyEnc, _, g, _, r, r', outs, hs, Cli.exMonitor_for, Cli.exLtlSpec_printed, h1, hcs, k1, k2, ?_⟩
  simp only [resultWords, List.nil_append, List.cons_append, List.map_cons, List.map_nil, Bool.false_eq_true, if_false, e1, e2] at k3
  have : (outs.map fun c => decryptBit c exAlarmKey).map (Except.ok : Bool → Res Bool) = [false, true].map Except.ok := by
    rw [List.map_map]; exact k3
  exact List.map_injective_iff.2 (fun _ _ h => Except.ok.inj h) this

/-- G(p0 -> X p1) with the flag, and REVERSE, BLOCK and FLUT with results after 1, 2, 3, 4 and 6 bits of the recording 10 00 01: the hypotheses are met, and the
verdicts are 1 1 1 0 0. -/
example : ∃ (S : Scheme 16 2 1) (Enc : Gsw 1 16 → Bool → Prop) (g : Graph) (cs : List (Call (Gsw 1 16))) (ps : List (Call Bool)),
    S.Sound toyNoise Enc ∧ MonitorFor exMonitor 2 Cli.exFormula ∧ doLtl2spec exMonitor 2 true = .ok exLtlSpecAll ∧ exLtlSpecAll.length ≤ 2 ^ 31 ∧
      Graph.fromIstream exLtlSpecAll = .ok g ∧ List.Forall₂ (Call.Rel Enc) cs ps ∧ (∀ rest, ps ≠ .result :: rest) ∧ LiveBits g 4 ∧ LiveMax g 8 ∧
      (resultWords [] ps).map g.accepts = [.ok true, .ok true, .ok true, .ok false, .ok false] ∧
      toyNoise.br + 5 * toyNoise.cmux + toyNoise.ks + toyNoise.ms < 2 ^ 30 ∧ (max 1 3 + 4) * toyNoise.cmux + toyNoise.cb < 2 ^ 29 ∧
      8 * 2 ^ (3 / 2) * flutErr toyNoise 8 3 (2 - 1) + 3 * toyNoise.cmux + toyNoise.ks + toyNoise.ms < 2 ^ 30 := by
  have hs := toy_sound (l := 1) exAlarmKey (by decide) (by decide)
  obtain ⟨g, h1, h2, -⟩ := ltl_graph exMonitor_ok exLtlSpecAll_printed exLtlSpecAll_length
  have hsz : (do let g ← Graph.fromIstream exLtlSpecAll; pure g.size) = (.ok 7 : Res Nat) := by decide +kernel
  have e1 : (do let g ← Graph.fromIstream exLtlSpecAll; g.accepts [true]) = .ok true := by decide +kernel
  have e2 : (do let g ← Graph.fromIstream exLtlSpecAll; g.accepts [true, false]) = .ok true := by decide +kernel
  have e3 : (do let g ← Graph.fromIstream exLtlSpecAll; g.accepts [true, false, false]) = .ok true := by decide +kernel
  have e4 : (do let g ← Graph.fromIstream exLtlSpecAll; g.accepts [true, false, false, false]) = .ok false := by decide +kernel
  have e5 : (do let g ← Graph.fromIstream exLtlSpecAll; g.accepts [true, false, false, false, false, true]) = .ok false := by decide +kernel
  rw [h1, Res.bind_ok] at hsz e1 e2 e3 e4 e5
  have hsz : g.size = 7 := Except.ok.inj hsz
  refine ⟨_, toyEnc, g, [.feed (Scheme.encrypt (toyScheme 16 2 1 exAlarmKey) 0 true), .result, .feed (Scheme.encrypt (toyScheme 16 2 1 exAlarmKey) 0 false), .result, .feed (Scheme.encrypt (toyScheme 16 2 1 exAlarmKey) 0 false), .result,
      .feed (Scheme.encrypt (toyScheme 16 2 1 exAlarmKey) 0 false), .result, .feed (Scheme.encrypt (toyScheme 16 2 1 exAlarmKey) 0 false), .feed (Scheme.encrypt (toyScheme 16 2 1 exAlarmKey) 0 true), .result],
    [.feed true, .result, .feed false, .result, .feed false, .result, .feed false, .result, .feed false, .feed true, .result], hs, Cli.exMonitor_for,
    exLtlSpecAll_printed, exLtlSpecAll_length, h1, ?_, (fun rest h => by cases h), liveBits_of_size h2 (by rw [hsz]; decide), ?_, ?_, by decide, by decide, by decide⟩
  · exact .cons (.feed (hs.encrypt _ _)) (.cons .result (.cons (.feed (hs.encrypt _ _)) (.cons .result (.cons (.feed (hs.encrypt _ _)) (.cons .result
      (.cons (.feed (hs.encrypt _ _)) (.cons .result (.cons (.feed (hs.encrypt _ _)) (.cons (.feed (hs.encrypt _ _)) (.cons .result .nil))))))))))
  · intro d X h3 h4
    have := liveMax_of_size h2 d X h3 h4
    omega
  · simp only [resultWords, List.nil_append, List.cons_append, List.map_cons, List.map_nil, e1, e2, e3, e4, e5]

namespace Cli

variable {L : Lib N n l}

/-- **C113, the commands.** If `run plain` prints 0 for a recording, it prints 0 for every recording that goes on from there: with or without the flag,
for every monitor. -/
theorem C113_plain (fs0 : Files) (stdin : List Char) {fml : String} (hw : Word fml) {ap : Nat} (hap : 0 < ap)
    (hap64 : ap < 2 ^ 64) {M : Monitor} (hm : L.monitor fml ap = .ok M) (hM : MonitorOk M ap) (flag : List String)
    (hflag : flag = [] ∨ flag = ["--make-all-live-states-final"]) {fs0' : Files} {spec : List Char}
    (hspec : RunHomfa L stdin fs0 (["ltl2spec"] ++ flag ++ [fml, toString ap]) (.ok (fs0', spec))) (hsize : spec.length ≤ 2 ^ 31)
    (fs fs' : Files) {S I : String} (wS : Word S) (wI : Word I) {specB : List Byte} (hs : fs S = some specB) (hs' : fs' S = some specB) (ht : textOf specB = spec)
    {rs more : List (List Byte)} (hrs : ∀ r ∈ rs ++ more, r.length = recordBytes ap) (hi : fs I = some rs.flatten) (hi' : fs' I = some (rs ++ more).flatten)
    (h : RunHomfa L [] fs ["run", "plain", "--ap", toString ap, "--spec", S, "--in", I] (.ok (fs, ['0']))) :
    ∀ r, RunHomfa L [] fs' ["run", "plain", "--ap", toString ap, "--spec", S, "--in", I] r ↔ r = .ok (fs', ['0']) := by
  obtain ⟨out, h1, h2⟩ := ltl_plain hap hM (decide (flag ≠ []))
  rw [run_ltl2spec hw hap64 hm flag hflag, h1] at hspec
  cases hspec
  obtain ⟨b, h3, h4⟩ := h2 hsize rs fun r hr => hrs r (by simp [hr])
  obtain ⟨b', h5, h6⟩ := h2 hsize (rs ++ more) hrs
  intro r
  rw [run_plain wS wI hs hi hap hap64, ht, h3] at h
  have hb : b = false := by
    cases b with
    | false => rfl
    | true => cases h
  have hb' : b' = false := by
    cases hb'' : b' with
    | false => rfl
    | true =>
      obtain ⟨q, hq⟩ := h6.1 hb''
      rw [List.map_append] at hq
      exact absurd (h4.2 (monitorRun_prefix _ _ _ _ hq)) (by simp [hb])
  rw [run_plain wS wI hs' hi' hap hap64, ht, h5, hb']
  rfl

/-- `run plain` with the specification of G(p0 -> X p1): 0 for the records p0, nothing, and therefore 0 for these and any further record. -/
example : ∃ L : Lib 16 2 1, ∀ z : Byte, ∀ r, RunHomfa L [] (fun f => if f = "in" then some [1#8, 0#8, z] else exLtlFiles 1#8 0#8 f)
    ["run", "plain", "--ap", toString 2, "--spec", "a.spec", "--in", "in"] r ↔
      r = .ok ((fun f => if f = "in" then some [1#8, 0#8, z] else exLtlFiles 1#8 0#8 f), ['0']) := by
  obtain ⟨L, hm⟩ : ∃ L : Lib 16 2 1, L.monitor "G(p0 -> X p1)" 2 = .ok exMonitor := by
    obtain ⟨ψ, -⟩ := exists_numbering 16
    exact ⟨(toyLib 16 2 1 ψ).withMonitor exMonitor, rfl⟩
  have hspec : RunHomfa L [] (fun _ => none) (["ltl2spec"] ++ [] ++ ["G(p0 -> X p1)", toString 2]) (.ok (fun _ => none, exLtlSpec)) := by
    refine (run_ltl2spec exWord (by omega) hm [] (.inl rfl)).2 ?_
    rw [show decide (([] : List String) ≠ []) = false from rfl, exLtlSpec_printed]
    rfl
  refine ⟨L, fun z => ?_⟩
  have hfirst : RunHomfa L [] (exLtlFiles 1#8 0#8) ["run", "plain", "--ap", toString 2, "--spec", "a.spec", "--in", "in"]
      (.ok (exLtlFiles 1#8 0#8, ['0'])) := by
    rw [run_plain (by simp [Word]) (by simp [Word]) (show exLtlFiles 1#8 0#8 "a.spec" = some exLtlBytes from rfl)
      (show exLtlFiles 1#8 0#8 "in" = some [1#8, 0#8] from rfl) (by omega) (by omega), exLtlBytes_text]
    have : doRunPlain exLtlSpec (some [1#8, 0#8]) 2 = .ok ['0'] := by decide +kernel
    rw [this]
    rfl
  exact C113_plain (fun _ => none) [] exWord (by omega) (by omega) hm exMonitor_ok [] (.inl rfl) hspec exLtlSpec_length
    (exLtlFiles 1#8 0#8) _ (S := "a.spec") (I := "in") (by simp [Word]) (by simp [Word]) rfl rfl exLtlBytes_text (rs := [[1#8], [0#8]]) (more := [[z]])
    (by simp [recordBytes]) rfl rfl hfirst

/-- **C113, the commands.** What C67 says the encrypted runs print never goes from 0 to 1 as records are added. -/
theorem C113_violated (φ : Formula) (ap : Nat) (rs more : List (List Byte)) (h : ¬ NotViolated φ ap rs) : ¬ NotViolated φ ap (rs ++ more) := by
  rintro (h' | ⟨σ, h1, h2⟩)
  · exact h (.inl (List.append_eq_nil_iff.1 h').1)
  · refine h (.inr ⟨σ, fun t a ha => h1 t a ?_, h2⟩)
    rw [List.map_append, List.getElem?_append_left (List.getElem?_eq_some_iff.1 ha).1, ha]

end Cli
end Homfa
