import Verif.Proof.Temporal
import Verif.Props.Shell
/-!
# C67: from a formula to a verdict

`homfa ltl2spec` writes a specification, and the README's sequence of commands then tells whether the recorded time steps can still be
continued to a behaviour that satisfies the formula.
-/

namespace Homfa.Cli
open Spec

variable {N n l : Nat} {L : Lib N n l} {δ : Noise} {Enc : L.Key → Gsw l N → Bool → Prop}

/-- **C67.** `homfa ltl2spec` prints a specification, always the same one, and changes no file. -/
theorem C67_prints (fs : Files) (stdin : List Char) {fml : String} (hw : Word fml) {φ : Formula} {ap : Nat} (hap : 0 < ap)
    (hap64 : ap < 2 ^ 64) {M : Monitor} (hm : L.monitor fml ap = .ok M) (hM : MonitorFor M ap φ) (flag : List String)
    (hflag : flag = [] ∨ flag = ["--make-all-live-states-final"]) :
    ∃ spec, ∀ r, RunHomfa L stdin fs (["ltl2spec"] ++ flag ++ [fml, toString ap]) r ↔ r = .ok (fs, spec) := by
  obtain ⟨out, h1, -⟩ := ltl_plain hap hM.toMonitorOk (decide (flag ≠ []))
  refine ⟨out, fun r => ?_⟩
  rw [run_ltl2spec hw hap64 hm flag hflag, h1]
  rfl

/-- `homfa run plain` on that specification prints whether the recorded steps violate the formula. -/
theorem C67_plain (fs0 : Files) (stdin : List Char) {fml : String} (hw : Word fml) {φ : Formula} {ap : Nat} (hap : 0 < ap)
    (hap64 : ap < 2 ^ 64) {M : Monitor} (hm : L.monitor fml ap = .ok M) (hM : MonitorFor M ap φ) (flag : List String)
    (hflag : flag = [] ∨ flag = ["--make-all-live-states-final"]) {fs0' : Files} {spec : List Char}
    (hspec : RunHomfa L stdin fs0 (["ltl2spec"] ++ flag ++ [fml, toString ap]) (.ok (fs0', spec))) (hsize : spec.length ≤ 2 ^ 31)
    (fs : Files) {S I : String} (wS : Word S) (wI : Word I) {specB : List Byte} (hs : fs S = some specB) (ht : textOf specB = spec)
    {rs : List (List Byte)} (hrs : ∀ r ∈ rs, r.length = recordBytes ap) (hi : fs I = some rs.flatten) :
    ∃ b : Bool, (b = true ↔ NotViolated φ ap rs) ∧
      ∀ r, RunHomfa L [] fs ["run", "plain", "--ap", toString ap, "--spec", S, "--in", I] r ↔ r = .ok (fs, [if b then '1' else '0']) := by
  obtain ⟨out, h1, h2⟩ := ltl_plain hap hM.toMonitorOk (decide (flag ≠ []))
  rw [run_ltl2spec hw hap64 hm flag hflag, h1] at hspec
  cases hspec
  obtain ⟨b, h3, h4⟩ := h2 hsize rs hrs
  refine ⟨b, h4.trans ?_, fun r => ?_⟩
  · unfold NotViolated
    by_cases hr : rs = []
    · subst hr
      exact ⟨fun _ => .inl rfl, fun _ => ⟨_, .nil _⟩⟩
    · rw [hM.reads (rs.map (recordBits ap)) (by simpa using hr) (by
        intro a ha
        obtain ⟨r, _, rfl⟩ := List.mem_map.1 ha
        simp [recordBits])]
      exact ⟨.inr, fun h => h.resolve_left hr⟩
  · rw [run_plain wS wI hs hi hap hap64, ht, h3]
    cases b <;> rfl

/-- **C67**, `run offline` -/
theorem C67_offline (hL : L.Sound δ Enc) (hN : 0 < N) (hl : 0 < l) (hbs : blockSize l N < 2 ^ 63)
    (fs0 : Files) (stdin : List Char) {fml : String} (hw : Word fml) {φ : Formula} {ap : Nat} (hap : 0 < ap) (hap64 : ap < 2 ^ 64)
    {M : Monitor} (hm : L.monitor fml ap = .ok M) (hM : MonitorFor M ap φ) (flag : List String)
    (hflag : flag = [] ∨ flag = ["--make-all-live-states-final"]) {fs0' : Files} {spec : List Char}
    (hspec : RunHomfa L stdin fs0 (["ltl2spec"] ++ flag ++ [fml, toString ap]) (.ok (fs0', spec))) (hsize : spec.length ≤ 2 ^ 31)
    {S I K B C R : String} (hn : Names S I K B C R) (fs : Files) {specB : List Byte} (hs : fs S = some specB) (ht : textOf specB = spec)
    {rs : List (List Byte)} (hrs : ∀ r ∈ rs, r.length = recordBytes ap) (hi : fs I = some rs.flatten)
    (hlen : 8 * rs.flatten.length * blockSize l N < 2 ^ 63)
    (h31 : rs.length * ap < 2 ^ 31) {boot : Nat} (hb : 0 < boot) (hb64 : boot < 2 ^ 64)
    (hbud : δ.br + boot * δ.cmux + δ.ks + δ.ms < 2 ^ 30) :
    ∃ b : Bool, (b = true ↔ NotViolated φ ap rs) ∧
    AlwaysPrints L fs [["genkey", "--out", K], ["genbkey", "--key", K, "--out", B],
      ["enc", "--ap", toString ap, "--key", K, "--in", I, "--out", C],
      ["run", "offline", "--bkey", B, "--out", R, "--spec", S, "--in", C, "--bootstrapping-freq", toString boot],
      ["dec", "--key", K, "--in", R]] [if b then '1' else '0'] [K, B, C, R] := by
  obtain ⟨b, h1, h2⟩ := C67_plain fs0 stdin hw hap hap64 hm hM flag hflag hspec hsize fs (hn.words S (by simp)) (hn.words I (by simp)) hs ht
    hrs hi
  exact ⟨b, h1, C61_offline hL hN hl hbs hn fs hs hi hlen (by rw [← length_bits hap hrs]; simpa [List.length_flatMap, recordBits] using h31) hap hap64 hb hb64 hbud ((h2 _).2 rfl)⟩

/-- **C67**, `run reverse` -/
theorem C67_reverse (hL : L.Sound δ Enc) (hN : 0 < N) (hl : 0 < l) (hbs : blockSize l N < 2 ^ 63)
    (fs0 : Files) (stdin : List Char) {fml : String} (hw : Word fml) {φ : Formula} {ap : Nat} (hap : 0 < ap) (hap64 : ap < 2 ^ 64)
    {M : Monitor} (hm : L.monitor fml ap = .ok M) (hM : MonitorFor M ap φ) (flag : List String)
    (hflag : flag = [] ∨ flag = ["--make-all-live-states-final"]) {fs0' : Files} {spec : List Char}
    (hspec : RunHomfa L stdin fs0 (["ltl2spec"] ++ flag ++ [fml, toString ap]) (.ok (fs0', spec))) (hsize : spec.length ≤ 2 ^ 31)
    {S I K B C R : String} (hn : Names S I K B C R) (fs : Files) {specB : List Byte} (hs : fs S = some specB) (ht : textOf specB = spec)
    {rs : List (List Byte)} (hrs : ∀ r ∈ rs, r.length = recordBytes ap) (hi : fs I = some rs.flatten)
    (hlen : 8 * rs.flatten.length * blockSize l N < 2 ^ 63) {freq boot : Nat} (hf : 0 < freq) (hf64 : freq < 2 ^ 64) (hb : 0 < boot)
    (hb64 : boot < 2 ^ 64) (hbud : δ.br + boot * δ.cmux + δ.ks + δ.ms < 2 ^ 30) :
    ∃ b : Bool, (b = true ↔ NotViolated φ ap rs) ∧
    AlwaysPrints L fs [["genkey", "--out", K], ["genbkey", "--key", K, "--out", B],
      ["enc", "--ap", toString ap, "--key", K, "--in", I, "--out", C],
      ["run", "reverse", "--bkey", B, "--out", R, "--spec", S, "--in", C, "--out-freq", toString freq,
        "--bootstrapping-freq", toString boot],
      ["dec", "--key", K, "--in", R]] [if b then '1' else '0'] [K, B, C, R] := by
  obtain ⟨b, h1, h2⟩ := C67_plain fs0 stdin hw hap hap64 hm hM flag hflag hspec hsize fs (hn.words S (by simp)) (hn.words I (by simp)) hs ht
    hrs hi
  exact ⟨b, h1, C61_reverse hL hN hl hbs hn fs hs hi hlen hap hap64 hf hf64 hb hb64 hbud ((h2 _).2 rfl)⟩

/-- **C67**, `run block`: for an input that is not empty -/
theorem C67_block (hL : L.Sound δ Enc) (hN : 0 < N) (hl : 0 < l) (hbs : blockSize l N < 2 ^ 63)
    (fs0 : Files) (stdin : List Char) {fml : String} (hw : Word fml) {φ : Formula} {ap : Nat} (hap : 0 < ap) (hap64 : ap < 2 ^ 64)
    {M : Monitor} (hm : L.monitor fml ap = .ok M) (hM : MonitorFor M ap φ) (flag : List String)
    (hflag : flag = [] ∨ flag = ["--make-all-live-states-final"]) {fs0' : Files} {spec : List Char}
    (hspec : RunHomfa L stdin fs0 (["ltl2spec"] ++ flag ++ [fml, toString ap]) (.ok (fs0', spec))) (hsize : spec.length ≤ 2 ^ 31)
    {S I K B C R : String} (hn : Names S I K B C R) (fs : Files) {specB : List Byte} (hs : fs S = some specB) (ht : textOf specB = spec)
    {rs : List (List Byte)} (hrs : ∀ r ∈ rs, r.length = recordBytes ap) (hne : rs ≠ []) (hi : fs I = some rs.flatten)
    (hlen : 8 * rs.flatten.length * blockSize l N < 2 ^ 63) {freq queue W : Nat} (hf : 0 < freq) (hf64 : freq < 2 ^ 64) (hq : 0 < queue)
    (hqi : queue ≤ 2 ^ 31) (hW : ∀ g, Graph.fromIstream spec = .ok g → LiveBits g W) (hWN : W < N) (hW31 : W < 31)
    (hbud : (queue + W) * δ.cmux + δ.cb < 2 ^ 29) :
    ∃ b : Bool, (b = true ↔ NotViolated φ ap rs) ∧
    AlwaysPrints L fs [["genkey", "--out", K], ["genbkey", "--key", K, "--out", B],
      ["enc", "--ap", toString ap, "--key", K, "--in", I, "--out", C],
      ["run", "block", "--bkey", B, "--out", R, "--spec", S, "--in", C, "--out-freq", toString freq, "--queue-size", toString queue],
      ["dec", "--key", K, "--in", R]] [if b then '1' else '0'] [K, B, C, R] := by
  obtain ⟨b, h1, h2⟩ := C67_plain fs0 stdin hw hap hap64 hm hM flag hflag hspec hsize fs (hn.words S (by simp)) (hn.words I (by simp)) hs ht
    hrs hi
  have hne' : rs.flatten ≠ [] := by
    cases rs with
    | nil => exact absurd rfl hne
    | cons r rs =>
      have := hrs r (by simp)
      intro h
      simp at h
      rw [h.1] at this
      unfold recordBytes at this
      simp at this
      omega
  subst ht
  exact ⟨b, h1, C61_block hL hN hl hbs hn fs hs hi hne' hlen hap hap64 hf hf64 hq hqi hW hWN hW31 hbud ((h2 _).2 rfl)⟩

/-- **C67**, `run flut` -/
theorem C67_flut (hL : L.Sound δ Enc) (hN : 0 < N) (hl : 0 < l) (hbs : blockSize l N < 2 ^ 63)
    (fs0 : Files) (stdin : List Char) {fml : String} (hw : Word fml) {φ : Formula} {ap : Nat} (hap : 0 < ap) (hap64 : ap < 2 ^ 64)
    {M : Monitor} (hm : L.monitor fml ap = .ok M) (hM : MonitorFor M ap φ) (flag : List String)
    (hflag : flag = [] ∨ flag = ["--make-all-live-states-final"]) {fs0' : Files} {spec : List Char}
    (hspec : RunHomfa L stdin fs0 (["ltl2spec"] ++ flag ++ [fml, toString ap]) (.ok (fs0', spec))) (hsize : spec.length ≤ 2 ^ 31)
    {S I K B C R : String} (hn : Names S I K B C R) (fs : Files) {specB : List Byte} (hs : fs S = some specB) (ht : textOf specB = spec)
    {rs : List (List Byte)} (hrs : ∀ r ∈ rs, r.length = recordBytes ap) (hi : fs I = some rs.flatten)
    (hlen : 8 * rs.flatten.length * blockSize l N < 2 ^ 63) {freq queue depth boot W : Nat} (hf : 0 < freq)
    (hf64 : freq < 2 ^ 64) (hq : 0 < queue) (hq31 : queue < 31) (hd : 0 < depth) (hd31 : depth < 31) (hdN : 2 ^ depth ≤ N) (hb : 0 < boot)
    (hb64 : boot < 2 ^ 64) (hW : ∀ g, Graph.fromIstream spec = .ok g → LiveMax g W) (hWd : W < 2 ^ depth)
    (hbud : W * 2 ^ (queue / 2) * flutErr δ W queue (boot - 1) + queue * δ.cmux + δ.ks + δ.ms < 2 ^ 30) :
    ∃ b : Bool, (b = true ↔ NotViolated φ ap rs) ∧
    AlwaysPrints L fs [["genkey", "--out", K], ["genbkey", "--key", K, "--out", B],
      ["enc", "--ap", toString ap, "--key", K, "--in", I, "--out", C],
      ["run", "flut", "--bkey", B, "--out", R, "--spec", S, "--in", C, "--out-freq", toString freq, "--queue-size", toString queue,
        "--max-second-lut-depth", toString depth, "--bootstrapping-freq", toString boot],
      ["dec", "--key", K, "--in", R]] [if b then '1' else '0'] [K, B, C, R] := by
  obtain ⟨b, h1, h2⟩ := C67_plain fs0 stdin hw hap hap64 hm hM flag hflag hspec hsize fs (hn.words S (by simp)) (hn.words I (by simp)) hs ht
    hrs hi
  subst ht
  exact ⟨b, h1, C61_flut hL hN hl hbs hn fs hs hi hlen hap hap64 hf hf64 hq hq31 hd hd31 hdN hb hb64 hW hWd hbud ((h2 _).2 rfl)⟩

/-! ## The hypotheses are met -/

/-- G(p0 -> X p1) -/
def exFormula : Formula := .always (.imp (.prop 0) (.next (.prop 1)))

theorem exFormula_holds (σ : Behaviour) : exFormula.Holds σ ↔ ∀ t, σ t 0 = true → σ (t + 1) 1 = true := by
  simp only [exFormula, Formula.Holds, Formula.always, Formula.eventually, Formula.imp, Formula.HoldsAt]
  push Not
  simp

/-- the letters `exMonitor` can read from a state -/
theorem exMonitor_run : ∀ (letters : List (List Bool)) (p : Nat), (∀ a ∈ letters, a.length = 2) → p < 2 →
    ((∃ q, MonitorRun exMonitor p letters q) ↔
      (p = 1 → ∀ a, letters[0]? = some a → a[1]? = some true) ∧
      ∀ t a a', letters[t]? = some a → letters[t + 1]? = some a' → a[0]? = some true → a'[1]? = some true) := by
  have sat : ∀ (x y : Bool) (c : Bdd), Satisfies exMonitor [x, y] c ↔
      ∃ val : Nat → Bool, val 4 = x ∧ val 7 = y ∧ bddEval val c = true := by
    intro x y c
    constructor
    · rintro ⟨val, h1, h2⟩
      have e0 := h1 0 4 rfl (by simp)
      have e1 := h1 1 7 rfl (by simp)
      simp at e0 e1
      exact ⟨val, e0.symm, e1.symm, h2⟩
    · rintro ⟨val, h1, h2, h3⟩
      refine ⟨val, fun i v hv hi => ?_, h3⟩
      match i with
      | 0 => cases hv; simp [h1]
      | 1 => cases hv; simp [h2]
      | i + 2 => simp at hi
  intro letters
  induction letters with
  | nil => intro p _ _; exact ⟨fun _ => ⟨by simp, by simp⟩, fun _ => ⟨p, .nil p⟩⟩
  | cons a letters ih =>
    intro p hl hp
    obtain ⟨x, y, rfl⟩ : ∃ x y, a = [x, y] := by
      have := hl a (by simp)
      match a, this with
      | [x, y], _ => exact ⟨x, y, rfl⟩
    have hl' : ∀ a ∈ letters, a.length = 2 := fun a h => hl a (by simp [h])
    have step : (∃ q, MonitorRun exMonitor p ([x, y] :: letters) q) ↔
        (p = 1 → y = true) ∧ ∃ q, MonitorRun exMonitor (if x then 1 else 0) letters q := by
      have hval : ∃ val : Nat → Bool, val 4 = x ∧ val 7 = y := ⟨fun v => if v = 4 then x else y, by simp, by simp⟩
      constructor
      · rintro ⟨q, h⟩
        cases h with
        | @cons _ p' _ _ _ es c h1 h2 h3 h4 =>
          obtain ⟨val, v1, v2, v3⟩ := (sat x y c).1 h3
          have : p = 0 ∨ p = 1 := by omega
          rcases this with rfl | rfl <;> simp [exMonitor] at h1 <;> subst h1 <;>
            simp only [List.mem_cons, Prod.mk.injEq, List.not_mem_nil, or_false] at h2 <;>
            rcases h2 with ⟨rfl, rfl⟩ | ⟨rfl, rfl⟩ <;> simp [bddEval, v1, v2] at v3 <;> clear ih <;> simp_all <;> exact ⟨q, h4⟩
      · rintro ⟨h1, q, h2⟩
        obtain ⟨val, v1, v2⟩ := hval
        have : p = 0 ∨ p = 1 := by omega
        rcases this with rfl | rfl <;> cases x
        · exact ⟨q, .cons (es := [(.node 4 .tt .ff, 0), (.node 4 .ff .tt, 1)]) rfl (List.mem_cons_self ..)
            ((sat _ _ _).2 ⟨val, v1, v2, by simp [bddEval, v1]⟩) h2⟩
        · exact ⟨q, .cons (es := [(.node 4 .tt .ff, 0), (.node 4 .ff .tt, 1)]) rfl (List.mem_cons_of_mem _ (List.mem_cons_self ..))
            ((sat _ _ _).2 ⟨val, v1, v2, by simp [bddEval, v1]⟩) h2⟩
        · exact ⟨q, .cons (es := [(.node 4 (.node 7 .ff .tt) .ff, 0), (.node 4 .ff (.node 7 .ff .tt), 1)]) rfl (List.mem_cons_self ..)
            ((sat _ _ _).2 ⟨val, v1, v2, by simp [bddEval, v1, v2, h1]⟩) h2⟩
        · exact ⟨q, .cons (es := [(.node 4 (.node 7 .ff .tt) .ff, 0), (.node 4 .ff (.node 7 .ff .tt), 1)]) rfl
            (List.mem_cons_of_mem _ (List.mem_cons_self ..))
            ((sat _ _ _).2 ⟨val, v1, v2, by simp [bddEval, v1, v2, h1]⟩) h2⟩
    rw [step, ih _ hl' (by split <;> omega)]
    constructor
    · rintro ⟨h1, h2, h3⟩
      refine ⟨fun hp a ha => ?_, fun t a a' ha ha' hx => ?_⟩
      · simp at ha; subst ha; simp [h1 hp]
      · cases t with
        | zero =>
          simp at ha ha' hx
          subst ha
          simp at hx
          exact h2 (by simp [hx]) a' (by simpa using ha')
        | succ t => exact h3 t a a' (by simpa using ha) (by simpa using ha') hx
    · rintro ⟨h1, h2⟩
      refine ⟨fun hp => ?_, fun hx a ha => ?_, fun t a a' ha ha' hx => ?_⟩
      · have := h1 hp [x, y] (by simp)
        simpa using this
      · refine h2 0 [x, y] a (by simp) (by simpa using ha) ?_
        cases x <;> simp_all
      · exact h2 (t + 1) a a' (by simpa using ha) (by simpa using ha') hx

theorem exMonitor_for : MonitorFor exMonitor 2 exFormula where
  toMonitorOk := exMonitor_ok
  reads := by
    intro letters _ hl
    show (∃ q, MonitorRun exMonitor 0 letters q) ↔ _
    rw [exMonitor_run letters 0 hl (by omega)]
    constructor
    · rintro ⟨-, h⟩
      refine ⟨fun t i => match letters[t]? with
        | some a => a.getD i false
        | none => i == 1, ?_, ?_⟩
      · intro t a ha i b hb
        simp [ha, hb]
      · rw [exFormula_holds]
        intro t h0
        cases ha : letters[t]? with
        | none =>
          simp [ha] at h0
        | some a =>
          cases ha' : letters[t + 1]? with
          | none => simp
          | some a' =>
            simp only [ha] at h0 ⊢
            have hla := hl a (List.mem_of_getElem? ha)
            have : a[0]? = some true := by
              rw [List.getElem?_eq_getElem (by omega)]
              rw [List.getD_eq_getElem?_getD, List.getElem?_eq_getElem (by omega)] at h0
              simpa using h0
            have := h t a a' ha ha' this
            rw [List.getD_eq_getElem?_getD, this]
            rfl
    · rintro ⟨σ, h1, h2⟩
      rw [exFormula_holds] at h2
      refine ⟨by simp, fun t a a' ha ha' hx => ?_⟩
      have e := h2 t (h1 t a ha 0 true hx)
      have hla := hl a' (List.mem_of_getElem? ha')
      have g : a'[1]? = some a'[1] := List.getElem?_eq_getElem (by omega)
      rw [g, ← h1 _ a' ha' 1 _ g, e]

/-- the specification of G(p0 -> X p1) -/
def exLtlSpec : List Char := ">0*\t1\t2\n1\t0\t0\n2\t3\t3\n3*\t4\t5\n4\t6\t0\n5\t6\t3\n6\t6\t6\n".toList

theorem exLtlSpec_printed : doLtl2spec exMonitor 2 false = .ok exLtlSpec := by decide +kernel

def exLtlBytes : List Byte := exLtlSpec.map fun c => BitVec.ofNat 8 c.toNat

theorem exLtlBytes_text : textOf exLtlBytes = exLtlSpec := by decide +kernel

theorem exLtlSpec_length : exLtlSpec.length ≤ 2 ^ 31 := by decide +kernel

/-- this specification, and two records -/
def exLtlFiles (x y : Byte) : Files := fun f =>
  if f = "a.spec" then some exLtlBytes
  else if f = "in" then some [x, y] else none

/-- the library with a Spot that knows one monitor -/
def Lib.withMonitor (L : Lib N n l) (M : Monitor) : Lib N n l := { L with monitor := fun _ _ => .ok M }

theorem Lib.Sound.withMonitor (h : L.Sound δ Enc) (M : Monitor) : (L.withMonitor M).Sound δ Enc := ⟨h.key, h.bkey, h.res, h.pair⟩

theorem exWord : Word "G(p0 -> X p1)" := by simp [Word]

theorem ex_hlen (x y : Byte) : 8 * [[x], [y]].flatten.length * blockSize 1 16 < 2 ^ 63 := by
  have : [[x], [y]].flatten.length = 2 := rfl
  rw [this]
  decide

theorem exNotViolated (x y : Byte) : NotViolated exFormula 2 [[x], [y]] ↔ (x.getLsbD 0 = true → y.getLsbD 1 = true) := by
  have e3 := exMonitor_for.reads ([[x], [y]].map (recordBits 2)) (by simp) (by simp [recordBits])
  unfold NotViolated
  rw [← e3]
  have : exMonitor.init = 0 := rfl
  rw [this, exMonitor_run _ 0 (by simp [recordBits]) (by omega)]
  constructor
  · rintro (h | ⟨-, h⟩) hx
    · cases h
    · have := h 0 _ _ rfl rfl (by simpa [recordBits, propBit] using hx)
      simpa [recordBits, propBit] using this
  · intro h
    refine .inr ⟨by simp, fun t a a' ha ha' hx => ?_⟩
    match t with
    | 0 =>
      simp at ha ha'
      subst ha; subst ha'
      have := h (by simpa [recordBits, propBit] using hx)
      simpa [recordBits, propBit] using this
    | t + 1 => simp at ha'

/-- `homfa ltl2spec "G(p0 -> X p1)" 2 > a.spec` and then the README's commands, on every input of two records: the printed verdict is 0
exactly when p0 is true in the first record and p1 false in the second. -/
example : ∃ L : Lib 16 2 1, ∃ spec : List Char, RunHomfa L [] (fun _ => none) ["ltl2spec", "G(p0 -> X p1)", toString 2] (.ok (fun _ => none, spec)) ∧
    ∀ x y : Byte, ∃ specB, exLtlFiles x y "a.spec" = some specB ∧ textOf specB = spec ∧ ∀ boot, 0 < boot → boot < 1000 →
      ∃ b : Bool, (b = false ↔ x.getLsbD 0 = true ∧ y.getLsbD 1 = false) ∧
      AlwaysPrints L (exLtlFiles x y) [["genkey", "--out", "sk"], ["genbkey", "--key", "sk", "--out", "bk"],
        ["enc", "--ap", toString 2, "--key", "sk", "--in", "in", "--out", "ctxt"],
        ["run", "offline", "--bkey", "bk", "--out", "res", "--spec", "a.spec", "--in", "ctxt", "--bootstrapping-freq", toString boot],
        ["dec", "--key", "sk", "--in", "res"]] [if b then '1' else '0'] ["sk", "bk", "ctxt", "res"] := by
  obtain ⟨L, hL, hm⟩ : ∃ L : Lib 16 2 1, (∃ Enc, L.Sound toyNoise Enc) ∧ L.monitor "G(p0 -> X p1)" 2 = .ok exMonitor := by
    obtain ⟨ψ, hψ⟩ := exists_numbering 16
    have hL := toyLib_sound (n := 2) (l := 1) (by omega) (by omega) hψ
    exact ⟨(toyLib 16 2 1 ψ).withMonitor exMonitor, ⟨_, hL.withMonitor exMonitor⟩, rfl⟩
  obtain ⟨Enc, hL⟩ := hL
  have hspec : RunHomfa L [] (fun _ => none) (["ltl2spec"] ++ [] ++ ["G(p0 -> X p1)", toString 2]) (.ok (fun _ => none, exLtlSpec)) := by
    refine (run_ltl2spec exWord (by omega) hm [] (.inl rfl)).2 ?_
    rw [show decide (([] : List String) ≠ []) = false from rfl, exLtlSpec_printed]
    rfl
  refine ⟨L, _, hspec, fun x y => ⟨exLtlBytes, rfl, exLtlBytes_text, fun boot h0 h1 => ?_⟩⟩
  have hi : exLtlFiles x y "in" = some [[x], [y]].flatten := rfl
  have hs : exLtlFiles x y "a.spec" = some exLtlBytes := rfl
  have hb : toyNoise.br + boot * toyNoise.cmux + toyNoise.ks + toyNoise.ms < 2 ^ 30 := by simp only [toyNoise]; omega
  obtain ⟨b, e1, e2⟩ := C67_offline hL (by omega) (by omega) (by decide) (fun _ => none) [] exWord (by omega) (by omega) hm exMonitor_for []
    (.inl rfl) hspec exLtlSpec_length exNames (exLtlFiles x y) hs exLtlBytes_text (by simp [recordBytes]) hi (ex_hlen x y) (by simp) h0
    (by omega) hb
  refine ⟨b, ?_, e2⟩
  rw [← Bool.not_eq_true, e1, exNotViolated]
  cases x.getLsbD 0 <;> cases y.getLsbD 1 <;> simp

end Homfa.Cli
