import Verif.Spec.Safety
import Verif.Props.Alarm
import Verif.Props.Tree
/-!
# C114: a verdict tells of a formula what finite recordings can tell

Formulas that are satisfied by the same behaviours, or only have the same beginnings of such behaviours, lead to the same verdicts, and with
`run offline` and `run reverse` to the same bytes.  A formula that asks for something to happen at last, F ψ, never raises an alarm.
-/

namespace Homfa
open Spec

variable {N n l : Nat}

theorem Equivalent.beginnings {φ ψ : Formula} (h : Equivalent φ ψ) (ap : Nat) : SameBeginnings ap φ ψ := fun _ _ =>
  exists_congr fun σ => and_congr_right fun _ => h σ

/-- **C114 (same words).** The specifications that `ltl2spec` prints for two formulas with the same beginnings, both with the flag or both without, accept
the same words. -/
theorem C114_same_words {M M' : Monitor} {ap : Nat} {φ ψ : Formula} (hM : MonitorFor M ap φ) (hM' : MonitorFor M' ap ψ)
    (hsame : SameBeginnings ap φ ψ) {allFinal : Bool} {out out' : List Char} (hout : doLtl2spec M ap allFinal = .ok out) (hout' : doLtl2spec M' ap allFinal = .ok out')
    (hlen : out.length ≤ 2 ^ 31) (hlen' : out'.length ≤ 2 ^ 31) :
    ∃ g g', Graph.fromIstream out = .ok g ∧ Graph.fromIstream out' = .ok g' ∧ g.WF ∧ g'.WF ∧ ∀ w, g.accepts w = g'.accepts w := by
  obtain ⟨g, h1, h2, h3⟩ := ltl_graph hM.toMonitorOk hout hlen
  obtain ⟨g', k1, k2, k3⟩ := ltl_graph hM'.toMonitorOk hout' hlen'
  refine ⟨g, g', h1, k1, h2, k2, fun w => ?_⟩
  obtain ⟨b, h4, h5⟩ := h3 w
  obtain ⟨b', k4, k5⟩ := k3 w
  rw [h4, k4]
  have key : ∀ letters : List (List Bool), (∀ a ∈ letters, a.length = ap) → ((∃ q, MonitorRun M M.init letters q) ↔ ∃ q, MonitorRun M' M'.init letters q) := by
    intro letters hl
    by_cases hne : letters = []
    · subst hne
      exact ⟨fun _ => ⟨_, .nil _⟩, fun _ => ⟨_, .nil _⟩⟩
    · rw [hM.reads letters hne hl, hM'.reads letters hne hl]
      exact hsame letters hl
  have : b = true ↔ b' = true := by
    rw [h5, k5]
    refine exists_congr fun v => exists_congr fun letters => ?_
    constructor
    · rintro ⟨q, e1, e2, e3, e4⟩
      obtain ⟨q', hq'⟩ := (key letters e2).1 ⟨q, e4⟩
      exact ⟨q', e1, e2, e3, hq'⟩
    · rintro ⟨q, e1, e2, e3, e4⟩
      obtain ⟨q', hq'⟩ := (key letters e2).2 ⟨q, e4⟩
      exact ⟨q', e1, e2, e3, hq'⟩
  rw [Bool.eq_iff_iff.2 this]

/-- time shifted by `k` -/
theorem holdsAt_shift (σ : Behaviour) (k : Nat) : ∀ (φ : Formula) (t : Nat), φ.HoldsAt (fun s i => σ (s + k) i) t ↔ φ.HoldsAt σ (t + k) := by
  intro φ
  induction φ with
  | top => intro t; rfl
  | prop i => intro t; rfl
  | not φ ih => intro t; exact not_congr (ih t)
  | and φ ψ ih1 ih2 => intro t; exact and_congr (ih1 t) (ih2 t)
  | next φ ih =>
    intro t
    simp only [Formula.HoldsAt]
    rw [ih, Nat.add_right_comm]
  | «until» φ ψ ih1 ih2 =>
    intro t
    simp only [Formula.HoldsAt]
    constructor
    · rintro ⟨t', h1, h2, h3⟩
      refine ⟨t' + k, by omega, (ih2 t').1 h2, fun s hs hs' => ?_⟩
      have := (ih1 (s - k)).1 (h3 (s - k) (by omega) (by omega))
      rwa [Nat.sub_add_cancel (by omega)] at this
    · rintro ⟨t', h1, h2, h3⟩
      refine ⟨t' - k, by omega, (ih2 _).2 (by rwa [Nat.sub_add_cancel (by omega)]), fun s hs hs' => (ih1 s).2 (h3 _ (by omega) (by omega))⟩

/-- **C114 (never an alarm).** If some behaviour satisfies ψ, then no recording violates F ψ. -/
theorem C114_eventually (ψ : Formula) (hψ : ∃ σ, ψ.Holds σ) (ap : Nat) (rs : List (List Byte)) : NotViolated (.eventually ψ) ap rs := by
  obtain ⟨σ, hσ⟩ := hψ
  refine .inr ⟨fun t i => if h : t < rs.length then (recordBits ap (rs[t]'h)).getD i false else σ (t - rs.length) i, ?_, ?_⟩
  · intro t a ha i b hb
    rw [List.getElem?_map] at ha
    obtain ⟨r, hr, rfl⟩ := Option.map_eq_some_iff.1 ha
    obtain ⟨ht, rfl⟩ := List.getElem?_eq_some_iff.1 hr
    simp only [ht, dif_pos]
    rw [List.getD_eq_getElem?_getD, hb]
    rfl
  · refine ⟨rs.length, by omega, ?_, fun _ _ _ => trivial⟩
    have := (holdsAt_shift (fun t i => if h : t < rs.length then (recordBits ap (rs[t]'h)).getD i false else σ (t - rs.length) i) rs.length ψ 0).1
    rw [Nat.zero_add] at this
    refine this ?_
    have e : (fun s i => if h : s + rs.length < rs.length then (recordBits ap (rs[s + rs.length]'h)).getD i false else σ (s + rs.length - rs.length) i) = σ := by
      funext s i
      rw [dif_neg (by omega), Nat.add_sub_cancel]
    show ψ.HoldsAt (fun s i => if h : s + rs.length < rs.length then (recordBits ap (rs[s + rs.length]'h)).getD i false else σ (s + rs.length - rs.length) i) 0
    rw [e]
    exact hσ

namespace Cli

variable {L : Lib N n l}

/-- **C114, `run plain`.** The specifications of two formulas with the same beginnings make `run plain` print the same for every input. -/
theorem C114_plain {fml fml' : String} {φ ψ : Formula} {ap : Nat} (hap : 0 < ap) (hap64 : ap < 2 ^ 64)
    {M M' : Monitor} (hM : MonitorFor M ap φ) (hM' : MonitorFor M' ap ψ) (hw : Word fml) (hw' : Word fml')
    (hm : L.monitor fml ap = .ok M) (hm' : L.monitor fml' ap = .ok M') (hsame : SameBeginnings ap φ ψ)
    (flag flag' : List String) (hflag : flag = [] ∨ flag = ["--make-all-live-states-final"]) (hflag' : flag' = [] ∨ flag' = ["--make-all-live-states-final"])
    {fs0 fs0' fs1 fs1' : Files} {stdin stdin' : List Char} {spec spec' : List Char}
    (hspec : RunHomfa L stdin fs0 (["ltl2spec"] ++ flag ++ [fml, toString ap]) (.ok (fs1, spec))) (hsize : spec.length ≤ 2 ^ 31)
    (hspec' : RunHomfa L stdin' fs0' (["ltl2spec"] ++ flag' ++ [fml', toString ap]) (.ok (fs1', spec'))) (hsize' : spec'.length ≤ 2 ^ 31)
    {fs : Files} {S S' I : String} (wS : Word S) (wS' : Word S') (wI : Word I) {specB specB' : List Byte} (hs : fs S = some specB) (ht : textOf specB = spec)
    (hs' : fs S' = some specB') (ht' : textOf specB' = spec') {rs : List (List Byte)} (hrs : ∀ r ∈ rs, r.length = recordBytes ap) (hi : fs I = some rs.flatten) :
    ∀ r, RunHomfa L [] fs ["run", "plain", "--ap", toString ap, "--spec", S, "--in", I] r ↔
      RunHomfa L [] fs ["run", "plain", "--ap", toString ap, "--spec", S', "--in", I] r := by
  obtain ⟨b, h1, h2⟩ := C67_plain fs0 stdin hw hap hap64 hm hM flag hflag hspec hsize fs wS wI hs ht hrs hi
  obtain ⟨b', k1, k2⟩ := C67_plain fs0' stdin' hw' hap hap64 hm' hM' flag' hflag' hspec' hsize' fs wS' wI hs' ht' hrs hi
  have : b = b' := by
    rw [Bool.eq_iff_iff, h1, k1]
    unfold NotViolated
    refine or_congr_right (hsame _ ?_)
    intro a ha
    obtain ⟨r, _, rfl⟩ := List.mem_map.1 ha
    simp [recordBits]
  intro r
  rw [h2, k2, this]

/-- **C114, `run offline`.** With the specifications of two formulas with the same beginnings each outcome of the one command, with each bit of each file, is an
outcome of the other. -/
theorem C114_offline (hN : 0 < N) (hl : 0 < l) (hbs : blockSize l N < 2 ^ 63) {fml fml' : String} {φ ψ : Formula} {ap : Nat} (hap64 : ap < 2 ^ 64)
    {M M' : Monitor} (hM : MonitorFor M ap φ) (hM' : MonitorFor M' ap ψ) (hw : Word fml) (hw' : Word fml')
    (hm : L.monitor fml ap = .ok M) (hm' : L.monitor fml' ap = .ok M') (hsame : SameBeginnings ap φ ψ)
    (flag : List String) (hflag : flag = [] ∨ flag = ["--make-all-live-states-final"])
    {fs0 fs0' fs1 fs1' : Files} {stdin stdin' : List Char} {spec spec' : List Char}
    (hspec : RunHomfa L stdin fs0 (["ltl2spec"] ++ flag ++ [fml, toString ap]) (.ok (fs1, spec))) (hsize : spec.length ≤ 2 ^ 31)
    (hspec' : RunHomfa L stdin' fs0' (["ltl2spec"] ++ flag ++ [fml', toString ap]) (.ok (fs1', spec'))) (hsize' : spec'.length ≤ 2 ^ 31)
    {fs : Files} {B R S S' C : String} {specB specB' file : List Byte} (hB : Word B) (hR : Word R) (hS : Word S) (hS' : Word S') (hC : Word C) (hb : (fs B).isSome)
    (hs : fs S = some specB) (ht : textOf specB = spec) (hs' : fs S' = some specB') (ht' : textOf specB' = spec') (hc : fs C = some file) (hlen : file.length < 2 ^ 63)
    {boot : Nat} (h0 : 0 < boot) (h64 : boot < 2 ^ 64) (r : Res (Files × List Char)) :
    RunHomfa L [] fs ["run", "offline", "--bkey", B, "--out", R, "--spec", S, "--in", C, "--bootstrapping-freq", toString boot] r ↔
      RunHomfa L [] fs ["run", "offline", "--bkey", B, "--out", R, "--spec", S', "--in", C, "--bootstrapping-freq", toString boot] r := by
  have e1 := ok_of_map ((run_ltl2spec hw hap64 hm flag hflag).1 hspec)
  have e2 := ok_of_map ((run_ltl2spec hw' hap64 hm' flag hflag).1 hspec')
  obtain ⟨g, g', k1, k2, k3, k4, k5⟩ := C114_same_words hM hM' hsame e1 e2 hsize hsize'
  subst ht ht'
  exact C110_offline_same L hN hl hbs hB hR hS hS' hC hb hs hs' hc hlen k1 k2 (Nat.lt_of_le_of_lt (Nat.zero_le _) k3.init_lt)
    (Nat.lt_of_le_of_lt (Nat.zero_le _) k4.init_lt) (fun w _ => k5 w) h0 h64 r

/-- **C114, `run reverse`.** -/
theorem C114_reverse (hN : 0 < N) (hl : 0 < l) (hbs : blockSize l N < 2 ^ 63) {fml fml' : String} {φ ψ : Formula} {ap : Nat} (hap64 : ap < 2 ^ 64)
    {M M' : Monitor} (hM : MonitorFor M ap φ) (hM' : MonitorFor M' ap ψ) (hw : Word fml) (hw' : Word fml')
    (hm : L.monitor fml ap = .ok M) (hm' : L.monitor fml' ap = .ok M') (hsame : SameBeginnings ap φ ψ)
    (flag : List String) (hflag : flag = [] ∨ flag = ["--make-all-live-states-final"])
    {fs0 fs0' fs1 fs1' : Files} {stdin stdin' : List Char} {spec spec' : List Char}
    (hspec : RunHomfa L stdin fs0 (["ltl2spec"] ++ flag ++ [fml, toString ap]) (.ok (fs1, spec))) (hsize : spec.length ≤ 2 ^ 31)
    (hspec' : RunHomfa L stdin' fs0' (["ltl2spec"] ++ flag ++ [fml', toString ap]) (.ok (fs1', spec'))) (hsize' : spec'.length ≤ 2 ^ 31)
    {fs : Files} {B R S S' C : String} {specB specB' file : List Byte} (hB : Word B) (hR : Word R) (hS : Word S) (hS' : Word S') (hC : Word C) (hb : (fs B).isSome)
    (hs : fs S = some specB) (ht : textOf specB = spec) (hs' : fs S' = some specB') (ht' : textOf specB' = spec') (hc : fs C = some file) (hlen : file.length < 2 ^ 63)
    {freq boot : Nat} (hf0 : 0 < freq) (hf64 : freq < 2 ^ 64) (h0 : 0 < boot) (h64 : boot < 2 ^ 64) (r : Res (Files × List Char)) :
    RunHomfa L [] fs ["run", "reverse", "--bkey", B, "--out", R, "--spec", S, "--in", C, "--out-freq", toString freq, "--bootstrapping-freq", toString boot] r ↔
      RunHomfa L [] fs ["run", "reverse", "--bkey", B, "--out", R, "--spec", S', "--in", C, "--out-freq", toString freq, "--bootstrapping-freq", toString boot] r := by
  have e1 := ok_of_map ((run_ltl2spec hw hap64 hm flag hflag).1 hspec)
  have e2 := ok_of_map ((run_ltl2spec hw' hap64 hm' flag hflag).1 hspec')
  obtain ⟨g, g', k1, k2, k3, k4, k5⟩ := C114_same_words hM hM' hsame e1 e2 hsize hsize'
  subst ht ht'
  simpa using C110_reverse_same L hN hl hbs hB hR hS hS' hC hb hs hs' hc hlen k1 k2 (Nat.lt_of_le_of_lt (Nat.zero_le _) k3.init_lt)
    (Nat.lt_of_le_of_lt (Nat.zero_le _) k4.init_lt) (fun w _ => k5 w) hf0 hf64 h0 h64 (flags := []) (.inl rfl) r

/-- **C114, a liveness formula never raises an alarm.** The specification of F ψ, for a ψ that some behaviour satisfies, makes `run plain` print 1 for every
input of whole records. -/
theorem C114_no_alarm {fml : String} {ψ : Formula} {ap : Nat} (hap : 0 < ap) (hap64 : ap < 2 ^ 64) {M : Monitor} (hM : MonitorFor M ap (.eventually ψ))
    (hψ : ∃ σ, ψ.Holds σ) (hw : Word fml) (hm : L.monitor fml ap = .ok M)
    (flag : List String) (hflag : flag = [] ∨ flag = ["--make-all-live-states-final"]) {fs0 fs1 : Files} {stdin : List Char} {spec : List Char}
    (hspec : RunHomfa L stdin fs0 (["ltl2spec"] ++ flag ++ [fml, toString ap]) (.ok (fs1, spec))) (hsize : spec.length ≤ 2 ^ 31)
    {fs : Files} {S I : String} (wS : Word S) (wI : Word I) {specB : List Byte} (hs : fs S = some specB) (ht : textOf specB = spec)
    {rs : List (List Byte)} (hrs : ∀ r ∈ rs, r.length = recordBytes ap) (hi : fs I = some rs.flatten) :
    ∀ r, RunHomfa L [] fs ["run", "plain", "--ap", toString ap, "--spec", S, "--in", I] r ↔ r = .ok (fs, ['1']) := by
  obtain ⟨b, h1, h2⟩ := C67_plain fs0 stdin hw hap hap64 hm hM flag hflag hspec hsize fs wS wI hs ht hrs hi
  cases h1.2 (C114_eventually ψ hψ ap rs)
  exact h2

/-! ## The hypotheses are met -/

/-- G(p0 -> X p1) and F p0: more than G(p0 -> X p1), with the same beginnings -/
def exFormula2 : Formula := .and exFormula (.eventually (.prop 0))

theorem exFormula2_beginnings : SameBeginnings 2 exFormula exFormula2 := by
  intro letters _
  constructor
  · rintro ⟨σ, h1, h2⟩
    rw [exFormula_holds] at h2
    refine ⟨fun t i => if t < letters.length then σ t i else true, fun t a ha i b hb => ?_, (exFormula_holds _).2 fun t ht => ?_, ?_⟩
    · beta_reduce
      rw [if_pos (List.getElem?_eq_some_iff.1 ha).1]
      exact h1 t a ha i b hb
    · by_cases hk : t + 1 < letters.length
      · beta_reduce at ht ⊢
        rw [if_pos (by omega)] at ht
        rw [if_pos hk]
        exact h2 t ht
      · beta_reduce
        rw [if_neg hk]
    · exact ⟨letters.length, by omega, by simp [Formula.HoldsAt], fun _ _ _ => trivial⟩
  · rintro ⟨σ, h1, h2, _⟩
    exact ⟨σ, h1, h2⟩

/-- they are different formulas -/
theorem exFormula2_not_equivalent : ¬ Equivalent exFormula exFormula2 := by
  intro h
  obtain ⟨_, _, _, h2, _⟩ := (h fun _ _ => false).1 ((exFormula_holds _).2 (by simp))
  cases h2

/-- another monitor: the initial state of `exMonitor` has a copy, which is where it begins -/
def exMonitor3 : Monitor where
  out := [[(.node 4 .tt .ff, 0), (.node 4 .ff .tt, 1)],
          [(.node 4 (.node 7 .ff .tt) .ff, 0), (.node 4 .ff (.node 7 .ff .tt), 1)],
          [(.node 4 .tt .ff, 0), (.node 4 .ff .tt, 1)]]
  init := 2
  varOf := exMonitor.varOf

theorem exMonitor3_out {p : Nat} (hp : p < 2) : exMonitor3.out[p]? = exMonitor.out[p]? := by
  match p, hp with
  | 0, _ => rfl
  | 1, _ => rfl

theorem exMonitor3_mem {p : Nat} {es : List (Bdd × Nat)} (h : exMonitor3.out[p]? = some es) : es ∈ exMonitor.out := by
  match p, h with
  | 0, h => cases h; simp [exMonitor]
  | 1, h => cases h; simp [exMonitor]
  | 2, h => cases h; simp [exMonitor]
  | p + 3, h => cases h

theorem exMonitor3_run (letters : List (List Bool)) (q : Nat) : ∀ p < 2, MonitorRun exMonitor3 p letters q ↔ MonitorRun exMonitor p letters q := by
  induction letters with
  | nil => exact fun p _ => ⟨fun h => by cases h; exact .nil _, fun h => by cases h; exact .nil _⟩
  | cons a letters ih =>
    intro p hp
    constructor
    · intro h
      cases h with
      | cons h1 h2 h3 h4 =>
        rw [exMonitor3_out hp] at h1
        exact .cons h1 h2 h3 ((ih _ (exMonitor_ok.dst_lt _ (List.mem_of_getElem? h1) _ h2)).1 h4)
    · intro h
      cases h with
      | cons h1 h2 h3 h4 =>
        have h5 := exMonitor_ok.dst_lt _ (List.mem_of_getElem? h1) _ h2
        rw [← exMonitor3_out hp] at h1
        exact .cons h1 h2 h3 ((ih _ h5).2 h4)

theorem exMonitor3_for : MonitorFor exMonitor3 2 exFormula2 where
  init_lt := by decide
  dst_lt := by decide
  distinct := exMonitor_ok.distinct
  ordered := fun es hes => by
    obtain ⟨p, hp⟩ := List.getElem?_of_mem hes
    exact exMonitor_ok.ordered es (exMonitor3_mem hp)
  satisfiable := fun es hes => by
    obtain ⟨p, hp⟩ := List.getElem?_of_mem hes
    exact exMonitor_ok.satisfiable es (exMonitor3_mem hp)
  reads := fun letters hne hl => by
    rw [← exFormula2_beginnings letters hl, ← exMonitor_for.reads letters hne hl]
    obtain ⟨a, letters, rfl⟩ := List.exists_cons_of_ne_nil hne
    refine exists_congr fun q => ?_
    constructor
    · intro h
      cases h with
      | cons h1 h2 h3 h4 =>
        cases h1
        exact .cons (M := exMonitor) (p := 0) rfl h2 h3 ((exMonitor3_run _ _ _ (exMonitor_ok.dst_lt _ (by simp [exMonitor]) _ h2)).1 h4)
    · intro h
      cases h with
      | cons h1 h2 h3 h4 =>
        cases h1
        exact .cons (M := exMonitor3) (p := 2) rfl h2 h3 ((exMonitor3_run _ _ _ (exMonitor_ok.dst_lt _ (by simp [exMonitor]) _ h2)).2 h4)

/-- its specification is another one, with ten states -/
def exLtlSpec3 : List Char := ">0*\t1\t2\n1\t3\t3\n2\t4\t4\n3*\t5\t6\n4*\t7\t8\n5\t3\t3\n6\t4\t4\n7\t9\t3\n8\t9\t4\n9\t9\t9\n".toList

theorem exLtlSpec3_printed : doLtl2spec exMonitor3 2 false = .ok exLtlSpec3 := by decide +kernel

theorem exLtlSpec3_length : exLtlSpec3.length ≤ 2 ^ 31 := by decide +kernel

def exLtlBytes3 : List Byte := exLtlSpec3.map fun c => BitVec.ofNat 8 c.toNat

theorem exLtlBytes3_text : textOf exLtlBytes3 = exLtlSpec3 := by decide +kernel

/-- the two specifications, a bootstrapping key, two records and an input file with four ciphertexts -/
def exSafetyFiles (x y z : Byte) : Files := fun f =>
  if f = "a.spec" then some exLtlBytes
  else if f = "b.spec" then some exLtlBytes3
  else if f = "in" then some [x, y]
  else if f = "bk" then some []
  else if f = "ctxt" then some (List.replicate (4 * blockSize 1 16) z) else none

/-- the library with a Spot that knows two monitors -/
def Lib.withMonitors (L : Lib N n l) (fml : String) (M M' : Monitor) : Lib N n l := { L with monitor := fun f _ => .ok (if f = fml then M else M') }

/-- C114 on two different formulas with two different specifications -/
example : ∃ L : Lib 16 2 1, ∀ (x y z : Byte) (boot : Nat), 0 < boot → boot < 2 ^ 64 → ∀ r,
    (RunHomfa L [] (exSafetyFiles x y z) ["run", "plain", "--ap", toString 2, "--spec", "a.spec", "--in", "in"] r ↔
      RunHomfa L [] (exSafetyFiles x y z) ["run", "plain", "--ap", toString 2, "--spec", "b.spec", "--in", "in"] r) ∧
    (RunHomfa L [] (exSafetyFiles x y z) ["run", "offline", "--bkey", "bk", "--out", "res", "--spec", "a.spec", "--in", "ctxt", "--bootstrapping-freq", toString boot] r ↔
      RunHomfa L [] (exSafetyFiles x y z) ["run", "offline", "--bkey", "bk", "--out", "res", "--spec", "b.spec", "--in", "ctxt", "--bootstrapping-freq", toString boot] r) ∧
    (RunHomfa L [] (exSafetyFiles x y z) ["run", "reverse", "--bkey", "bk", "--out", "res", "--spec", "a.spec", "--in", "ctxt", "--out-freq", toString 1,
        "--bootstrapping-freq", toString boot] r ↔
      RunHomfa L [] (exSafetyFiles x y z) ["run", "reverse", "--bkey", "bk", "--out", "res", "--spec", "b.spec", "--in", "ctxt", "--out-freq", toString 1,
        "--bootstrapping-freq", toString boot] r) := by
  have w : ∀ f ∈ ["bk", "res", "a.spec", "b.spec", "in", "ctxt", "G(p0 -> X p1)", "G(p0 -> X p1) & F p0"], Word f := by unfold Word; decide
  obtain ⟨L, hm, hm'⟩ : ∃ L : Lib 16 2 1, L.monitor "G(p0 -> X p1)" 2 = .ok exMonitor ∧ L.monitor "G(p0 -> X p1) & F p0" 2 = .ok exMonitor3 := by
    obtain ⟨ψ, -⟩ := exists_numbering 16
    exact ⟨(toyLib 16 2 1 ψ).withMonitors "G(p0 -> X p1)" exMonitor exMonitor3, by simp [Lib.withMonitors], by simp [Lib.withMonitors]⟩
  have hspec : RunHomfa L [] (fun _ => none) (["ltl2spec"] ++ [] ++ ["G(p0 -> X p1)", toString 2]) (.ok (fun _ => none, exLtlSpec)) := by
    refine (run_ltl2spec (w _ (by simp)) (by omega) hm [] (.inl rfl)).2 ?_
    rw [show decide (([] : List String) ≠ []) = false from rfl, exLtlSpec_printed]
    rfl
  have hspec' : RunHomfa L [] (fun _ => none) (["ltl2spec"] ++ [] ++ ["G(p0 -> X p1) & F p0", toString 2]) (.ok (fun _ => none, exLtlSpec3)) := by
    refine (run_ltl2spec (w _ (by simp)) (by omega) hm' [] (.inl rfl)).2 ?_
    rw [show decide (([] : List String) ≠ []) = false from rfl, exLtlSpec3_printed]
    rfl
  refine ⟨L, fun x y z boot h0 h64 r => ⟨?_, ?_, ?_⟩⟩
  · exact C114_plain (by omega) (by omega) exMonitor_for exMonitor3_for (w _ (by simp)) (w _ (by simp)) hm hm' exFormula2_beginnings [] [] (.inl rfl) (.inl rfl)
      hspec exLtlSpec_length hspec' exLtlSpec3_length (w _ (by simp)) (w _ (by simp)) (w _ (by simp)) rfl exLtlBytes_text rfl exLtlBytes3_text
      (rs := [[x], [y]]) (by simp [recordBytes]) rfl r
  · exact C114_offline (by decide) (by decide) (by decide) (by omega) exMonitor_for exMonitor3_for (w _ (by simp)) (w _ (by simp)) hm hm' exFormula2_beginnings [] (.inl rfl)
      hspec exLtlSpec_length hspec' exLtlSpec3_length (w _ (by simp)) (w _ (by simp)) (w _ (by simp)) (w _ (by simp)) (w _ (by simp)) rfl rfl exLtlBytes_text rfl
      exLtlBytes3_text rfl (by rw [List.length_replicate]; decide) h0 h64 r
  · exact C114_reverse (by decide) (by decide) (by decide) (by omega) exMonitor_for exMonitor3_for (w _ (by simp)) (w _ (by simp)) hm hm' exFormula2_beginnings [] (.inl rfl)
      hspec exLtlSpec_length hspec' exLtlSpec3_length (w _ (by simp)) (w _ (by simp)) (w _ (by simp)) (w _ (by simp)) (w _ (by simp)) rfl rfl exLtlBytes_text rfl
      exLtlBytes3_text rfl (by rw [List.length_replicate]; decide) (by omega) (by omega) h0 h64 r

/-- the monitor of F p0 over one proposition: one state that reads everything -/
def exMonitorAll : Monitor where
  out := [[(.tt, 0)]]
  init := 0
  varOf := fun i => if i = 0 then some 4 else none

theorem exMonitorAll_for : MonitorFor exMonitorAll 1 (.eventually (.prop 0)) where
  init_lt := by decide
  dst_lt := by decide
  distinct := fun i j _ hi hj _ _ => by omega
  ordered := fun es hes e he => by
    cases (List.mem_singleton.1 hes)
    cases (List.mem_singleton.1 he)
    trivial
  satisfiable := fun es hes e he => by
    cases (List.mem_singleton.1 hes)
    cases (List.mem_singleton.1 he)
    exact ⟨fun _ => true, rfl⟩
  reads := fun letters _ hl => by
    constructor
    · intro _
      refine ⟨fun t i => match letters[t]? with
        | some a => a.getD i false
        | none => true, fun t a ha i b hb => by simp [ha, hb], letters.length, by omega, by simp [Formula.HoldsAt], fun _ _ _ => trivial⟩
    · intro _
      have : ∀ letters : List (List Bool), (∀ a ∈ letters, a.length = 1) → MonitorRun exMonitorAll 0 letters 0 := by
        intro letters
        induction letters with
        | nil => exact fun _ => .nil _
        | cons a letters ih =>
          intro hl
          refine .cons (es := [(.tt, 0)]) (c := .tt) (q := 0) rfl (by simp) ⟨fun _ => a.getD 0 false, fun i v hv hi => ?_, rfl⟩ (ih fun a ha => hl a (by simp [ha]))
          have h1 := hl a (by simp)
          have h0 : i = 0 := by omega
          subst h0
          rw [List.getD_eq_getElem?_getD, List.getElem?_eq_getElem hi]
          rfl
      exact ⟨0, this letters hl⟩

/-- `homfa ltl2spec "F p0" 1`, and a run on two records -/
example : ∃ L : Lib 16 2 1, ∃ spec specB, RunHomfa L [] (fun _ => none) ["ltl2spec", "F p0", toString 1] (.ok (fun _ => none, spec)) ∧ textOf specB = spec ∧
    ∀ (x y : Byte) (fs : Files), fs "f.spec" = some specB → fs "in" = some [x, y] →
      ∀ r, RunHomfa L [] fs ["run", "plain", "--ap", toString 1, "--spec", "f.spec", "--in", "in"] r ↔ r = .ok (fs, ['1']) := by
  have w : ∀ f ∈ ["f.spec", "in", "F p0"], Word f := by unfold Word; decide
  obtain ⟨L, hm⟩ : ∃ L : Lib 16 2 1, L.monitor "F p0" 1 = .ok exMonitorAll := by
    obtain ⟨ψ, -⟩ := exists_numbering 16
    exact ⟨(toyLib 16 2 1 ψ).withMonitor exMonitorAll, rfl⟩
  have hp : doLtl2spec exMonitorAll 1 false = .ok ">0*\t0\t0\n".toList := by decide +kernel
  have ht : textOf (">0*\t0\t0\n".toList.map fun c => BitVec.ofNat 8 c.toNat) = ">0*\t0\t0\n".toList := by decide +kernel
  have hspec : RunHomfa L [] (fun _ => none) (["ltl2spec"] ++ [] ++ ["F p0", toString 1]) (.ok (fun _ => none, ">0*\t0\t0\n".toList)) := by
    refine (run_ltl2spec (w _ (by simp)) (by omega) hm [] (.inl rfl)).2 ?_
    rw [show decide (([] : List String) ≠ []) = false from rfl, hp]
    rfl
  refine ⟨L, _, _, hspec, ht, fun x y fs h1 h2 => ?_⟩
  exact C114_no_alarm (by omega) (by omega) exMonitorAll_for ⟨fun _ _ => true, rfl⟩ (w _ (by simp)) hm [] (.inl rfl) hspec (by decide +kernel)
    (w _ (by simp)) (w _ (by simp)) h1 ht (rs := [[x], [y]]) (by simp [recordBytes]) h2

end Cli
end Homfa
