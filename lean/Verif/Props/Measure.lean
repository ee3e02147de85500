import Verif.Proof.Measure
import Verif.Props.Temporal

/-!
# C104: the measuring scripts measure nothing

bench.sh and bench_ltl.sh time the commands `run-offline-dfa` and `run-online-dfa`, which this version of `homfa` does not have.  The failure is
lost in the pipe to `tee`.
-/

namespace Homfa.Cli

variable {N n l : Nat} {L : Lib N n l} {δ : Noise} {Enc : L.Key → Gsw l N → Bool → Prop}

/-- **C104.** The commands that the scripts time are refused, whatever words follow and whatever files there are. -/
theorem C104_refused (stdin : List Char) (fs : Files) {t : String} (ht : t = "run-offline-dfa" ∨ t = "run-online-dfa") (rest : List String)
    (r : Res (Files × List Char)) : RunHomfa L stdin fs (t :: rest) r ↔ r = .error .die := by
  have h := refused (ex := fun f => (fs f).isSome) ht rest
  constructor
  · intro hr
    cases hr with
    | call h1 _ => rw [h] at h1; cases h1
    | usage => rfl
    | fails h1 => rw [h] at h1; cases h1
  · rintro rfl
    exact .usage h

/-- **C104.** However often they are repeated, the timed commands leave every file as it was: no result is computed. -/
theorem C104_nothing_computed (k : Nat) (fs fs' : Files) :
    (∀ spec, Timed L (benchTimed spec) k fs fs' → fs' = fs) ∧ (Timed L ltlTimed k fs fs' → fs' = fs) :=
  ⟨fun _ => timed_refused (t := "run-offline-dfa") (.inl rfl), timed_refused (t := "run-online-dfa") (.inr rfl)⟩

/-- **C104.** bench.sh fails in its first round, whatever the specs, the inputs, the keys, the random numbers and the files left by earlier runs. -/
theorem C104_bench (log : String) {specs inputs : List String} (hs : specs ≠ []) (hi : inputs ≠ []) (fs : Files) :
    ¬BenchScript L log specs inputs fs true := by
  intro h
  cases h with
  | rounds _ _ h =>
    obtain ⟨s, specs, rfl⟩ := List.exists_cons_of_ne_nil hs
    obtain ⟨i, inputs, rfl⟩ := List.exists_cons_of_ne_nil hi
    rw [List.flatMap_cons, List.map_cons, List.cons_append] at h
    cases h with
    | next h _ =>
      cases h with
      | found _ _ h1 h2 => exact not_grep h1 h2

/-- **C104.** When bench_ltl.sh ends with status 0, it has not touched the result file, which was there before it started, and every answer it
has printed is the decryption of that old file. -/
theorem C104_ltl {log : String} (hlog : log ≠ "_test_sk" ∧ log ≠ "_test_out") {fmls inputs : List String} (hf : fmls ≠ []) (hi : inputs ≠ [])
    {fs fs' : Files} {outs : List (List Char)} (h : LtlScript L log fmls inputs fs (some (fs', outs))) :
    fs' "_test_out" = fs "_test_out" ∧ outs.length = fmls.length * inputs.length ∧
    ∃ kb rb k c, fs' "_test_sk" = some kb ∧ L.loadKey kb = some k ∧ fs "_test_out" = some rb ∧ L.loadRes rb = some c ∧
      ∀ out ∈ outs, out = doDec (L.client k) c := by
  cases h with
  | rounds h1 h2 h3 =>
    have e1 := genkey_made h1
    have e2 := genbkey_made h2
    obtain ⟨e3, e4, e5⟩ := ltl_rounds hlog h3
    have ho : ∀ g : Files, (∀ f, f ∉ ["_test_spec", "_test_in", log] → fs' f = g f) → fs' "_test_out" = g "_test_out" ∧ fs' "_test_sk" = g "_test_sk" :=
      fun g hg => ⟨hg _ (by simp [hlog.2.symm]), hg _ (by simp [hlog.1.symm])⟩
    have hout := (ho _ e3).1.trans ((e2 _ (by decide)).trans (e1 _ (by decide)))
    have hlen : outs.length = fmls.length * inputs.length := by
      rw [e4, List.length_flatMap]
      simp
    refine ⟨hout, hlen, ?_⟩
    have hpos : 0 < outs.length := by
      rw [hlen]
      exact Nat.mul_pos (List.length_pos_iff.2 hf) (List.length_pos_iff.2 hi)
    obtain ⟨kb, rb, k, c, g1, g2, g3, g4, g5⟩ := e5 outs[0] (List.getElem_mem hpos)
    refine ⟨kb, rb, k, c, (ho _ e3).2.trans g1, g2, ?_, g4, fun out hout' => ?_⟩
    · rw [← hout, (ho _ e3).1]; exact g3
    · obtain ⟨kb', rb', k', c', g1', g2', g3', g4', g5'⟩ := e5 out hout'
      rw [g1] at g1'; cases g1'
      rw [g2] at g2'; cases g2'
      rw [g3] at g3'; cases g3'
      rw [g4] at g4'; cases g4'
      exact g5'

/-- **C104.** With keys of the program (or none), formulas that have a monitor and inputs that exist, bench_ltl.sh ends with status 0 if and only if there
was a readable result file before it started. -/
theorem C104_ltl_iff (hL : L.Sound δ Enc) {log : String} {fmls inputs : List String} (hf : fmls ≠ []) (hi : inputs ≠ [])
    (hlog : log ∉ ["_test_sk", "_test_bk", "_test_in", "_test_out", "_test_spec"] ++ inputs)
    (hfml : ∀ f ∈ fmls, Word f ∧ ∃ M, L.monitor f 3 = .ok M ∧ Spec.MonitorOk M 3) (fs : Files) (hk : KeysReady L fs)
    (hin : ∀ i ∈ inputs, Word i ∧ (fs i).isSome ∧ i ∉ ["_test_sk", "_test_bk", "_test_in", "_test_out", "_test_spec"]) :
    (∃ r, LtlScript L log fmls inputs fs r) ∧ ∀ r, LtlScript L log fmls inputs fs r →
      (r.isSome ↔ ∃ rb c, fs "_test_out" = some rb ∧ L.loadRes rb = some c) := by
  have hl : log ≠ "_test_sk" ∧ log ≠ "_test_out" := by simp at hlog; exact ⟨hlog.1, hlog.2.2.2.1⟩
  obtain ⟨⟨fs1, fs2, p1, p2⟩, p3, p4⟩ := prepared hL hk
  have hps : ∀ p ∈ fmls.flatMap fun s => inputs.map fun i => (s, i), log ∉ ["_test_sk", "_test_in", "_test_out", "_test_spec", p.2] ∧ Word p.1 ∧
      Word p.2 ∧ p.2 ∉ ["_test_in", "_test_spec"] ∧ (∃ M, L.monitor p.1 3 = .ok M ∧ Spec.MonitorOk M 3) ∧ ∃ b, fs p.2 = some b := by
    intro p hp
    obtain ⟨s, hs, i, hi', rfl⟩ : ∃ s ∈ fmls, ∃ i ∈ inputs, (s, i) = p := by simpa using hp
    obtain ⟨a1, a2⟩ := hfml s hs
    obtain ⟨b1, b2, b3⟩ := hin i hi'
    refine ⟨?_, a1, b1, ?_, a2, Option.isSome_iff_exists.1 b2⟩
    · simp only [List.cons_append, List.nil_append, List.mem_cons, not_or] at hlog
      simp only [List.mem_cons, List.not_mem_nil, or_false, not_or]
      exact ⟨hlog.1, hlog.2.2.1, hlog.2.2.2.1, hlog.2.2.2.2.1, fun e => hlog.2.2.2.2.2 (e ▸ hi')⟩
    · simp only [List.mem_cons, List.not_mem_nil, or_false, not_or] at b3 ⊢
      exact ⟨b3.2.2.1, b3.2.2.2.2⟩
  have key : ∀ fs1, MakeIfMissing L fs "_test_sk" ["genkey", "--out", "_test_sk"] (some fs1) → ∀ fs2,
      MakeIfMissing L fs1 "_test_bk" ["genbkey", "--key", "_test_sk", "--out", "_test_bk"] (some fs2) →
      (∃ r, LtlRounds L log fs2 (fmls.flatMap fun s => inputs.map fun i => (s, i)) r) ∧
        ((∃ rb c, fs "_test_out" = some rb ∧ L.loadRes rb = some c) → ¬LtlRounds L log fs2 (fmls.flatMap fun s => inputs.map fun i => (s, i)) none) := by
    intro fs1 h1 fs2 h2
    obtain ⟨⟨q, q', k1, -⟩, k3⟩ := (p4 fs1 h1).2 fs2 h2
    have hout : fs2 "_test_out" = fs "_test_out" := (genbkey_made h2 _ (by decide)).trans (genkey_made h1 _ (by decide))
    refine ltl_rounds_total hL hps fs2 k1 (fun p hp => ?_) hout hl
    obtain ⟨s, hs, i, hi', rfl⟩ : ∃ s ∈ fmls, ∃ i ∈ inputs, (s, i) = p := by simpa using hp
    obtain ⟨-, -, b3⟩ := hin i hi'
    refine k3 i ?_
    simp only [scratchNames, List.mem_cons, List.not_mem_nil, or_false, not_or] at b3 ⊢
    exact ⟨b3.1, b3.2.1, b3.2.2.1, b3.2.2.2.1⟩
  constructor
  · obtain ⟨r, hr⟩ := (key fs1 p1 fs2 p2).1
    exact ⟨r, .rounds p1 p2 hr⟩
  · intro r hr
    cases r with
    | some q =>
      obtain ⟨-, -, -, rb, -, c, -, -, h1, h2, -⟩ := C104_ltl hl hf hi hr
      exact ⟨fun _ => ⟨rb, c, h1, h2⟩, fun _ => rfl⟩
    | none =>
      refine ⟨fun h => (by cases h), fun h => ?_⟩
      cases hr with
      | noKey h1 => exact absurd h1 p3
      | noBKey h1 h2 => exact absurd h2 (p4 _ h1).1
      | rounds h1 h2 h3 => exact absurd h3 ((key _ h1 _ h2).2 h)

/-- the lists of the scripts themselves: bench.sh never succeeds, and what bench_ltl.sh prints does not come from its inputs -/
example (L : Lib N n l) (log : String) (fs : Files) : ¬BenchScript L log benchSpecs benchInputs fs true :=
  C104_bench log (by simp [benchSpecs]) (by simp [benchInputs]) fs

/-- a directory with the inputs of bench_ltl.sh -/
def exMeasure (old : Option (List Byte)) : Files := fun f =>
  if f ∈ ltlInputs then some [0#8, 5#8] else if f = "_test_out" then old else none

/-- a monitor with one state and no transition -/
def exEmptyMonitor : Monitor := ⟨[[]], 0, fun _ => none⟩

/-- bench_ltl.sh in a fresh directory fails; with any result left by anybody it succeeds. -/
example : ∃ L : Lib 16 2 1, ∀ (fs : Files) (c : TLWE 16), fs = exMeasure none ∨ fs = exMeasure (some (L.saveRes c)) →
    (∃ r, LtlScript L "homfa-bench-ltl-20261117000000.log" ltlFormulas ltlInputs fs r) ∧
    ∀ r, LtlScript L "homfa-bench-ltl-20261117000000.log" ltlFormulas ltlInputs fs r → (r.isSome ↔ (fs "_test_out").isSome) := by
  obtain ⟨ψ, hψ⟩ := exists_numbering 16
  have hL := (toyLib_sound (n := 2) (l := 1) (by omega) (by omega) hψ).withMonitor exEmptyMonitor
  refine ⟨(toyLib 16 2 1 ψ).withMonitor exEmptyMonitor, fun fs c hfs => ?_⟩
  have hM : Spec.MonitorOk exEmptyMonitor 3 := by
    refine ⟨by decide, ?_, ?_, ?_, ?_⟩ <;> simp [exEmptyMonitor]
  obtain ⟨h1, h2⟩ := C104_ltl_iff hL (log := "homfa-bench-ltl-20261117000000.log") (fmls := ltlFormulas) (inputs := ltlInputs)
    (by simp [ltlFormulas]) (by simp [ltlInputs]) (by decide) (by
      intro f hf
      simp only [ltlFormulas, List.mem_singleton] at hf
      subst hf
      exact ⟨by unfold Word; decide, _, rfl, hM⟩) fs (by
      rcases hfs with rfl | rfl <;> exact .inl ⟨by simp [exMeasure, ltlInputs], by simp [exMeasure, ltlInputs]⟩) (by
      intro i hi
      refine ⟨?_, ?_, ?_⟩
      · revert i; unfold Word; decide
      · rcases hfs with rfl | rfl <;> simp [exMeasure, hi]
      · revert i; decide)
  refine ⟨h1, fun r hr => ?_⟩
  rw [h2 r hr]
  rcases hfs with rfl | rfl
  · simp [exMeasure, ltlInputs]
  · have e : exMeasure (some (((toyLib 16 2 1 ψ).withMonitor exEmptyMonitor).saveRes c)) "_test_out" =
        some (((toyLib 16 2 1 ψ).withMonitor exEmptyMonitor).saveRes c) := by simp [exMeasure, ltlInputs]
    rw [e]
    exact ⟨fun _ => rfl, fun _ => ⟨_, c, rfl, hL.res c⟩⟩

end Homfa.Cli
