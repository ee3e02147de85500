import Verif.Proof.Prepared
import Verif.Proof.BenchLog
import Verif.Props.Cli

/-! # Reversing a spec in advance, for the benchmark program -/

namespace Homfa.Cli

variable {N n l : Nat} {L : Lib N n l}

theorem skips_none : ∀ {lines : List (List Char)}, (∀ l ∈ lines, ¬ Spec.NotSpecLine l) → Skips lines []
  | [], _ => .nil
  | l :: _, h => .state (h l (by simp)) (skips_none fun m hm => h m (by simp [hm]))

/-- no line of a printed automaton is skipped -/
theorem lines_dump {g : Graph} (hg : g.WF) {text : List Char} (h : g.dump = .ok text) {lines : List (List Char)}
    (hl : Spec.TextLines text lines) : ∀ l ∈ lines, ¬ Spec.NotSpecLine l := by
  rw [Graph.dump_ok hg] at h
  cases h
  rw [textLines_iff, getlines_unlines (by
    intro l hl
    obtain ⟨q, _, rfl⟩ := List.mem_map.1 hl
    exact Graph.not_newline_dumpLine q)] at hl
  subst hl
  intro l hl
  obtain ⟨q, _, rfl⟩ := List.mem_map.1 hl
  exact fun hn => hn ⟨_, _, _, _, _, Graph.specLine_dumpLine q⟩

/-- `do_reversed` with the prepared automaton and with the spec itself -/
theorem logReversed_prepared (S : Scheme N n l) {fs : Files} {F G : String} {specB gB : List Byte} {m : Bool} (hs : fs F = some specB)
    (hg : fs G = some gB) (h : doSpec2spec (textOf specB) m true false = .ok (textOf gB)) (hlen : (textOf gB).length ≤ 2 ^ 31)
    (hm : m = true ∨ ∀ g, Graph.fromIstream (textOf specB) = .ok g → ∀ q < g.size, ∃ w, g.runWord g.initialState w = .ok q)
    (hno : ∀ lines, Spec.TextLines (textOf specB) lines → ∀ l ∈ lines, ¬ Spec.NotSpecLine l)
    (v : Bool) (rand : Nat → Nat) (I : String) (freq boot ap : Nat) (san : Bool) : ∃ rows res,
      logReversed v S rand fs F I freq boot ap false san = ⟨⟨"config-method", .str "reversed"⟩ :: ⟨"config-spec", .str F⟩ :: rows, res⟩ ∧
      logReversed v S rand fs G I freq boot ap true san = ⟨⟨"config-method", .str "reversed"⟩ :: ⟨"config-spec", .str G⟩ :: rows, res⟩ := by
  obtain ⟨g, r, k, h1, h2, h3, h4, h5, h6⟩ := prepared_graph h hlen hm
  have e1 := readSpecOut_ok hs h1 (textLines_iff.2 rfl) (skips_none (hno _ (textLines_iff.2 rfl)))
  have e2 := readSpecOut_ok hg h4 (textLines_iff.2 rfl) (skips_none (lines_dump h5 h6 (textLines_iff.2 rfl)))
  have e : (reverseMake g boot false true san : Res (Backstream N)) = reverseMake k boot true true san := by
    unfold reverseMake
    simp only [Bool.false_eq_true, if_false, if_true]
    rw [h2, Res.bind_ok, h3]
    rfl
  unfold logReversed logOnline
  rw [e1, e2]
  simp only [skipNotes, List.map_nil, out_ok, e, print_bind]
  exact ⟨_, _, rfl, rfl⟩

/-- the lines of `config-method` and `config-spec` in a text -/
theorem shows_head {F : String} {rows : List Row} {text : List Char}
    (h : Shows (⟨"time", .date⟩ :: ⟨"config-method", .str "reversed"⟩ :: ⟨"config-spec", .str F⟩ :: rows) text) :
    ∃ d C, text = "time,".toList ++ d ++ "\nconfig-method,reversed\nconfig-spec,".toList ++ F.toList ++ "\n".toList ++ C ∧
      ∀ F' : String, Shows (⟨"time", .date⟩ :: ⟨"config-method", .str "reversed"⟩ :: ⟨"config-spec", .str F'⟩ :: rows)
        ("time,".toList ++ d ++ "\nconfig-method,reversed\nconfig-spec,".toList ++ F'.toList ++ "\n".toList ++ C) := by
  cases h with
  | @cons _ _ d t1 hd h =>
  cases h with
  | cons hv h =>
  cases hv
  cases h with
  | @cons _ _ _ C hv h =>
  cases hv
  refine ⟨d, C, by simp, fun F' => ?_⟩
  have := Shows.cons (row := ⟨"time", .date⟩) hd (Shows.cons (row := ⟨"config-method", .str "reversed"⟩) (.str "reversed")
    (Shows.cons (row := ⟨"config-spec", .str F'⟩) (.str F') h))
  simpa using this

/-- what `spec2spec --reversed` printed -/
theorem spec2spec_prepared {stdin : List Char} {fs0 fs1 : Files} {flags : List String} {S : String} {text : List Char} {specB : List Byte} (hS : Word S)
    (hfl : ∀ f ∈ flags, f = "--reversed" ∨ f = "--minimized") (hrev : "--reversed" ∈ flags)
    (hspec : fs0 S = some specB) (hrun : RunHomfa L stdin fs0 ("spec2spec" :: flags ++ [S]) (.ok (fs1, text))) :
    doSpec2spec (textOf specB) (decide ("--minimized" ∈ flags)) true false = .ok text := by
  have h := (run_spec2spec (L := L) (F := some S) (fun f hf => by rcases hfl f hf with rfl | rfl <;> simp) (fun f hf => by cases hf; exact .inr hS)).1 hrun
  have hn : "--negated" ∉ flags := fun hf => by rcases hfl _ hf with h | h <;> revert h <;> decide
  rw [show fileOrStdin readSpec fs0 stdin (some S) = .ok (textOf specB) from by
    have : S ≠ "-" := by rintro rfl; exact absurd hS (by unfold Word; decide)
    simp [fileOrStdin, this, readSpec, hspec], Res.bind_ok] at h
  obtain ⟨o, h1, h2⟩ := Res.bind_eq_ok.1 h.symm
  cases h2
  simpa [hrev, hn] using h1

/-- the command line of `benchmark reversed` -/
theorem bench_reversed_line {fs : Files} {F I : String} {verbose ap freq boot : Nat} (hF : Word F) (hI : Word I)
    (hs : (fs F).isSome) (hi : (fs I).isSome) (ha0 : 0 < ap) (ha64 : ap < 2 ^ 64) (hf0 : 0 < freq) (hf64 : freq < 2 ^ 64) (h0 : 0 < boot)
    (h64 : boot < 2 ^ 64) {fl : List String} (hfl : ∀ f ∈ fl, f = "--spec-reversed" ∨ f = "--sanitize-result") :
    benchMain (fun f => (fs f).isSome) (List.replicate verbose "--verbose" ++ ["reversed", "--ap", toString ap, "--out-freq", toString freq,
        "--bootstrapping-freq", toString boot, "--spec", F, "--in", I] ++ fl) =
      .ok (some (.benchReversed F I freq boot ap (decide ("--spec-reversed" ∈ fl)) (decide ("--sanitize-result" ∈ fl)))) ∧
    benchVerbose (List.replicate verbose "--verbose" ++ ["reversed", "--ap", toString ap, "--out-freq", toString freq,
        "--bootstrapping-freq", toString boot, "--spec", F, "--in", I] ++ fl) = decide (0 < verbose) := by
  obtain ⟨s, hs⟩ := Option.isSome_iff_exists.1 hs
  obtain ⟨c, hi⟩ := Option.isSome_iff_exists.1 hi
  have hf : BenchCmd.reversed.usage.Follows (fun f => (fs f).isSome) (itemsOf [("--ap", toString ap), ("--out-freq", toString freq),
      ("--bootstrapping-freq", toString boot), ("--spec", F), ("--in", I)] fl) := by
    refine follows_pairs ?_ (by simp) (by simp [BenchCmd.usage]) (fun f hf => by rcases hfl f hf with rfl | rfl <;> simp [BenchCmd.usage]) rfl
    intro p hp
    simp only [List.mem_cons, List.not_mem_nil, or_false] at hp
    rcases hp with rfl | rfl | rfl | rfl | rfl
    · exact ⟨.positive, by simp [BenchCmd.usage], positive_ok ha0 ha64 _⟩
    · exact ⟨.positive, by simp [BenchCmd.usage], positive_ok hf0 hf64 _⟩
    · exact ⟨.positive, by simp [BenchCmd.usage], positive_ok h0 h64 _⟩
    · exact ⟨.file, by simp [BenchCmd.usage], hF.file hs⟩
    · exact ⟨.file, by simp [BenchCmd.usage], hI.file hi⟩
  have hline : line (itemsOf [("--ap", toString ap), ("--out-freq", toString freq), ("--bootstrapping-freq", toString boot), ("--spec", F),
      ("--in", I)] fl) = ["--ap", toString ap, "--out-freq", toString freq, "--bootstrapping-freq", toString boot, "--spec", F, "--in", I] ++ fl := by
    have : ∀ fl : List String, line (fl.map Item.flag) = fl := by
      intro fl
      induction fl with
      | nil => rfl
      | cons f fl ih => exact congrArg (f :: ·) ih
    conv => rhs; rw [← this fl]
    rfl
  have hcall : BenchCmd.reversed.call (itemsOf [("--ap", toString ap), ("--out-freq", toString freq), ("--bootstrapping-freq", toString boot),
      ("--spec", F), ("--in", I)] fl) = .benchReversed F I (Nat.ofDigitChars 10 (toString freq).toList 0)
        (Nat.ofDigitChars 10 (toString boot).toList 0) (Nat.ofDigitChars 10 (toString ap).toList 0) (decide ("--spec-reversed" ∈ fl))
        (decide ("--sanitize-result" ∈ fl)) := by
    unfold BenchCmd.call
    have e : ∀ f, has (itemsOf [("--ap", toString ap), ("--out-freq", toString freq), ("--bootstrapping-freq", toString boot),
      ("--spec", F), ("--in", I)] fl) f = decide (f ∈ fl) := by intro f; simp [has, itemsOf]
    rw [e, e]
    rfl
  rw [ofDigits_toString, ofDigits_toString, ofDigits_toString] at hcall
  have h1 := (C58_bench (fun f => (fs f).isSome) _).1 .reversed verbose _ rfl hf
  rw [hline, hcall] at h1
  have h2 := benchVerbose_replicate verbose .reversed (["--ap", toString ap, "--out-freq", toString freq,
        "--bootstrapping-freq", toString boot, "--spec", F, "--in", I] ++ fl)
  rw [List.append_assoc]
  exact ⟨h1, h2⟩

/-- two command lines whose methods print the same but for the name of the spec -/
theorem runBench_swap {fs : Files} {t t' : List String} {c c' : Call} {F F' : String}
    (h : benchMain (fun f => (fs f).isSome) t = .ok (some c)) (h' : benchMain (fun f => (fs f).isSome) t' = .ok (some c'))
    (hv : benchVerbose t = benchVerbose t')
    (hx : ∀ x, BenchExec L fs (benchVerbose t) c x → ∃ rows res, x = ⟨⟨"config-method", .str "reversed"⟩ :: ⟨"config-spec", .str F⟩ :: rows, res⟩ ∧
      BenchExec L fs (benchVerbose t) c' ⟨⟨"config-method", .str "reversed"⟩ :: ⟨"config-spec", .str F'⟩ :: rows, res⟩)
    {out : List Char} {r : Res Unit} (hr : RunBench L fs t out r) :
    ∃ d C, out = "time,".toList ++ d ++ "\nconfig-method,reversed\nconfig-spec,".toList ++ F.toList ++ "\n".toList ++ C ∧
      RunBench L fs t' ("time,".toList ++ d ++ "\nconfig-method,reversed\nconfig-spec,".toList ++ F'.toList ++ "\n".toList ++ C) r := by
  cases hr with
  | @done c0 rows timer text samples dump a1 a2 a3 a4 a5 a6 =>
    rw [h] at a1; cases a1
    obtain ⟨rows', res, e, b⟩ := hx _ a2
    cases e
    obtain ⟨d, C, rfl, k⟩ := shows_head a3
    refine ⟨d, C ++ dump, by simp, ?_⟩
    have := RunBench.done h' (hv ▸ b) (k F') a4 a5 a6
    simpa using this
  | @fails c0 rows e errs text a1 a2 a3 a4 =>
    rw [h] at a1; cases a1
    obtain ⟨rows', res, e, b⟩ := hx _ a2
    cases e
    obtain ⟨d, C, rfl, k⟩ := shows_head a4
    exact ⟨d, C, rfl, RunBench.fails (rows := _ :: _ :: rows') h' (hv ▸ b) a3 (k F')⟩
  | usage a1 => rw [h] at a1; cases a1
  | bad a1 => rw [h] at a1; cases a1

end Homfa.Cli
