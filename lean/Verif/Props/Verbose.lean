import Verif.Proof.Verbose
import Verif.Props.BenchEnd
/-!
# C103: `--verbose` only adds log messages to what the benchmark program prints, and these can be told from the measurements
-/

namespace Homfa.Cli

variable {N n l : Nat}

/-- **C103.** Any library, words and files: a run of the benchmark program with one more `--verbose` prints what some run without it prints and,
between these lines, log messages of level debug; and it ends in the same way. -/
theorem C103_verbose (L : Lib N n l) (fs : Files) (toks : List String) (text : List Char) (r : Res Unit)
    (h : RunBench L fs ("--verbose" :: toks) text r) : ∃ text', RunBench L fs toks text' r ∧ WithoutDebug text text' := by
  have hm : benchMain (fun f => (fs f).isSome) ("--verbose" :: toks) = benchMain (fun f => (fs f).isSome) toks := by
    rw [benchMain]; exact if_pos rfl
  have hv : benchVerbose ("--verbose" :: toks) = true := by simp [benchVerbose]
  cases h with
  | usage h1 => exact ⟨_, .usage (hm ▸ h1), .nil⟩
  | bad h1 => exact ⟨_, .bad (hm ▸ h1), .nil⟩
  | done h1 h2 h3 h4 h5 h6 =>
    rw [hv] at h2
    obtain ⟨⟨rows', res'⟩, k1, k2, k3⟩ := exec_down (benchVerbose toks) h2
    dsimp only at k2
    subst k2
    obtain ⟨text', k4, k5⟩ := k3 [] (by simp) _ (by simpa using h3)
    exact ⟨_, .done (hm ▸ h1) k1 (by simpa using k4) h4 h5 h6, k5.append (dump_same h6)⟩
  | fails h1 h2 h3 h4 =>
    rw [hv] at h2
    obtain ⟨⟨rows', res'⟩, k1, k2, k3⟩ := exec_down (benchVerbose toks) h2
    dsimp only at k2
    subst k2
    obtain ⟨text', k4, k5⟩ := k3 _ (dieRows_keep h3) _ h4
    exact ⟨_, .fails (hm ▸ h1) k1 h3 k4, k5⟩

/-- **C103.** And every run without it is such a run of the program with it: `--verbose` rules nothing out. -/
theorem C103_quiet (L : Lib N n l) (fs : Files) (toks : List String) (text' : List Char) (r : Res Unit) (h : RunBench L fs toks text' r) :
    ∃ text, RunBench L fs ("--verbose" :: toks) text r ∧ WithoutDebug text text' := by
  have hm : benchMain (fun f => (fs f).isSome) ("--verbose" :: toks) = benchMain (fun f => (fs f).isSome) toks := by
    rw [benchMain]; exact if_pos rfl
  have hv : benchVerbose ("--verbose" :: toks) = true := by simp [benchVerbose]
  cases h with
  | usage h1 => exact ⟨_, .usage (hm.trans h1), .nil⟩
  | bad h1 => exact ⟨_, .bad (hm.trans h1), .nil⟩
  | done h1 h2 h3 h4 h5 h6 =>
    obtain ⟨⟨rows', res'⟩, k1, k2, k3⟩ := exec_up h2
    dsimp only at k2
    subst k2
    rw [← hv] at k1
    obtain ⟨text', k4, k5⟩ := k3 [] (by simp) _ (by simpa using h3)
    exact ⟨_, .done (hm.trans h1) k1 (by simpa using k4) h4 h5 h6, k5.append (dump_same h6)⟩
  | fails h1 h2 h3 h4 =>
    obtain ⟨⟨rows', res'⟩, k1, k2, k3⟩ := exec_up h2
    dsimp only at k2
    subst k2
    rw [← hv] at k1
    obtain ⟨text', k4, k5⟩ := k3 _ (dieRows_keep h3) _ h4
    exact ⟨_, .fails (hm.trans h1) k1 h3 k4, k5⟩

/-- **C103.** If no word on the command line has a line break, then each line that a run that ends normally prints is a log message, which begins
with `[`, or has one of the fixed keys, none of which does, before a comma. -/
theorem C103_lines (L : Lib N n l) (fs : Files) (toks : List String) (hnl : ∀ t ∈ toks, '\n' ∉ t.toList) (text : List Char)
    (h : RunBench L fs toks text (.ok ())) (lines : List (List Char)) (hl : Spec.TextLines text lines) :
    (∀ line ∈ lines, LogLine line ∨ KeyLine line) ∧ ∀ key ∈ benchKeys, key.toList.head? ≠ some '[' := by
  refine ⟨?_, by decide⟩
  obtain rfl := textLines_iff.1 hl
  generalize hr : (.ok () : Res Unit) = r at h
  cases h with
  | usage => cases hr
  | bad => cases hr
  | fails => cases hr
  | @done c rows timer text samples dump h1 h2 h3 h4 h5 h6 =>
    have hc : ∀ s ∈ callNames c, '\n' ∉ s.toList := by
      rcases (C58_bench (fun f => (fs f).isSome) toks).2 with hm | ⟨b, k, items, ht, -, hm⟩
      · rw [hm] at h1; cases h1
      · rw [hm] at h1
        cases h1
        intro s hs
        rcases callNames_line hs with rfl | hs
        · decide
        · exact hnl s (by rw [ht]; simp [hs])
    obtain ⟨y, -, hs⟩ := sim_down (P := fun s => '\n' ∉ s.toList) h2 (by decide) hc
    obtain ⟨_, order, _, _, rfl⟩ := h6
    refine fine_lines (shows_append h3 (shows_entries order)) fun r hr => ?_
    simp only [List.cons_append, List.mem_cons, List.mem_append, List.mem_map] at hr
    rcases hr with rfl | hr | ⟨e, -, rfl⟩
    · exact show "time" ∈ benchKeys by decide
    · exact hs.fine r hr
    · show labelOf e.target ∈ benchKeys
      cases e.target <;> decide

/-- **C103.** So the lines that do not begin with `[` are those of a run without `--verbose`, in the same order. -/
theorem C103_measurements (L : Lib N n l) (fs : Files) (toks : List String) (text : List Char) (r : Res Unit)
    (h : RunBench L fs ("--verbose" :: toks) text r) (lines : List (List Char)) (hl : Spec.TextLines text lines) :
    ∃ text' lines', RunBench L fs toks text' r ∧ Spec.TextLines text' lines' ∧
      lines.filter (fun line => line.head? ≠ some '[') = lines'.filter (fun line => line.head? ≠ some '[') := by
  obtain ⟨text', h1, h2⟩ := C103_verbose L fs toks text r h
  obtain rfl := textLines_iff.1 hl
  exact ⟨text', _, h1, textLines_iff.2 rfl, withoutDebug_lines h2⟩

/-! ## The hypotheses can be met -/

/-- `offline` on `exFiles` with `--verbose`, with a library that meets the assumptions of C77: there are runs, all end normally, and all tell about
bootstrappings; the command line has no line break. -/
example : ∃ L : Lib 16 2 1, (∃ text, RunBench L exFiles ("--verbose" :: "offline" :: line (exItems .offline)) text (.ok ())) ∧
    (∀ text r, RunBench L exFiles ("--verbose" :: "offline" :: line (exItems .offline)) text r →
      ∃ a stamp b, text = a ++ "[".toList ++ stamp ++ "] [".toList ++ "debug".toList ++ "] ".toList ++ "Bootstrapping occurred".toList ++ '\n' :: b) ∧
    ∀ t ∈ "--verbose" :: "offline" :: line (exItems .offline), '\n' ∉ t.toList := by
  obtain ⟨L, ⟨text, r, h1⟩, h2⟩ := exOffline_verbose
  refine ⟨L, ⟨text, (h2 text r h1).1 ▸ h1⟩, fun text r h => ?_, by decide⟩
  obtain ⟨_, order, _, ht⟩ := h2 text r h
  exact shows_message ht (by simp)

/-- a log with such a message and without it -/
example : WithoutDebug "enc,5\n[2026-11-17 12:00:00.000] [debug] Bootstrapping occurred\nrun,7\n".toList "enc,5\nrun,7\n".toList :=
  .keep "enc,5".toList (by decide) (.debug "2026-11-17 12:00:00.000".toList "Bootstrapping occurred".toList (by decide) (by decide)
    (.keep "run,7".toList (by decide) .nil))

end Homfa.Cli
