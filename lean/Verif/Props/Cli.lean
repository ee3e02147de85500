import Verif.Proof.CliMain

/-!
# C58: the command line

`Cmd.usage` and `Cmd.call` in `Verif/Spec/Cli.lean` are the manual: what each command accepts and what it is to do.  `homfaMain` and
`benchMain` are the two programs up to the call of the function that does the work; `.ok none` is a usage error.
-/

namespace Homfa.Cli

/-- A command line that follows the manual runs the function the manual names, with the values on the line, in whatever order the items
are written. -/
theorem C58_runs (ex : String → Bool) (general : List String) (hg : ∀ g ∈ general, g = "--verbose" ∨ g = "--quiet") (c : Cmd)
    (w : List String) (hw : w ∈ c.names) (items : List Item) (h : c.usage.Follows ex items) :
    homfaMain ex (general ++ w ++ line items) = .ok (some (c.call items)) := by
  have e : homfaMain ex (general ++ w ++ line items) = homfaMain ex (w ++ line items) := by
    rw [homfaMain_skip, List.append_assoc, skipGeneral_append hg, ← homfaMain_skip]
  rw [e]
  exact (cmd_result ex c (line items) _ (homfaMain_cmd ex c hw _)).1 items rfl h

/-- Nothing else runs anything: if a function is called, the line follows the manual entry of that command. -/
theorem C58_only (ex : String → Bool) (toks : List String) (call : Call) (h : homfaMain ex toks = .ok (some call)) :
    ∃ (general : List String) (c : Cmd) (w : List String) (items : List Item),
      (∀ g ∈ general, g = "--verbose" ∨ g = "--quiet") ∧ w ∈ c.names ∧ toks = general ++ w ++ line items ∧
      c.usage.Follows ex items ∧ call = c.call items := by
  obtain ⟨general, hg, ht⟩ := skipGeneral_split toks
  rcases homfaMain_cases ex toks with ⟨c, w, hw, rest, hr⟩ | ⟨_, h'⟩ | h'
  · rcases (cmd_result ex c rest _ (homfaMain_cmd ex c hw rest)).2 with h' | ⟨items, i1, i2, i3⟩
    · rw [homfaMain_skip, hr, h'] at h
      cases h
    · rw [homfaMain_skip, hr, i3] at h
      refine ⟨general, c, w, items, hg, hw, ?_, i2, ?_⟩
      · conv_lhs => rw [ht, hr, i1]
        rw [List.append_assoc]
      · injection h with h; injection h with h; exact h.symm
  · rw [h'] at h; cases h
  · rw [h'] at h; cases h

/-- The optional values are never read when they are absent, and the checks on them never fail: the program stops by itself only when no
command is given. -/
theorem C58_never_throws (ex : String → Bool) (toks : List String) (e : Err) (h : homfaMain ex toks = .error e) :
    e = .die ∧ ∃ general : List String, (∀ g ∈ general, g = "--verbose" ∨ g = "--quiet") ∧
      (toks = general ∨ toks = general ++ ["run"]) := by
  obtain ⟨general, hg, ht⟩ := skipGeneral_split toks
  rcases homfaMain_cases ex toks with ⟨c, w, hw, rest, hr⟩ | ⟨h0, h'⟩ | h'
  · rcases (cmd_result ex c rest _ (homfaMain_cmd ex c hw rest)).2 with h' | ⟨items, i1, i2, h'⟩
    · rw [homfaMain_skip, hr, h'] at h; cases h
    · rw [homfaMain_skip, hr, h'] at h; cases h
  · rw [h'] at h
    injection h with h
    refine ⟨h.symm, general, hg, ?_⟩
    rcases h0 with h0 | h0
    · left; rw [h0, List.append_nil] at ht; exact ht
    · right; rw [h0] at ht; exact ht
  · rw [h'] at h; cases h

/-- Whatever the line, the frequencies and sizes the encrypted runs are called with are positive, the output is one file, and the features
selected by `--out-dir` and by sanitizing results cannot be reached. -/
theorem C58_run_arguments (ex : String → Bool) (toks : List String) (call : Call) (h : homfaMain ex toks = .ok (some call)) :
    match call with
    | .enc _ _ _ ap => 0 < ap
    | .runOffline _ _ _ boot _ sanitize => 0 < boot ∧ sanitize = false
    | .runReverse _ _ out outDir freq boot _ _ sanitize => out.isSome ∧ outDir = none ∧ 0 < freq ∧ 0 < boot ∧ sanitize = false
    | .runBlock _ _ _ queue _ sanitize => 0 < queue ∧ sanitize = false
    | .runFlut _ _ out outDir freq queue boot _ depth _ sanitize =>
      out.isSome ∧ outDir = none ∧ 0 < freq ∧ 0 < queue ∧ 0 < boot ∧ (∃ k, depth = some k ∧ 0 < k) ∧ sanitize = false
    | .runPlain _ _ ap => 0 < ap
    | _ => True := by
  obtain ⟨_, c, w, items, _, _, _, hf, rfl⟩ := C58_only ex toks call h
  cases c <;> simp only [Cmd.call]
  case enc => exact (num_positive hf (by decide) (by decide)).1
  case runOffline => exact ⟨(num_positive hf (by decide) (by decide)).1, trivial⟩
  case runReverse =>
    exact ⟨rfl, trivial, (num_positive hf (by decide) (by decide)).1, (num_positive hf (by decide) (by decide)).1, trivial⟩
  case runBlock => exact ⟨(num_positive hf (by decide) (by decide)).1, trivial⟩
  case runFlut =>
    exact ⟨rfl, trivial, (num_positive hf (by decide) (by decide)).1, (num_positive hf (by decide) (by decide)).1,
      (num_positive hf (by decide) (by decide)).1, ⟨_, rfl, (num_positive hf (by decide) (by decide)).1⟩, trivial⟩
  case runPlain => exact (num_positive hf (by decide) (by decide)).1

/-! ## The benchmark program -/

/-- The benchmark program runs exactly the function named, with the values on the line; any other line is a usage error, and no
uninitialised variable is ever read. -/
theorem C58_bench (ex : String → Bool) (toks : List String) :
    (∀ (c : BenchCmd) (k : Nat) (items : List Item), toks = List.replicate k "--verbose" ++ c.name :: line items →
      c.usage.Follows ex items → benchMain ex toks = .ok (some (c.call items))) ∧
    (benchMain ex toks = .ok none ∨ ∃ (c : BenchCmd) (k : Nat) (items : List Item),
      toks = List.replicate k "--verbose" ++ c.name :: line items ∧ c.usage.Follows ex items ∧
      benchMain ex toks = .ok (some (c.call items))) := by
  constructor
  · rintro c k items rfl hf
    induction k with
    | zero => exact (bench_result ex c (line items)).1 items rfl hf
    | succ k ih =>
      rw [List.replicate_succ, List.cons_append, benchMain]
      rw [if_pos rfl]
      exact ih
  · induction toks with
    | nil => left; rfl
    | cons t toks ih =>
      by_cases hv : t = "--verbose"
      · have e : benchMain ex (t :: toks) = benchMain ex toks := by
          rw [benchMain]
          rw [if_pos hv]
        rw [e]
        rcases ih with h | ⟨c, k, items, h1, h2, h3⟩
        · exact .inl h
        · refine .inr ⟨c, k + 1, items, ?_, h2, h3⟩
          rw [List.replicate_succ, List.cons_append, ← h1, hv]
      · by_cases hn : ∃ c : BenchCmd, c.name = t
        · obtain ⟨c, rfl⟩ := hn
          rcases (bench_result ex c toks).2 with h | ⟨items, h1, h2, h3⟩
          · exact .inl h
          · exact .inr ⟨c, 0, items, by rw [h1]; rfl, h2, h3⟩
        · left
          have : benchSubs.find? (fun d => d.names.contains t) = none := by
            rw [List.find?_eq_none]
            intro d hd hc
            simp only [List.contains_eq_mem, decide_eq_true_iff] at hc
            simp only [benchSubs, List.mem_cons, List.not_mem_nil, or_false] at hd
            rcases hd with rfl | rfl | rfl | rfl | rfl
            · exact hn ⟨.plain, (List.mem_singleton.1 hc).symm⟩
            · exact hn ⟨.offline, (List.mem_singleton.1 hc).symm⟩
            · exact hn ⟨.reversed, (List.mem_singleton.1 hc).symm⟩
            · exact hn ⟨.qtrlwe2, (List.mem_singleton.1 hc).symm⟩
            · exact hn ⟨.bbs, (List.mem_singleton.1 hc).symm⟩
          rw [benchMain]
          rw [if_neg hv, this]

/-! ## Cases -/

/-- a line that follows the manual: `homfa --verbose run reverse --spec s.txt ... --out-freq 10 ...` -/
example : homfaMain (fun f => ["k", "s.txt", "in"].contains f)
    ["--verbose", "run", "reversed", "--spec-reversed", "--spec", "s.txt", "--out-freq", "10", "--in", "in", "--bkey", "k", "--out", "o",
      "--bootstrapping-freq", "200"] =
    .ok (some (.runReverse "s.txt" "in" (some "o") none 10 200 true "k" false)) := by decide +kernel

/-- the same line without the output frequency, with frequency 0, with a missing file, or with `--out-dir`, is refused -/
example : homfaMain (fun f => ["k", "s.txt", "in"].contains f)
    ["run", "reverse", "--spec", "s.txt", "--in", "in", "--bkey", "k", "--out", "o", "--bootstrapping-freq", "200"] = .ok none := by
  decide +kernel
example : homfaMain (fun f => ["k", "s.txt", "in"].contains f)
    ["run", "reverse", "--spec", "s.txt", "--out-freq", "0", "--in", "in", "--bkey", "k", "--out", "o", "--bootstrapping-freq", "200"] =
    .ok none := by decide +kernel
example : homfaMain (fun f => ["k", "s.txt"].contains f)
    ["run", "reverse", "--spec", "s.txt", "--out-freq", "10", "--in", "in", "--bkey", "k", "--out", "o", "--bootstrapping-freq", "200"] =
    .ok none := by decide +kernel
example : homfaMain (fun f => ["k", "s.txt", "in"].contains f)
    ["run", "reverse", "--spec", "s.txt", "--out-freq", "10", "--in", "in", "--bkey", "k", "--out-dir", "o", "--bootstrapping-freq", "200"] =
    .ok none := by decide +kernel

/-- the hypotheses of `C58_runs` for a command with plain arguments -/
example : (Cmd.ltl2spec).usage.Follows (fun _ => false) [.arg "G p0", .flag "--make-all-live-states-final", .arg "2"] := by
  constructor
  · intro n v h; simp at h
  · decide
  · intro n k h; simp [Cmd.usage] at h
  · intro n h; simp at h; subst h; decide
  · decide
  · decide
  · intro i v k h1 h2
    match i with
    | 0 => simp [args, Cmd.usage] at h1 h2; subst h1 h2; exact ⟨by decide, trivial⟩
    | 1 => simp [args, Cmd.usage] at h1 h2; subst h1 h2; exact ⟨by decide, 2, by decide +kernel, by decide⟩
    | i + 2 => simp [args] at h1

example : homfaMain (fun _ => false) ["ltl2spec", "G p0", "--make-all-live-states-final", "2"] = .ok (some (.ltl2spec "G p0" 2 true)) := by
  decide +kernel

example : homfaMain (fun _ => false) ["--quiet", "run"] = .error .die := by decide +kernel

example : benchMain (fun _ => true) ["bbs", "--queue-size", "5", "--ap", "2", "--out-freq", "3", "--spec", "s", "--in", "i"] =
    .ok (some (.benchBlock "s" "i" 3 5 2 false)) := by decide +kernel

end Homfa.Cli
