import Verif.Proof.CliUse

/-! # The dispatch -/

namespace Homfa.Cli

section
variable {ex : String → Bool} {d : SubDecl} {p : List Item} {s : List OptDecl} {a : Args}

theorem Inv.sopt (h : Inv ex d p s a) (n : String) (f : StrField) (hm : ∃ o ∈ d.opts, o.name = n ∧ o.dest = .str f) :
    a.str f = opt? p n := by
  obtain ⟨o, h1, h2, h3⟩ := hm
  rw [← h2]; exact h.strOpt o h1 f h3

theorem Inv.nopt (h : Inv ex d p s a) (n : String) (f : NumField) (hm : ∃ o ∈ d.opts, o.name = n ∧ o.dest = .num f) :
    a.num f = (opt? p n).map natOf := by
  obtain ⟨o, h1, h2, h3⟩ := hm
  rw [← h2]; exact h.numOpt o h1 f h3

/-- a required text option -/
theorem Inv.sreq {u : Usage} (h : Inv ex d p s a) (hu : u.Follows ex p) (n : String) (f : StrField)
    (hm : ∃ o ∈ d.opts, o.name = n ∧ o.dest = .str f) (hr : n ∈ u.required.map (·.1)) : a.str f = some (opt p n) := by
  obtain ⟨⟨m, k⟩, h1, rfl⟩ := List.mem_map.1 hr
  rw [h.sopt _ f hm, hu.get h1]

/-- a required number -/
theorem Inv.nreq {u : Usage} (h : Inv ex d p s a) (hu : u.Follows ex p) (n : String) (f : NumField)
    (hm : ∃ o ∈ d.opts, o.name = n ∧ o.dest = .num f) (hr : n ∈ u.required.map (·.1)) : a.num f = some (num p n) := by
  obtain ⟨⟨m, k⟩, h1, rfl⟩ := List.mem_map.1 hr
  rw [h.nopt _ f hm, hu.get h1]
  rfl

end

theorem dispatch_call {ex : String → Bool} (c : Cmd) {items : List Item} {s : List OptDecl} {a : Args} (h : Inv ex c.decl items s a)
    (hu : c.usage.Follows ex items) : dispatch { a with type := c.decl.type } = .ok (c.call items) := by
  cases c with
  | genkey =>
    simp only [Cmd.decl, genkey, dispatch, h.sreq hu "--out" .output (by decide) (by decide), value]
    rfl
  | genbkey =>
    simp only [Cmd.decl, genbkey, dispatch, h.sreq hu "--out" .output (by decide) (by decide),
      h.sreq hu "--key" .skey (by decide) (by decide), value]
    rfl
  | enc =>
    simp only [Cmd.decl, enc, dispatch, h.sreq hu "--out" .output (by decide) (by decide), h.sreq hu "--in" .input (by decide) (by decide),
      h.sreq hu "--key" .skey (by decide) (by decide), h.nreq hu "--ap" .numAp (by decide) (by decide), value]
    rfl
  | dec =>
    simp only [Cmd.decl, dec, dispatch, h.sreq hu "--in" .input (by decide) (by decide),
      h.sreq hu "--key" .skey (by decide) (by decide), value]
    rfl
  | runOffline =>
    simp only [Cmd.decl, runOffline, dispatch, h.sreq hu "--out" .output (by decide) (by decide),
      h.sreq hu "--in" .input (by decide) (by decide), h.sreq hu "--spec" .spec (by decide) (by decide),
      h.sreq hu "--bkey" .bkey (by decide) (by decide), h.nreq hu "--bootstrapping-freq" .bootFreq (by decide) (by decide),
      h.flagNone .sanitize (by decide), value]
    rfl
  | runReverse =>
    simp only [Cmd.decl, runReverse, dispatch, checkOut, h.sreq hu "--out" .output (by decide) (by decide),
      h.sreq hu "--in" .input (by decide) (by decide), h.sreq hu "--spec" .spec (by decide) (by decide),
      h.sreq hu "--bkey" .bkey (by decide) (by decide), h.nreq hu "--bootstrapping-freq" .bootFreq (by decide) (by decide),
      h.nreq hu "--out-freq" .outFreq (by decide) (by decide), h.strNone .outputDir (by decide),
      h.flag "--spec-reversed" .isSpecReversed (by decide), h.flagNone .sanitize (by decide), value]
    rfl
  | runBlock =>
    simp only [Cmd.decl, runBlock, dispatch, checkOut, h.sreq hu "--out" .output (by decide) (by decide),
      h.sreq hu "--in" .input (by decide) (by decide), h.sreq hu "--spec" .spec (by decide) (by decide),
      h.sreq hu "--bkey" .bkey (by decide) (by decide), h.nreq hu "--queue-size" .queueSize (by decide) (by decide),
      h.strNone .outputDir (by decide), h.flagNone .sanitize (by decide), value]
    rfl
  | runFlut =>
    simp only [Cmd.decl, runFlut, dispatch, checkOut, h.sreq hu "--out" .output (by decide) (by decide),
      h.sreq hu "--in" .input (by decide) (by decide), h.sreq hu "--spec" .spec (by decide) (by decide),
      h.sreq hu "--bkey" .bkey (by decide) (by decide), h.nreq hu "--bootstrapping-freq" .bootFreq (by decide) (by decide),
      h.nreq hu "--queue-size" .queueSize (by decide) (by decide), h.nreq hu "--max-second-lut-depth" .maxSecond (by decide) (by decide),
      h.nreq hu "--out-freq" .outFreq (by decide) (by decide), h.sopt "--debug-secret-key" .debugSkey (by decide),
      h.strNone .outputDir (by decide), h.flagNone .sanitize (by decide), value]
    rfl
  | runPlain =>
    simp only [Cmd.decl, runPlain, dispatch, h.sreq hu "--in" .input (by decide) (by decide),
      h.sreq hu "--spec" .spec (by decide) (by decide), h.nreq hu "--ap" .numAp (by decide) (by decide), value]
    rfl
  | ltl2spec =>
    have h0 := h.strPos 0 _ rfl .formula rfl
    have h1 := h.numPos 1 _ rfl .numVars rfl
    rw [hu.arg (i := 0) (by decide)] at h0
    rw [hu.arg (i := 1) (by decide)] at h1
    simp only [Cmd.decl, ltl2spec, dispatch, h0, h1, h.flag "--make-all-live-states-final" .allFinal (by decide), value]
    rfl
  | spec2spec =>
    have h0 := h.strPos 0 _ rfl .spec rfl
    simp only [Cmd.decl, spec2spec, dispatch, h0, h.flag "--minimized" .minimized (by decide), h.flag "--reversed" .reversed (by decide),
      h.flag "--negated" .negated (by decide)]
    rfl
  | spec2dot =>
    have h0 := h.strPos 0 _ rfl .spec rfl
    simp only [Cmd.decl, spec2dot, dispatch, h0]
    rfl
  | spec2att =>
    have h0 := h.strPos 0 _ rfl .spec rfl
    simp only [Cmd.decl, spec2att, dispatch, h0]
    rfl
  | att2spec =>
    have h0 := h.strPos 0 _ rfl .spec rfl
    simp only [Cmd.decl, att2spec, dispatch, h0]
    rfl

theorem benchDispatch_call {ex : String → Bool} (c : BenchCmd) {items : List Item} {s : List OptDecl} {a : Args}
    (h : Inv ex c.decl items s a) (hu : c.usage.Follows ex items) : benchDispatch { a with type := c.decl.type } = .ok (c.call items) := by
  cases c with
  | plain =>
    simp only [BenchCmd.decl, bPlain, benchDispatch, h.sreq hu "--in" .input (by decide) (by decide),
      h.sreq hu "--spec" .spec (by decide) (by decide), h.nreq hu "--ap" .numAp (by decide) (by decide),
      h.nreq hu "--out-freq" .outFreq (by decide) (by decide)]
    rfl
  | offline =>
    simp only [BenchCmd.decl, bOffline, benchDispatch, h.sreq hu "--in" .input (by decide) (by decide),
      h.sreq hu "--spec" .spec (by decide) (by decide), h.nreq hu "--ap" .numAp (by decide) (by decide),
      h.nreq hu "--bootstrapping-freq" .bootFreq (by decide) (by decide), h.flag "--sanitize-result" .sanitize (by decide)]
    rfl
  | reversed =>
    simp only [BenchCmd.decl, bReversed, benchDispatch, h.sreq hu "--in" .input (by decide) (by decide),
      h.sreq hu "--spec" .spec (by decide) (by decide), h.nreq hu "--ap" .numAp (by decide) (by decide),
      h.nreq hu "--out-freq" .outFreq (by decide) (by decide), h.nreq hu "--bootstrapping-freq" .bootFreq (by decide) (by decide),
      h.flag "--spec-reversed" .isSpecReversed (by decide), h.flag "--sanitize-result" .sanitize (by decide)]
    rfl
  | qtrlwe2 =>
    simp only [BenchCmd.decl, bFlut, benchDispatch, h.sreq hu "--in" .input (by decide) (by decide),
      h.sreq hu "--spec" .spec (by decide) (by decide), h.nreq hu "--ap" .numAp (by decide) (by decide),
      h.nreq hu "--out-freq" .outFreq (by decide) (by decide), h.nreq hu "--bootstrapping-freq" .bootFreq (by decide) (by decide),
      h.nreq hu "--queue-size" .queueSize (by decide) (by decide), h.nreq hu "--max-second-lut-depth" .maxSecond (by decide) (by decide),
      h.flag "--sanitize-result" .sanitize (by decide)]
    rfl
  | bbs =>
    simp only [BenchCmd.decl, bBlock, benchDispatch, h.sreq hu "--in" .input (by decide) (by decide),
      h.sreq hu "--spec" .spec (by decide) (by decide), h.nreq hu "--ap" .numAp (by decide) (by decide),
      h.nreq hu "--out-freq" .outFreq (by decide) (by decide),
      h.nreq hu "--queue-size" .queueSize (by decide) (by decide), h.flag "--sanitize-result" .sanitize (by decide)]
    rfl

/-- general flags -/
def Verbosity (general : List String) : Prop := ∀ g ∈ general, g = "--verbose" ∨ g = "--quiet"

theorem skipGeneral_append {general : List String} (hg : Verbosity general) (toks : List String) :
    skipGeneral (general ++ toks) = skipGeneral toks := by
  induction general with
  | nil => rfl
  | cons g general ih =>
    rw [List.cons_append, skipGeneral, if_pos (hg g (by simp))]
    exact ih fun x hx => hg x (by simp [hx])

theorem skipGeneral_split (toks : List String) : ∃ general, Verbosity general ∧ toks = general ++ skipGeneral toks := by
  induction toks with
  | nil => exact ⟨[], by simp [Verbosity], rfl⟩
  | cons t toks ih =>
    rw [skipGeneral]
    split
    · rename_i h
      obtain ⟨g, h1, h2⟩ := ih
      refine ⟨t :: g, ?_, by rw [List.cons_append, ← h2]⟩
      intro x hx
      rcases List.mem_cons.1 hx with rfl | hx
      · exact h
      · exact h1 x hx
    · exact ⟨[], by simp [Verbosity], rfl⟩

/-- which table `main` uses -/
theorem homfaMain_cmd (ex : String → Bool) (c : Cmd) {w : List String} (hw : w ∈ c.names) (rest : List String) :
    homfaMain ex (w ++ rest) = match parseSub ex c.decl rest with
      | some a => (dispatch a).map some
      | none => .ok none := by
  cases c <;> simp only [Cmd.names, List.mem_cons, List.not_mem_nil, or_false] at hw
  case runReverse => rcases hw with rfl | rfl <;> rfl
  case runBlock => rcases hw with rfl | rfl | rfl <;> rfl
  case runFlut => rcases hw with rfl | rfl <;> rfl
  all_goals subst hw; rfl

/-- all other lines -/
theorem homfaMain_cases (ex : String → Bool) (toks : List String) :
    (∃ (c : Cmd) (w : List String), w ∈ c.names ∧ ∃ rest, skipGeneral toks = w ++ rest) ∨
    ((skipGeneral toks = [] ∨ skipGeneral toks = ["run"]) ∧ homfaMain ex toks = .error .die) ∨ homfaMain ex toks = .ok none := by
  cases hk : skipGeneral toks with
  | nil =>
    right; left
    refine ⟨.inl rfl, ?_⟩
    unfold homfaMain
    rw [hk]
    rfl
  | cons t rest =>
    by_cases hrun : t = "run"
    · subst hrun
      cases rest with
      | nil =>
        right; left
        refine ⟨.inr rfl, ?_⟩
        unfold homfaMain
        rw [hk]
        rfl
      | cons u rest =>
        cases hf : runSubs.find? (fun d => d.names.contains u) with
        | none =>
          right; right
          unfold homfaMain
          rw [hk]
          dsimp only
          rw [if_pos rfl, hf]
        | some d =>
          left
          have hm := List.mem_of_find?_eq_some hf
          have hn := List.find?_some hf
          simp only [List.contains_eq_mem, decide_eq_true_iff] at hn
          simp only [runSubs, List.mem_cons, List.not_mem_nil, or_false] at hm
          rcases hm with rfl | rfl | rfl | rfl | rfl
          · exact ⟨.runOffline, ["run", u], by simpa [Cmd.names, runOffline] using hn, rest, rfl⟩
          · exact ⟨.runReverse, ["run", u], by simpa [Cmd.names, runReverse] using hn, rest, rfl⟩
          · exact ⟨.runBlock, ["run", u], by simpa [Cmd.names, runBlock] using hn, rest, rfl⟩
          · exact ⟨.runFlut, ["run", u], by simpa [Cmd.names, runFlut] using hn, rest, rfl⟩
          · exact ⟨.runPlain, ["run", u], by simpa [Cmd.names, runPlain] using hn, rest, rfl⟩
    · cases hf : subs.find? (fun d => d.names.contains t) with
      | none =>
        right; right
        unfold homfaMain
        rw [hk]
        dsimp only
        rw [if_neg hrun, hf]
      | some d =>
        left
        have hm := List.mem_of_find?_eq_some hf
        have hn := List.find?_some hf
        simp only [List.contains_eq_mem, decide_eq_true_iff] at hn
        simp only [subs, List.mem_cons, List.not_mem_nil, or_false] at hm
        rcases hm with rfl | rfl | rfl | rfl | rfl | rfl | rfl | rfl | rfl
        · exact ⟨.genkey, [t], by simpa [Cmd.names, genkey] using hn, rest, rfl⟩
        · exact ⟨.genbkey, [t], by simpa [Cmd.names, genbkey] using hn, rest, rfl⟩
        · exact ⟨.enc, [t], by simpa [Cmd.names, enc] using hn, rest, rfl⟩
        · exact ⟨.dec, [t], by simpa [Cmd.names, dec] using hn, rest, rfl⟩
        · exact ⟨.ltl2spec, [t], by simpa [Cmd.names, ltl2spec] using hn, rest, rfl⟩
        · exact ⟨.spec2spec, [t], by simpa [Cmd.names, spec2spec] using hn, rest, rfl⟩
        · exact ⟨.spec2dot, [t], by simpa [Cmd.names, spec2dot] using hn, rest, rfl⟩
        · exact ⟨.spec2att, [t], by simpa [Cmd.names, spec2att] using hn, rest, rfl⟩
        · exact ⟨.att2spec, [t], by simpa [Cmd.names, att2spec] using hn, rest, rfl⟩

theorem homfaMain_skip (ex : String → Bool) (toks : List String) : homfaMain ex toks = homfaMain ex (skipGeneral toks) := by
  have : skipGeneral (skipGeneral toks) = skipGeneral toks := by
    obtain ⟨g, h1, h2⟩ := skipGeneral_split toks
    conv_rhs => rw [h2, skipGeneral_append h1]
  unfold homfaMain
  rw [this]

/-- What comes out of a subcommand's parser. -/
theorem cmd_result (ex : String → Bool) (c : Cmd) (rest : List String) (r : Res (Option Call))
    (hr : r = match parseSub ex c.decl rest with
      | some a => (dispatch a).map some
      | none => .ok none) :
    (∀ items, rest = line items → c.usage.Follows ex items → r = .ok (some (c.call items))) ∧
    (r = .ok none ∨ ∃ items, rest = line items ∧ c.usage.Follows ex items ∧ r = .ok (some (c.call items))) := by
  obtain ⟨h1, h2, h3⟩ := c.decl_wf
  obtain ⟨p1, p2⟩ := parseSub_usage (ex := ex) h1 h2 rest
  rw [h3] at p1 p2
  refine ⟨fun items hi hf => ?_, ?_⟩
  · obtain ⟨s, a0, i1, i2⟩ := p2 items hi hf
    rw [hr, i2]
    dsimp only
    rw [dispatch_call c i1 hf]
    rfl
  · cases ha : parseSub ex c.decl rest with
    | none => left; rw [hr, ha]
    | some a =>
      obtain ⟨items, s, a0, i1, i2, i3, i4⟩ := p1 a ha
      refine .inr ⟨items, i1, i2, ?_⟩
      rw [hr, ha, i4]
      dsimp only
      rw [dispatch_call c i3 i2]
      rfl

/-- The number a required option carries is the number written on the line, greater than 0 and below 2^64. -/
theorem num_positive {u : Usage} {ex : String → Bool} {items : List Item} (h : u.Follows ex items) {n : String}
    (hm : (n, Kind.positive) ∈ u.required) (hu : (u.required ++ u.optional).map (·.1) |>.Nodup) :
    0 < num items n ∧ num items n < 2 ^ 64 ∧ IsNumber (opt items n) (num items n) := by
  obtain ⟨k, hk, hv⟩ := h.known n _ (opt?_mem (h.get hm))
  have : k = .positive := by
    have e := List.inj_on_of_nodup_map hu hk (List.mem_append_left _ hm) rfl
    injection e
  subst this
  obtain ⟨_, m, hm1, hm2⟩ := hv
  have : num items n = m := by
    unfold num
    rw [hm1.1]
    simp
  rw [this]
  exact ⟨hm2, hm1.2, hm1⟩

theorem benchMain_cmd (ex : String → Bool) (c : BenchCmd) (rest : List String) :
    benchMain ex (c.name :: rest) = match parseSub ex c.decl rest with
      | some a => (benchDispatch a).map some
      | none => .ok none := by
  cases c <;> rfl

theorem bench_result (ex : String → Bool) (c : BenchCmd) (rest : List String) :
    (∀ items, rest = line items → c.usage.Follows ex items → benchMain ex (c.name :: rest) = .ok (some (c.call items))) ∧
    (benchMain ex (c.name :: rest) = .ok none ∨
      ∃ items, rest = line items ∧ c.usage.Follows ex items ∧ benchMain ex (c.name :: rest) = .ok (some (c.call items))) := by
  obtain ⟨h1, h2, h3⟩ := c.decl_wf
  obtain ⟨p1, p2⟩ := parseSub_usage (ex := ex) h1 h2 rest
  rw [h3] at p1 p2
  refine ⟨fun items hi hf => ?_, ?_⟩
  · obtain ⟨s, a0, i1, i2⟩ := p2 items hi hf
    rw [benchMain_cmd, i2]
    dsimp only
    rw [benchDispatch_call c i1 hf]
    rfl
  · rw [benchMain_cmd]
    cases ha : parseSub ex c.decl rest with
    | none => left; rfl
    | some a =>
      obtain ⟨items, s, a0, i1, i2, i3, i4⟩ := p1 a ha
      refine .inr ⟨items, i1, i2, ?_⟩
      rw [i4]
      dsimp only
      rw [benchDispatch_call c i3 i2]
      rfl

end Homfa.Cli
