import Verif.Spec.HomfaLog
import Verif.Proof.HomfaLog
import Verif.Props.Cli
import Verif.Props.Count
import Verif.Props.Minimize
import Verif.Props.Determinize
import Verif.Props.Alias
import Verif.Props.Prepared
import Verif.Props.Gap
/-!
# C118: what homfa logs

Besides its files and its standard output homfa writes a log to standard error.  For runs that end normally: the log changes nothing else at any level; `--quiet`
leaves none of it; `--verbose` adds messages of level debug only; the log of a command on encrypted inputs depends on their number only; what it reports about
the sizes and the work is right; and its last message repeats the verdict that is printed.
-/

namespace Homfa.Cli

open Spec

variable {N n l : Nat}

/-- **C118, nothing else changes.** The runs that end normally, with whatever flags before the command and in whatever environment, are those of the program without
its log. -/
theorem C118_transparent (L : Lib N n l) (E : HomfaEnv) (stdin : List Char) (fs : Files) {general : List String}
    (hg : ∀ g ∈ general, g = "--verbose" ∨ g = "--quiet") (rest : List String) (p : Files × List Char) :
    (∃ rows, RunLog L E stdin fs (general ++ rest) rows p) ↔ RunHomfa L stdin fs rest (.ok p) := by
  have e : homfaMain (fun f => (fs f).isSome) (general ++ rest) = homfaMain (fun f => (fs f).isSome) rest := by
    rw [homfaMain_skip, skipGeneral_append hg, ← homfaMain_skip]
  constructor
  · rintro ⟨rows, h⟩
    cases h with
    | call h1 h2 => exact .call (e ▸ h1) (execLog_exec h2 rfl)
  · intro h
    generalize hp : (.ok p : Res (Files × List Char)) = r at h
    cases h with
    | usage => cases hp
    | fails => cases hp
    | call h1 h2 =>
      subst hp
      obtain ⟨rows, h3⟩ := exec_execLog (logLevel (general ++ rest) == .verbose) h2
      exact ⟨_, .call (e.trans h1) h3⟩

theorem basicInfo_info (E : HomfaEnv) (toks : List String) : ∀ r ∈ basicInfo E toks, r.key = "info" := by
  intro r hr
  obtain ⟨s, -, rfl⟩ := List.mem_map.1 hr
  rfl

theorem logLevel_quiet {general : List String} (hg : ∀ g ∈ general, g = "--verbose" ∨ g = "--quiet") (hq : "--quiet" ∈ general) (rest : List String) :
    logLevel (general ++ rest) = .quiet := by
  unfold logLevel
  rw [if_pos]
  rw [List.contains_iff_mem, List.takeWhile_append_of_pos (by intro g h; rcases hg g h with rfl | rfl <;> rfl)]
  exact List.mem_append_left _ hq

/-- **C118, `--quiet`.** With `--quiet` before the command, also if `--verbose` is there as well, a run that ends normally logs nothing. -/
theorem C118_quiet (L : Lib N n l) (E : HomfaEnv) (stdin : List Char) (fs : Files) {general : List String}
    (hg : ∀ g ∈ general, g = "--verbose" ∨ g = "--quiet") (hq : "--quiet" ∈ general) (rest : List String) {rows : List Row} {p : Files × List Char}
    (h : RunLog L E stdin fs (general ++ rest) rows p) : rows = [] := by
  cases h with
  | call h1 h2 =>
    rw [logLevel_quiet hg hq] at h2 ⊢
    obtain ⟨o', -, h3⟩ := execLog_quieter _ h2
    unfold shown
    rw [if_pos rfl, List.filter_eq_nil_iff]
    intro r hr
    rcases List.mem_append.1 hr with hr | hr
    · simp [basicInfo_info E _ r hr]
    · have := h3.levels r hr
      simp only [List.mem_cons, List.not_mem_nil, or_false] at this
      rcases this with h | h | h <;> simp [h]

theorem logLevel_normal {t : String} {rest : List String} (h1 : t ≠ "--verbose") (h2 : t ≠ "--quiet") : logLevel (t :: rest) = .normal := by
  unfold logLevel
  rw [List.takeWhile_cons_of_neg (by simp [h1, h2])]
  rfl

theorem logLevel_verbose {t : String} {rest : List String} (h1 : t ≠ "--verbose") (h2 : t ≠ "--quiet") : logLevel ("--verbose" :: t :: rest) = .verbose := by
  unfold logLevel
  rw [List.takeWhile_cons_of_pos (by simp), List.takeWhile_cons_of_neg (by simp [h1, h2])]
  rfl

/-- **C118, `--verbose`.** A run with `--verbose` that ends normally logs what some run without it logs that ends in the same way, the line with the words of the
command apart, and messages of level debug in between. -/
theorem C118_verbose (L : Lib N n l) (E : HomfaEnv) (stdin : List Char) (fs : Files) {t : String} {rest : List String} (h1 : t ≠ "--verbose") (h2 : t ≠ "--quiet")
    {rows : List Row} {p : Files × List Char} (h : RunLog L E stdin fs ("--verbose" :: t :: rest) rows p) :
    ∃ notes, rows = basicInfo E ("--verbose" :: t :: rest) ++ notes ∧
      RunLog L E stdin fs (t :: rest) (basicInfo E (t :: rest) ++ notes.filter fun r => r.key != "debug") p := by
  cases h with
  | @call c notes _ k1 k2 =>
    rw [logLevel_verbose h1 h2] at k2 ⊢
    refine ⟨notes, rfl, ?_⟩
    obtain ⟨⟨rows', r'⟩, k3, k4, k5, -⟩ := execLog_quieter _ k2
    dsimp only at k4 k5
    subst k4 k5
    have e : homfaMain (fun f => (fs f).isSome) ("--verbose" :: t :: rest) = homfaMain (fun f => (fs f).isSome) (t :: rest) := by
      rw [homfaMain_skip]
      conv_rhs => rw [homfaMain_skip]
      rfl
    have hn := logLevel_normal (rest := rest) h1 h2
    have := RunLog.call (E := E) (e ▸ k1) (by rw [hn]; exact k3)
    rw [hn] at this
    exact this

/-- the log of one run, taken apart -/
theorem runLog_cmd {L : Lib N n l} {E : HomfaEnv} {stdin : List Char} {fs : Files} {general : List String} (hg : ∀ g ∈ general, g = "--verbose" ∨ g = "--quiet")
    {c : Cmd} {w : List String} (hw : w ∈ c.names) {items : List Item} (hf : c.usage.Follows (fun f => (fs f).isSome) items) {rows : List Row}
    {p : Files × List Char} (h : RunLog L E stdin fs (general ++ w ++ line items) rows p) :
    ∃ rows', ExecLog L stdin fs (logLevel (general ++ w ++ line items) == .verbose) (c.call items) ⟨rows', .ok p⟩ ∧
      rows = shown (logLevel (general ++ w ++ line items)) (basicInfo E (general ++ w ++ line items) ++ rows') := by
  have e := C58_runs (fun f => (fs f).isSome) general hg c w hw items hf
  cases h with
  | call h1 h2 =>
    rw [e] at h1
    cases h1
    exact ⟨_, h2, rfl⟩

/-- **C118, the party without the secret key.** Two runs of the same command on encrypted inputs that end normally, with the same specification and as many
ciphertexts, write the same log (the times apart), whatever the ciphertexts, the keys and the libraries. -/
theorem C118_private (L L' : Lib N n l) (hbs : 0 < blockSize l N) (hbs' : blockSize l N < 2 ^ 63) (E : HomfaEnv) (stdin stdin' : List Char) (fs fs' : Files)
    {general : List String} (hg : ∀ g ∈ general, g = "--verbose" ∨ g = "--quiet") {c : Cmd} (hc : c ∈ [Cmd.runOffline, .runReverse, .runBlock, .runFlut])
    {w : List String} (hw : w ∈ c.names) {items : List Item} (hf : c.usage.Follows (fun f => (fs f).isSome) items)
    (hf' : c.usage.Follows (fun f => (fs' f).isSome) items) (hspec : fs (opt items "--spec") = fs' (opt items "--spec")) {ib ib' : List Byte}
    (hib : fs (opt items "--in") = some ib) (hib' : fs' (opt items "--in") = some ib') (hlen : ib.length < 2 ^ 63) (hsame : ib.length = ib'.length)
    {rows rows' : List Row} {p p' : Files × List Char} (h : RunLog L E stdin fs (general ++ w ++ line items) rows p)
    (h' : RunLog L' E stdin' fs' (general ++ w ++ line items) rows' p') : rows = rows' := by
  obtain ⟨r, h1, rfl⟩ := runLog_cmd hg hw hf h
  obtain ⟨r', h2, rfl⟩ := runLog_cmd hg hw hf' h'
  clear h h'
  suffices r = r' by rw [this]
  generalize (logLevel (general ++ w ++ line items) == .verbose) = v at h1 h2
  have count : ∀ {kind : StreamKind} {pre pre' : List Nat} {cs cs' : List (Gsw l N)}, Fetch kind (fs (opt items "--in")) (.ok (pre, cs)) →
      Fetch kind (fs' (opt items "--in")) (.ok (pre', cs')) → pre.headD 0 = pre'.headD 0 ∧ pre.getLastD 0 = pre'.getLastD 0 ∧ cs.length = cs'.length := by
    intro kind pre pre' cs cs' k1 k2
    rw [hib] at k1
    rw [hib'] at k2
    obtain ⟨a1, a2, a3⟩ := fetch_head hbs hbs' hlen k1
    obtain ⟨b1, b2, b3⟩ := fetch_head hbs hbs' (hsame ▸ hlen) k2
    have : cs.length = cs'.length := Nat.eq_of_mul_eq_mul_right hbs (by rw [a3, b3, hsame])
    exact ⟨by rw [a1, b1, this], by rw [a2, b2, this], this⟩
  have main : ∀ {α β : Type} {R : α → β → Prop} {x : Out α} {y : Out β} {a : α} {b : β} {r r' : List Row}, OutAlike R x y →
      x = ⟨r, .ok a⟩ → y = ⟨r', .ok b⟩ → r = r' := by
    rintro α β R x y a b r r' ⟨k, -⟩ rfl rfl
    exact k
  generalize ho : (⟨r, .ok p⟩ : Out (Files × List Char)) = o at h1
  generalize ho' : (⟨r', .ok p'⟩ : Out (Files × List Char)) = o' at h2
  simp only [List.mem_cons, List.not_mem_nil, or_false] at hc
  rcases hc with rfl | rfl | rfl | rfl
  · cases h1 with
    | runOffline k1 =>
      cases h2 with
      | runOffline k2 =>
        obtain ⟨e1, -, e3⟩ := count k1 k2
        obtain ⟨b, -, q1⟩ := quiet_bind_ok ho.symm
        obtain ⟨b', -, q2⟩ := quiet_bind_ok ho'.symm
        rw [e1, hspec] at q1
        exact main ((logRunOffline_alike v _ _ _ _ _ _ e3 _ _).bind fun _ _ _ => OutAlike.pure (R := fun _ _ => True) trivial) q1 q2
  · cases h1 with
    | runReverse k1 =>
      cases h2 with
      | runReverse k2 =>
        obtain ⟨e1, e2, e3⟩ := count k1 k2
        obtain ⟨b, -, q1⟩ := quiet_bind_ok ho.symm
        obtain ⟨b', -, q2⟩ := quiet_bind_ok ho'.symm
        rw [e1, e2, hspec] at q1
        exact main ((logRunReverse_alike v _ _ _ _ _ _ _ e3 _ _ _ _ _ _).bind fun _ _ _ => OutAlike.pure (R := fun _ _ => True) trivial) q1 q2
  · cases h1 with
    | runBlock k1 =>
      cases h2 with
      | runBlock k2 =>
        obtain ⟨e1, -, e3⟩ := count k1 k2
        obtain ⟨s, s1, q1⟩ := quiet_bind_ok ho.symm
        obtain ⟨s', s2, q2⟩ := quiet_bind_ok ho'.symm
        rw [← hspec, s1] at s2
        cases s2
        obtain ⟨r1, g, r2, t1, q3, e4⟩ := out_bind_ok q1
        obtain ⟨r1', g', r2', t2, q4, e5⟩ := out_bind_ok q2
        rw [t1] at t2
        cases t2
        obtain ⟨b, -, q1⟩ := quiet_bind_ok q3
        obtain ⟨b', -, q2⟩ := quiet_bind_ok q4
        rw [e1] at q1
        rw [e4, e5]
        exact congrArg _ (main ((logRunBlock_alike v (L.server b) (L'.server b') g _ _ _ e3 _ _).bind fun _ _ _ => OutAlike.pure (R := fun _ _ => True) trivial) q1 q2)
  · cases h1 with
    | runFlut k1 =>
      cases h2 with
      | runFlut k2 =>
        obtain ⟨e1, e2, e3⟩ := count k1 k2
        obtain ⟨s, s1, q1⟩ := quiet_bind_ok ho.symm
        obtain ⟨s', s2, q2⟩ := quiet_bind_ok ho'.symm
        rw [← hspec, s1] at s2
        cases s2
        obtain ⟨r1, g, r2, t1, q3, e4⟩ := out_bind_ok q1
        obtain ⟨r1', g', r2', t2, q4, e5⟩ := out_bind_ok q2
        rw [t1] at t2
        cases t2
        obtain ⟨b, -, q1⟩ := quiet_bind_ok q3
        obtain ⟨b', -, q2⟩ := quiet_bind_ok q4
        obtain ⟨_, -, q1⟩ := quiet_bind_ok q1
        obtain ⟨_, -, q2⟩ := quiet_bind_ok q2
        rw [e1, e2] at q1
        rw [e4, e5]
        exact congrArg _ (main ((logRunFlut_alike v (L.server b) (L'.server b') g _ _ _ _ e3 _ _ _ _ _ _ _).bind fun _ _ _ => OutAlike.pure (R := fun _ _ => True) trivial) q1 q2)

/-- **C118, the party with the secret key.** `genkey`, `genbkey` and `enc` log the settings at the start and nothing about keys or inputs. -/
theorem C118_client (L : Lib N n l) (E : HomfaEnv) (stdin : List Char) (fs : Files) {c : Cmd} (hc : c ∈ [Cmd.genkey, .genbkey, .enc])
    {w : List String} (hw : w ∈ c.names) {items : List Item} (hf : c.usage.Follows (fun f => (fs f).isSome) items)
    {rows : List Row} {p : Files × List Char} (h : RunLog L E stdin fs (w ++ line items) rows p) : rows = basicInfo E (w ++ line items) := by
  obtain ⟨r, h1, rfl⟩ := runLog_cmd (general := []) (by simp) hw hf h
  clear h
  simp only [List.nil_append] at h1 ⊢
  have hn : logLevel (w ++ line items) = .normal := by
    simp only [List.mem_cons, List.not_mem_nil, or_false] at hc
    rcases hc with rfl | rfl | rfl <;> rw [List.mem_singleton.1 hw] <;> exact logLevel_normal (by decide) (by decide)
  rw [hn] at h1 ⊢
  show basicInfo E (w ++ line items) ++ r = _
  suffices r = [] by rw [this, List.append_nil]
  generalize ho : (⟨r, .ok p⟩ : Out (Files × List Char)) = o at h1
  simp only [List.mem_cons, List.not_mem_nil, or_false] at hc
  rcases hc with rfl | rfl | rfl
  · cases h1; cases ho; rfl
  · cases h1 with
    | genbkey r =>
      obtain ⟨b, -, q⟩ := quiet_bind_ok ho.symm
      cases q; rfl
  · cases h1 with
    | enc rand =>
      obtain ⟨b, -, q⟩ := quiet_bind_ok ho.symm
      obtain ⟨b, -, q⟩ := quiet_bind_ok q
      cases q; rfl

/-! ## What is reported -/

theorem leastStates_of {g m : Graph} (hg : g.WF) (hm : g.minimized = .ok m) {lang : List Bool → Prop} (hl : ∀ w, g.accepts w = .ok true ↔ lang w) :
    LeastStates m.size lang := by
  obtain ⟨m', h1, h2, h3⟩ := C04_minimized_language g hg
  rw [hm] at h1
  cases h1
  refine ⟨?_, fun k' d hd => C05_minimized_minimal g hg m hm k' d fun w => ?_⟩
  · obtain ⟨d, hd⟩ := exists_dfa h2
    refine ⟨d, fun w => ?_⟩
    rw [← hl, ← h3, hd]
    constructor
    · intro h; rw [h]
    · intro h; exact Except.ok.inj h
  · rw [hg.accepts_eq]
    congr 1
    rw [Bool.eq_iff_iff, hd, ← hl, hg.accepts_eq]
    constructor
    · intro h; rw [h]
    · intro h; exact Except.ok.inj h

theorem wf_minimized {g m : Graph} (hg : g.WF) (hm : g.minimized = .ok m) : m.WF := by
  obtain ⟨m', h1, h2, -⟩ := C04_minimized_language g hg
  rw [hm] at h1
  cases h1
  exact h2

theorem futures_eq {g m : Graph} (hg : g.WF) (hm : g.minimized = .ok m) {D : Nat → List Nat} (hD : Levels m [m.init] D) (j : Nat) :
    futures (fun w => g.accepts w = .ok true) j = (D j).length := by
  obtain ⟨m', h1, h2, -, h3, -, h5⟩ := Graph.minimized_good hg
  rw [hm] at h1
  cases h1
  obtain ⟨d1, d2⟩ := hD j
  have key : ∀ u v : List Bool, g.accepts (u ++ v) = .ok true ↔ m.accFrom (u.foldl m.nx m.init) v = true := by
    intro u v
    rw [hg.accepts_eq, ← h3]
    have : m.dfa.accepts (u ++ v) = m.accFrom (u.foldl m.nx m.init) v := by
      show m.fin ((u ++ v).foldl m.nx m.init) = m.fin (v.foldl m.nx (u.foldl m.nx m.init))
      rw [List.foldl_append]
    rw [this]
    constructor
    · intro h; exact Except.ok.inj h
    · intro h; rw [h]
  have himg : {R : Set (List Bool) | ∃ u : List Bool, u.length = j ∧ R = {v | g.accepts (u ++ v) = .ok true}} =
      (fun q => {v | m.accFrom q v = true}) '' (↑(D j).toFinset : Set Nat) := by
    ext R
    simp only [Set.mem_setOf_eq, Set.mem_image, Finset.mem_coe, List.mem_toFinset, d2, List.mem_singleton, exists_eq_left]
    constructor
    · rintro ⟨u, hu, rfl⟩
      refine ⟨_, ⟨u, hu, (h2.run_ok h2.init_lt u).1⟩, ?_⟩
      ext v
      exact (key u v).symm
    · rintro ⟨q, ⟨u, hu, hq⟩, rfl⟩
      refine ⟨u, hu, ?_⟩
      rw [(h2.run_ok h2.init_lt u).1] at hq
      cases hq
      ext v
      exact (key u v).symm
  have hlt : ∀ q ∈ D j, q < m.size := by
    intro q hq
    obtain ⟨p, hp, u, -, hu⟩ := (d2 q).1 hq
    rw [List.mem_singleton.1 hp, (h2.run_ok h2.init_lt u).1] at hu
    cases hu
    exact h2.run_lt h2.init_lt u
  unfold futures
  rw [himg, Set.InjOn.ncard_image, Set.ncard_coe_finset, List.toFinset_card_of_nodup d1]
  intro a ha b hb hab
  by_contra hne
  obtain ⟨v, hv⟩ := h5 a (hlt a (by simpa using ha)) b (hlt b (by simpa using hb)) hne
  apply hv
  have := Set.ext_iff.1 hab v
  simp only [Set.mem_setOf_eq] at this
  exact Bool.eq_iff_iff.2 this

theorem logLevel_names {c : Cmd} {w : List String} (hw : w ∈ c.names) (rest : List String) : logLevel (w ++ rest) = .normal := by
  have : ∃ t u, w = t :: u ∧ t ≠ "--verbose" ∧ t ≠ "--quiet" := by
    cases c <;> simp only [Cmd.names, List.mem_cons, List.not_mem_nil, or_false] at hw
    all_goals first
      | (rcases hw with rfl | rfl | rfl <;> exact ⟨_, _, rfl, by decide, by decide⟩)
      | (rcases hw with rfl | rfl <;> exact ⟨_, _, rfl, by decide, by decide⟩)
      | (subst hw; exact ⟨_, _, rfl, by decide, by decide⟩)
  obtain ⟨t, u, rfl, h1, h2⟩ := this
  exact logLevel_normal h1 h2

/-- the log of a run without flags before the command -/
theorem runLog_plain {L : Lib N n l} {E : HomfaEnv} {stdin : List Char} {fs : Files} {c : Cmd} {w : List String} (hw : w ∈ c.names) {items : List Item}
    (hf : c.usage.Follows (fun f => (fs f).isSome) items) {rows : List Row} {p : Files × List Char} (h : RunLog L E stdin fs (w ++ line items) rows p) :
    ∃ rows', ExecLog L stdin fs false (c.call items) ⟨rows', .ok p⟩ ∧ rows = basicInfo E (w ++ line items) ++ rows' := by
  obtain ⟨r, h1, h2⟩ := runLog_cmd (general := []) (by simp) hw hf h
  simp only [List.nil_append, logLevel_names hw] at h1 h2
  exact ⟨r, h1, h2⟩

/-- **C118, `run offline`.** What a run reports is right: the lines of the spec that were skipped, the number of ciphertexts, the number of states of the smallest
automaton, and the number of CMUX gates, which is the number of states this automaton can be in, summed over the positions of the input. -/
theorem C118_offline (L : Lib N n l) (hbs : 0 < blockSize l N) (hbs' : blockSize l N < 2 ^ 63) (E : HomfaEnv) (stdin : List Char) (fs : Files) {w : List String}
    (hw : w ∈ Cmd.runOffline.names) {items : List Item} (hf : Cmd.runOffline.usage.Follows (fun f => (fs f).isSome) items) {sb ib : List Byte}
    (hsb : fs (opt items "--spec") = some sb) (hib : fs (opt items "--in") = some ib) (hlen : ib.length < 2 ^ 63) {g : Graph}
    (hg : Graph.fromIstream (textOf sb) = .ok g) (hs : 0 < g.size) {skip : List (List Char)} (hk : SkippedLines sb skip) {rows : List Row} {p : Files × List Char}
    (h : RunLog L E stdin fs (w ++ line items) rows p) :
    ∃ k states total, k * blockSize l N = ib.length ∧ LeastStates states (fun w => g.accepts w = .ok true) ∧
      total = ∑ j ∈ Finset.range k, futures (fun w => g.accepts w = .ok true) j ∧
      rows = basicInfo E (w ++ line items) ++ skipNotes skip ++ told ["Parameter:".toList, "\tMode:\tOffline FA Runner".toList,
        "\tInput size:\t".toList ++ showNat k, "\tState size:\t".toList ++ showNat states,
        "\tBootstrapping frequency:\t".toList ++ showNat (num items "--bootstrapping-freq"), "\tTotal #CMUX:\t".toList ++ showNat total,
        "\tSanitization:\tfalse".toList, []] := by
  obtain ⟨r, h1, rfl⟩ := runLog_plain hw hf h
  clear h
  have wf := wf_of_fromIstream hg hs
  obtain ⟨lines, hl, hk⟩ := hk
  generalize ho : (⟨r, .ok p⟩ : Out (Files × List Char)) = o at h1
  cases h1 with
  | @runOffline _ _ _ _ _ _ pre cs k1 =>
    rw [hib] at k1
    obtain ⟨a1, -, a3⟩ := fetch_head hbs hbs' hlen k1
    obtain ⟨b, -, q⟩ := quiet_bind_ok ho.symm
    obtain ⟨r1, res, r2, q3, e, e2⟩ := out_bind_ok q
    cases e
    rw [List.append_nil] at e2
    subst e2
    have q' := congrArg Out.res q3
    rw [logRunOffline_res, hsb, a1] at q'
    rw [hsb, a1] at q3
    unfold logRunOffline at q3
    obtain ⟨m, D, hm, hD, ⟨r', hr, ht⟩, -⟩ := C71_offline_total _ _ g hg hs cs _ _ q'
    obtain ⟨s, s1, q4⟩ := quiet_bind_ok q3
    cases s1
    obtain ⟨g', r2, s1, q5, e3⟩ := spec_bind_ok q4 hl hk
    rw [hg] at s1
    cases s1
    obtain ⟨m', s1, q6⟩ := quiet_bind_ok q5
    rw [hm] at s1
    cases s1
    obtain ⟨r'', s1, q7⟩ := quiet_bind_ok q6
    rw [hr] at s1
    cases s1
    obtain ⟨t1, q8, rfl⟩ := info_bind_ok q7
    obtain ⟨t2, q9, rfl⟩ := info_bind_ok q8
    obtain ⟨t3, q10, rfl⟩ := info_bind_ok q9
    obtain ⟨t4, q11, rfl⟩ := info_bind_ok q10
    obtain ⟨t5, q12, rfl⟩ := info_bind_ok q11
    obtain ⟨total, s1, q13⟩ := quiet_bind_ok q12
    rw [ht] at s1
    cases s1
    obtain ⟨t6, q14, rfl⟩ := info_bind_ok q13
    obtain ⟨t7, q15, rfl⟩ := info_bind_ok q14
    obtain ⟨t8, q16, rfl⟩ := info_bind_ok q15
    have hsil : t8 = [] := ((Silent.foldlM (Silent.eval _) _ _).bind fun _ => Silent.quiet _).rows q16
    have hsz : r'.graph.size = m.size := by
      obtain ⟨x, h1, h2, -⟩ := Backstream.make_weight (N := N) (wf_minimized wf hm) (num items "--bootstrapping-freq") (some cs.length)
      unfold offlineMake at hr
      rw [h1] at hr
      cases hr
      rw [h2]
      rfl
    refine ⟨cs.length, m.size, _, a3, leastStates_of wf hm fun _ => Iff.rfl, rfl, ?_⟩
    rw [e3, hsil, hsz, List.append_assoc, Finset.sum_congr rfl fun j _ => futures_eq wf hm hD j]
    rfl

/-- **C118, `run reverse`.** The number of ciphertexts and the number of states of the smallest automaton for the words read backwards, or that of the spec itself
with `--spec-reversed`. -/
theorem C118_reverse (L : Lib N n l) (hbs : 0 < blockSize l N) (hbs' : blockSize l N < 2 ^ 63) (E : HomfaEnv) (stdin : List Char) (fs : Files) {w : List String}
    (hw : w ∈ Cmd.runReverse.names) {items : List Item} (hf : Cmd.runReverse.usage.Follows (fun f => (fs f).isSome) items) {sb ib : List Byte}
    (hsb : fs (opt items "--spec") = some sb) (hib : fs (opt items "--in") = some ib) (hlen : ib.length < 2 ^ 63) {g : Graph}
    (hg : Graph.fromIstream (textOf sb) = .ok g) (hs : 0 < g.size) {skip : List (List Char)} (hk : SkippedLines sb skip) {rows : List Row} {p : Files × List Char}
    (h : RunLog L E stdin fs (w ++ line items) rows p) :
    ∃ k states, k * blockSize l N = ib.length ∧
      (if has items "--spec-reversed" then states = g.size else LeastStates states (fun w => g.accepts w.reverse = .ok true)) ∧
      rows = basicInfo E (w ++ line items) ++ skipNotes skip ++ told ["Parameter:".toList, "\tMode:\tOnline FA Runner2 (reversed)".toList,
        "\tInput size:\t".toList ++ showNat k ++ " (hidden)".toList, "\tState size:\t".toList ++ showNat states,
        "\tOutput file name:\t".toList ++ (opt items "--out").toList,
        "\tBootstrapping frequency:\t".toList ++ showNat (num items "--bootstrapping-freq"), "\tSanitization:\tfalse".toList, []] := by
  obtain ⟨r, h1, rfl⟩ := runLog_plain hw hf h
  clear h
  have wf := wf_of_fromIstream hg hs
  obtain ⟨lines, hl, hk⟩ := hk
  generalize ho : (⟨r, .ok p⟩ : Out (Files × List Char)) = o at h1
  cases h1 with
  | @runReverse _ _ _ _ _ _ _ _ _ pre cs k1 =>
    rw [hib] at k1
    obtain ⟨a1, -, a3⟩ := fetch_head hbs hbs' hlen k1
    obtain ⟨b, -, q⟩ := quiet_bind_ok ho.symm
    obtain ⟨r1, res, r2, q3, e, e2⟩ := out_bind_ok q
    cases e
    rw [List.append_nil] at e2
    subst e2
    rw [hsb, a1] at q3
    unfold logRunReverse at q3
    obtain ⟨_, -, q3⟩ := quiet_bind_ok q3
    obtain ⟨s, s1, q4⟩ := quiet_bind_ok q3
    cases s1
    obtain ⟨g', r2, s1, q5, e3⟩ := spec_bind_ok q4 hl hk
    rw [hg] at s1
    cases s1
    obtain ⟨r', hr, q7⟩ := quiet_bind_ok q5
    obtain ⟨t1, q8, rfl⟩ := info_bind_ok q7
    obtain ⟨t2, q9, rfl⟩ := info_bind_ok q8
    obtain ⟨t3, q10, rfl⟩ := info_bind_ok q9
    obtain ⟨t4, q11, rfl⟩ := info_bind_ok q10
    unfold logDest at q11
    obtain ⟨t5, _, t6, d1, q12, rfl⟩ := out_bind_ok q11
    cases d1
    obtain ⟨t6, q14, rfl⟩ := info_bind_ok q12
    obtain ⟨t7, q15, rfl⟩ := info_bind_ok q14
    obtain ⟨t8, q16, rfl⟩ := info_bind_ok q15
    have hsil : t8 = [] := ((Silent.loop (Silent.eval _) (fun _ => (Silent.quiet _).bind fun _ => Silent.pure _) _ _ _ _ _).bind fun _ => (Silent.quiet _).bind fun _ =>
      (Silent.quiet _).bind fun _ => Silent.pure _).rows q16
    have hsz : if has items "--spec-reversed" then r'.graph.size = g.size else LeastStates r'.graph.size (fun w => g.accepts w.reverse = .ok true) := by
      unfold reverseMake at hr
      have size : ∀ {m : Graph}, m.WF → Backstream.make (N := N) m (num items "--bootstrapping-freq") none true false = .ok r' → r'.graph.size = m.size := by
        intro m hm h
        obtain ⟨x, h1, h2, -⟩ := Backstream.make_weight (N := N) hm (num items "--bootstrapping-freq") none
        rw [h1] at h
        cases h
        rw [h2]
      by_cases hrev : has items "--spec-reversed" = true
      · rw [if_pos hrev] at hr ⊢
        exact size wf hr
      · rw [if_neg hrev] at hr ⊢
        obtain ⟨g1, c1, c2, c3⟩ := C03_reversed_language g wf
        obtain ⟨g2, d1, d2, -⟩ := C04_minimized_language g1 c2
        rw [c1, Res.bind_ok, d1, Res.bind_ok] at hr
        rw [size d2 hr]
        exact leastStates_of c2 d1 fun w => by rw [c3]
    refine ⟨cs.length, r'.graph.size, a3, hsz, ?_⟩
    rw [e3, hsil, List.append_assoc]
    rfl

/-- **C118, `run flut`.** The number of ciphertexts and the numbers of states and of inputs per block. -/
theorem C118_flut (L : Lib N n l) (hbs : 0 < blockSize l N) (hbs' : blockSize l N < 2 ^ 63) (E : HomfaEnv) (stdin : List Char) (fs : Files) {w : List String}
    (hw : w ∈ Cmd.runFlut.names) {items : List Item} (hf : Cmd.runFlut.usage.Follows (fun f => (fs f).isSome) items) {sb ib : List Byte}
    (hsb : fs (opt items "--spec") = some sb) (hib : fs (opt items "--in") = some ib) (hlen : ib.length < 2 ^ 63) {g : Graph}
    (hg : Graph.fromIstream (textOf sb) = .ok g) {skip : List (List Char)} (hk : SkippedLines sb skip) {rows : List Row} {p : Files × List Char}
    (h : RunLog L E stdin fs (w ++ line items) rows p) :
    ∃ k, k * blockSize l N = ib.length ∧
      rows = basicInfo E (w ++ line items) ++ skipNotes skip ++ told ["Parameter:".toList, "\tMode:\tOnline FA Runner3 (qtrlwe2)".toList,
        "\tInput size:\t".toList ++ showNat k ++ " (hidden)".toList, "\tState size:\t".toList ++ showNat g.size,
        "\tQueue size:\t".toList ++ showNat (num items "--queue-size"), "\tOutput file name:\t".toList ++ (opt items "--out").toList,
        "\tBootstrapping frequency:\t".toList ++ showNat (num items "--bootstrapping-freq"), "\tSanitization:\tfalse".toList, []] := by
  obtain ⟨r, h1, rfl⟩ := runLog_plain hw hf h
  clear h
  obtain ⟨lines, hl, hk⟩ := hk
  generalize ho : (⟨r, .ok p⟩ : Out (Files × List Char)) = o at h1
  cases h1 with
  | @runFlut _ _ _ _ _ _ _ _ _ _ _ pre cs k1 =>
    rw [hib] at k1
    obtain ⟨a1, -, a3⟩ := fetch_head hbs hbs' hlen k1
    rw [hsb] at ho
    obtain ⟨s, s1, q4⟩ := quiet_bind_ok ho.symm
    cases s1
    obtain ⟨g', r2, s1, q5, e3⟩ := spec_bind_ok q4 hl hk
    rw [hg] at s1
    cases s1
    obtain ⟨b, -, q⟩ := quiet_bind_ok q5
    obtain ⟨_, -, q⟩ := quiet_bind_ok q
    obtain ⟨r1, res, r3, q3, e, e2⟩ := out_bind_ok q
    cases e
    rw [List.append_nil] at e2
    subst e2
    rw [a1] at q3
    unfold logRunFlut at q3
    obtain ⟨r', hr, q7⟩ := quiet_bind_ok q3
    obtain ⟨t1, q8, rfl⟩ := info_bind_ok q7
    obtain ⟨t2, q9, rfl⟩ := info_bind_ok q8
    obtain ⟨t3, q10, rfl⟩ := info_bind_ok q9
    obtain ⟨t4, q11, rfl⟩ := info_bind_ok q10
    obtain ⟨t9, q21, rfl⟩ := info_bind_ok q11
    unfold logDest at q21
    obtain ⟨t5, _, t6, d1, q12, rfl⟩ := out_bind_ok q21
    cases d1
    obtain ⟨t6, q14, rfl⟩ := info_bind_ok q12
    obtain ⟨t7, q15, rfl⟩ := info_bind_ok q14
    obtain ⟨t8, q16, rfl⟩ := info_bind_ok q15
    rw [if_neg (by simp), if_neg (by simp)] at q16
    have hsil : t8 = [] := ((Silent.loop (Silent.flut _) (fun _ => Silent.flutResult _ _) _ _ _ _ _).bind fun _ => (Silent.quiet _).bind fun _ =>
      (Silent.flutResult _ _).bind fun _ => Silent.pure _).rows q16
    have hsz : r'.queueSize = num items "--queue-size" := by
      unfold Flut.make at hr
      rw [if_neg (by simp)] at hr
      obtain ⟨x, -, hr⟩ := Res.bind_eq_ok.1 hr
      obtain ⟨y, -, hr⟩ := Res.bind_eq_ok.1 hr
      cases hr
      rfl
    refine ⟨cs.length, a3, ?_⟩
    rw [e3, hsil, hsz, List.append_assoc]
    rfl

/-- **C118, `run block`.** The number of ciphertexts and the numbers of states and of inputs per block. -/
theorem C118_block (L : Lib N n l) (hbs : 0 < blockSize l N) (hbs' : blockSize l N < 2 ^ 63) (E : HomfaEnv) (stdin : List Char) (fs : Files) {w : List String}
    (hw : w ∈ Cmd.runBlock.names) {items : List Item} (hf : Cmd.runBlock.usage.Follows (fun f => (fs f).isSome) items) {sb ib : List Byte}
    (hsb : fs (opt items "--spec") = some sb) (hib : fs (opt items "--in") = some ib) (hlen : ib.length < 2 ^ 63) {g : Graph}
    (hg : Graph.fromIstream (textOf sb) = .ok g) {skip : List (List Char)} (hk : SkippedLines sb skip) {rows : List Row} {p : Files × List Char}
    (h : RunLog L E stdin fs (w ++ line items) rows p) :
    ∃ k, k * blockSize l N = ib.length ∧
      rows = basicInfo E (w ++ line items) ++ skipNotes skip ++ told ["Parameter:".toList, "\tMode:\tOnline FA Runner4 (block-backstream)".toList,
        "\tInput size:\t".toList ++ showNat k ++ " (hidden)".toList, "\tState size:\t".toList ++ showNat g.size,
        "\tQueue size:\t".toList ++ showNat (num items "--queue-size"), "\tSanitization:\tfalse".toList, []] := by
  obtain ⟨r, h1, rfl⟩ := runLog_plain hw hf h
  clear h
  obtain ⟨lines, hl, hk⟩ := hk
  generalize ho : (⟨r, .ok p⟩ : Out (Files × List Char)) = o at h1
  cases h1 with
  | @runBlock _ _ _ _ _ _ pre cs k1 =>
    rw [hib] at k1
    obtain ⟨a1, -, a3⟩ := fetch_head hbs hbs' hlen k1
    rw [hsb] at ho
    obtain ⟨s, s1, q4⟩ := quiet_bind_ok ho.symm
    cases s1
    obtain ⟨g', r2, s1, q5, e3⟩ := spec_bind_ok q4 hl hk
    rw [hg] at s1
    cases s1
    obtain ⟨b, -, q⟩ := quiet_bind_ok q5
    obtain ⟨r1, res, r3, q3, e, e2⟩ := out_bind_ok q
    cases e
    rw [List.append_nil] at e2
    subst e2
    rw [a1] at q3
    unfold logRunBlock at q3
    obtain ⟨r', hr, q7⟩ := quiet_bind_ok q3
    obtain ⟨t1, q8, rfl⟩ := info_bind_ok q7
    obtain ⟨t2, q9, rfl⟩ := info_bind_ok q8
    obtain ⟨t3, q10, rfl⟩ := info_bind_ok q9
    obtain ⟨t4, q11, rfl⟩ := info_bind_ok q10
    obtain ⟨t6, q14, rfl⟩ := info_bind_ok q11
    obtain ⟨t7, q15, rfl⟩ := info_bind_ok q14
    obtain ⟨t8, q16, rfl⟩ := info_bind_ok q15
    have hsil : t8 = [] := ((Silent.blockLoop _ _ _ _).bind fun _ => (Silent.quiet _).bind fun _ => Silent.pure _).rows q16
    have hsz : r'.queueSize = num items "--queue-size" := by
      unfold Block.make at hr
      rw [if_neg (by simp)] at hr
      cases hr
      rfl
    refine ⟨cs.length, a3, ?_⟩
    rw [e3, hsil, hsz, List.append_assoc]
    rfl

/-- **C118, the verdict.** The last message of `dec` and of `run plain` is the verdict which they print. -/
theorem C118_verdict (L : Lib N n l) (E : HomfaEnv) (stdin : List Char) (fs : Files) {c : Cmd} (hc : c = .dec ∨ c = .runPlain) {w : List String}
    (hw : w ∈ c.names) {items : List Item} (hf : c.usage.Follows (fun f => (fs f).isSome) items) {rows : List Row} {p : Files × List Char}
    (h : RunLog L E stdin fs (w ++ line items) rows p) :
    (p.2 = ['1'] ∧ rows.getLast? = some ⟨"info", .message "Result (bool): true".toList⟩) ∨
      (p.2 = ['0'] ∧ rows.getLast? = some ⟨"info", .message "Result (bool): false".toList⟩) := by
  obtain ⟨r, h1, rfl⟩ := runLog_plain hw hf h
  clear h
  generalize ho : (⟨r, .ok p⟩ : Out (Files × List Char)) = o at h1
  have last : ∀ {x : Bool} {rows : List Row} {f : List Char → Out (Files × List Char)}, (f = fun out => pure (fs, out)) →
      (printResultOut x >>= f) = ⟨rows, .ok p⟩ → ∀ pre,
      (p.2 = ['1'] ∧ (pre ++ rows).getLast? = some ⟨"info", .message "Result (bool): true".toList⟩) ∨
      (p.2 = ['0'] ∧ (pre ++ rows).getLast? = some ⟨"info", .message "Result (bool): false".toList⟩) := by
    rintro x rows f rfl h pre
    cases x
    all_goals cases h; simp only [List.getLast?_append, printResult]
    · exact .inr ⟨rfl, rfl⟩
    · exact .inl ⟨rfl, rfl⟩
  rcases hc with rfl | rfl
  · cases h1 with
    | dec =>
      obtain ⟨_, -, q⟩ := quiet_bind_ok ho.symm
      obtain ⟨_, -, q⟩ := quiet_bind_ok q
      exact last rfl q _
  · cases h1 with
    | runPlain =>
      obtain ⟨_, -, q⟩ := quiet_bind_ok ho.symm
      obtain ⟨t1, g, t2, -, q2, rfl⟩ := out_bind_ok q
      obtain ⟨_, -, q2⟩ := quiet_bind_ok q2
      obtain ⟨_, -, q2⟩ := quiet_bind_ok q2
      rw [← List.append_assoc]
      exact last rfl q2 _

/-! ## The hypotheses are met -/

def exEnv : HomfaEnv := ⟨"homfa", false, none, false, none, none, 4⟩

/-- An input that is rejected: the log ends with the verdict, `--quiet` leaves nothing of it, and the log at the level of `--verbose` is the same but for the words. -/
example (L : Lib 16 2 1) :
    (∃ rows, RunLog L exEnv [] exRejected ["run", "plain", "--ap", "5", "--spec", "a.spec", "--in", "in"] rows (exRejected, ['0']) ∧
      rows.getLast? = some ⟨"info", .message "Result (bool): false".toList⟩) ∧
    RunLog L exEnv [] exRejected ["--verbose", "--quiet", "run", "plain", "--ap", "5", "--spec", "a.spec", "--in", "in"] [] (exRejected, ['0']) ∧
    ∃ rows, RunLog L exEnv [] exRejected ["--verbose", "run", "plain", "--ap", "5", "--spec", "a.spec", "--in", "in"] rows (exRejected, ['0']) := by
  have hp : RunHomfa L [] exRejected ["run", "plain", "--ap", "5", "--spec", "a.spec", "--in", "in"] (.ok (exRejected, ['0'])) := by
    refine (run_plain (ap := 5) (specB := exSpec.map fun c => BitVec.ofNat 8 c.toNat) (inB := [0x0f#8]) (by simp [Word]) (by simp [Word]) rfl rfl
      (by omega) (by omega)).2 ?_
    have : doRunPlain (textOf (exSpec.map fun c => BitVec.ofNat 8 c.toNat)) (some [0x0f#8]) 5 = .ok ['0'] := by
      decide +kernel
    rw [this]
    rfl
  refine ⟨?_, ?_, ?_⟩
  · obtain ⟨rows, h⟩ := (C118_transparent L exEnv [] exRejected (general := []) (by simp) _ _).2 hp
    refine ⟨rows, h, ?_⟩
    have hf : Cmd.runPlain.usage.Follows (fun f => (exRejected f).isSome) [.opt "--ap" "5", .opt "--spec" "a.spec", .opt "--in" "in"] := by
      refine follows_opts (ex := fun f => (exRejected f).isSome) (vals := ["5", "a.spec", "in"]) rfl (by decide) rfl fun p hp => ?_
      simp only [Cmd.usage, List.zip_cons_cons, List.zip_nil_right, List.mem_cons, List.not_mem_nil, or_false] at hp
      rcases hp with rfl | rfl | rfl
      · exact positive_ok (k := 5) (by omega) (by omega) _
      · exact Word.file (b := exSpec.map fun c => BitVec.ofNat 8 c.toNat) (by simp [Word]) rfl
      · exact Word.file (b := [0x0f#8]) (by simp [Word]) rfl
    rcases C118_verdict L exEnv [] exRejected (.inr rfl) (w := ["run", "plain"]) (by decide) hf h with ⟨h1, -⟩ | ⟨-, h2⟩
    · cases h1
    · exact h2
  · obtain ⟨rows, h⟩ := (C118_transparent L exEnv [] exRejected (general := ["--verbose", "--quiet"]) (by simp) _ _).2 hp
    have := C118_quiet L exEnv [] exRejected (general := ["--verbose", "--quiet"]) (by simp) (by simp) _ h
    rw [this] at h
    exact h
  · exact (C118_transparent L exEnv [] exRejected (general := ["--verbose"]) (by simp) _ _).2 hp

def exLogItems : List Item := [.opt "--bkey" "bk", .opt "--out" "res", .opt "--spec" "a.spec", .opt "--in" "three", .opt "--bootstrapping-freq" "9"]

theorem exLogItems_follows (ib : List Byte) : Cmd.runOffline.usage.Follows (fun f => (preparedFiles.set "three" ib f).isSome) exLogItems := by
  refine follows_opts (ex := fun f => (preparedFiles.set "three" ib f).isSome) (vals := ["bk", "res", "a.spec", "three", "9"]) rfl (by decide) rfl fun p hp => ?_
  simp only [Cmd.usage, List.zip_cons_cons, List.zip_nil_right, List.mem_cons, List.not_mem_nil, or_false] at hp
  rcases hp with rfl | rfl | rfl | rfl | rfl
  · exact Word.file (b := [2#8]) (by simp [Word]) rfl
  · exact Word.text (by simp [Word]) _
  · exact Word.file (b := ">0 0 1\n1* 0 1\n2 0 1\n".toList.map fun c => BitVec.ofNat 8 c.toNat) (by simp [Word]) rfl
  · exact Word.file (b := ib) (by simp [Word]) (by unfold Files.set; rw [if_pos rfl])
  · exact positive_ok (k := 9) (by omega) (by omega) _

/-- Any three blocks, also such that nobody encrypted and a spec of three states of which two suffice: the whole log, with every library that takes the byte for a key. -/
theorem exOffline_log (L : Lib 32 2 1) {b : L.BKey} (hb : L.loadBKey [2#8] = some b) (ib : List Byte) (hib : ib.length = 3072) :
    ∃ p, RunLog L exEnv [] (preparedFiles.set "three" ib) ["run", "offline", "--bkey", "bk", "--out", "res", "--spec", "a.spec", "--in", "three", "--bootstrapping-freq", "9"]
      (basicInfo exEnv ["run", "offline", "--bkey", "bk", "--out", "res", "--spec", "a.spec", "--in", "three", "--bootstrapping-freq", "9"] ++
        told ["Parameter:".toList, "\tMode:\tOffline FA Runner".toList, "\tInput size:\t3".toList, "\tState size:\t2".toList,
          "\tBootstrapping frequency:\t9".toList, "\tTotal #CMUX:\t5".toList, "\tSanitization:\tfalse".toList, []]) p := by
  have hin : (preparedFiles.set "three" ib) "three" = some ib := by unfold Files.set; rw [if_pos rfl]
  have hf := exLogItems_follows ib
  have hbs : blockSize 1 32 = 1024 := by decide
  have hg : Graph.fromIstream (textOf (">0 0 1\n1* 0 1\n2 0 1\n".toList.map fun c => BitVec.ofNat 8 c.toNat)) = .ok (Graph.built 0 [1] [(0, 0, 1), (1, 0, 1), (2, 0, 1)]) := by
    decide +kernel
  have hm : (Graph.built 0 [1] [(0, 0, 1), (1, 0, 1), (2, 0, 1)]).minimized = .ok (Graph.built 0 [1] [(0, 0, 1), (1, 0, 1)]) := by decide +kernel
  have wf := wf_of_fromIstream hg (by decide)
  have lt : ∀ b, (preparedFiles.set "three" ib) "three" = some b → b.length < 2 ^ 63 := by
    intro b hb
    rw [hin] at hb
    cases hb
    rw [hib]
    omega
  obtain ⟨⟨q, hq⟩, hq2⟩ := fetch_cases (l := 1) (N := 32) (kind := .reversed) (by rw [hbs]; omega) (by rw [hbs]; omega) lt
  rcases hq2 q hq with ⟨-, hno⟩ | ⟨pre, cs, rfl, -, -⟩
  · exact absurd ⟨_, hin, ⟨3, by rw [hbs, hib]⟩⟩ hno
  obtain ⟨a1, -, a3⟩ := fetch_head (by rw [hbs]; omega) (by rw [hbs]; omega) (file := ib) (lt _ hin) (hin ▸ hq)
  rw [hbs, hib] at a3
  have a4 : cs.length = 3 := by omega
  obtain ⟨⟨c, hc⟩, -⟩ := C108_ends (L.server b) (by omega) (by omega) (by rw [hbs]; omega) hg (by decide) (cs := cs) (by rw [a4, hbs]; omega) (by omega) (boot := 9) (by omega)
  have hx := Exec.runOffline (L := L) (stdin := []) (spec := "a.spec") (out := "res") (boot := 9) (bkey := "bk") (sanitize := false) hq
  have e1 : readArchive L.loadBKey ((preparedFiles.set "three" ib) "bk") = .ok b := by
    show readArchive L.loadBKey (some [2#8]) = _
    unfold readArchive
    dsimp only
    rw [hb]
  rw [Res.bind_ok] at hx
  dsimp only at hx
  rw [e1, Res.bind_ok, show readSpec ((preparedFiles.set "three" ib) "a.spec") = .ok (textOf (">0 0 1\n1* 0 1\n2 0 1\n".toList.map fun c => BitVec.ofNat 8 c.toNat)) from rfl,
    Res.bind_ok, a1, hc, Res.bind_ok] at hx
  have hr := RunHomfa.call (C58_runs _ [] (by simp) .runOffline ["run", "offline"] (by decide) _ hf) hx
  obtain ⟨rows, h⟩ := (C118_transparent L exEnv [] (preparedFiles.set "three" ib) (general := []) (by simp) _ _).2 hr
  have hk : SkippedLines (">0 0 1\n1* 0 1\n2 0 1\n".toList.map fun c => BitVec.ofNat 8 c.toNat) [] := by
    refine ⟨[">0 0 1".toList, "1* 0 1".toList, "2 0 1".toList], textLines_iff.2 (by decide +kernel), ?_⟩
    have hstate : ∀ {l : List Char}, (matchSpecLine l).isSome = true → ¬ Spec.NotSpecLine l := by
      intro l h1 h2
      rw [matchSpecLine_none.2 h2] at h1
      cases h1
    exact .state (hstate (by decide)) (.state (hstate (by decide)) (.state (hstate (by decide)) .nil))
  obtain ⟨k, states, total, k1, k2, k3, k4⟩ := C118_offline L (by rw [hbs]; omega) (by rw [hbs]; omega) exEnv [] (preparedFiles.set "three" ib) (w := ["run", "offline"]) (by decide) hf
    rfl hin (by rw [hib]; omega) hg (by decide) hk h
  rw [hbs, hib] at k1
  have k0 : k = 3 := by omega
  have k5 : states = 2 := by
    have := leastStates_of wf hm fun _ => Iff.rfl
    obtain ⟨d, hd⟩ := k2.1
    obtain ⟨d', hd'⟩ := this.1
    exact Nat.le_antisymm (k2.2 _ d' hd') (this.2 _ d hd)
  have k6 : total = 5 := by
    rw [k3, k0, Finset.sum_congr rfl fun j _ => futures_eq wf hm (levels_levelSet (wf_minimized wf hm) (by simp) (by simpa using (wf_minimized wf hm).init_lt)) j]
    decide +kernel
  subst k0 k5 k6
  rw [k4] at h
  exact ⟨_, h⟩

/-- Two libraries, two files of ciphertexts of the same length: the runs end normally and, by `C118_private`, their logs are equal. -/
example (L L' : Lib 32 2 1) {b : L.BKey} {b' : L'.BKey} (hb : L.loadBKey [2#8] = some b) (hb' : L'.loadBKey [2#8] = some b') :
    ∃ rows rows' p p', RunLog L exEnv [] (preparedFiles.set "three" (List.replicate 3072 170#8)) (["run", "offline"] ++ line exLogItems) rows p ∧
      RunLog L' exEnv [] (preparedFiles.set "three" (List.replicate 3072 7#8)) (["run", "offline"] ++ line exLogItems) rows' p' ∧ rows = rows' := by
  obtain ⟨p, h⟩ := exOffline_log L hb (List.replicate 3072 170#8) (by rw [List.length_replicate])
  obtain ⟨p', h'⟩ := exOffline_log L' hb' (List.replicate 3072 7#8) (by rw [List.length_replicate])
  have hbs : blockSize 1 32 = 1024 := by decide
  refine ⟨_, _, p, p', h, h', ?_⟩
  exact C118_private L L' (by rw [hbs]; omega) (by rw [hbs]; omega) exEnv [] [] (preparedFiles.set "three" (List.replicate 3072 170#8))
    (preparedFiles.set "three" (List.replicate 3072 7#8)) (general := []) (by simp) (c := .runOffline) (by simp) (w := ["run", "offline"]) (by decide)
    (items := exLogItems) (exLogItems_follows _) (exLogItems_follows _) rfl (ib := List.replicate 3072 170#8) (ib' := List.replicate 3072 7#8) (by unfold Files.set; rfl)
    (by unfold Files.set; rfl) (by rw [List.length_replicate]; omega) (by rw [List.length_replicate, List.length_replicate]) h h'

end Homfa.Cli
