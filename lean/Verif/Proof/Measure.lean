import Verif.Model.Measure
import Verif.Proof.TestHomfa
import Verif.Proof.Temporal
import Verif.Proof.World
import Verif.Props.Cli
import Verif.Props.Frame

/-! # Lemmas about the measuring scripts -/

namespace Homfa.Cli

variable {N n l : Nat} {L : Lib N n l} {δ : Noise} {Enc : L.Key → Gsw l N → Bool → Prop}

/-! ## Words and items -/

/-- a run that ends normally is the call of a command -/
theorem run_call {stdin : List Char} {fs : Files} {t : String} {rest : List String} (ht : t ≠ "--verbose" ∧ t ≠ "--quiet") {p : Files × List Char}
    (h : RunHomfa L stdin fs (t :: rest) (.ok p)) : ∃ (c : Cmd) (w : List String) (items : List Item), w ∈ c.names ∧ t :: rest = w ++ line items ∧
      c.usage.Follows (fun f => (fs f).isSome) items ∧ Exec L stdin fs (c.call items) (.ok p) := by
  cases h with
  | call h1 h2 =>
    obtain ⟨general, c, w, items, hg, hw, ht', hf, rfl⟩ := C58_only _ _ _ h1
    cases general with
    | nil => exact ⟨c, w, items, hw, ht', hf, h2⟩
    | cons g gs =>
      rw [List.cons_append, List.cons_append] at ht'
      have := (List.cons.inj ht').1
      have := hg g (by simp)
      simp_all

/-- a command without flags and arguments is followed by options only -/
theorem items_opts {u : Usage} {ex : String → Bool} (hfl : u.flags = []) (ha : u.requiredArgs ++ u.optionalArgs = []) {items : List Item}
    (h : u.Follows ex items) : ∃ ps : List (String × String), items = ps.map fun p => .opt p.1 p.2 := by
  have h1 : ∀ v, Item.arg v ∉ items := by
    intro v hv
    have h2 := h.notMore
    rw [ha] at h2
    have h3 : v ∈ args items := List.mem_filterMap.2 ⟨_, hv, rfl⟩
    have := List.length_pos_of_mem h3
    simp at h2
    rw [h2] at h3
    cases h3
  have h2 : ∀ f, Item.flag f ∉ items := by
    intro f hf
    have := h.flags f hf
    rw [hfl] at this
    cases this
  clear h
  induction items with
  | nil => exact ⟨[], rfl⟩
  | cons i items ih =>
    obtain ⟨ps, rfl⟩ := ih (fun v hv => h1 v (by simp [hv])) (fun f hf => h2 f (by simp [hf]))
    cases i with
    | opt n v => exact ⟨(n, v) :: ps, rfl⟩
    | flag f => exact absurd (by simp) (h2 f)
    | arg v => exact absurd (by simp) (h1 v)

theorem line_opts : ∀ {ps qs : List (String × String)}, line (ps.map fun p => .opt p.1 p.2) = line (qs.map fun p => .opt p.1 p.2) → ps = qs
  | [], [], _ => rfl
  | [], q :: qs, h => by simp [line, Item.words] at h
  | p :: ps, [], h => by simp [line, Item.words] at h
  | p :: ps, q :: qs, h => by
    simp only [line, List.map_cons, List.flatMap_cons, Item.words, List.cons_append, List.nil_append, List.cons.injEq] at h
    obtain ⟨h1, h2, h3⟩ := h
    rw [line_opts (ps := ps) (qs := qs) h3]
    congr 1
    exact Prod.ext h1 h2

/-- a run of `enc` or `dec` that ends normally has been called with the options of its line -/
theorem run_opts {stdin : List Char} {fs : Files} {c : Cmd} {t : String} (hc : c.names = [[t]]) (ht : t ≠ "--verbose" ∧ t ≠ "--quiet")
    (hu : ∀ c' : Cmd, ∀ w ∈ c'.names, w.head? = some t → c' = c)
    (hfl : c.usage.flags = []) (ha : c.usage.requiredArgs ++ c.usage.optionalArgs = []) {ps : List (String × String)} {p : Files × List Char}
    (h : RunHomfa L stdin fs (t :: line (ps.map fun p => .opt p.1 p.2)) (.ok p)) :
    Exec L stdin fs (c.call (ps.map fun p => .opt p.1 p.2)) (.ok p) := by
  obtain ⟨c', w, items, hw, e, hf, hx⟩ := run_call ht h
  have hne : w ≠ [] := by
    intro h0
    subst h0
    revert hw
    cases c' <;> simp [Cmd.names]
  obtain ⟨x, w', rfl⟩ := List.exists_cons_of_ne_nil hne
  rw [List.cons_append] at e
  obtain ⟨e1, e2⟩ := List.cons.inj e
  have hcc := hu c' _ hw (by rw [← e1]; rfl)
  subst hcc
  rw [hc, List.mem_singleton] at hw
  obtain ⟨-, rfl⟩ := List.cons.inj hw
  obtain ⟨qs, rfl⟩ := items_opts hfl ha hf
  rw [line_opts (e2 : line _ = line _)]
  exact hx

/-! ## The words that are timed -/

theorem refused {ex : String → Bool} {t : String} (h : t = "run-offline-dfa" ∨ t = "run-online-dfa") (rest : List String) :
    homfaMain ex (t :: rest) = .ok none := by
  rcases h with rfl | rfl <;>
    simp [homfaMain, skipGeneral, subs, genkey, genbkey, enc, dec, ltl2spec, spec2spec, spec2dot, spec2att, att2spec]

theorem timed_refused {t : String} (h : t = "run-offline-dfa" ∨ t = "run-online-dfa") {rest : List String} {k : Nat} {fs fs' : Files}
    (hT : Timed L (t :: rest) k fs fs') : fs' = fs := by
  induction hT with
  | done => rfl
  | ran h1 _ _ =>
    cases h1 with
    | call h1 _ => rw [refused h] at h1; cases h1
  | refused _ _ ih => exact ih
  | failed h1 _ _ _ => exact absurd (refused h rest) h1

/-! ## The other commands -/

theorem run_dec_ok {fs fs' : Files} {out : List Char} (h : RunHomfa L [] fs benchDec (.ok (fs', out))) :
    fs' = fs ∧ ∃ kb rb k c, fs "_test_sk" = some kb ∧ L.loadKey kb = some k ∧ fs "_test_out" = some rb ∧ L.loadRes rb = some c ∧
      out = doDec (L.client k) c := by
  have hx := run_opts (c := .dec) (ps := [("--key", "_test_sk"), ("--in", "_test_out")]) (t := "dec") rfl (by decide)
    (by intro c' w hw; revert w; cases c' <;> simp [Cmd.names]) rfl rfl h
  have : Cmd.dec.call ([("--key", "_test_sk"), ("--in", "_test_out")].map fun p => .opt p.1 p.2) = .dec "_test_sk" "_test_out" := rfl
  rw [this] at hx
  generalize hr : (Except.ok (fs', out) : Res (Files × List Char)) = r at hx
  cases hx with
  | dec =>
    obtain ⟨k, h1, h2⟩ := Res.bind_eq_ok.1 hr.symm
    obtain ⟨c, h3, h4⟩ := Res.bind_eq_ok.1 h2
    obtain ⟨rfl, rfl⟩ := Prod.mk.inj (Except.ok.inj h4)
    unfold readArchive at h1 h3
    split at h1
    · cases h1
    rename_i kb hkb
    split at h1
    · rename_i k' hk'
      cases h1
      split at h3
      · cases h3
      rename_i rb hrb
      split at h3
      · rename_i c' hc'
        cases h3
        exact ⟨rfl, kb, rb, _, _, hkb, hk', hrb, hc', rfl⟩
      · cases h3
    · cases h1

theorem run_bench_enc_ok {ps : List (String × String)} (hout : opt (ps.map fun p => .opt p.1 p.2) "--out" = "_test_in") {fs fs' : Files} {out : List Char}
    (h : RunHomfa L [] fs ("enc" :: line (ps.map fun p => .opt p.1 p.2)) (.ok (fs', out))) : ∀ f, f ≠ "_test_in" → fs' f = fs f := by
  have hx := run_opts (c := .enc) (t := "enc") rfl (by decide)
    (by intro c' w hw; revert w; cases c' <;> simp [Cmd.names]) rfl rfl h
  intro f hf
  exact (C62_calls hx).1 f (Cmd.call_writes .enc _ f (.inl (by rw [hout]; exact hf)))

theorem ltlEnc_ok {input : String} {fs fs' : Files} {out : List Char} (h : RunHomfa L [] fs (ltlEnc input) (.ok (fs', out))) :
    ∀ f, f ≠ "_test_in" → fs' f = fs f :=
  run_bench_enc_ok (ps := [("--ap", "3"), ("--key", "_test_sk"), ("--in", input), ("--out", "_test_in")]) rfl h

theorem ltl2spec_ok {fml : String} {fs fs' : Files} {out : List Char} (h : RunHomfa L [] fs ["ltl2spec", fml, "3"] (.ok (fs', out))) : fs' = fs := by
  obtain ⟨c', w, items, hw, e, hf, hx⟩ := run_call (by decide) h
  have hc : c' = .ltl2spec := by
    revert hw hf hx
    cases c' <;> simp only [Cmd.names, List.mem_cons, List.not_mem_nil, or_false] <;> intro hw hf hx <;>
      first
      | trivial
      | (subst hw; simp at e)
      | (rcases hw with rfl | rfl <;> simp at e)
      | (rcases hw with rfl | rfl | rfl <;> simp at e)
  subst hc
  exact funext fun f => (C62_calls hx).1 f (Cmd.call_writes .ltl2spec _ f (.inr rfl))

theorem genkey_made {fs fs1 : Files} (h : MakeIfMissing L fs "_test_sk" ["genkey", "--out", "_test_sk"] (some fs1)) :
    ∀ f, f ≠ "_test_sk" → fs1 f = fs f := by
  cases h with
  | there => intro f _; rfl
  | made _ h =>
    obtain ⟨q, h⟩ := (run_genkey (by unfold Word; decide)).1 h
    cases h
    exact fun f hf => Files.set_other _ _ hf

theorem genbkey_made {fs fs1 : Files} (h : MakeIfMissing L fs "_test_bk" ["genbkey", "--key", "_test_sk", "--out", "_test_bk"] (some fs1)) :
    ∀ f, f ≠ "_test_bk" → fs1 f = fs f := by
  cases h with
  | there => intro f _; rfl
  | made _ h =>
    have hx := run_opts (c := .genbkey) (ps := [("--key", "_test_sk"), ("--out", "_test_bk")]) (t := "genbkey") rfl (by decide)
      (by intro c' w hw; revert w; cases c' <;> simp [Cmd.names]) rfl rfl h
    intro f hf
    exact (C62_calls hx).1 f (Cmd.call_writes .genbkey _ f (.inl hf))

/-! ## bench.sh -/

theorem not_grep {fs : Files} {out : List Char} (h : DecPrints L fs out) : ¬GrepTrue out := by
  intro hg
  have hlen : 19 ≤ out.length := by
    have h1 := List.IsInfix.length_le hg
    have h2 : "Result (bool): true".toList.length = 19 := by decide
    omega
  cases h with
  | ok h =>
    obtain ⟨_, _, _, k, c, _, _, _, _, e⟩ := run_dec_ok h
    have : ∀ b, (printResult b).length = 1 := by decide
    rw [e, doDec, this] at hlen
    omega
  | failed => simp at hlen

/-! ## bench_ltl.sh -/

/-- what a round leaves alone and what it prints -/
theorem ltl_round {log fml input : String} {fs fs' : Files} {out : List Char} (h : LtlRound L log fml input fs (some (fs', out))) :
    (∀ f, f ∉ ["_test_spec", "_test_in", log] → fs' f = fs f) ∧
    ∃ kb rb k c, fs' "_test_sk" = some kb ∧ L.loadKey kb = some k ∧ fs' "_test_out" = some rb ∧ L.loadRes rb = some c ∧
      out = doDec (L.client k) c := by
  cases h with
  | ends h1 h2 h3 h4 =>
    have e1 := ltl2spec_ok h1
    have e2 := ltlEnc_ok h2
    have e3 := timed_refused (t := "run-online-dfa") (.inr rfl) h3
    obtain ⟨rfl, h5⟩ := run_dec_ok h4
    refine ⟨fun f hf => ?_, h5⟩
    simp only [List.mem_cons, List.not_mem_nil, or_false, not_or] at hf
    rw [e3]
    unfold Files.append
    rw [Files.set_other _ _ hf.2.2, e2 f hf.2.1, Files.set_other _ _ hf.1, e1, Files.set_other _ _ hf.1]
    unfold Files.append
    rw [Files.set_other _ _ hf.2.2]

theorem ltl_rounds {log : String} (hlog : log ≠ "_test_sk" ∧ log ≠ "_test_out") {ps : List (String × String)} : ∀ {fs fs' : Files} {outs : List (List Char)},
    LtlRounds L log fs ps (some (fs', outs)) → (∀ f, f ∉ ["_test_spec", "_test_in", log] → fs' f = fs f) ∧ outs.length = ps.length ∧
      ∀ out ∈ outs, ∃ kb rb k c, fs "_test_sk" = some kb ∧ L.loadKey kb = some k ∧ fs "_test_out" = some rb ∧ L.loadRes rb = some c ∧
        out = doDec (L.client k) c := by
  induction ps with
  | nil => intro fs fs' outs h; cases h; simp
  | cons p ps ih =>
    intro fs fs' outs h
    generalize hr : some (fs', outs) = r at h
    cases h with
    | stop => cases hr
    | @next _ _ fs1 out _ r h1 h2 =>
      cases r with
      | none => cases hr
      | some q =>
        obtain ⟨fs2, outs2⟩ := q
        simp only [Option.map_some, Option.some.injEq, Prod.mk.injEq] at hr
        obtain ⟨rfl, rfl⟩ := hr
        obtain ⟨e1, kb, rb, k, c, f1, f2, f3, f4, f5⟩ := ltl_round h1
        obtain ⟨i1, i2, i3⟩ := ih h2
        have hsk : fs1 "_test_sk" = fs "_test_sk" := e1 _ (by simp [hlog.1.symm])
        have hou : fs1 "_test_out" = fs "_test_out" := e1 _ (by simp [hlog.2.symm])
        refine ⟨fun f hf => (i1 f hf).trans (e1 f hf), by simp [i2], ?_⟩
        intro o ho
        rcases List.mem_cons.1 ho with rfl | ho
        · exact ⟨kb, rb, k, c, by rw [← hsk]; exact f1, f2, by rw [← hou]; exact f3, f4, f5⟩
        · obtain ⟨kb, rb, k, c, g1, g2, g3, g4, g5⟩ := i3 o ho
          exact ⟨kb, rb, k, c, by rw [← hsk]; exact g1, g2, by rw [← hou]; exact g3, g4, g5⟩

/-- `dec` ends in some way -/
theorem dec_total (fs : Files) : ∃ r, RunHomfa L [] fs benchDec r := by
  cases h : homfaMain (fun f => (fs f).isSome) benchDec with
  | error e => exact ⟨_, .fails h⟩
  | ok o =>
    cases o with
    | none => exact ⟨_, .usage h⟩
    | some c =>
      obtain ⟨general, c', w, items, hg, hw, ht, hf, rfl⟩ := C58_only _ _ _ h
      have hc : c' = .dec := by
        cases general with
        | cons g gs =>
          have h1 := hg g (by simp)
          have h2 : "dec" = g := (List.cons.inj (ht : _ = g :: _)).1
          rw [← h2] at h1
          simp at h1
        | nil =>
          rw [List.nil_append] at ht
          unfold benchDec at ht
          cases c' <;> simp only [Cmd.names, List.mem_cons, List.not_mem_nil, or_false] at hw <;>
            first
            | rfl
            | (subst hw; simp at ht)
            | (rcases hw with rfl | rfl <;> simp at ht)
            | (rcases hw with rfl | rfl | rfl <;> simp at ht)
      subst hc
      exact ⟨_, .call h .dec⟩

/-- a result that can be read is decrypted -/
theorem dec_reads (hk : ∀ k, L.loadKey (L.saveKey k) = some k) {fs : Files} {k : L.Key} (h : fs "_test_sk" = some (L.saveKey k)) {rb : List Byte}
    {c : TLWE N} (h1 : fs "_test_out" = some rb) (h2 : L.loadRes rb = some c) {r : Res (Files × List Char)} (hr : RunHomfa L [] fs benchDec r) :
    r = .ok (fs, doDec (L.client k) c) := by
  have wk : Word "_test_sk" := by unfold Word; decide
  have wo : Word "_test_out" := by unfold Word; decide
  have hf : Cmd.dec.usage.Follows (fun f => (fs f).isSome) (optItems Cmd.dec.usage ["_test_sk", "_test_out"]) := by
    refine follows_opts rfl (by decide) rfl fun p hp => ?_
    simp only [Cmd.usage, List.zip_cons_cons, List.zip_nil_right, List.mem_cons, List.not_mem_nil, or_false] at hp
    rcases hp with rfl | rfl
    · exact wk.file h
    · exact wo.file h1
  have hx := (run_iff (L := L) (stdin := []) .dec (w := ["dec"]) (by simp [Cmd.names]) hf).1 hr
  have : Cmd.dec.call (optItems Cmd.dec.usage ["_test_sk", "_test_out"]) = .dec "_test_sk" "_test_out" := rfl
  rw [this] at hx
  cases hx with
  | dec => simp [readArchive, h, hk, h1, h2, bind, Except.bind, pure, Except.pure]

/-- one round, with a key, a formula with a monitor and an input -/
theorem ltl_round_total (hL : L.Sound δ Enc) {log fml input : String} (hlog : log ∉ ["_test_sk", "_test_in", "_test_out", "_test_spec", input])
    (wF : Word fml) (wI : Word input) (hI : input ∉ ["_test_in", "_test_spec"]) {M : Monitor} (hM : L.monitor fml 3 = .ok M) (hM' : Spec.MonitorOk M 3)
    {fs : Files} {k : L.Key} (hk : fs "_test_sk" = some (L.saveKey k)) {b : List Byte} (hb : fs input = some b) :
    (∃ r, LtlRound L log fml input fs r) ∧
      ((∃ rb c, fs "_test_out" = some rb ∧ L.loadRes rb = some c) → ¬LtlRound L log fml input fs none) := by
  have wk : Word "_test_sk" := by unfold Word; decide
  have wi : Word "_test_in" := by unfold Word; decide
  simp only [List.mem_cons, List.not_mem_nil, or_false, not_or] at hlog hI
  obtain ⟨l1, l2, l3, l4, l5⟩ := hlog
  obtain ⟨spec, hspec, -⟩ := ltl_plain (by omega) hM' false
  have h1 : ∀ (fs : Files) r, RunHomfa L [] fs ["ltl2spec", fml, "3"] r ↔ r = .ok (fs, spec) := by
    intro fs r
    have := run_ltl2spec (L := L) (fs := fs) (stdin := []) wF (ap := 3) (by omega) hM [] (.inl rfl) (r := r)
    rw [show decide (([] : List String) ≠ []) = false from rfl, hspec] at this
    exact this
  have hw := whole_of_dvd (ap := 3) (w := b) (by omega) (by simp [recordBytes])
  -- the encryption
  have h2 : ∀ fs' : Files, fs' "_test_sk" = some (L.saveKey k) → fs' input = some b →
      (∃ fs2, RunHomfa L [] fs' (ltlEnc input) (.ok (fs2, []))) ∧ ∀ e, ¬RunHomfa L [] fs' (ltlEnc input) (.error e) := by
    intro fs' g1 g2
    have hrun := fun r => run_enc (L := L) (r := r) wk wI wi hL.key g1 g2 hI.1 (ap := 3) (by omega) (by omega)
    constructor
    · obtain ⟨f, ef⟩ := hw.enc (by omega) (L.client k) (fun _ => 0)
      exact ⟨_, (hrun _).2 ⟨fun _ => 0, by rw [ef]; rfl⟩⟩
    · intro e h
      obtain ⟨rand, h⟩ := (hrun _).1 h
      obtain ⟨f, ef⟩ := hw.enc (by omega) (L.client k) rand
      rw [ef] at h
      cases h
  have hkeep : ∀ title : List Byte, ∀ f, f ≠ log → f ≠ "_test_spec" → (((fs.append log title).set "_test_spec" []).set "_test_spec" (outBytes spec)) f = fs f := by
    intro title f f1 f2
    rw [Files.set_other _ _ f2, Files.set_other _ _ f2, Files.append, Files.set_other _ _ f1]
  have hsk := fun title => (hkeep title "_test_sk" (Ne.symm l1) (by decide)).trans hk
  have hin := fun title => (hkeep title input (Ne.symm l5) hI.2).trans hb
  constructor
  · obtain ⟨fs2, g2⟩ := (h2 _ (hsk []) (hin [])).1
    obtain ⟨r, g3⟩ := dec_total (L := L) (fs2.append log [])
    cases r with
    | error e => exact ⟨_, .decFails ((h1 _ _).2 rfl) g2 .done g3⟩
    | ok p => exact ⟨_, .ends ((h1 _ _).2 rfl) g2 .done g3⟩
  · rintro ⟨rb, c, r1, r2⟩ h
    cases h with
    | ltlFails h => have h := (h1 _ _).1 h; cases h
    | encFails g1 g2 =>
      obtain ⟨rfl, rfl⟩ := Prod.mk.inj (Except.ok.inj ((h1 _ _).1 g1))
      exact (h2 _ (hsk _) (hin _)).2 _ g2
    | @decFails title fs1 spec' fs2 o fs3 text e g1 g2 g3 g4 =>
      obtain ⟨rfl, rfl⟩ := Prod.mk.inj (Except.ok.inj ((h1 _ _).1 g1))
      have e2 := ltlEnc_ok g2
      have e3 := timed_refused (t := "run-online-dfa") (.inr rfl) g3
      have hkeep2 : ∀ f, f ≠ log → f ≠ "_test_spec" → f ≠ "_test_in" → (fs3.append log text) f = fs f := by
        intro f f1 f2 f3
        rw [Files.append, Files.set_other _ _ f1, e3, e2 f f3, hkeep title f f1 f2]
      have := dec_reads hL.key ((hkeep2 "_test_sk" (Ne.symm l1) (by decide) (by decide)).trans hk)
        ((hkeep2 "_test_out" (Ne.symm l3) (by decide) (by decide)).trans r1) r2 g4
      cases this

theorem ltl_rounds_total (hL : L.Sound δ Enc) {log : String} {k : L.Key} {fs0 : Files} {ps : List (String × String)}
    (hps : ∀ p ∈ ps, log ∉ ["_test_sk", "_test_in", "_test_out", "_test_spec", p.2] ∧ Word p.1 ∧ Word p.2 ∧ p.2 ∉ ["_test_in", "_test_spec"] ∧
      (∃ M, L.monitor p.1 3 = .ok M ∧ Spec.MonitorOk M 3) ∧ ∃ b, fs0 p.2 = some b) :
    ∀ fs : Files, fs "_test_sk" = some (L.saveKey k) → (∀ p ∈ ps, fs p.2 = fs0 p.2) → fs "_test_out" = fs0 "_test_out" →
      (log ≠ "_test_sk" ∧ log ≠ "_test_out") → (∃ r, LtlRounds L log fs ps r) ∧
      ((∃ rb c, fs0 "_test_out" = some rb ∧ L.loadRes rb = some c) → ¬LtlRounds L log fs ps none) := by
  induction ps with
  | nil => intro fs _ _ _ _; exact ⟨⟨_, .done⟩, fun _ h => by cases h⟩
  | cons p ps ih =>
    intro fs hk hin hout hlog
    obtain ⟨q1, q2, q3, q4, ⟨M, q5, q6⟩, b, q7⟩ := hps p (by simp)
    obtain ⟨⟨r, t1⟩, t2⟩ := ltl_round_total hL q1 q2 q3 q4 q5 q6 hk ((hin p (by simp)).trans q7)
    have hnext : ∀ fs1 out, LtlRound L log p.1 p.2 fs (some (fs1, out)) → (∃ r, LtlRounds L log fs1 ps r) ∧
        ((∃ rb c, fs0 "_test_out" = some rb ∧ L.loadRes rb = some c) → ¬LtlRounds L log fs1 ps none) := by
      intro fs1 out h
      obtain ⟨e1, -⟩ := ltl_round h
      have hkeep : ∀ f, f ≠ "_test_spec" → f ≠ "_test_in" → f ≠ log → fs1 f = fs f := fun f f1 f2 f3 => e1 f (by simp [f1, f2, f3])
      refine ih (fun p hp => hps p (by simp [hp])) fs1 ((hkeep _ (by decide) (by decide) hlog.1.symm).trans hk) (fun p' hp' => ?_)
        ((hkeep _ (by decide) (by decide) hlog.2.symm).trans hout) hlog
      obtain ⟨z1, -, -, z2, -⟩ := hps p' (by simp [hp'])
      simp only [List.mem_cons, List.not_mem_nil, or_false, not_or] at z1 z2
      exact (hkeep _ z2.2 z2.1 (Ne.symm z1.2.2.2.2)).trans (hin p' (by simp [hp']))
    constructor
    · cases r with
      | none => exact ⟨_, .stop t1⟩
      | some q =>
        obtain ⟨r, hr⟩ := (hnext q.1 q.2 t1).1
        exact ⟨_, .next t1 hr⟩
    · rintro ⟨rb, c, r1, r2⟩ h
      generalize hr : (none : Option (Files × List (List Char))) = r at h
      cases h with
      | stop h => exact t2 ⟨rb, c, hout.trans r1, r2⟩ h
      | @next _ _ fs1 out _ r' h1 h2 =>
        cases r' with
        | none => exact (hnext _ _ h1).2 ⟨rb, c, r1, r2⟩ h2
        | some q => cases hr

end Homfa.Cli
