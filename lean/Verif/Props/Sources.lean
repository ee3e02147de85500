import Verif.Spec.Sources
import Verif.Props.Retry

/-!
# C70: a key, result or spec file that is no good

A command given a file that does not hold what it should never ends normally, and whenever it ends it has changed no file and printed no
verdict: earlier outputs survive.
-/

namespace Homfa.Cli

variable {N n l : Nat} {L : Lib N n l}

theorem readSpec_ok {file : Option (List Byte)} {s : List Char} (h : readSpec file = .ok s) : ∃ b, file = some b ∧ s = textOf b := by
  unfold readSpec at h
  split at h <;> cases h
  exact ⟨_, rfl, rfl⟩

theorem readDebugKey_ok {fs : Files} {name : Option String} (h : readDebugKey L fs name = .ok ()) {f : String} (hf : name = some f) :
    ∃ b k, fs f = some b ∧ L.loadKey b = some k := by
  subst hf
  have h : (readArchive L.loadKey (fs f)).map (fun _ => ()) = .ok () := h
  cases e : readArchive L.loadKey (fs f) with
  | error e' => rw [e] at h; cases h
  | ok k => exact (readArchive_ok.1 e).imp fun b hb => ⟨k, hb⟩

/-- the spec of a call that gets to its end -/
theorem spec_read {file : Option (List Byte)} {s : List Char} {g : Graph} (h : readSpec file = .ok s) (hg : Graph.fromIstream s = .ok g) :
    ∃ b g, file = some b ∧ Graph.fromIstream (textOf b) = .ok g := by
  obtain ⟨b, h1, rfl⟩ := readSpec_ok h
  exact ⟨b, g, h1, hg⟩

theorem offline_spec {S : Scheme N n l} {s : List Char} {k : Nat} {cs : List (Gsw l N)} {boot : Nat} {sanitize : Bool} {c : TLWE N}
    (h : doRunOffline S s k cs boot sanitize = .ok c) : ∃ g, Graph.fromIstream s = .ok g := by
  unfold doRunOffline at h
  exact (Res.bind_eq_ok.1 h).imp fun g hg => hg.1

theorem block_spec {S : Scheme N n l} {s : List Char} {cs : List (Gsw l N)} {q : Nat} {sanitize : Bool} {c : TLWE N}
    (h : doRunBlock S s cs q sanitize = .ok c) : ∃ g, Graph.fromIstream s = .ok g := by
  unfold doRunBlock at h
  exact (Res.bind_eq_ok.1 h).imp fun g hg => hg.1

theorem reverse_spec {S : Scheme N n l} {s : List Char} {k : Nat} {cs : List (Gsw l N)} {o d : Option String} {freq boot : Nat}
    {isRev sanitize : Bool} {c : List (OutFile × TLWE N)} (h : doRunReverse S s k cs o d freq boot isRev sanitize = .ok c) :
    ∃ g, Graph.fromIstream s = .ok g := by
  unfold doRunReverse at h
  obtain ⟨_, _, h⟩ := Res.bind_eq_ok.1 h
  exact (Res.bind_eq_ok.1 h).imp fun g hg => hg.1

theorem flut_spec {S : Scheme N n l} {s : List Char} {k : Nat} {cs : List (Gsw l N)} {o d : Option String} {freq q boot : Nat}
    {m : Option Nat} {sanitize : Bool} {c : List (OutFile × TLWE N)} (h : doRunFlut S s k cs o d freq q boot m sanitize = .ok c) :
    ∃ g, Graph.fromIstream s = .ok g := by
  unfold doRunFlut at h
  exact (Res.bind_eq_ok.1 h).imp fun g hg => hg.1

theorem plain_spec {s : List Char} {i : Option (List Byte)} {ap : Nat} {o : List Char} (h : doRunPlain s i ap = .ok o) :
    ∃ g, Graph.fromIstream s = .ok g := by
  unfold doRunPlain at h
  exact (Res.bind_eq_ok.1 h).imp fun g hg => hg.1

theorem key_read {fs : Files} {f : String} {k : L.Key} (h : readArchive L.loadKey (fs f) = .ok k) : Source.Holds L fs f .secretKey :=
  (readArchive_ok.1 h).imp fun _ hb => ⟨k, hb⟩

theorem bkey_read {fs : Files} {f : String} {k : L.BKey} (h : readArchive L.loadBKey (fs f) = .ok k) : Source.Holds L fs f .evaluationKey :=
  (readArchive_ok.1 h).imp fun _ hb => ⟨k, hb⟩

theorem res_read {fs : Files} {f : String} {c : TLWE N} (h : readArchive L.loadRes (fs f) = .ok c) : Source.Holds L fs f .result :=
  (readArchive_ok.1 h).imp fun _ hb => ⟨c, hb⟩

theorem spec_holds {fs : Files} {f : String} {s : List Char} (h : readSpec (fs f) = .ok s) (hg : ∃ g, Graph.fromIstream s = .ok g) :
    Source.Holds L fs f .spec := hg.elim fun _ hg => spec_read h hg

theorem one_source {P : String × Source → Prop} {a : String × Source} (h : P a) : ∀ p ∈ [a], P p := by
  intro p hp; rw [List.mem_singleton.1 hp]; exact h

theorem two_sources {P : String × Source → Prop} {a b : String × Source} (h : P a) (h' : P b) : ∀ p ∈ [a, b], P p := by
  intro p hp
  simp only [List.mem_cons, List.not_mem_nil, or_false] at hp
  rcases hp with rfl | rfl
  · exact h
  · exact h'

theorem flut_sources {fs : Files} {items : List Item} (h : Source.Holds L fs (opt items "--bkey") .evaluationKey)
    (h' : Source.Holds L fs (opt items "--spec") .spec) (hd : readDebugKey L fs (opt? items "--debug-secret-key") = .ok ()) :
    ∀ p ∈ Cmd.runFlut.sources items, p.2.Holds L fs p.1 := by
  intro p hp
  rcases List.mem_append.1 hp with hp | hp
  · exact two_sources (P := fun p => p.2.Holds L fs p.1) h h' p hp
  · obtain ⟨f, hf, rfl⟩ := List.mem_map.1 hp
    exact readDebugKey_ok hd (by simpa using hf)

/-- a call that has changed a file or printed something has read its sources -/
theorem sources_read {fs : Files} {c : Cmd} {items : List Item} {r : Files × List Char} (h : Interrupted L fs (c.call items) r)
    (hc : (c.call items).isConverter = false) : r = (fs, []) ∨ ∀ p ∈ c.sources items, p.2.Holds L fs p.1 := by
  cases c
  case genkey => right; simp [Cmd.sources]
  case genbkey =>
    cases h with
    | early => exact .inl rfl
    | genbkey _ hk => exact .inr (one_source (P := fun p => p.2.Holds L fs p.1) (key_read hk))
    | converter h => cases h
  case enc =>
    cases h with
    | early => exact .inl rfl
    | enc _ hk | encNoInput hk => exact .inr (one_source (P := fun p => p.2.Holds L fs p.1) (key_read hk))
    | converter h => cases h
  case dec =>
    cases h with
    | early => exact .inl rfl
    | dec hk hr => exact .inr (two_sources (P := fun p => p.2.Holds L fs p.1) (key_read hk) (res_read hr))
    | converter h => cases h
  case runOffline =>
    cases h with
    | early => exact .inl rfl
    | runOffline _ hk hs hr =>
      exact .inr (two_sources (P := fun p => p.2.Holds L fs p.1) (bkey_read hk) (spec_holds hs (offline_spec hr)))
    | converter h => cases h
  case runReverse =>
    cases h with
    | early => exact .inl rfl
    | runReverseLoop _ hk hs hg =>
      exact .inr (two_sources (P := fun p => p.2.Holds L fs p.1) (bkey_read hk) (spec_holds hs ⟨_, hg⟩))
    | runReverse _ hk hs hr =>
      exact .inr (two_sources (P := fun p => p.2.Holds L fs p.1) (bkey_read hk) (spec_holds hs (reverse_spec hr)))
    | converter h => cases h
  case runBlock =>
    cases h with
    | early => exact .inl rfl
    | runBlock _ hs hk hr =>
      exact .inr (two_sources (P := fun p => p.2.Holds L fs p.1) (bkey_read hk) (spec_holds hs (block_spec hr)))
    | converter h => cases h
  case runFlut =>
    cases h with
    | early => exact .inl rfl
    | runFlutLoop _ hk hs hg _ _ _ _ _ hd => exact .inr (flut_sources (bkey_read hk) (spec_holds hs ⟨_, hg⟩) hd)
    | runFlut _ hs hk hr _ hd => exact .inr (flut_sources (bkey_read hk) (spec_holds hs (flut_spec hr)) hd)
    | converter h => cases h
  case runPlain =>
    cases h with
    | early => exact .inl rfl
    | runPlain hs hr => exact .inr (one_source (P := fun p => p.2.Holds L fs p.1) (spec_holds hs (plain_spec hr)))
    | converter h => cases h
  all_goals cases hc

theorem fileOrStdin_spec {fs : Files} {stdin s : List Char} {name : Option String} (h : fileOrStdin readSpec fs stdin name = .ok s)
    (hg : ∃ g, Graph.fromIstream s = .ok g) : ∀ p ∈ (name.toList.filter (· ≠ "-")).map fun f => (f, Source.spec), p.2.Holds L fs p.1 := by
  intro p hp
  obtain ⟨f, hf, rfl⟩ := List.mem_map.1 hp
  obtain ⟨h1, h2⟩ := List.mem_filter.1 hf
  have e : name = some f := by simpa using h1
  subst e
  unfold fileOrStdin at h
  rw [if_neg (by simpa using h2)] at h
  exact spec_holds h hg

/-- a call that ends normally has read its sources -/
theorem sources_read_ok {fs : Files} {stdin : List Char} {c : Cmd} {items : List Item} {r : Files × List Char}
    (h : Exec L stdin fs (c.call items) (.ok r)) : ∀ p ∈ c.sources items, p.2.Holds L fs p.1 := by
  generalize hr : (Except.ok r : Res (Files × List Char)) = q at h
  cases c
  case genkey => simp [Cmd.sources]
  case genbkey =>
    cases h with
    | genbkey _ => exact one_source (P := fun p => p.2.Holds L fs p.1) ((Res.bind_eq_ok.1 hr.symm).elim fun _ h => key_read h.1)
  case enc =>
    cases h with
    | enc _ => exact one_source (P := fun p => p.2.Holds L fs p.1) ((Res.bind_eq_ok.1 hr.symm).elim fun _ h => key_read h.1)
  case dec =>
    cases h with
    | dec =>
      obtain ⟨_, h1, h⟩ := Res.bind_eq_ok.1 hr.symm
      obtain ⟨_, h2, h⟩ := Res.bind_eq_ok.1 h
      exact two_sources (P := fun p => p.2.Holds L fs p.1) (key_read h1) (res_read h2)
  case runOffline =>
    cases h with
    | runOffline _ =>
      obtain ⟨_, _, h⟩ := Res.bind_eq_ok.1 hr.symm
      obtain ⟨_, h1, h⟩ := Res.bind_eq_ok.1 h
      obtain ⟨_, h2, h⟩ := Res.bind_eq_ok.1 h
      obtain ⟨_, h3, h⟩ := Res.bind_eq_ok.1 h
      exact two_sources (P := fun p => p.2.Holds L fs p.1) (bkey_read h1) (spec_holds h2 (offline_spec h3))
  case runReverse =>
    cases h with
    | runReverse _ =>
      obtain ⟨_, _, h⟩ := Res.bind_eq_ok.1 hr.symm
      obtain ⟨_, h1, h⟩ := Res.bind_eq_ok.1 h
      obtain ⟨_, h2, h⟩ := Res.bind_eq_ok.1 h
      obtain ⟨_, h3, h⟩ := Res.bind_eq_ok.1 h
      exact two_sources (P := fun p => p.2.Holds L fs p.1) (bkey_read h1) (spec_holds h2 (reverse_spec h3))
  case runBlock =>
    cases h with
    | runBlock _ =>
      obtain ⟨_, _, h⟩ := Res.bind_eq_ok.1 hr.symm
      obtain ⟨_, h2, h⟩ := Res.bind_eq_ok.1 h
      obtain ⟨_, h1, h⟩ := Res.bind_eq_ok.1 h
      obtain ⟨_, h3, h⟩ := Res.bind_eq_ok.1 h
      exact two_sources (P := fun p => p.2.Holds L fs p.1) (bkey_read h1) (spec_holds h2 (block_spec h3))
  case runFlut =>
    cases h with
    | runFlut _ =>
      obtain ⟨_, _, h⟩ := Res.bind_eq_ok.1 hr.symm
      obtain ⟨_, h2, h⟩ := Res.bind_eq_ok.1 h
      obtain ⟨_, h1, h⟩ := Res.bind_eq_ok.1 h
      obtain ⟨⟨⟩, h4, h⟩ := Res.bind_eq_ok.1 h
      obtain ⟨_, h3, h⟩ := Res.bind_eq_ok.1 h
      exact flut_sources (bkey_read h1) (spec_holds h2 (flut_spec h3)) h4
  case runPlain =>
    cases h with
    | runPlain =>
      obtain ⟨_, h1, h⟩ := Res.bind_eq_ok.1 hr.symm
      obtain ⟨_, h2, h⟩ := Res.bind_eq_ok.1 h
      exact one_source (P := fun p => p.2.Holds L fs p.1) (spec_holds h1 (plain_spec h2))
  case ltl2spec => simp [Cmd.sources]
  case att2spec => simp [Cmd.sources]
  case spec2spec =>
    cases h with
    | spec2spec =>
      obtain ⟨_, h1, h⟩ := Res.bind_eq_ok.1 hr.symm
      obtain ⟨_, h2, h⟩ := Res.bind_eq_ok.1 h
      unfold doSpec2spec at h2
      exact fileOrStdin_spec h1 ((Res.bind_eq_ok.1 h2).imp fun _ h => h.1)
  case spec2dot =>
    cases h with
    | spec2dot =>
      obtain ⟨_, h1, h⟩ := Res.bind_eq_ok.1 hr.symm
      obtain ⟨_, h2, h⟩ := Res.bind_eq_ok.1 h
      unfold doSpec2dot at h2
      exact fileOrStdin_spec h1 ((Res.bind_eq_ok.1 h2).imp fun _ h => h.1)
  case spec2att =>
    cases h with
    | spec2att =>
      obtain ⟨_, h1, h⟩ := Res.bind_eq_ok.1 hr.symm
      obtain ⟨_, h2, h⟩ := Res.bind_eq_ok.1 h
      unfold doSpec2att at h2
      exact fileOrStdin_spec h1 ((Res.bind_eq_ok.1 h2).imp fun _ h => h.1)

/-- the converters, which print a text -/
def Cmd.prints : Cmd → Bool
  | .ltl2spec | .spec2spec | .spec2dot | .spec2att | .att2spec => true
  | _ => false

/-- **C70.** A command line one of whose key, result or spec files is not what it should be: no run of it ends normally, and a run stopped at
any moment, also by the program itself, has left every file as it was, and has printed nothing unless it is a converter. -/
theorem C70_bad_source (c : Cmd) {w : List String} (hw : w ∈ c.names) {items : List Item} {fs : Files}
    (h : c.usage.Follows (fun f => (fs f).isSome) items) {f : String} {s : Source} (hs : (f, s) ∈ c.sources items)
    (hbad : ¬ s.Holds L fs f) :
    (∀ stdin r, RunHomfa L stdin fs (w ++ line items) r → ∃ e, r = .error e) ∧
    (∀ fs' out, RunInterrupted L fs (w ++ line items) (fs', out) → fs' = fs ∧ (c.prints = false → out = [])) := by
  refine ⟨fun stdin r hr => ?_, fun fs' out hr => ?_⟩
  · cases r with
    | error e => exact ⟨e, rfl⟩
    | ok r => exact absurd (sources_read_ok ((run_iff c hw h).1 hr) _ hs) hbad
  · have e := C58_runs (fun f => (fs f).isSome) [] (by simp) c w hw items h
    rw [List.nil_append] at e
    generalize hp : (fs', out) = p at hr
    cases hr with
    | parsing => cases hp; exact ⟨rfl, fun _ => rfl⟩
    | call h1 h2 =>
      subst hp
      rw [e] at h1
      cases h1
      cases hc : (c.call items).isConverter with
      | false =>
        rcases sources_read h2 hc with h3 | h3
        · cases h3; exact ⟨rfl, fun _ => rfl⟩
        · exact absurd (h3 _ hs) hbad
      | true =>
        have hp : c.prints = true := by cases c <;> first | rfl | cases hc
        refine ⟨?_, by rw [hp]; exact nofun⟩
        funext name
        refine (interrupted_frame h2).1 name ?_
        cases c <;> first | exact id | cases hc

/-- a required option names a file that exists -/
theorem Usage.Follows.exists {u : Usage} {ex : String → Bool} {items : List Item} (h : u.Follows ex items) {name : String}
    (hm : (name, Kind.file) ∈ u.required) (hu : ∀ k, (name, k) ∈ u.required ++ u.optional → k = .file) : ex (opt items name) = true := by
  obtain ⟨v, hv⟩ := h.all _ _ hm
  cases e : opt? items name with
  | none => exact absurd (show name ∈ optNames items from List.mem_filterMap.2 ⟨_, hv, rfl⟩) (opt?_none.1 e)
  | some v' =>
    obtain ⟨k, hk, hok⟩ := h.known _ _ (opt?_mem e)
    rw [hu k hk] at hok
    unfold opt
    rw [e]
    exact hok.2

theorem readArchive_die {α : Type} {load : List Byte → Option α} {file : Option (List Byte)} (h : file.isSome = true)
    (hbad : ¬ ∃ b x, file = some b ∧ load b = some x) : readArchive load file = .error .die := by
  obtain ⟨b, rfl⟩ := Option.isSome_iff_exists.1 h
  unfold readArchive
  cases e : load b with
  | none => simp only [e]
  | some x => exact absurd ⟨b, x, rfl, e⟩ hbad

/-- **C70**: a secret key or result that is not an archive is reported with a message by `genbkey`, `enc` and `dec`. -/
theorem C70_message (c : Cmd) (hc : c = .genbkey ∨ c = .enc ∨ c = .dec) {w : List String} (hw : w ∈ c.names) {items : List Item} {fs : Files}
    (h : c.usage.Follows (fun f => (fs f).isSome) items) {f : String} {s : Source} (hs : (f, s) ∈ c.sources items)
    (hbad : ¬ s.Holds L fs f) {stdin : List Char} {r : Res (Files × List Char)} (hr : RunHomfa L stdin fs (w ++ line items) r) :
    r = .error .die := by
  have hx := (run_iff c hw h).1 hr
  rcases hc with rfl | rfl | rfl
  · have hk := h.exists (name := "--key") (by simp [Cmd.usage]) (by simp [Cmd.usage])
    cases List.mem_singleton.1 hs
    cases hx with
    | genbkey _ => rw [readArchive_die hk hbad]; rfl
  · have hk := h.exists (name := "--key") (by simp [Cmd.usage]) (by simp [Cmd.usage])
    cases List.mem_singleton.1 hs
    cases hx with
    | enc _ => rw [readArchive_die hk hbad]; rfl
  · have hk := h.exists (name := "--key") (by simp [Cmd.usage]) (by simp [Cmd.usage])
    have hi := h.exists (name := "--in") (by simp [Cmd.usage]) (by simp [Cmd.usage])
    by_cases hb : Source.Holds L fs (opt items "--key") .secretKey
    · simp only [Cmd.sources, List.mem_cons, List.not_mem_nil, or_false, Prod.mk.injEq] at hs
      rcases hs with ⟨rfl, rfl⟩ | ⟨rfl, rfl⟩
      · exact absurd hb hbad
      · obtain ⟨b, k, h1, h2⟩ := hb
        cases hx with
        | dec => rw [readArchive_ok.2 ⟨b, h1, h2⟩, Res.bind_ok, readArchive_die hi hbad]; rfl
    · cases hx with
      | dec => rw [readArchive_die hk hb]; rfl

/-- **C70**: the input of `enc` is different.  If its last record is cut off, `enc` aborts, but not before it has emptied its output file. -/
theorem C70_enc_cut (hk : ∀ k, L.loadKey (L.saveKey k) = some k) {fs : Files} {K I C : String} (hK : Word K) (hI : Word I) (hC : Word C)
    {k : L.Key} (h : fs K = some (L.saveKey k)) {inB : List Byte} (hi : fs I = some inB) (hne : I ≠ C) {ap : Nat} (h0 : 0 < ap)
    (h64 : ap < 2 ^ 64) (hcut : ¬ recordBytes ap ∣ inB.length) :
    (∀ r, RunHomfa L [] fs ["enc", "--ap", toString ap, "--key", K, "--in", I, "--out", C] r → r = .error .assertFail) ∧
    RunInterrupted L fs ["enc", "--ap", toString ap, "--key", K, "--in", I, "--out", C] (fs.set C [], []) := by
  constructor
  · intro r hr
    obtain ⟨rand, rfl⟩ := (run_enc hK hI hC hk h hi hne h0 h64).1 hr
    have e : doEnc (L.client k) rand (some inB) ap = .error .assertFail := by
      unfold doEnc
      have := C19_aborts_iff ap h0 (some inB)
        (fun s b => (s.1 + 1, s.2 ++ saveGsw ((L.client k).encrypt (rand s.1) b))) ((0, []) : Nat × List Byte)
      rcases this with ⟨⟨b, hb, hd⟩, _⟩ | ⟨_, he⟩
      · cases hb; exact absurd hd hcut
      · rw [show encOne (L.client k) rand = fun s b => .ok (s.1 + 1, s.2 ++ saveGsw ((L.client k).encrypt (rand s.1) b)) from rfl, he]
        rfl
    rw [e]; rfl
  · have hf : Cmd.enc.usage.Follows (fun f => (fs f).isSome) (optItems Cmd.enc.usage [toString ap, K, I, C]) := by
      refine follows_opts rfl (by decide) rfl fun p hp => ?_
      simp only [Cmd.usage, List.zip_cons_cons, List.zip_nil_right, List.mem_cons, List.not_mem_nil, or_false] at hp
      rcases hp with rfl | rfl | rfl | rfl
      · exact positive_ok h0 h64 _
      · exact hK.file h
      · exact hI.file hi
      · exact hC.text _
    have e := C58_runs (fun f => (fs f).isSome) [] (by simp) .enc ["enc"] (by simp [Cmd.names]) _ hf
    refine .call e ?_
    have : Cmd.enc.call (optItems Cmd.enc.usage [toString ap, K, I, C]) = .enc K I C (Nat.ofDigitChars 10 (toString ap).toList 0) := rfl
    rw [this]
    exact .encNoInput (readArchive_ok.2 ⟨_, h, hk k⟩)

/-- `genbkey` on a file that is no key: the evaluation key made before survives. -/
example : ∃ (L : Lib 16 2 1) (fs : Files), fs "bk" = some [3#8] ∧
    Cmd.genbkey.usage.Follows (fun f => (fs f).isSome) [.opt "--key" "sk", .opt "--out" "bk"] ∧
    ("sk", Source.secretKey) ∈ Cmd.genbkey.sources [.opt "--key" "sk", .opt "--out" "bk"] ∧ ¬ Source.Holds L fs "sk" .secretKey ∧
    RunHomfa L [] fs ["genbkey", "--key", "sk", "--out", "bk"] (.error .die) := by
  obtain ⟨φ, hφ⟩ := exists_numbering 16
  let fs : Files := fun f => if f = "bk" then some [3#8] else if f = "sk" then some [7#8] else none
  have hf : Cmd.genbkey.usage.Follows (fun f => (fs f).isSome) [.opt "--key" "sk", .opt "--out" "bk"] := by
    refine follows_opts (u := Cmd.genbkey.usage) (vals := ["sk", "bk"]) rfl (by decide) rfl fun p hp => ?_
    simp only [Cmd.usage, List.zip_cons_cons, List.zip_nil_right, List.mem_cons, List.not_mem_nil, or_false] at hp
    rcases hp with rfl | rfl
    · exact Word.file (by simp [Word]) (b := [7#8]) rfl
    · exact Word.text (by simp [Word]) _
  have hbad : ¬ Source.Holds (toyLib 16 2 1 φ) fs "sk" .secretKey := by
    rintro ⟨b, k, h1, h2⟩
    have : b = [7#8] := by simpa [fs] using h1.symm
    subst this
    simp [toyLib] at h2
  refine ⟨toyLib 16 2 1 φ, fs, rfl, hf, by decide, hbad, ?_⟩
  refine (run_iff (w := ["genbkey"]) .genbkey (by simp [Cmd.names]) hf).2 ?_
  have := Exec.genbkey (L := toyLib 16 2 1 φ) (stdin := []) (fs := fs) 0 (skey := "sk") (out := "bk")
  rwa [readArchive_die rfl hbad] at this

/-- an input cut off in its second record -/
example : ¬ recordBytes 10 ∣ [0x1f#8, 0x00#8, 0x01#8].length := by decide

end Homfa.Cli
