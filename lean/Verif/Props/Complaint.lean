import Verif.Proof.Complaint
import Verif.Proof.Loud
/-!
# C122: homfa gives up only with a message that is true
-/

namespace Homfa.Cli
open Homfa.Spec

variable {N n l : Nat} {L : Lib N n l} {stdin : List Char} {fs : Files} {toks : List String}

theorem callSaid_res (a : Args) : (callSaid a).res = (dispatch a).map some := by
  unfold callSaid
  rw [bind_res]
  unfold dispatchSaid
  cases h : dispatch a with
  | ok c => rfl
  | error e => cases e <;> rfl

theorem homfaMainSaid_res (ex : String → Bool) (toks : List String) : (homfaMainSaid ex toks).res = homfaMain ex toks := by
  unfold homfaMainSaid homfaMain
  cases skipGeneral toks with
  | nil => exact callSaid_res _
  | cons t rest =>
    dsimp only
    have sub : ∀ ds : List SubDecl, ∀ s rest, (match ds.find? (fun d => d.names.contains s) with
        | some d => match parseSub ex d rest with
          | some a => callSaid a
          | none => pure none
        | none => pure none : Said (Option Call)).res = (match ds.find? (fun d => d.names.contains s) with
        | some d => match parseSub ex d rest with
          | some a => (dispatch a).map some
          | none => .ok none
        | none => .ok none : Res (Option Call)) := by
      intro ds s rest
      cases ds.find? (fun d => d.names.contains s) with
      | none => rfl
      | some d =>
        dsimp only
        cases parseSub ex d rest with
        | none => rfl
        | some a => exact callSaid_res a
    by_cases ht : t = "run"
    · rw [if_pos ht, if_pos ht]
      cases rest with
      | nil => exact callSaid_res _
      | cons s rest => exact sub runSubs s rest
    · rw [if_neg ht, if_neg ht]
      exact sub subs t rest

theorem homfaMainSaid_error {ex : String → Bool} {notes : List Note} {e : Err} (h : homfaMainSaid ex toks = ⟨notes, .error e⟩) :
    e = .die ∧ notes = lastWords "Please specify subcommand".toList ∧
      ∃ general : List String, (∀ g ∈ general, g = "--verbose" ∨ g = "--quiet") ∧ (toks = general ∨ toks = general ++ ["run"]) := by
  have hr : homfaMain ex toks = .error e := by rw [← homfaMainSaid_res, h]
  obtain ⟨he, general, hg, ht⟩ := C58_never_throws ex toks e hr
  refine ⟨he, ?_, general, hg, ht⟩
  have hs : skipGeneral toks = [] ∨ skipGeneral toks = ["run"] := by
    rcases ht with rfl | rfl
    · left; have := skipGeneral_append hg (toks := []); simpa [skipGeneral] using this
    · right; rw [skipGeneral_append hg]; decide
  have hm : homfaMainSaid ex toks = callSaid Args.empty := by
    unfold homfaMainSaid
    rcases hs with hs | hs <;> rw [hs]
    rfl
  rw [hm] at h
  have : callSaid Args.empty = ⟨lastWords "Please specify subcommand".toList, .error .die⟩ := rfl
  rw [this] at h
  exact (congrArg Said.notes h).symm

/-- **C122 (what homfa says is so).** Whatever the words, the files and the standard input: a run of homfa logs no error, or it gives up with one message and a backtrace.  The
message is that a subcommand is missing, and it is; or the line calls a command as the manual says, and the message is a complaint that is true of its files. -/
theorem C122_true {x : Said (Files × List Char)} (h : RunSaid L stdin fs toks x) :
    x.notes = [] ∨ ∃ m, x.notes = [.error m, .error "Preparing backtrace...".toList, .backtrace] ∧ x.res = .error .die ∧
      ∃ general : List String, (∀ g ∈ general, g = "--verbose" ∨ g = "--quiet") ∧
        ((m = "Please specify subcommand".toList ∧ (toks = general ∨ toks = general ++ ["run"])) ∨
        ∃ (c : Cmd) (w : List String) (items : List Item), w ∈ c.names ∧ toks = general ++ w ++ line items ∧
          c.usage.Follows (fun f => (fs f).isSome) items ∧ Complaint L stdin fs c items m) := by
  cases h with
  | usage => exact .inl rfl
  | fails h =>
    obtain ⟨rfl, rfl, general, hg, ht⟩ := homfaMainSaid_error h
    exact .inr ⟨_, rfl, rfl, general, hg, .inl ⟨rfl, ht⟩⟩
  | @call call _ hc hx =>
    have hr : homfaMain (fun f => (fs f).isSome) toks = .ok (some call) := by rw [← homfaMainSaid_res, hc]; rfl
    obtain ⟨general, c, w, items, hg, hw, ht, hf, rfl⟩ := C58_only _ _ _ hr
    rcases fair_exec hx with h | ⟨m, rfl, h⟩
    · exact .inl h
    · exact .inr ⟨m, rfl, rfl, general, hg, .inr ⟨c, w, items, hw, ht, hf, h⟩⟩

/-- **C122 (what homfa never says).** The messages about `--out` and `--out-dir` and about sanitization, which the program contains, are never logged by homfa. -/
theorem C122_never {x : Said (Files × List Char)} (h : RunSaid L stdin fs toks x) :
    .error "Use --out or --out-dir".toList ∉ x.notes ∧ .error "Sanitization of results is not implemented".toList ∉ x.notes ∧
      .error "Not implemented for now".toList ∉ x.notes := by
  have key : ∀ m, .error m ∈ x.notes → m.head? = some 'P' ∨ m.head? = some 'I' ∨ m.head? = some 'E' ∨ m.head? = some 'T' := by
    intro m hm
    rcases C122_true h with h | ⟨m', h1, _, _, _, h2⟩
    · rw [h] at hm; cases hm
    · rw [h1] at hm
      simp only [List.mem_cons, Note.error.injEq, List.not_mem_nil, or_false, reduceCtorEq] at hm
      rcases hm with rfl | rfl
      · rcases h2 with ⟨rfl, _⟩ | ⟨c, w, items, _, _, _, hc⟩
        · exact .inl rfl
        · cases hc with
          | archive | att | noFile => exact .inr (.inl rfl)
          | spec _ _ _ hf =>
            cases hf with
            | item => exact .inr (.inr (.inl rfl))
            | number => exact .inr (.inl rfl)
          | states => exact .inr (.inr (.inr rfl))
      · exact .inl rfl
  refine ⟨fun h => ?_, fun h => ?_, fun h => ?_⟩ <;> have := key _ h <;> revert this <;> decide

/-- The automaton is never in more states than it has, or in one if it has none. -/
theorem StatesAfter.length_le {text : List Char} {g : Graph} (hg : Graph.fromIstream text = .ok g) {k : Nat} {qs : List Nat} (h : StatesAfter g k qs) :
    qs.length ≤ max g.size 1 := by
  by_cases hs : 0 < g.size
  · have hwf := C17_built_graphs_complete.1 text g hg hs
    have hsub : qs ⊆ List.range g.size := by
      intro q hq
      obtain ⟨w, _, hw⟩ := (h.2 q).1 hq
      have hw : g.runWord g.initialState w = .ok q := hw
      rw [show g.initialState = g.init from rfl, (hwf.run_ok hwf.init_lt w).1] at hw
      rw [← Except.ok.inj hw, List.mem_range]
      exact (hwf.run_ok hwf.init_lt w).2
    have := (h.1.subperm hsub).length_le
    rw [List.length_range] at this
    omega
  · have hone : ∀ q ∈ qs, q = g.initialState := by
      intro q hq
      obtain ⟨w, _, hw⟩ := (h.2 q).1 hq
      cases w with
      | nil => exact (Except.ok.inj hw).symm
      | cons b w =>
        have hn : g.nextState g.initialState b = .error .outOfRange := by
          have hz : g.size = 0 := by omega
          have ht : g.delta = [] := List.length_eq_zero_iff.1 hz
          unfold Graph.nextState
          rw [ht]; rfl
        rw [List.foldlM_cons, hn] at hw
        cases hw
    have : qs.length ≤ 1 := by
      match qs, h.1, hone with
      | [], _, _ => simp
      | [_], _, _ => simp
      | a :: b :: t, hn, ho =>
        have h1 := ho a (by simp)
        have h2 := ho b (by simp)
        subst h1
        rw [← h2] at hn
        simp at hn
    omega

/-- **C122 (never without a word).** A run of a command that is called as the manual says is given up exactly if an error is logged: there is no way to `error_die` without a message, and no message without
it.  `hspot`: Spot does not call it; on a malformed formula an assertion fails (src/graph.cpp:628). -/
theorem C122_loud (hspot : ∀ f k, L.monitor f k ≠ .error .die) {general : List String} (hg : ∀ g ∈ general, g = "--verbose" ∨ g = "--quiet") (c : Cmd) {w : List String}
    (hw : w ∈ c.names) {items : List Item} (hf : c.usage.Follows (fun f => (fs f).isSome) items) {x : Said (Files × List Char)}
    (h : RunSaid L stdin fs (general ++ w ++ line items) x) : x.res = .error .die ↔ x.notes ≠ [] := by
  constructor
  · intro hx hn
    have hm := C58_runs (fun f => (fs f).isSome) general hg c w hw items hf
    have hres := homfaMainSaid_res (fun f => (fs f).isSome) (general ++ w ++ line items)
    rw [hm] at hres
    cases h with
    | call h1 h2 => exact ((loud_exec hspot h2).out hn).out hx
    | usage h1 => rw [h1] at hres; cases hres
    | fails h1 => rw [h1] at hres; cases hres
  · intro hn
    rcases C122_true h with h | ⟨_, _, h, _⟩
    · exact absurd h hn
    · exact h

/-- **C122 (deep enough tables).** If the specification has fewer states than two to the power given with `--max-second-lut-depth`, `run flut` never complains about the number of
states. -/
theorem C122_deep {w : List String} (hw : w ∈ Cmd.runFlut.names) {items : List Item} (hf : Cmd.runFlut.usage.Follows (fun f => (fs f).isSome) items) {b : List Byte}
    (hb : fs (opt items "--spec") = some b) {g : Graph} (hg : Graph.fromIstream (textOf b) = .ok g) (hsize : g.size < 2 ^ num items "--max-second-lut-depth")
    {x : Said (Files × List Char)} (h : RunSaid L stdin fs (w ++ line items) x) {m : List Char} (hm : .error m ∈ x.notes) :
    ¬ "The number of next live states".toList <+: m := by
  have hd := num_positive (n := "--max-second-lut-depth") hf (by simp [Cmd.usage]) (by decide)
  have hm' := C58_runs (fun f => (fs f).isSome) [] (by simp) .runFlut w hw items hf
  rw [List.nil_append] at hm'
  have hres := homfaMainSaid_res (fun f => (fs f).isSome) (w ++ line items)
  rw [hm'] at hres
  have he : ExecSaid L stdin fs (Cmd.runFlut.call items) x := by
    cases h with
    | call h1 h2 => rw [h1] at hres; cases hres; exact h2
    | usage h1 => rw [h1] at hres; cases hres
    | fails h1 => rw [h1] at hres; cases hres
  intro hpre
  have hT : m.head? = some 'T' := by
    obtain ⟨t, rfl⟩ := hpre
    rfl
  rcases fair_exec he with h | ⟨m', h, hc⟩
  · rw [h] at hm; cases hm
  · rw [h] at hm
    simp only [lastWords, List.mem_cons, Note.error.injEq, List.not_mem_nil, or_false, reduceCtorEq] at hm
    rcases hm with rfl | rfl
    · cases hc with
      | archive | att | noFile => cases hT
      | spec _ _ _ hf =>
        cases hf with
        | item => cases hT
        | number => cases hT
      | @states _ g' k qs _ ht hg' ha hle =>
        obtain ⟨b', hb', rfl⟩ := ht
        rw [hb] at hb'
        cases hb'
        rw [hg] at hg'
        cases hg'
        have := StatesAfter.length_le hg ha
        have : 2 ^ 1 ≤ 2 ^ num items "--max-second-lut-depth" := Nat.pow_le_pow_right (by omega) (by omega)
        omega
    · cases hT

/-! ## Faults are reported -/

theorem bind_silent {α β : Type} {x : Said α} {f : α → Said β} (h : (x >>= f).notes = []) : x.notes = [] ∧ ∀ a, x.res = .ok a → (f a).notes = [] := by
  cases x with
  | mk nx rx =>
    cases rx with
    | error e => exact ⟨h, fun a ha => by cases ha⟩
    | ok a =>
      have h : nx ++ (f a).notes = [] := h
      obtain ⟨h1, h2⟩ := List.append_eq_nil_iff.1 h
      exact ⟨h1, fun a' ha => by cases ha; exact h2⟩

theorem archive_silent {α : Type} {load : List Byte → Option α} {f : String} (h : (readArchiveSaid load fs f).notes = []) (he : (fs f).isSome = true) :
    ∃ b x, fs f = some b ∧ load b = some x ∧ (readArchiveSaid load fs f).res = .ok x := by
  unfold readArchiveSaid at h ⊢
  obtain ⟨b, hb⟩ := Option.isSome_iff_exists.1 he
  rw [hb] at h ⊢
  dsimp only at h ⊢
  cases hl : load b with
  | none => rw [hl] at h; cases h
  | some x => exact ⟨b, x, rfl, hl, rfl⟩

theorem faulty_loud {text : List Char} (h : FaultyText text) : (fromIstreamSaid text).errors.notes ≠ [] := by
  obtain ⟨a, line, b, rows, m, h1, h2, h3⟩ := h
  obtain ⟨ns, _, h4, _⟩ := C121_fault text a b line m rows h1 h2 h3
  unfold Said.errors
  rw [h4, List.filter_append]
  simp [isError]

/-- A specification that is read, or reported. -/
def SpecRead (fs : Files) (f : String) : Prop := ∃ b, fs f = some b ∧ ((∃ g, Graph.fromIstream (textOf b) = .ok g) ∨ FaultyText (textOf b))

theorem file_silent {f : String} (h : (fromFileSaid (fs f)).notes = []) (hs : SpecRead fs f) :
    Source.Holds L fs f .spec ∧ ∃ g, (fromFileSaid (fs f)).res = .ok g := by
  obtain ⟨b, hb, hs⟩ := hs
  have h2 := (bind_silent h).2 (textOf b) (by rw [hb]; rfl)
  rcases hs with ⟨g, hg⟩ | hs
  · refine ⟨⟨b, g, hb, hg⟩, g, ?_⟩
    unfold fromFileSaid
    rw [bind_res, hb]
    show (fromIstreamSaid (textOf b)).errors.res = _
    rw [errors_res, hg]
  · exact absurd h2 (faulty_loud hs)

/-- **C122 (faults are reported).** A key or a result that is not one, and a line at fault in a specification, make every run give up with a message, if the input of a run command
is a file of ciphertexts; whatever else is wrong with the keys, the result and the specification. -/
theorem C122_speaks (hbs : 0 < blockSize l N) (hbs' : blockSize l N < 2 ^ 63) (hlen : ∀ f b, fs f = some b → b.length < 2 ^ 63) (c : Cmd) {w : List String} (hw : w ∈ c.names)
    {items : List Item} (hf : c.usage.Follows (fun f => (fs f).isSome) items)
    (hin : c = .runOffline ∨ c = .runReverse ∨ c = .runBlock ∨ c = .runFlut → ∃ b, fs (opt items "--in") = some b ∧ blockSize l N ∣ b.length)
    (hspec : ∀ f, (f, .spec) ∈ c.sources items → Source.Holds L fs f .spec ∨ ∃ b, fs f = some b ∧ FaultyText (textOf b))
    (hbad : ∃ f s, (f, s) ∈ c.sources items ∧ ¬ s.Holds L fs f)
    {x : Said (Files × List Char)} (h : RunSaid L stdin fs (w ++ line items) x) : x.notes ≠ [] := by
  intro hx
  have hm := C58_runs (fun f => (fs f).isSome) [] (by simp) c w hw items hf
  rw [List.nil_append] at hm
  have hres := homfaMainSaid_res (fun f => (fs f).isSome) (w ++ line items)
  rw [hm] at hres
  have he : ExecSaid L stdin fs (c.call items) x := by
    cases h with
    | call h1 h2 => rw [h1] at hres; cases hres; exact h2
    | usage h1 => rw [h1] at hres; cases hres
    | fails h1 => rw [h1] at hres; cases hres
  have hsp : ∀ f, (f, .spec) ∈ c.sources items → SpecRead fs f := by
    intro f hf
    rcases hspec f hf with ⟨b, g, h1, h2⟩ | ⟨b, h1, h2⟩
    · exact ⟨b, h1, .inl ⟨g, h2⟩⟩
    · exact ⟨b, h1, .inr h2⟩
  suffices hall : ∀ p ∈ c.sources items, p.2.Holds L fs p.1 by
    obtain ⟨f, s, h1, h2⟩ := hbad
    exact h2 (hall _ h1)
  have fetched : ∀ {kind : StreamKind} {r : Res (List Nat × List (Gsw l N))}, (∃ b, fs (opt items "--in") = some b ∧ blockSize l N ∣ b.length) →
      Fetch kind (fs (opt items "--in")) r → ∃ p, r = .ok p := by
    intro kind r hi hr
    rcases (fetch_cases hbs hbs' (hlen _)).2 _ hr with ⟨_, h⟩ | ⟨pre, cs, rfl, _⟩
    · exact absurd hi h
    · exact ⟨_, rfl⟩
  clear hbad hspec hm hres h
  cases c
  case genkey => simp [Cmd.sources]
  case genbkey =>
    have hk := hf.exists (name := "--key") (by simp [Cmd.usage]) (by simp [Cmd.usage])
    cases he
    obtain ⟨b, k, h1, h2, _⟩ := archive_silent (bind_silent hx).1 hk
    exact one_source (P := fun p => p.2.Holds L fs p.1) ⟨b, k, h1, h2⟩
  case enc =>
    have hk := hf.exists (name := "--key") (by simp [Cmd.usage]) (by simp [Cmd.usage])
    cases he
    obtain ⟨b, k, h1, h2, _⟩ := archive_silent (bind_silent hx).1 hk
    exact one_source (P := fun p => p.2.Holds L fs p.1) ⟨b, k, h1, h2⟩
  case dec =>
    have hk := hf.exists (name := "--key") (by simp [Cmd.usage]) (by simp [Cmd.usage])
    have hi := hf.exists (name := "--in") (by simp [Cmd.usage]) (by simp [Cmd.usage])
    cases he
    obtain ⟨b, k, h1, h2, h3⟩ := archive_silent (bind_silent hx).1 hk
    obtain ⟨b', k', h4, h5, _⟩ := archive_silent (bind_silent ((bind_silent hx).2 _ h3)).1 hi
    exact two_sources (P := fun p => p.2.Holds L fs p.1) ⟨b, k, h1, h2⟩ ⟨b', k', h4, h5⟩
  case runOffline =>
    have hk := hf.exists (name := "--bkey") (by simp [Cmd.usage]) (by simp [Cmd.usage])
    have key : ∀ pre cs, (runOfflineSaid L fs (opt items "--spec") (opt items "--out") (num items "--bootstrapping-freq") (opt items "--bkey") false pre cs).notes = [] →
        ∀ p ∈ Cmd.runOffline.sources items, p.2.Holds L fs p.1 := by
      intro pre cs hx
      obtain ⟨b, k, h1, h2, h3⟩ := archive_silent (bind_silent hx).1 hk
      have h4 := file_silent (L := L) (bind_silent ((bind_silent hx).2 _ h3)).1 (hsp _ (by simp [Cmd.sources]))
      exact two_sources (P := fun p => p.2.Holds L fs p.1) ⟨b, k, h1, h2⟩ h4.1
    cases he with
    | runOffline hr =>
      obtain ⟨p, rfl⟩ := fetched (hin (.inl rfl)) hr
      exact key _ _ ((bind_silent hx).2 p rfl)
    | runOfflineEarly pre cs _ => exact key _ _ hx
  case runReverse =>
    have hk := hf.exists (name := "--bkey") (by simp [Cmd.usage]) (by simp [Cmd.usage])
    have key : ∀ pre cs, (runReverseSaid L fs (opt items "--spec") (some (opt items "--out")) none (num items "--out-freq") (num items "--bootstrapping-freq")
        (has items "--spec-reversed") (opt items "--bkey") false pre cs).notes = [] → ∀ p ∈ Cmd.runReverse.sources items, p.2.Holds L fs p.1 := by
      intro pre cs hx
      have hx := (bind_silent hx).2 () rfl
      obtain ⟨b, k, h1, h2, h3⟩ := archive_silent (bind_silent hx).1 hk
      have h4 := file_silent (L := L) (bind_silent ((bind_silent hx).2 _ h3)).1 (hsp _ (by simp [Cmd.sources]))
      exact two_sources (P := fun p => p.2.Holds L fs p.1) ⟨b, k, h1, h2⟩ h4.1
    cases he with
    | runReverse hr =>
      obtain ⟨p, rfl⟩ := fetched (hin (.inr (.inl rfl))) hr
      exact key _ _ ((bind_silent hx).2 p rfl)
    | runReverseEarly pre cs _ => exact key _ _ hx
  case runBlock =>
    have hk := hf.exists (name := "--bkey") (by simp [Cmd.usage]) (by simp [Cmd.usage])
    have key : ∀ cs, (runBlockSaid L fs (opt items "--spec") (opt items "--out") (num items "--queue-size") (opt items "--bkey") false cs).notes = [] →
        ∀ p ∈ Cmd.runBlock.sources items, p.2.Holds L fs p.1 := by
      intro cs hx
      obtain ⟨h4, g, h5⟩ := file_silent (L := L) (bind_silent hx).1 (hsp _ (by simp [Cmd.sources]))
      obtain ⟨b, k, h1, h2, h3⟩ := archive_silent (bind_silent ((bind_silent hx).2 _ h5)).1 hk
      exact two_sources (P := fun p => p.2.Holds L fs p.1) ⟨b, k, h1, h2⟩ h4
    cases he with
    | runBlock hr =>
      obtain ⟨p, rfl⟩ := fetched (hin (.inr (.inr (.inl rfl)))) hr
      exact key _ ((bind_silent hx).2 p rfl)
    | runBlockEarly cs _ => exact key _ hx
  case runFlut =>
    have hk := hf.exists (name := "--bkey") (by simp [Cmd.usage]) (by simp [Cmd.usage])
    have key : ∀ pre cs, (runFlutSaid L fs (opt items "--spec") (some (opt items "--out")) none (num items "--out-freq") (num items "--queue-size")
        (num items "--bootstrapping-freq") (opt items "--bkey") (some (num items "--max-second-lut-depth")) (opt? items "--debug-secret-key") false pre cs).notes = [] →
        ∀ p ∈ Cmd.runFlut.sources items, p.2.Holds L fs p.1 := by
      intro pre cs hx
      obtain ⟨h4, g, h5⟩ := file_silent (L := L) (bind_silent hx).1 (hsp _ (by simp [Cmd.sources]))
      have hx := (bind_silent hx).2 _ h5
      obtain ⟨b, k, h1, h2, h3⟩ := archive_silent (bind_silent hx).1 hk
      have hx := (bind_silent ((bind_silent hx).2 _ h3)).1
      intro p hp
      rcases List.mem_append.1 hp with hp | hp
      · have hb : Source.Holds L fs (opt items "--bkey") .evaluationKey := ⟨b, k, h1, h2⟩
        exact two_sources (P := fun p => p.2.Holds L fs p.1) hb h4 p hp
      · obtain ⟨f, hf', rfl⟩ := List.mem_map.1 hp
        have hf'' : opt? items "--debug-secret-key" = some f := by simpa using hf'
        rw [hf''] at hx
        have hex : (fs f).isSome = true := by
          obtain ⟨k, hk, hok⟩ := hf.known _ _ (opt?_mem hf'')
          have : k = .file := by simpa [Cmd.usage] using hk
          subst this
          exact hok.2
        obtain ⟨b, k, h1, h2, h3⟩ := archive_silent (bind_silent hx).1 hex
        exact ⟨b, k, h1, h2⟩
    cases he with
    | runFlut hr =>
      obtain ⟨p, rfl⟩ := fetched (hin (.inr (.inr (.inr rfl)))) hr
      exact key _ _ ((bind_silent hx).2 p rfl)
    | runFlutEarly pre cs _ => exact key _ _ hx
  case runPlain =>
    cases he
    exact one_source (P := fun p => p.2.Holds L fs p.1) (file_silent (L := L) (bind_silent hx).1 (hsp _ (by simp [Cmd.sources]))).1
  case ltl2spec => simp [Cmd.sources]
  case att2spec => simp [Cmd.sources]
  all_goals
    cases he
    intro p hp
    obtain ⟨f, hf', rfl⟩ := List.mem_map.1 hp
    obtain ⟨h1, h2⟩ := List.mem_filter.1 hf'
    have e : (args items)[0]? = some f := by simpa using h1
    have h3 := (bind_silent hx).1
    unfold specArgSaid at h3
    rw [e, if_neg (by simpa using h2)] at h3
    exact (file_silent (L := L) h3 (hsp f hp)).1

/-! ## The same runs -/

theorem archive_res {α : Type} (load : List Byte → Option α) (f : String) : (readArchiveSaid load fs f).res = readArchive load (fs f) := by
  unfold readArchiveSaid readArchive
  cases fs f with
  | none => rfl
  | some b =>
    dsimp only
    cases load b <;> rfl

theorem file_res (file : Option (List Byte)) : (fromFileSaid file).res = (do let s ← readSpec file; Graph.fromIstream s) := by
  unfold fromFileSaid
  rw [bind_res]
  show (readSpec file >>= fun s => (fromIstreamSaid s).errors.res) = _
  congr 1
  funext s
  exact errors_res s

theorem specArg_res (name : Option String) : (specArgSaid fs stdin name).res = (do let s ← fileOrStdin readSpec fs stdin name; Graph.fromIstream s) := by
  unfold specArgSaid fileOrStdin
  split
  · rw [errors_res]; rfl
  · exact file_res _

theorem attArg_res (name : Option String) : (attArgSaid fs stdin name).res = (do let s ← fileOrStdin readAtt fs stdin name; Graph.fromAttIstream s) := by
  have h : ∀ text, (fromAttIstreamSaid text).res = Graph.fromAttIstream text := fun text => (C121_att text _ (textLines_iff.2 rfl)).1
  unfold attArgSaid fileOrStdin
  split
  · rw [h]; rfl
  · cases fs (name.getD "-") with
    | none => rfl
    | some b => exact h _

theorem backstream_res (g : Graph) (boot : Nat) (size : Option Nat) (k sanitize : Bool) :
    (Backstream.makeSaid g boot size k sanitize : Said (Backstream N)).res = Backstream.make g boot size k sanitize := by
  unfold Backstream.makeSaid
  rw [bind_res]
  cases k <;> cases sanitize <;> rfl

theorem onlineLoop_res {ρ : Type} {evalOne : ρ → Gsw l N → Said ρ} {result : ρ → Said (TLWE N × ρ)} (outDir : Option String) (freq : Nat) :
    ∀ (cs : List (Gsw l N)) (i : Nat) (r : ρ), (onlineLoopSaid evalOne result outDir freq cs i r).res =
      onlineLoop (fun r c => (evalOne r c).res) (fun r => (result r).res) outDir freq cs i r
  | [], _, _ => rfl
  | c :: cs, i, r => by
    have ih := onlineLoop_res (evalOne := evalOne) (result := result) outDir freq cs (i + 1)
    rw [onlineLoopSaid, onlineLoop, bind_res]
    congr 1
    funext r'
    cases outDir with
    | none => exact ih r'
    | some dir =>
      dsimp only
      split
      · rfl
      · split
        · rw [bind_res]
          congr 1
          funext p
          rw [bind_res, ih]
          rfl
        · exact ih r'

theorem offline_res (spec out : String) (boot : Nat) (bkey : String) (sanitize : Bool) (pre : List Nat) (cs : List (Gsw l N)) :
    (runOfflineSaid L fs spec out boot bkey sanitize pre cs).res = (do
      let b ← readArchive L.loadBKey (fs bkey)
      let s ← readSpec (fs spec)
      let c ← doRunOffline (L.server b) s (pre.headD 0) cs boot sanitize
      pure (fs.set out (L.saveRes c), [])) := by
  unfold runOfflineSaid doRunOffline
  simp only [bind_res, archive_res, file_res, backstream_res, silent, bind_assoc, offlineMake]

theorem reverse_res (spec : String) (out outDir : Option String) (freq boot : Nat) (isRev : Bool) (bkey : String) (sanitize : Bool) (pre : List Nat) (cs : List (Gsw l N))
    (h : ((out.isSome && !outDir.isSome) || (!out.isSome && outDir.isSome)) = true) :
    (runReverseSaid L fs spec out outDir freq boot isRev bkey sanitize pre cs).res = (do
      let b ← readArchive L.loadBKey (fs bkey)
      let s ← readSpec (fs spec)
      let rs ← doRunReverse (L.server b) s (pre.getLastD 0) cs out outDir freq boot isRev sanitize
      pure (writeResults L fs rs, [])) := by
  unfold runReverseSaid doRunReverse reverseMakeSaid reverseMake
  rw [h]
  simp only [bind_res, archive_res, file_res, backstream_res, silent, bind_assoc, pure_bind]
  rfl

theorem blockMake_res (g : Graph) (queue : Nat) (sanitize : Bool) : (Block.makeSaid g queue sanitize : Said (Block N l)).res = Block.make g queue sanitize := by
  cases sanitize <;> rfl

theorem flutMake_res (g : Graph) (max queue boot : Nat) (sanitize : Bool) :
    (Flut.makeSaid g max queue boot sanitize : Said (Flut N l)).res = Flut.make g max queue boot sanitize := by
  cases sanitize <;> rfl

theorem block_res (spec out : String) (queue : Nat) (bkey : String) (sanitize : Bool) (cs : List (Gsw l N)) :
    (runBlockSaid L fs spec out queue bkey sanitize cs).res.toOption = (do
      let s ← readSpec (fs spec)
      let b ← readArchive L.loadBKey (fs bkey)
      let c ← doRunBlock (L.server b) s cs queue sanitize
      pure (fs.set out (L.saveRes c), []) : Res (Files × List Char)).toOption := by
  unfold runBlockSaid doRunBlock
  simp only [bind_res, archive_res, file_res, blockMake_res, silent, bind_assoc, pure_bind]
  cases readSpec (fs spec) with
  | error e => rfl
  | ok s =>
    rw [Res.bind_ok, Res.bind_ok]
    cases readArchive L.loadBKey (fs bkey) with
    | error e => cases Graph.fromIstream s <;> rfl
    | ok b => rfl

theorem debugKey_res (name : Option String) : (readDebugKeySaid L fs name).res = readDebugKey L fs name := by
  unfold readDebugKeySaid readDebugKey
  cases name with
  | none => rfl
  | some f =>
    dsimp only
    rw [bind_res, archive_res]
    cases readArchive L.loadKey (fs f) <;> rfl

theorem flut_res (spec : String) (out outDir : Option String) (freq queue boot : Nat) (bkey : String) (max : Option Nat) (debug : Option String) (sanitize : Bool)
    (pre : List Nat) (cs : List (Gsw l N)) :
    (runFlutSaid L fs spec out outDir freq queue boot bkey max debug sanitize pre cs).res.toOption = (do
      let s ← readSpec (fs spec)
      let b ← readArchive L.loadBKey (fs bkey)
      let _ ← readDebugKey L fs debug
      let rs ← doRunFlut (L.server b) s (pre.getLastD 0) cs out outDir freq queue boot max sanitize
      pure (writeResults L fs rs, []) : Res (Files × List Char)).toOption := by
  unfold runFlutSaid doRunFlut
  simp only [bind_res, archive_res, file_res, debugKey_res, flutMake_res, onlineLoop_res, evalOneSaid_res, resultSaid_res, silent, bind_assoc, pure_bind]
  cases readSpec (fs spec) with
  | error e => rfl
  | ok s =>
    rw [Res.bind_ok, Res.bind_ok]
    cases readArchive L.loadBKey (fs bkey) with
    | error e => cases Graph.fromIstream s <;> rfl
    | ok b =>
      rw [Res.bind_ok]
      cases readDebugKey L fs debug with
      | error e => cases Graph.fromIstream s <;> rfl
      | ok u =>
        rw [Res.bind_ok]
        congr 2
        funext g
        rw [Res.bind_ok, Res.bind_ok]
        congr 1
        funext r
        split
        · rfl
        · simp only [bind_assoc, pure_bind]
          rfl

/-- **C122 (these are the runs of homfa).** Every run of homfa is among the runs considered here, with the same files and the same output if it ends normally; and those here that
end normally are runs of homfa. -/
theorem C122_same (L : Lib N n l) (stdin : List Char) (fs : Files) (toks : List String) :
    (∀ r, RunHomfa L stdin fs toks r → ∃ x, RunSaid L stdin fs toks x ∧ x.res.toOption = r.toOption) ∧
    (∀ x, RunSaid L stdin fs toks x → x.res = .error .die ∨ ∃ r, RunHomfa L stdin fs toks r ∧ x.res.toOption = r.toOption) := by
  have hm := homfaMainSaid_res (fun f => (fs f).isSome) toks
  have quiet : ∀ a, homfaMain (fun f => (fs f).isSome) toks = .ok a → homfaMainSaid (fun f => (fs f).isSome) toks = pure a := by
    intro a h
    rw [h] at hm
    refine Said.ext' ?_ hm
    have key : ∀ y : Said (Option Call), (y.notes = [] ∨ ∃ e, y.res = .error e) → y.res = .ok a → y.notes = [] := by
      rintro y (h | ⟨e, h⟩) hy
      · exact h
      · rw [h] at hy; cases hy
    have call : ∀ a, (callSaid a).notes = [] ∨ ∃ e, (callSaid a).res = .error e := by
      intro a
      unfold callSaid dispatchSaid
      cases dispatch a with
      | ok c => exact .inl rfl
      | error e => cases e <;> exact .inr ⟨_, rfl⟩
    refine key _ ?_ hm
    unfold homfaMainSaid
    cases skipGeneral toks with
    | nil => exact call _
    | cons t rest =>
      dsimp only
      have sub : ∀ ds : List SubDecl, ∀ s rest, let y := (match ds.find? (fun d => d.names.contains s) with
          | some d => match parseSub (fun f => (fs f).isSome) d rest with
            | some a => callSaid a
            | none => pure none
          | none => pure none : Said (Option Call)); y.notes = [] ∨ ∃ e, y.res = .error e := by
        intro ds s rest
        cases ds.find? (fun d => d.names.contains s) with
        | none => exact .inl rfl
        | some d =>
          dsimp only
          cases parseSub (fun f => (fs f).isSome) d rest with
          | none => exact .inl rfl
          | some a => exact call a
      by_cases ht : t = "run"
      · rw [if_pos ht]
        cases rest with
        | nil => exact call _
        | cons s rest => exact sub runSubs s rest
      · rw [if_neg ht]
        exact sub subs t rest
  constructor
  · intro r h
    cases h with
    | usage h => exact ⟨_, .usage (quiet _ h), rfl⟩
    | @fails e h =>
      refine ⟨⟨(homfaMainSaid (fun f => (fs f).isSome) toks).notes, .error e⟩, .fails (Said.ext' rfl (hm.trans h)), rfl⟩
    | @call c _ h hx =>
      have hq := quiet _ h
      have ha := C58_run_arguments _ _ _ h
      cases hx with
      | genkey q => exact ⟨_, .call hq (.genkey q), rfl⟩
      | genbkey q => exact ⟨_, .call hq (.genbkey q), by rw [bind_res, archive_res]; rfl⟩
      | enc q => exact ⟨_, .call hq (.enc q), by rw [bind_res, archive_res]; rfl⟩
      | dec => exact ⟨_, .call hq .dec, by simp only [bind_res, archive_res]; rfl⟩
      | @runOffline _ _ _ _ _ _ r hr =>
        refine ⟨_, .call hq (.runOffline hr), ?_⟩
        rw [bind_res]
        cases r with
        | error e => rfl
        | ok p => exact congrArg Except.toOption (offline_res ..)
      | @runReverse _ _ _ _ _ _ _ _ _ r hr =>
        refine ⟨_, .call hq (.runReverse hr), ?_⟩
        rw [bind_res]
        cases r with
        | error e => rfl
        | ok p =>
          refine congrArg Except.toOption (reverse_res _ _ _ _ _ _ _ _ _ _ ?_)
          obtain ⟨h1, rfl, _⟩ := ha
          rw [h1]; rfl
      | @runBlock _ _ _ _ _ _ r hr =>
        refine ⟨_, .call hq (.runBlock hr), ?_⟩
        rw [bind_res]
        cases r with
        | error e => rfl
        | ok p => exact block_res ..
      | @runFlut _ _ _ _ _ _ _ _ _ _ _ r hr =>
        refine ⟨_, .call hq (.runFlut hr), ?_⟩
        rw [bind_res]
        cases r with
        | error e => rfl
        | ok p => exact flut_res ..
      | runPlain => exact ⟨_, .call hq .runPlain, by unfold doRunPlain; simp only [bind_res, file_res, silent, bind_assoc, pure_bind]⟩
      | ltl2spec => exact ⟨_, .call hq .ltl2spec, rfl⟩
      | spec2spec => exact ⟨_, .call hq .spec2spec, by unfold doSpec2spec; simp only [bind_res, specArg_res, silent, bind_assoc]⟩
      | spec2dot => exact ⟨_, .call hq .spec2dot, by unfold doSpec2dot; simp only [bind_res, specArg_res, silent, bind_assoc]⟩
      | spec2att => exact ⟨_, .call hq .spec2att, by unfold doSpec2att; simp only [bind_res, specArg_res, silent, bind_assoc]⟩
      | att2spec => exact ⟨_, .call hq .att2spec, by unfold doAtt2spec; simp only [bind_res, attArg_res, silent, bind_assoc]⟩
  · intro x h
    cases h with
    | usage h => exact .inl rfl
    | fails h =>
      left
      rw [(homfaMainSaid_error h).1]
    | @call c _ h hx =>
      have hq : homfaMain (fun f => (fs f).isSome) toks = .ok (some c) := by rw [← hm, h]; rfl
      have ha := C58_run_arguments _ _ _ hq
      cases hx with
      | genkey q => exact .inr ⟨_, .call hq (.genkey q), rfl⟩
      | genbkey q => exact .inr ⟨_, .call hq (.genbkey q), by rw [bind_res, archive_res]; rfl⟩
      | enc q => exact .inr ⟨_, .call hq (.enc q), by rw [bind_res, archive_res]; rfl⟩
      | dec => exact .inr ⟨_, .call hq .dec, by simp only [bind_res, archive_res]; rfl⟩
      | runOfflineEarly | runReverseEarly | runBlockEarly | runFlutEarly => exact .inl (by assumption)
      | @runOffline _ _ _ _ _ _ r hr =>
        refine .inr ⟨_, .call hq (.runOffline hr), ?_⟩
        rw [bind_res]
        cases r with
        | error e => rfl
        | ok p => exact congrArg Except.toOption (offline_res ..)
      | @runReverse _ _ _ _ _ _ _ _ _ r hr =>
        refine .inr ⟨_, .call hq (.runReverse hr), ?_⟩
        rw [bind_res]
        cases r with
        | error e => rfl
        | ok p =>
          refine congrArg Except.toOption (reverse_res _ _ _ _ _ _ _ _ _ _ ?_)
          obtain ⟨h1, rfl, _⟩ := ha
          rw [h1]; rfl
      | @runBlock _ _ _ _ _ _ r hr =>
        refine .inr ⟨_, .call hq (.runBlock hr), ?_⟩
        rw [bind_res]
        cases r with
        | error e => rfl
        | ok p => exact block_res ..
      | @runFlut _ _ _ _ _ _ _ _ _ _ _ r hr =>
        refine .inr ⟨_, .call hq (.runFlut hr), ?_⟩
        rw [bind_res]
        cases r with
        | error e => rfl
        | ok p => exact flut_res ..
      | runPlain => exact .inr ⟨_, .call hq .runPlain, by unfold doRunPlain; simp only [bind_res, file_res, silent, bind_assoc, pure_bind]⟩
      | ltl2spec => exact .inr ⟨_, .call hq .ltl2spec, rfl⟩
      | spec2spec => exact .inr ⟨_, .call hq .spec2spec, by unfold doSpec2spec; simp only [bind_res, specArg_res, silent, bind_assoc]⟩
      | spec2dot => exact .inr ⟨_, .call hq .spec2dot, by unfold doSpec2dot; simp only [bind_res, specArg_res, silent, bind_assoc]⟩
      | spec2att => exact .inr ⟨_, .call hq .spec2att, by unfold doSpec2att; simp only [bind_res, specArg_res, silent, bind_assoc]⟩
      | att2spec => exact .inr ⟨_, .call hq .att2spec, by unfold doAtt2spec; simp only [bind_res, attArg_res, silent, bind_assoc]⟩

/-! ## These things happen -/

/-- a key file that holds no key; Spot makes a monitor of every formula -/
example : ∃ (L : Lib 16 2 1) (fs : Files) (x : Said (Files × List Char)), (∀ f k, L.monitor f k ≠ .error .die) ∧
    Cmd.genbkey.usage.Follows (fun f => (fs f).isSome) [.opt "--key" "sk", .opt "--out" "bk"] ∧
    (∃ f s, (f, s) ∈ Cmd.genbkey.sources [.opt "--key" "sk", .opt "--out" "bk"] ∧ ¬ s.Holds L fs f) ∧
    RunSaid L [] fs ["genbkey", "--key", "sk", "--out", "bk"] x ∧ x.res = .error .die ∧
    x.notes = [.error "Invalid archive: sk".toList, .error "Preparing backtrace...".toList, .backtrace] := by
  obtain ⟨φ, hφ⟩ := exists_numbering 16
  let L : Lib 16 2 1 := { toyLib 16 2 1 φ with monitor := fun _ _ => .ok ⟨[[(.tt, 0)]], 0, fun _ => none⟩ }
  let fs : Files := fun f => if f = "bk" then some [3#8] else if f = "sk" then some [7#8] else none
  have hf : Cmd.genbkey.usage.Follows (fun f => (fs f).isSome) [.opt "--key" "sk", .opt "--out" "bk"] := by
    refine follows_opts (u := Cmd.genbkey.usage) (vals := ["sk", "bk"]) rfl (by decide) rfl fun p hp => ?_
    simp only [Cmd.usage, List.zip_cons_cons, List.zip_nil_right, List.mem_cons, List.not_mem_nil, or_false] at hp
    rcases hp with rfl | rfl
    · exact Word.file (by simp [Word]) (b := [7#8]) rfl
    · exact Word.text (by simp [Word]) _
  have hbad : ¬ Source.Holds L fs "sk" .secretKey := by
    rintro ⟨b, k, h1, h2⟩
    have : b = [7#8] := by simpa [fs] using h1.symm
    subst this
    simp [L, toyLib] at h2
  have hx : (readArchiveSaid L.loadKey fs "sk" >>= fun k => pure (fs.set "bk" (L.saveBKey (L.newBKey 0 k)), []) : Said (Files × List Char)) =
      ⟨[.error "Invalid archive: sk".toList, .error "Preparing backtrace...".toList, .backtrace], .error .die⟩ := by
    simp [readArchiveSaid, fs, L, toyLib, dieSaying]
    rfl
  exact ⟨L, fs, _, nofun, hf, ⟨"sk", .secretKey, by decide, hbad⟩, .call (c := .genbkey "sk" "bk") (by rfl) (.genbkey 0), by rw [hx], by rw [hx]⟩

/-- no subcommand -/
example (L : Lib 16 2 1) : ∃ x, RunSaid L [] (fun _ => none) ["--verbose", "run"] x ∧ x.res = .error .die ∧
    x.notes = [.error "Please specify subcommand".toList, .error "Preparing backtrace...".toList, .backtrace] :=
  ⟨_, .fails (by rfl), rfl, rfl⟩

/-- The files of the next example: a specification with two states, a key and no input. -/
def shallowFiles : Files := fun f =>
  if f = "s" then some (">0 0 1\n1* 0 1\n".toList.map fun c => BitVec.ofNat 8 c.toNat) else if f = "bk" then some [2#8] else if f = "in" then some [] else none

/-- tables that are not deep enough for two states -/
example : ∃ x, RunSaid (toyLib 16 2 1 fun _ => 0) [] shallowFiles ["run", "flut", "--bkey", "bk", "--out", "r", "--spec", "s", "--in", "in", "--out-freq", "1", "--queue-size", "1",
      "--max-second-lut-depth", "1", "--bootstrapping-freq", "1"] x ∧
    x.notes = [.error "The number of next live states (2) must be smaller than 2^max_second_lut_depth (2)".toList, .error "Preparing backtrace...".toList, .backtrace] := by
  have h : (runFlutSaid (toyLib 16 2 1 fun _ => 0) shallowFiles "s" (some "r") none 1 1 1 "bk" (some 1) none false [1] [fun _ _ _ => 0#64]).notes =
      [.error "The number of next live states (2) must be smaller than 2^max_second_lut_depth (2)".toList, .error "Preparing backtrace...".toList, .backtrace] := by
    decide +kernel
  have h' : (match (runFlutSaid (toyLib 16 2 1 fun _ => 0) shallowFiles "s" (some "r") none 1 1 1 "bk" (some 1) none false [1] [fun _ _ _ => 0#64]).res with
      | .error .die => true
      | _ => false) = true := by
    decide +kernel
  refine ⟨_, .call (c := .runFlut "s" "in" (some "r") none 1 1 1 "bk" (some 1) none false) (by rfl) (.runFlutEarly [1] [fun _ _ _ => 0#64] ?_), h⟩
  split at h'
  · assumption
  · cases h'

/-- a specification with a line at fault -/
example : FaultyText "# my spec\n>0 0 1\n2* 1 1\n".toList := by
  refine ⟨["# my spec".toList, ">0 0 1".toList], "2* 1 1".toList, [], [⟨true, false, [0], [1]⟩], numberMessage 2 1, textLines_iff.2 (by decide),
    .skip (matchSpecLine_none.1 (by decide)) (.row (matchSpecLine_iff.1 (by decide : matchSpecLine _ = some
    (true, "0".toList, false, "0".toList, "1".toList))) (by decide) (by decide) ?_ ?_ (.nil _)), ?_⟩
  · exact (loadStates_iff (isTargetField_iff.1 (by decide))).1 (by decide)
  · exact (loadStates_iff (isTargetField_iff.1 (by decide))).1 (by decide)
  · exact Fault.number (num := "2".toList) (matchSpecLine_iff.1 (by decide : matchSpecLine _ = some (false, "2".toList, true, "1".toList, "1".toList)))
      ((loadStates_iff (l := [1]) (isTargetField_iff.1 (by decide))).1 (by decide)) ((loadStates_iff (l := [1]) (isTargetField_iff.1 (by decide))).1 (by decide)) (by decide) (by decide)

end Homfa.Cli
