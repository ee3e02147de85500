import Verif.Spec.Complaint
import Verif.Model.Complaint
import Verif.Proof.Clean
import Verif.Proof.BenchRun
import Verif.Proof.Memory
import Verif.Props.Diagnose
import Verif.Props.Cli
import Verif.Props.Clean
import Verif.Props.Par
import Verif.Props.Sources
/-!
# The errors that homfa logs are true
-/

namespace Homfa
open Homfa.Spec

variable {N n l : Nat} {α β : Type}

/-- Nothing is said, or a program gives up with a message that is true. -/
def Fair (P : List Char → Prop) (x : Said α) : Prop := x.notes = [] ∨ ∃ m, x = ⟨lastWords m, .error .die⟩ ∧ P m

namespace Fair

variable {P : List Char → Prop}

theorem silent (r : Res α) : Fair P (Homfa.silent r) := .inl rfl

theorem pure (a : α) : Fair P (Pure.pure a : Said α) := .inl rfl

theorem die {m : List Char} (h : P m) : Fair P (dieSaying m : Said α) := .inr ⟨m, rfl, h⟩

theorem bind {x : Said α} {f : α → Said β} (h : Fair P x) (hf : ∀ a, x.res = .ok a → Fair P (f a)) : Fair P (x >>= f) := by
  rcases h with h | ⟨m, rfl, h⟩
  · cases x with
    | mk nx rx =>
      cases h
      cases rx with
      | error e => exact .inl rfl
      | ok a => exact hf a rfl
  · exact .inr ⟨m, rfl, h⟩

theorem imp {Q : List Char → Prop} {x : Said α} (h : Fair P x) (hPQ : ∀ m, P m → Q m) : Fair Q x :=
  Or.imp id (fun ⟨m, h1, h2⟩ => ⟨m, h1, hPQ m h2⟩) h

theorem ite {c : Prop} [Decidable c] {x y : Said α} (hx : c → Fair P x) (hy : ¬ c → Fair P y) : Fair P (if c then x else y) := by
  split
  · exact hx ‹_›
  · exact hy ‹_›

end Fair

/-! ## Specifications -/

theorem errors_info {ns : List Note} (h : ∀ x ∈ ns, ∃ t, x = .info t) : ns.filter isError = [] := by
  rw [List.filter_eq_nil_iff]
  intro x hx
  obtain ⟨t, rfl⟩ := h x hx
  simp [isError]

theorem fair_spec (text : List Char) : Fair (fun m => ∃ a line b rows, TextLines text (a ++ line :: b) ∧ SpecRows 0 a rows ∧ Fault rows.length line m)
    (fromIstreamSaid text).errors := by
  obtain ⟨h0, h1, h2⟩ := C121_blames text _ (textLines_iff.2 rfl)
  by_cases hd : Graph.fromIstream text = .error .die
  · obtain ⟨a, line, b, rows, m, ns, g1, g2, g3, g4, g5⟩ := h1 hd
    refine .inr ⟨m, ?_, a, line, b, rows, textLines_iff.2 g1, g2, g3⟩
    unfold Said.errors
    rw [g5, h0, hd, List.filter_append, errors_info (skipNotes_info g4)]
    rfl
  · obtain ⟨a, b, ns, _, g1, g2⟩ := h2 hd
    left
    unfold Said.errors
    rw [g2]
    exact errors_info (skipNotes_info g1)

theorem errors_res (text : List Char) : (fromIstreamSaid text).errors.res = Graph.fromIstream text :=
  (C121_blames text _ (textLines_iff.2 rfl)).1

theorem fair_att (text : List Char) : Fair (fun m => ∃ a line b, TextLines text (a ++ line :: b) ∧ (∀ x ∈ a, ∃ i, AttLine x i) ∧ ¬ AttShape line ∧ m = "Invalid line: ".toList ++ line)
    (fromAttIstreamSaid text) := by
  obtain ⟨h0, h1, h2, h3, _⟩ := C121_att text _ (textLines_iff.2 rfl)
  by_cases hd : Graph.fromAttIstream text = .error .die
  · obtain ⟨a, line, b, g1, g2, g3⟩ := h3 hd
    obtain ⟨e1, e2⟩ := h2 a line b g1 g2 g3
    exact .inr ⟨_, Said.ext' e2 e1, a, line, b, textLines_iff.2 g1, g2, g3, rfl⟩
  · exact .inl (h1 hd)

/-! ## The look-up tables -/

theorem statesAfter_level {g : Graph} (hg : g.WF) (k : Nat) : Cli.StatesAfter g k (g.levelSet [g.init] k) := by
  refine ⟨(Graph.sorted_levelSet (by simp) k).nodup, fun q => ⟨level_reached hg k q, ?_⟩⟩
  rintro ⟨w, rfl, hw⟩
  have hw : g.runWord g.initialState w = .ok q := hw
  rw [show g.initialState = g.init from rfl, (hg.run_ok hg.init_lt w).1] at hw
  rw [← Except.ok.inj hw]
  exact hg.run_mem_levelSet (by intro q hq; simp at hq; subst hq; exact hg.init_lt) (by simp) w

/-- What stays so while a FLUT runner works: its table and its states.  The second case is the automaton of an empty text. -/
structure FlutLive (g : Graph) (max : Nat) (r : Flut N l) : Prop where
  graph : r.graph = g
  maxSecond : r.maxSecond = max
  live : (g.WF ∧ (∀ d row, r.memo[d]? = some row → d < 31 ∧ MemoOk g d row) ∧ ∃ k, r.live = g.levelSet [g.init] k) ∨
    (r.live ≠ [] ∧ ∀ row ∈ r.memo, row = [])

/-- What the message about the number of states claims. -/
def TooMany (g : Graph) (max : Nat) (m : List Char) : Prop :=
  ∃ k qs, Cli.StatesAfter g k qs ∧ 2 ^ max ≤ qs.length ∧
    m = "The number of next live states (".toList ++ numeral qs.length ++ ") must be smaller than 2^max_second_lut_depth (".toList ++ numeral (2 ^ max) ++ ")".toList

theorem evalQueued_parts {S : Scheme N n l} {r r' : Flut N l} (h : r.evalQueued S = .ok r') (h0 : r.queued.length ≠ 0) :
    ∃ memo next, vat r.memo r.queued.length = .ok memo ∧ flutNext r.graph memo r.live r.queued.length = .ok next ∧
      r'.graph = r.graph ∧ r'.maxSecond = r.maxSecond ∧ r'.memo = r.memo ∧ r'.live = next := by
  unfold Flut.evalQueued at h
  dsimp only at h
  rw [if_neg h0] at h
  obtain ⟨memo, h1, h⟩ := Res.bind_eq_ok.1 h
  obtain ⟨next, h2, h⟩ := Res.bind_eq_ok.1 h
  refine ⟨memo, next, h1, h2, ?_⟩
  obtain ⟨_, _, h⟩ := Res.bind_eq_ok.1 h
  obtain ⟨_, _, h⟩ := Res.bind_eq_ok.1 h
  obtain ⟨_, _, h⟩ := Res.bind_eq_ok.1 h
  obtain ⟨_, _, h⟩ := Res.bind_eq_ok.1 h
  obtain ⟨_, _, h⟩ := Res.bind_eq_ok.1 h
  obtain ⟨_, _, h⟩ := Res.bind_eq_ok.1 h
  obtain ⟨_, _, h⟩ := Res.bind_eq_ok.1 h
  obtain ⟨_, _, h⟩ := Res.bind_eq_ok.1 h
  obtain ⟨_, _, h⟩ := Res.bind_eq_ok.1 h
  obtain ⟨_, _, h⟩ := Res.bind_eq_ok.1 h
  split at h
  · cases h
  · obtain ⟨_, _, h⟩ := Res.bind_eq_ok.1 h
    obtain ⟨_, _, h⟩ := Res.bind_eq_ok.1 h
    cases h
    exact ⟨rfl, rfl, rfl, rfl⟩

theorem flutNext_nil {g : Graph} {live : List Nat} {k : Nat} {next : List Nat} (h0 : live ≠ []) : flutNext g [] live k ≠ .ok next := by
  intro h
  unfold flutNext at h
  obtain ⟨cnt, h1, h⟩ := Res.bind_eq_ok.1 h
  have hc : cnt = 2 ^ k := (lt_of_shl1 h1).2
  obtain ⟨c, hc'⟩ : ∃ c, cnt = c + 1 := ⟨cnt - 1, by have : 0 < 2 ^ k := Nat.pos_of_ne_zero (by simp); omega⟩
  rw [hc', List.range_succ_eq_map, List.foldlM_cons] at h
  obtain ⟨_, h, _⟩ := Res.bind_eq_ok.1 h
  cases live with
  | nil => exact h0 rfl
  | cons q qs =>
    rw [List.foldlM_cons] at h
    obtain ⟨_, h, _⟩ := Res.bind_eq_ok.1 h
    obtain ⟨_, h, _⟩ := Res.bind_eq_ok.1 h
    have := vat_eq_ok.1 h
    simp at this

theorem FlutLive.next {g : Graph} {max : Nat} {r : Flut N l} (h : FlutLive g max r) (h0 : r.queued.length ≠ 0) {row next : List Nat}
    (hr : vat r.memo r.queued.length = .ok row) (hn : flutNext r.graph row r.live r.queued.length = .ok next) :
    g.WF ∧ (∀ d row, r.memo[d]? = some row → d < 31 ∧ MemoOk g d row) ∧ ∃ k, next = g.levelSet [g.init] k := by
  rcases h.live with ⟨hg, hm, k, hk⟩ | ⟨h1, h2⟩
  · refine ⟨hg, hm, k + r.queued.length, ?_⟩
    obtain ⟨m1, m2⟩ := hm _ _ (vat_eq_ok.1 hr)
    rw [h.graph, flutNext_ok hg m1 m2 (by rw [hk]; exact Graph.levelSet_lt (by intro q hq; simp at hq; subst hq; exact hg.init_lt) _) h0, hk,
      Graph.levelSet_add] at hn
    exact (Except.ok.inj hn).symm
  · have := h2 row (List.mem_of_getElem? (vat_eq_ok.1 hr))
    subst this
    exact absurd hn (flutNext_nil h1)

theorem FlutLive.eval {S : Scheme N n l} {g : Graph} {max : Nat} {r r' : Flut N l} (h : FlutLive g max r) (he : r.evalQueued S = .ok r') : FlutLive g max r' := by
  by_cases h0 : r.queued.length = 0
  · rw [flut_eval_empty S (List.eq_nil_of_length_eq_zero h0)] at he
    cases he
    exact h
  · obtain ⟨row, next, e1, e2, e3, e4, e5, e6⟩ := evalQueued_parts he h0
    obtain ⟨hg, hm, k, hk⟩ := h.next h0 e1 e2
    exact ⟨e3.trans h.graph, e4.trans h.maxSecond, .inl ⟨hg, by rw [e5]; exact hm, k, by rw [e6, hk]⟩⟩

theorem FlutLive.fair {S : Scheme N n l} {g : Graph} {max : Nat} {r : Flut N l} (h : FlutLive g max r) : Fair (TooMany g max) (r.evalQueuedSaid S) := by
  unfold Flut.evalQueuedSaid
  refine .ite (fun _ => .pure _) fun h0 => ?_
  refine .bind (.silent _) fun row hr => .bind (.silent _) fun next hn => .bind (.silent _) fun _ _ => .bind (.silent _) fun cap hc => .ite (fun hge => .die ?_) fun _ => .silent _
  obtain ⟨hg, _, k, rfl⟩ := h.next h0 hr hn
  have hcap : cap = 2 ^ max := by
    have hc : shl1Cap r.maxSecond = .ok cap := hc
    unfold shl1Cap at hc
    rw [h.maxSecond] at hc
    split at hc
    · exact (Except.ok.inj hc).symm
    · cases hc
  subst hcap
  exact ⟨k, _, statesAfter_level hg k, hge, rfl⟩

theorem bind_res {x : Said α} {f : α → Said β} : (x >>= f).res = x.res >>= fun a => (f a).res := by
  show (Said.bind x f).res = _
  unfold Said.bind
  cases x.res <;> rfl

theorem evalQueuedSaid_res {S : Scheme N n l} (r : Flut N l) : (r.evalQueuedSaid S).res = r.evalQueued S := by
  unfold Flut.evalQueuedSaid
  by_cases h0 : r.queued.length = 0
  · rw [if_pos h0, flut_eval_empty S (List.eq_nil_of_length_eq_zero h0)]; rfl
  · rw [if_neg h0, bind_res]
    unfold Flut.evalQueued
    dsimp only
    rw [if_neg h0]
    show (vat _ _ >>= _ : Res _) = _
    cases h1 : vat r.memo r.queued.length with
    | error e => rfl
    | ok row =>
      rw [Res.bind_ok, Res.bind_ok, bind_res]
      show (flutNext _ _ _ _ >>= _ : Res _) = _
      cases h2 : flutNext r.graph row r.live r.queued.length with
      | error e => rfl
      | ok next =>
        rw [Res.bind_ok, Res.bind_ok, bind_res]
        show (flutIdx _ _ >>= _ : Res _) = _
        cases h3 : flutIdx r.graph next with
        | error e => rfl
        | ok idx =>
          rw [Res.bind_ok, Res.bind_ok, bind_res]
          show (shl1Cap _ >>= _ : Res _) = _
          cases h4 : shl1Cap r.maxSecond with
          | error e => unfold lutDepths; rw [h4]; rfl
          | ok cap =>
            rw [Res.bind_ok]
            by_cases hge : next.length ≥ cap
            · rw [if_pos hge]
              unfold lutDepths
              rw [h4, Res.bind_ok, if_pos hge]
              rfl
            · rw [if_neg hge]
              rfl

theorem evalOneSaid_res {S : Scheme N n l} (r : Flut N l) (c : Gsw l N) : (r.evalOneSaid S c).res = r.evalOne S c := by
  unfold Flut.evalOneSaid Flut.evalOne
  dsimp only
  split
  · rfl
  · exact evalQueuedSaid_res _

theorem resultSaid_res {S : Scheme N n l} (r : Flut N l) : (r.resultSaid S).res = r.result S := by
  unfold Flut.resultSaid Flut.result
  rw [bind_res, evalQueuedSaid_res]
  rfl

theorem FlutLive.push {g : Graph} {max : Nat} {r : Flut N l} (h : FlutLive g max r) (c : Gsw l N) : FlutLive g max { r with queued := r.queued ++ [c] } :=
  ⟨h.graph, h.maxSecond, h.live⟩

theorem FlutLive.one {S : Scheme N n l} {g : Graph} {max : Nat} {r : Flut N l} (h : FlutLive g max r) (c : Gsw l N) :
    Fair (TooMany g max) (r.evalOneSaid S c) ∧ ∀ r', (r.evalOneSaid S c).res = .ok r' → FlutLive g max r' := by
  constructor
  · unfold Flut.evalOneSaid
    exact .ite (fun _ => .pure _) fun _ => (h.push c).fair
  · intro r' h'
    rw [evalOneSaid_res] at h'
    unfold Flut.evalOne at h'
    dsimp only at h'
    split at h'
    · cases h'; exact h.push c
    · exact (h.push c).eval h'

theorem FlutLive.result {S : Scheme N n l} {g : Graph} {max : Nat} {r : Flut N l} (h : FlutLive g max r) :
    Fair (TooMany g max) (r.resultSaid S) ∧ ∀ p, (r.resultSaid S).res = .ok p → FlutLive g max p.2 := by
  constructor
  · exact .bind h.fair fun _ _ => .silent _
  · intro p h'
    rw [resultSaid_res] at h'
    unfold Flut.result at h'
    obtain ⟨r', h1, h'⟩ := Res.bind_eq_ok.1 h'
    obtain ⟨_, _, h'⟩ := Res.bind_eq_ok.1 h'
    obtain ⟨_, _, h'⟩ := Res.bind_eq_ok.1 h'
    cases h'
    exact h.eval h1

theorem onlineLoopSaid_fair {ρ : Type} {P : List Char → Prop} {I : ρ → Prop} {evalOne : ρ → Gsw l N → Said ρ} {result : ρ → Said (TLWE N × ρ)}
    (he : ∀ r c, I r → Fair P (evalOne r c) ∧ ∀ r', (evalOne r c).res = .ok r' → I r')
    (hr : ∀ r, I r → Fair P (result r) ∧ ∀ p, (result r).res = .ok p → I p.2) (outDir : Option String) (freq : Nat) :
    ∀ (cs : List (Gsw l N)) (i : Nat) (r : ρ), I r → Fair P (onlineLoopSaid evalOne result outDir freq cs i r) ∧
      ∀ p, (onlineLoopSaid evalOne result outDir freq cs i r).res = .ok p → I p.2
  | [], _, r, h => ⟨.pure _, fun p hp => by cases hp; exact h⟩
  | c :: cs, i, r, h => by
    have ih := onlineLoopSaid_fair he hr outDir freq cs (i + 1)
    rw [onlineLoopSaid]
    constructor
    · refine .bind (he r c h).1 fun r' h' => ?_
      have hI := (he r c h).2 r' h'
      cases outDir with
      | none => exact (ih r' hI).1
      | some dir =>
        refine .ite (fun _ => .silent _) fun _ => .ite (fun _ => ?_) fun _ => (ih r' hI).1
        exact .bind (hr r' hI).1 fun p hp => .bind (ih p.2 ((hr r' hI).2 p hp)).1 fun _ _ => .pure _
    · intro p hp
      rw [bind_res] at hp
      obtain ⟨r', h', hp⟩ := Res.bind_eq_ok.1 hp
      have hI := (he r c h).2 r' h'
      cases outDir with
      | none => exact (ih r' hI).2 p hp
      | some dir =>
        dsimp only at hp
        split at hp
        · cases hp
        · split at hp
          · rw [bind_res] at hp
            obtain ⟨q, hq, hp⟩ := Res.bind_eq_ok.1 hp
            rw [bind_res] at hp
            obtain ⟨q', hq', hp⟩ := Res.bind_eq_ok.1 hp
            cases hp
            exact (ih q.2 ((hr r' hI).2 q hq)).2 q' hq'
          · exact (ih r' hI).2 p hp

theorem flutLive_make {text : List Char} {g : Graph} (hg : Graph.fromIstream text = .ok g) {max qs boot : Nat} {r : Flut N l}
    (h : Flut.make g max qs boot false = .ok r) : FlutLive g max r := by
  rcases fromIstream_cases text with ⟨e, h1, _⟩ | h1 | ⟨g', h1, hw⟩
  · rw [hg] at h1; cases h1
  · have hsz : g.size = 0 := by rw [hg] at h1; cases h1; rfl
    unfold Flut.make at h
    rw [if_neg (by simp)] at h
    obtain ⟨w, _, h⟩ := Res.bind_eq_ok.1 h
    obtain ⟨memo, h2, h⟩ := Res.bind_eq_ok.1 h
    cases h
    refine ⟨rfl, rfl, .inr ⟨by simp, ?_⟩⟩
    refine foldlM_keeps (P := fun (memo : List (List Nat)) => ∀ row ∈ memo, row = []) (fun memo d memo' hm hs => ?_) _ (by simp) h2
    obtain ⟨row, hr, hs⟩ := Res.bind_eq_ok.1 hs
    cases hs
    intro x hx
    rcases List.mem_append.1 hx with hx | hx
    · exact hm x hx
    · rw [List.mem_singleton.1 hx]
      exact List.eq_nil_of_length_eq_zero (by rw [memoRow_length hr, hsz, Nat.mul_zero])
  · rw [hg] at h1
    cases h1
    by_cases hq : qs < 31
    · obtain ⟨r0, e1, e2, e3, _, _, _, e7, _, _, e10, e11, _⟩ := flut_make (N := N) (l := l) hw max qs boot hq
      rw [e1] at h
      cases h
      refine ⟨e2, e3, .inl ⟨hw, fun d row hd => ?_, 0, e7⟩⟩
      have hlt : d < qs + 1 := by rw [← e11]; exact (List.getElem?_eq_some_iff.1 hd).1
      obtain ⟨row', f1, f2⟩ := e10 d (by omega)
      rw [f1] at hd
      cases hd
      exact ⟨by omega, f2⟩
    · rw [flut_make_wide hw max boot (by omega)] at h
      cases h

end Homfa

namespace Homfa.Cli
open Homfa.Spec

variable {N n l : Nat} {L : Lib N n l} {stdin : List Char} {fs : Files} {c : Cmd} {items : List Item}

theorem fair_archive {α : Type} {load : List Byte → Option α} {P : List Char → Prop} {f : String}
    (h : ∀ b, fs f = some b → load b = none → P ("Invalid archive: ".toList ++ f.toList)) : Fair P (readArchiveSaid load fs f) := by
  unfold readArchiveSaid
  cases hb : fs f with
  | none => exact .silent _
  | some b =>
    dsimp only
    cases hl : load b with
    | some x => exact .pure _
    | none => exact .die (h b hb hl)

theorem fair_key {f : String} (hm : (f, Source.secretKey) ∈ c.sources items) : Fair (Complaint L stdin fs c items) (readArchiveSaid L.loadKey fs f) :=
  fair_archive fun b hb hl => .archive hm (by decide) hb fun ⟨b', k, h1, h2⟩ => by rw [hb] at h1; cases h1; rw [hl] at h2; cases h2

theorem fair_bkey {f : String} (hm : (f, Source.evaluationKey) ∈ c.sources items) : Fair (Complaint L stdin fs c items) (readArchiveSaid L.loadBKey fs f) :=
  fair_archive fun b hb hl => .archive hm (by decide) hb fun ⟨b', k, h1, h2⟩ => by rw [hb] at h1; cases h1; rw [hl] at h2; cases h2

theorem fair_res {f : String} (hm : (f, Source.result) ∈ c.sources items) : Fair (Complaint L stdin fs c items) (readArchiveSaid L.loadRes fs f) :=
  fair_archive fun b hb hl => .archive hm (by decide) hb fun ⟨b', k, h1, h2⟩ => by rw [hb] at h1; cases h1; rw [hl] at h2; cases h2

theorem fair_text {text : List Char} (ht : c.SpecText stdin fs items text) : Fair (Complaint L stdin fs c items) (fromIstreamSaid text).errors :=
  (fair_spec text).imp fun _ ⟨_, _, _, _, h1, h2, h3⟩ => .spec ht h1 h2 h3

theorem fair_file {f : String} (ht : ∀ b, fs f = some b → c.SpecText stdin fs items (textOf b)) : Fair (Complaint L stdin fs c items) (fromFileSaid (fs f)) := by
  refine .bind (.silent _) fun s hs => ?_
  obtain ⟨b, hb, rfl⟩ := readSpec_ok hs
  exact fair_text (ht b hb)

theorem fromFileSaid_ok {file : Option (List Byte)} {g : Graph} (h : (fromFileSaid file).res = .ok g) : ∃ b, file = some b ∧ Graph.fromIstream (textOf b) = .ok g := by
  unfold fromFileSaid at h
  rw [bind_res] at h
  obtain ⟨s, hs, h⟩ := Res.bind_eq_ok.1 h
  obtain ⟨b, hb, rfl⟩ := readSpec_ok hs
  rw [errors_res] at h
  exact ⟨b, hb, h⟩

theorem fair_specArg (hc : ∀ t, ConverterText stdin fs items t → c.SpecText stdin fs items t) : Fair (Complaint L stdin fs c items) (specArgSaid fs stdin (args items)[0]?) := by
  unfold specArgSaid
  refine .ite (fun h => fair_text (hc _ (.inl ⟨?_, rfl⟩))) fun h => fair_file fun b hb => hc _ (.inr ?_)
  · cases e : (args items)[0]? with
    | none => exact .inl rfl
    | some f => rw [e] at h; exact .inr (congrArg some h)
  · cases e : (args items)[0]? with
    | none => rw [e] at h; exact absurd rfl h
    | some f => rw [e] at h hb; exact ⟨f, b, rfl, h, hb, rfl⟩

theorem fair_attArg (hc : c = .att2spec) : Fair (Complaint L stdin fs c items) (attArgSaid fs stdin (args items)[0]?) := by
  have key : ∀ t, ConverterText stdin fs items t → Fair (Complaint L stdin fs c items) (fromAttIstreamSaid t) := by
    intro t ht
    refine (fair_att t).imp ?_
    rintro _ ⟨a, line, b, h1, h2, h3, rfl⟩
    exact .att hc ht h1 h2 h3
  unfold attArgSaid
  refine .ite (fun h => key _ (.inl ⟨?_, rfl⟩)) fun h => ?_
  · cases e : (args items)[0]? with
    | none => exact .inl rfl
    | some f => rw [e] at h; exact .inr (congrArg some h)
  · cases e : (args items)[0]? with
    | none => rw [e] at h; exact absurd rfl h
    | some f =>
      rw [e] at h
      have h : f ≠ "-" := h
      show Fair _ (fromAttFileSaid f.toList ((fs f).map textOf))
      cases hb : fs f with
      | none => exact .die (.noFile hc e h hb)
      | some b => exact key _ (.inr ⟨f, b, e, h, hb, rfl⟩)

theorem fair_offline {boot : Nat} {out : String} {pre : List Nat} {cs : List (Gsw l N)} (hc : c = .runOffline) :
    Fair (Complaint L stdin fs c items) (runOfflineSaid L fs (opt items "--spec") out boot (opt items "--bkey") false pre cs) := by
  subst hc
  refine .bind (fair_bkey (by simp [Cmd.sources])) fun _ _ => .bind (fair_file fun b hb => ⟨b, hb, rfl⟩) fun g _ => .bind (.silent _) fun _ _ => .bind ?_ fun _ _ => .silent _
  exact .bind (.silent _) fun _ _ => .ite (fun h => nomatch h) fun _ => .silent _

theorem fair_reverse {freq boot : Nat} {out outDir : Option String} {isRev : Bool} {pre : List Nat} {cs : List (Gsw l N)} (hc : c = .runReverse) :
    Fair (Complaint L stdin fs c items) (runReverseSaid L fs (opt items "--spec") out outDir freq boot isRev (opt items "--bkey") false pre cs) := by
  subst hc
  refine .bind (.silent _) fun _ _ => .bind (fair_bkey (by simp [Cmd.sources])) fun _ _ => .bind (fair_file fun b hb => ⟨b, hb, rfl⟩) fun g _ => .bind ?_ fun _ _ => .silent _
  exact .bind (.silent _) fun _ _ => .bind (.silent _) fun _ _ => .ite (fun h => nomatch h) fun _ => .silent _

theorem fair_block {queue : Nat} {out : String} {cs : List (Gsw l N)} (hc : c = .runBlock) :
    Fair (Complaint L stdin fs c items) (runBlockSaid L fs (opt items "--spec") out queue (opt items "--bkey") false cs) := by
  subst hc
  exact .bind (fair_file fun b hb => ⟨b, hb, rfl⟩) fun _ _ => .bind (fair_bkey (by simp [Cmd.sources])) fun _ _ =>
    .bind (.ite (fun h => nomatch h) fun _ => .silent _) fun _ _ => .silent _

theorem fair_flut {freq queue boot : Nat} {out outDir : Option String} {pre : List Nat} {cs : List (Gsw l N)} (hc : c = .runFlut) :
    Fair (Complaint L stdin fs c items) (runFlutSaid L fs (opt items "--spec") out outDir freq queue boot (opt items "--bkey")
      (some (num items "--max-second-lut-depth")) (opt? items "--debug-secret-key") false pre cs) := by
  subst hc
  refine .bind (fair_file fun b hb => ⟨b, hb, rfl⟩) fun g hg => .bind (fair_bkey (by simp [Cmd.sources])) fun b _ => .bind ?_ fun _ _ =>
    .bind (.ite (fun h => nomatch h) fun _ => .silent _) fun r hr => .bind (.silent _) fun _ _ => ?_
  · cases e : opt? items "--debug-secret-key" with
    | none => exact .pure _
    | some f => exact .bind (fair_key (by simp [Cmd.sources, e])) fun _ _ => .pure _
  · obtain ⟨sb, hsb, hg'⟩ := fromFileSaid_ok hg
    have hr' : Flut.make g (num items "--max-second-lut-depth") queue boot false = .ok r := hr
    have hl := flutLive_make hg' hr'
    have imp : ∀ m, TooMany g (num items "--max-second-lut-depth") m → Complaint L stdin fs .runFlut items m := by
      rintro m ⟨k, qs, h1, h2, rfl⟩
      exact .states rfl ⟨sb, hsb, rfl⟩ hg' h1 h2
    have hloop := onlineLoopSaid_fair (I := FlutLive g (num items "--max-second-lut-depth")) (fun r c h => FlutLive.one (S := L.server b) h c)
      (fun r h => FlutLive.result (S := L.server b) h) outDir freq cs 0 r hl
    refine .bind (hloop.1.imp imp) fun p hp => .bind (.silent _) fun _ _ => .bind ((FlutLive.result (hloop.2 p hp)).1.imp imp) fun _ _ => .pure _

theorem fair_exec {x : Said (Files × List Char)} (h : ExecSaid L stdin fs (c.call items) x) : Fair (Complaint L stdin fs c items) x := by
  cases c
  case genkey => cases h; exact .pure _
  case genbkey => cases h; exact .bind (fair_key (by simp [Cmd.sources])) fun _ _ => .pure _
  case enc => cases h; exact .bind (fair_key (by simp [Cmd.sources])) fun _ _ => .silent _
  case dec => cases h; exact .bind (fair_key (by simp [Cmd.sources])) fun _ _ => .bind (fair_res (by simp [Cmd.sources])) fun _ _ => .pure _
  case runOffline =>
    cases h with
    | runOffline => exact .bind (.silent _) fun _ _ => fair_offline rfl
    | runOfflineEarly => exact fair_offline rfl
  case runReverse =>
    cases h with
    | runReverse => exact .bind (.silent _) fun _ _ => fair_reverse rfl
    | runReverseEarly => exact fair_reverse rfl
  case runBlock =>
    cases h with
    | runBlock => exact .bind (.silent _) fun _ _ => fair_block rfl
    | runBlockEarly => exact fair_block rfl
  case runFlut =>
    cases h with
    | runFlut => exact .bind (.silent _) fun _ _ => fair_flut rfl
    | runFlutEarly => exact fair_flut rfl
  case runPlain => cases h; exact .bind (fair_file fun b hb => ⟨b, hb, rfl⟩) fun _ _ => .silent _
  case ltl2spec => cases h; exact .silent _
  case spec2spec => cases h; exact .bind (fair_specArg fun _ h => h) fun _ _ => .silent _
  case spec2dot => cases h; exact .bind (fair_specArg fun _ h => h) fun _ _ => .silent _
  case spec2att => cases h; exact .bind (fair_specArg fun _ h => h) fun _ _ => .silent _
  case att2spec => cases h; exact .bind (fair_attArg rfl) fun _ _ => .silent _

end Homfa.Cli
