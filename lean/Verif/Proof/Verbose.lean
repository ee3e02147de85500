import Verif.Spec.Verbose
import Verif.Proof.TestBench

/-! # The log messages of the benchmark program change nothing else -/

namespace Homfa.Cli

variable {N n l : Nat}

/-- a row that is not a log message of level debug -/
def Row.keep (r : Row) : Bool := match r.val with
  | .message _ => r.key != "debug"
  | _ => true

/-- A row the methods print; names satisfy `P`. -/
def Row.Fine (P : String → Prop) (r : Row) : Prop := match r.val with
  | .message s => r.key ∈ ["info", "debug"] ∧ '\n' ∉ s
  | .str s => r.key ∈ benchKeys ∧ P s
  | _ => r.key ∈ benchKeys

/-- `y` is `x` without messages of level debug. -/
structure Sim {α : Type} (P : String → Prop) (x y : Out α) : Prop where
  res : x.res = y.res
  rows : y.rows = x.rows.filter Row.keep
  fine : ∀ r ∈ x.rows, r.Fine P

variable {P : String → Prop}

theorem Sim.bind {α β : Type} {x y : Out α} {f g : α → Out β} (h : Sim P x y) (hf : ∀ a, Sim P (f a) (g a)) : Sim P (x >>= f) (y >>= g) := by
  obtain ⟨rx, ex⟩ := x
  obtain ⟨ry, ey⟩ := y
  obtain ⟨h1, h2, h3⟩ := h
  dsimp only at h1 h2 h3
  subst h1 h2
  cases ex with
  | error e => exact ⟨rfl, rfl, h3⟩
  | ok a =>
    rw [out_ok, out_ok]
    obtain ⟨k1, k2, k3⟩ := hf a
    refine ⟨k1, by simp [k2], fun r hr => ?_⟩
    rcases List.mem_append.1 hr with hr | hr
    · exact h3 r hr
    · exact k3 r hr

theorem Sim.quiet {α : Type} (r : Res α) : Sim P (quiet r) (quiet r) := ⟨rfl, rfl, by simp [Cli.quiet]⟩

theorem Sim.pure {α : Type} (a : α) : Sim P (Pure.pure a : Out α) (Pure.pure a) := ⟨rfl, rfl, by simp [out_pure]⟩

/-- rows that are kept -/
theorem Sim.same {α : Type} {rows : List Row} {r : Res α} (h : ∀ r ∈ rows, r.keep = true ∧ r.Fine P) : Sim P (⟨rows, r⟩ : Out α) ⟨rows, r⟩ :=
  ⟨rfl, (List.filter_eq_self.2 fun r hr => (h r hr).1).symm, fun r hr => (h r hr).2⟩

theorem Sim.print {key : String} {v : Val} (h : (⟨key, v⟩ : Row).keep = true) (h' : (⟨key, v⟩ : Row).Fine P) : Sim P (print key v) (print key v) :=
  .same (by simp [h, h'])

theorem Sim.num {key : String} {k : Nat} (h : key ∈ benchKeys) : Sim P (Cli.print key (.num k)) (Cli.print key (.num k)) := .print rfl h

theorem Sim.time {key : String} (h : key ∈ benchKeys) : Sim P (Cli.print key .time) (Cli.print key .time) := .print rfl h

theorem Sim.str {key s : String} (h : key ∈ benchKeys) (h' : P s) : Sim P (Cli.print key (.str s)) (Cli.print key (.str s)) := .print rfl ⟨h, h'⟩

theorem Sim.elapsed {α : Type} {key : String} {x y : Out α} (hk : key ∈ benchKeys) (h : Sim P x y) : Sim P (printElapsed key x) (printElapsed key y) :=
  h.bind fun a => (Sim.time hk).bind fun _ => .pure a

/-- debug rows that are dropped -/
theorem Sim.drop {α : Type} {rows : List Row} {r : Res α} (h : ∀ r ∈ rows, r.key = "debug" ∧ ∃ s, r.val = .message s ∧ '\n' ∉ s) :
    Sim P (⟨rows, r⟩ : Out α) ⟨[], r⟩ := by
  refine ⟨rfl, ?_, fun r hr => ?_⟩
  · symm
    rw [List.filter_eq_nil_iff]
    intro r hr
    obtain ⟨h1, s, h2, -⟩ := h r hr
    unfold Row.keep
    rw [h1, h2]
    simp
  · obtain ⟨h1, s, h2, h3⟩ := h r hr
    unfold Row.Fine
    rw [h1, h2]
    exact ⟨by simp, h3⟩

theorem debugRow_debug {verbose : Bool} {s : List Char} (hs : '\n' ∉ s) : ∀ r ∈ debugRow verbose s, r.key = "debug" ∧ ∃ s, r.val = .message s ∧ '\n' ∉ s := by
  unfold debugRow
  cases verbose
  · simp
  · simp [hs]

theorem sim_backstream (verbose : Bool) (S : Scheme N n l) (r : Backstream N) (c : Gsw l N) :
    Sim P (Backstream.evalOut verbose S r c) (Backstream.evalOut false S r c) := by
  unfold Backstream.evalOut
  cases r.eval S c with
  | error e => exact .drop (by simp)
  | ok r' =>
    dsimp only
    split
    · exact .drop (debugRow_debug (by decide))
    · exact .drop (by simp)

theorem evalQueuedLog_debug (verbose : Bool) (r : Flut N l) :
    ∀ row ∈ Flut.evalQueuedLog verbose r, row.key = "debug" ∧ ∃ s, row.val = .message s ∧ '\n' ∉ s := by
  unfold Flut.evalQueuedLog
  dsimp only
  split
  · simp
  · split
    · simp
    · intro row hrow
      rcases List.mem_append.1 hrow with hrow | hrow
      · rcases List.mem_append.1 hrow with hrow | hrow
        · exact debugRow_debug (by simp [showNat_line]) row hrow
        · exact debugRow_debug (by simp [showNat_line]) row hrow
      · split at hrow
        · simp at hrow
        · exact debugRow_debug (by simp [showNat_line]) row hrow

theorem evalQueuedLog_quiet (r : Flut N l) : Flut.evalQueuedLog false r = [] := by
  unfold Flut.evalQueuedLog debugRow
  dsimp only
  split
  · rfl
  · split
    · rfl
    · simp only [Bool.false_eq_true, if_false, List.append_nil, List.nil_append]
      split <;> rfl

theorem sim_evalOne (verbose : Bool) (S : Scheme N n l) (r : Flut N l) (c : Gsw l N) : Sim P (Flut.evalOneOut verbose S r c) (Flut.evalOneOut false S r c) := by
  unfold Flut.evalOneOut
  split
  · exact .drop (by simp)
  · rw [evalQueuedLog_quiet]
    exact .drop (evalQueuedLog_debug _ _)

theorem sim_result (verbose : Bool) (S : Scheme N n l) (r : Flut N l) : Sim P (Flut.resultOut verbose S r) (Flut.resultOut false S r) := by
  unfold Flut.resultOut
  rw [evalQueuedLog_quiet]
  exact .drop (evalQueuedLog_debug _ _)

theorem skipped_lines : ∀ (lines : List (List Char)) (p : SpecSt), ∀ l ∈ skipped p lines, l ∈ lines
  | [], p => by simp [skipped]
  | line :: lines, p => by
    intro l hl
    unfold skipped at hl
    rcases List.mem_append.1 hl with hl | hl
    · split at hl
      · simp only [List.mem_singleton] at hl
        simp [hl]
      · simp at hl
    · split at hl
      · exact List.mem_cons_of_mem _ (skipped_lines lines _ l hl)
      · simp at hl

theorem sim_readSpec (fs : Files) (spec : String) : Sim P (readSpecOut fs spec) (readSpecOut fs spec) := by
  unfold readSpecOut
  refine (Sim.quiet _).bind fun text => .same fun r hr => ?_
  obtain ⟨line, hl, rfl⟩ := List.mem_map.1 hr
  have hnl : '\n' ∉ line := (textLines_iff.2 rfl : Spec.TextLines text _).1 line (skipped_lines _ _ _ hl)
  unfold skipRow
  exact ⟨rfl, by simp, by simp [hnl]⟩

/-! ## Loops -/

theorem sim_byte {σ : Type} {f g : σ → Bool → Out σ} (h : ∀ s b, Sim P (f s b) (g s b)) :
    ∀ (k : Nat) (v : Byte) (rest : Nat) (s : σ), Sim P (inputByteOut f k v rest s) (inputByteOut g k v rest s)
  | 0, v, rest, s => .pure _
  | k + 1, v, rest, s => by
    unfold inputByteOut
    split
    · exact .pure _
    · exact (h s _).bind fun s => sim_byte h k _ _ s

theorem sim_bytes {σ : Type} {f g : σ → Bool → Out σ} (h : ∀ s b, Sim P (f s b) (g s b)) (ap : Nat) :
    ∀ (bytes : List Byte) (rest : Nat) (s : σ), Sim P (inputBytesOut ap f bytes rest s) (inputBytesOut ap g bytes rest s)
  | [], rest, s => .pure _
  | v :: bytes, rest, s => by
    unfold inputBytesOut
    exact (sim_byte h 8 v _ s).bind fun p => sim_bytes h ap bytes p.1 p.2

theorem sim_each {σ : Type} {f g : σ → Bool → Out σ} (h : ∀ s b, Sim P (f s b) (g s b)) (file : Option (List Byte)) (ap : Nat) (s : σ) :
    Sim P (eachInputBitOut file ap f s) (eachInputBitOut file ap g s) :=
  (Sim.quiet _).bind fun bytes => (sim_bytes h ap bytes 0 s).bind fun _ => (Sim.quiet _).bind fun _ => .pure _

theorem sim_fold {σ β : Type} {f g : σ → β → Out σ} (h : ∀ s b, Sim P (f s b) (g s b)) : ∀ (bs : List β) (s : σ), Sim P (bs.foldlM f s) (bs.foldlM g s)
  | [], s => .pure _
  | b :: bs, s => by
    rw [List.foldlM_cons, List.foldlM_cons]
    exact (h s b).bind fun s => sim_fold h bs s

theorem sim_turn {ρ : Type} (S : Scheme N n l) (rand : Nat → Nat) {e e' : ρ → Gsw l N → Out ρ} {q q' : ρ → Out (TLWE N × ρ)} {info : ρ → List Row}
    (he : ∀ r c, Sim P (e r c) (e' r c)) (hq : ∀ r, Sim P (q r) (q' r)) (hi : ∀ r, ∀ row ∈ info r, row.keep = true ∧ row.Fine P) (freq : Nat) (s : ρ × Nat)
    (b : Bool) : Sim P (logTurn S rand e q info freq s b) (logTurn S rand e' q' info freq s b) := by
  unfold logTurn
  refine (Sim.elapsed (by decide) (.pure _)).bind fun c => (Sim.elapsed (by decide) ?_).bind fun p => ?_
  · refine (Sim.same (hi _)).bind fun _ => (he _ _).bind fun r => ?_
    split
    · exact .quiet _
    · split
      · exact .pure _
      · exact (hq r).bind fun _ => .pure _
  · split
    · exact .pure _
    · exact (Sim.elapsed (by decide) (.pure _)).bind fun b => (Sim.num (by decide)).bind fun _ => .pure _

theorem sim_online {ρ : Type} (S : Scheme N n l) (rand : Nat → Nat) {e e' : ρ → Gsw l N → Out ρ} {q q' : ρ → Out (TLWE N × ρ)} {info : ρ → List Row}
    (he : ∀ r c, Sim P (e r c) (e' r c)) (hq : ∀ r, Sim P (q r) (q' r)) (hi : ∀ r, ∀ row ∈ info r, row.keep = true ∧ row.Fine P)
    (fs : Files) (spec input : String) (freq ap : Nat) (make : Graph → Res ρ) (graph : ρ → Graph) :
    Sim P (logOnline S rand fs spec input freq ap make graph e q info) (logOnline S rand fs spec input freq ap make graph e' q' info) := by
  unfold logOnline
  exact (Sim.elapsed (by decide) ((sim_readSpec fs spec).bind fun _ => .quiet _)).bind fun r => (Sim.num (by decide)).bind fun _ =>
    (Sim.quiet _).bind fun _ => (Sim.num (by decide)).bind fun _ => (sim_each (sim_turn S rand he hq hi freq) _ _ _).bind fun _ => .pure _

theorem sim_keys : Sim P logKeys logKeys := (Sim.time (by decide)).bind fun _ => .time (by decide)

theorem sim_plain (hP : P "plain") (fs : Files) {spec input : String} (h1 : P spec) (h2 : P input) (freq ap : Nat) :
    Sim P (logPlain fs spec input freq ap) (logPlain fs spec input freq ap) := by
  unfold logPlain
  refine (Sim.str (by decide) hP).bind fun _ => (Sim.str (by decide) h1).bind fun _ => (Sim.str (by decide) h2).bind fun _ =>
    (Sim.num (by decide)).bind fun _ => (sim_readSpec fs spec).bind fun gr => (Sim.num (by decide)).bind fun _ => (Sim.quiet _).bind fun _ =>
    (Sim.num (by decide)).bind fun _ => (sim_each (fun s b => ?_) _ _ _).bind fun _ => .pure _
  unfold logPlainTurn
  refine (Sim.quiet _).bind fun cur => (Sim.num (by decide)).bind fun _ => ?_
  dsimp only
  split
  · exact .quiet _
  · split
    · refine (Sim.quiet _).bind fun f => ?_
      cases f
      · exact (Sim.num (by decide)).bind fun _ => .pure _
      · exact (Sim.num (by decide)).bind fun _ => .pure _
    · exact .pure _

theorem sim_offline (hP : P "offline") (verbose : Bool) (S : Scheme N n l) (rand : Nat → Nat) (fs : Files) {spec input : String} (h1 : P spec)
    (h2 : P input) (boot ap : Nat) (sanitize : Bool) :
    Sim P (logOffline verbose S rand fs spec input boot ap sanitize) (logOffline false S rand fs spec input boot ap sanitize) := by
  unfold logOffline
  refine (Sim.str (by decide) hP).bind fun _ => (Sim.str (by decide) h1).bind fun _ => (Sim.str (by decide) h2).bind fun _ =>
    (Sim.num (by decide)).bind fun _ => (Sim.num (by decide)).bind fun _ => (Sim.num (by decide)).bind fun _ => sim_keys.bind fun _ =>
    (Sim.quiet _).bind fun bits => (Sim.elapsed (by decide) ((sim_readSpec fs spec).bind fun _ => .quiet _)).bind fun runner =>
    (Sim.num (by decide)).bind fun _ => (Sim.num (by decide)).bind fun _ => (sim_fold (fun s p => ?_) _ _).bind fun s =>
    (Sim.elapsed (by decide) (.pure _)).bind fun b => (Sim.num (by decide)).bind fun _ => .pure _
  unfold logOfflineTurn
  refine (Sim.elapsed (by decide) (.pure _)).bind fun c => Sim.elapsed (by decide) ((sim_backstream verbose S s.1 c).bind fun r => ?_)
  dsimp only
  split
  · exact (Sim.quiet _).bind fun _ => .pure _
  · exact .pure _

theorem sim_reversed (hP : P "reversed") (verbose : Bool) (S : Scheme N n l) (rand : Nat → Nat) (fs : Files) {spec input : String} (h1 : P spec)
    (h2 : P input) (freq boot ap : Nat) (isRev sanitize : Bool) :
    Sim P (logReversed verbose S rand fs spec input freq boot ap isRev sanitize) (logReversed false S rand fs spec input freq boot ap isRev sanitize) := by
  unfold logReversed
  exact (Sim.str (by decide) hP).bind fun _ => (Sim.str (by decide) h1).bind fun _ => (Sim.str (by decide) h2).bind fun _ =>
    (Sim.num (by decide)).bind fun _ => (Sim.num (by decide)).bind fun _ => (Sim.num (by decide)).bind fun _ => (Sim.num (by decide)).bind fun _ =>
    sim_keys.bind fun _ => (sim_online S rand (fun r c => sim_backstream verbose S r c) (fun r => (Sim.quiet _).bind fun _ => .pure _) (by simp) fs _ _ _ _ _
      _).bind fun _ => .pure _

theorem sim_flut (hP : P "qtrlwe2") (verbose : Bool) (S : Scheme N n l) (rand : Nat → Nat) (fs : Files) {spec input : String} (h1 : P spec)
    (h2 : P input) (freq maxSecond queueSize boot ap : Nat) (sanitize : Bool) :
    Sim P (logFlut verbose S rand fs spec input freq maxSecond queueSize boot ap sanitize)
      (logFlut false S rand fs spec input freq maxSecond queueSize boot ap sanitize) := by
  unfold logFlut
  refine (Sim.str (by decide) hP).bind fun _ => (Sim.str (by decide) h1).bind fun _ => (Sim.str (by decide) h2).bind fun _ =>
    (Sim.num (by decide)).bind fun _ => (Sim.num (by decide)).bind fun _ => (Sim.num (by decide)).bind fun _ => (Sim.num (by decide)).bind fun _ =>
    (Sim.num (by decide)).bind fun _ => (Sim.num (by decide)).bind fun _ =>
    sim_keys.bind fun _ => (sim_online S rand (fun r c => sim_evalOne verbose S r c) (fun r => sim_result verbose S r) (fun r row hr => ?_) fs _ _ _ _ _
      _).bind fun _ => .pure _
  simp only [List.mem_cons, List.not_mem_nil, or_false] at hr
  rcases hr with rfl | rfl | rfl <;> exact ⟨rfl, by simp [Row.Fine, benchKeys]⟩

theorem sim_block (hP : P "bbs") (S : Scheme N n l) (rand : Nat → Nat) (fs : Files) {spec input : String} (h1 : P spec)
    (h2 : P input) (freq queueSize ap : Nat) (sanitize : Bool) :
    Sim P (logBlock S rand fs spec input freq queueSize ap sanitize) (logBlock S rand fs spec input freq queueSize ap sanitize) := by
  unfold logBlock
  refine (Sim.str (by decide) hP).bind fun _ => (Sim.str (by decide) h1).bind fun _ => (Sim.str (by decide) h2).bind fun _ =>
    (Sim.num (by decide)).bind fun _ => (Sim.num (by decide)).bind fun _ => (Sim.num (by decide)).bind fun _ => (Sim.num (by decide)).bind fun _ =>
    sim_keys.bind fun _ => (sim_online S rand (fun r c => .quiet _) (fun r => .quiet _) (fun r row hr => ?_) fs _ _ _ _ _
      _).bind fun _ => .pure _
  simp only [List.mem_cons, List.not_mem_nil, or_false] at hr
  subst hr
  exact ⟨rfl, by simp [Row.Fine, benchKeys]⟩

/-- the names of the methods -/
def methodNames : List String := ["plain", "offline", "reversed", "qtrlwe2", "bbs"]

/-- the names of the files in a call -/
def callNames : Call → List String
  | .benchPlain spec input _ _ => [spec, input]
  | .benchOffline spec input _ _ _ => [spec, input]
  | .benchReversed spec input _ _ _ _ _ => [spec, input]
  | .benchFlut spec input _ _ _ _ _ _ => [spec, input]
  | .benchBlock spec input _ _ _ _ => [spec, input]
  | _ => []

/-- A run with messages has one without. -/
theorem sim_down {L : Lib N n l} {fs : Files} {verbose : Bool} {c : Call} {x : Out (List (Target × Nat))} (h : BenchExec L fs verbose c x)
    (hP : ∀ s ∈ methodNames, P s) (hc : ∀ s ∈ callNames c, P s) : ∃ y, BenchExec L fs false c y ∧ Sim P x y := by
  cases h with
  | plain => exact ⟨_, .plain, sim_plain (hP _ (by decide)) fs (hc _ (by simp [callNames])) (hc _ (by simp [callNames])) _ _⟩
  | offline q q' rand =>
    exact ⟨_, .offline q q' rand, sim_offline (hP _ (by decide)) _ _ rand fs (hc _ (by simp [callNames])) (hc _ (by simp [callNames])) _ _ _⟩
  | reversed q q' rand =>
    exact ⟨_, .reversed q q' rand, sim_reversed (hP _ (by decide)) _ _ rand fs (hc _ (by simp [callNames])) (hc _ (by simp [callNames])) _ _ _ _ _⟩
  | flut q q' rand =>
    exact ⟨_, .flut q q' rand, sim_flut (hP _ (by decide)) _ _ rand fs (hc _ (by simp [callNames])) (hc _ (by simp [callNames])) _ _ _ _ _ _⟩
  | block q q' rand =>
    exact ⟨_, .block q q' rand, sim_block (hP _ (by decide)) _ rand fs (hc _ (by simp [callNames])) (hc _ (by simp [callNames])) _ _ _ _⟩

/-- A run without messages has one with them. -/
theorem sim_up {L : Lib N n l} {fs : Files} (verbose : Bool) {c : Call} {y : Out (List (Target × Nat))} (h : BenchExec L fs false c y) :
    ∃ x, BenchExec L fs verbose c x ∧ Sim (fun _ => True) x y := by
  cases h with
  | plain => exact ⟨_, .plain, sim_plain trivial fs trivial trivial _ _⟩
  | offline q q' rand => exact ⟨_, .offline q q' rand, sim_offline trivial _ _ rand fs trivial trivial _ _ _⟩
  | reversed q q' rand => exact ⟨_, .reversed q q' rand, sim_reversed trivial _ _ rand fs trivial trivial _ _ _ _ _⟩
  | flut q q' rand => exact ⟨_, .flut q q' rand, sim_flut trivial _ _ rand fs trivial trivial _ _ _ _ _ _⟩
  | block q q' rand => exact ⟨_, .block q q' rand, sim_block trivial _ rand fs trivial trivial _ _ _ _⟩

/-! ## Texts -/

theorem WithoutDebug.part' {t t' : List Char} (h : WithoutDebug t t') : ∀ (p a : List Char), '\n' ∉ a →
    WithoutDebug (a ++ p ++ '\n' :: t) (a ++ p ++ '\n' :: t')
  | [], a, ha => by simpa using .keep a ha h
  | c :: p, a, ha => by
    by_cases hc : c = '\n'
    · subst hc
      simpa using WithoutDebug.keep a ha (part' h p [] (by simp))
    · simpa using part' h p (a ++ [c]) (by simp [ha, Ne.symm hc])

theorem WithoutDebug.part {t t' : List Char} (h : WithoutDebug t t') (p : List Char) : WithoutDebug (p ++ '\n' :: t) (p ++ '\n' :: t') := by
  simpa using part' h p [] (by simp)

theorem WithoutDebug.append {a a' b b' : List Char} (h : WithoutDebug a a') (h' : WithoutDebug b b') : WithoutDebug (a ++ b) (a' ++ b') := by
  induction h with
  | nil => exact h'
  | debug stamp msg h1 h2 _ ih => simpa using WithoutDebug.debug stamp msg h1 h2 ih
  | keep line h1 _ ih => simpa using WithoutDebug.keep line h1 ih

/-- The lines of rows, without those of level debug. -/
theorem shows_keep {rows : List Row} {text : List Char} (h : Shows rows text) (hf : ∀ r ∈ rows, r.keep = false → r.Fine P) :
    ∃ text', Shows (rows.filter Row.keep) text' ∧ WithoutDebug text text' := by
  induction h with
  | nil => exact ⟨_, .nil, .nil⟩
  | @cons row rows v text hv _ ih =>
    obtain ⟨text', h1, h2⟩ := ih fun r hr => hf r (List.mem_cons_of_mem _ hr)
    have hk : row.keep = true := by
      obtain ⟨key, val⟩ := row
      cases hv <;> rfl
    rw [List.filter_cons, if_pos hk]
    exact ⟨_, .cons hv h1, by simpa using h2.part (row.key.toList ++ ',' :: v)⟩
  | @log level s rows text stamp hst _ ih =>
    obtain ⟨text', h1, h2⟩ := ih fun r hr => hf r (List.mem_cons_of_mem _ hr)
    by_cases hl : level = "debug"
    · subst hl
      rw [List.filter_cons, if_neg (by simp [Row.keep])]
      have hs := (hf ⟨"debug", .message s⟩ (by simp) (by simp [Row.keep])).2
      exact ⟨_, h1, by simpa using WithoutDebug.debug stamp s hst hs h2⟩
    · rw [List.filter_cons, if_pos (by simp [Row.keep, hl])]
      exact ⟨_, .log stamp hst h1, by simpa using h2.part ("[".toList ++ stamp ++ "] [".toList ++ level.toList ++ "] ".toList ++ s)⟩

/-- A text without the lines of level debug can be extended by them. -/
theorem shows_add : ∀ {rows : List Row} {text' : List Char}, Shows (rows.filter Row.keep) text' → (∀ r ∈ rows, r.keep = false → r.Fine P) →
    ∃ text, Shows rows text ∧ WithoutDebug text text'
  | [], text', h, _ => by
    cases h
    exact ⟨_, .nil, .nil⟩
  | row :: rows, text', h, hf => by
    have hf' : ∀ r ∈ rows, r.keep = false → r.Fine P := fun r hr => hf r (List.mem_cons_of_mem _ hr)
    by_cases hk : row.keep = true
    · rw [List.filter_cons, if_pos hk] at h
      cases h with
      | @cons _ _ v t hv h =>
        obtain ⟨text, h1, h2⟩ := shows_add h hf'
        exact ⟨_, .cons hv h1, by simpa using h2.part (row.key.toList ++ ',' :: v)⟩
      | @log level s _ t stamp hst h =>
        obtain ⟨text, h1, h2⟩ := shows_add h hf'
        exact ⟨_, .log stamp hst h1, by simpa using h2.part ("[".toList ++ stamp ++ "] [".toList ++ level.toList ++ "] ".toList ++ s)⟩
    · rw [List.filter_cons, if_neg hk] at h
      obtain ⟨text, h1, h2⟩ := shows_add h hf'
      have hfine := hf row (by simp) (by simpa using hk)
      obtain ⟨key, val⟩ := row
      unfold Row.keep at hk
      cases val with
      | message s =>
        simp only [bne_iff_ne, ne_eq, not_not] at hk
        subst hk
        exact ⟨_, .log [] (by simp) h1, by simpa using WithoutDebug.debug [] s (by simp) hfine.2 h2⟩
      | _ => simp at hk

theorem dump_same {samples : List Sample} {dump : List Char} (h : DumpCSV samples dump) : WithoutDebug dump dump := by
  obtain ⟨_, order, _, hp, rfl⟩ := h
  clear hp
  induction order with
  | nil => exact .nil
  | cons s order ih =>
    rw [List.flatMap_cons]
    have hl : s.line ++ order.flatMap Sample.line =
      (s.target.label ++ [','] ++ showNat s.count.toNat ++ [','] ++ showNat s.time) ++ '\n' :: order.flatMap Sample.line := by
      simp [Sample.line]
    rw [hl]
    exact ih.part (s.target.label ++ [','] ++ showNat s.count.toNat ++ [','] ++ showNat s.time)

theorem withoutDebug_lines {t t' : List Char} (h : WithoutDebug t t') :
    (getlines '\n' t).filter (fun line => line.head? ≠ some '[') = (getlines '\n' t').filter (fun line => line.head? ≠ some '[') := by
  induction h with
  | nil => rfl
  | debug stamp msg h1 h2 _ ih =>
    rw [getlines_line _ _ (by
      simp only [List.mem_append, not_or]
      exact ⟨⟨⟨by decide, h1⟩, by decide⟩, h2⟩), List.filter_cons, if_neg (by simp), ih]
  | keep line h1 _ ih => rw [getlines_line _ _ h1, getlines_line _ _ h1, List.filter_cons, List.filter_cons, ih]

/-- error messages stay -/
theorem dieRows_keep {e : Err} {errs : List Row} (h : DieRows e errs) : ∀ r ∈ errs, r.keep = true := by
  cases h with
  | die m t => simp [Row.keep]
  | other => simp

theorem sim_shows {α : Type} {x y : Out α} (h : Sim P x y) {errs : List Row} (he : ∀ r ∈ errs, r.keep = true) :
    (∀ text, Shows (⟨"time", .date⟩ :: x.rows ++ errs) text → ∃ text', Shows (⟨"time", .date⟩ :: y.rows ++ errs) text' ∧ WithoutDebug text text') ∧
    ∀ text', Shows (⟨"time", .date⟩ :: y.rows ++ errs) text' → ∃ text, Shows (⟨"time", .date⟩ :: x.rows ++ errs) text ∧ WithoutDebug text text' := by
  have e : (⟨"time", .date⟩ :: x.rows ++ errs : List Row).filter Row.keep = ⟨"time", .date⟩ :: y.rows ++ errs := by
    rw [h.rows, List.cons_append, List.filter_cons, if_pos (by rfl), List.filter_append, List.filter_eq_self.2 he, List.cons_append]
  have hf : ∀ r ∈ (⟨"time", .date⟩ :: x.rows ++ errs : List Row), r.keep = false → r.Fine P := by
    intro r hr hk
    simp only [List.cons_append, List.mem_cons, List.mem_append] at hr
    rcases hr with rfl | hr | hr
    · cases hk
    · exact h.fine r hr
    · rw [he r hr] at hk; cases hk
  rw [← e]
  exact ⟨fun text ht => shows_keep ht hf, fun text' ht => shows_add ht hf⟩

theorem shows_same {rows : List Row} {text : List Char} (h : Shows rows text) : WithoutDebug text text := by
  induction h with
  | nil => exact .nil
  | @cons row rows v text hv _ ih => simpa using ih.part (row.key.toList ++ ',' :: v)
  | @log level s rows text stamp hst _ ih => simpa using ih.part ("[".toList ++ stamp ++ "] [".toList ++ level.toList ++ "] ".toList ++ s)

theorem exec_down {L : Lib N n l} {fs : Files} (v : Bool) {c : Call} {x : Out (List (Target × Nat))} (h : BenchExec L fs true c x) :
    ∃ y, BenchExec L fs v c y ∧ x.res = y.res ∧ ∀ errs : List Row, (∀ r ∈ errs, r.keep = true) → ∀ text, Shows (⟨"time", .date⟩ :: x.rows ++ errs) text →
      ∃ text', Shows (⟨"time", .date⟩ :: y.rows ++ errs) text' ∧ WithoutDebug text text' := by
  cases v with
  | true => exact ⟨x, h, rfl, fun errs _ text ht => ⟨text, ht, shows_same ht⟩⟩
  | false =>
    obtain ⟨y, h1, h2⟩ := sim_down (P := fun _ => True) h (fun _ _ => trivial) (fun _ _ => trivial)
    exact ⟨y, h1, h2.res, fun errs he => (sim_shows h2 he).1⟩

theorem exec_up {L : Lib N n l} {fs : Files} {v : Bool} {c : Call} {y : Out (List (Target × Nat))} (h : BenchExec L fs v c y) :
    ∃ x, BenchExec L fs true c x ∧ x.res = y.res ∧ ∀ errs : List Row, (∀ r ∈ errs, r.keep = true) → ∀ text', Shows (⟨"time", .date⟩ :: y.rows ++ errs) text' →
      ∃ text, Shows (⟨"time", .date⟩ :: x.rows ++ errs) text ∧ WithoutDebug text text' := by
  cases v with
  | true => exact ⟨y, h, rfl, fun errs _ text ht => ⟨text, ht, shows_same ht⟩⟩
  | false =>
    obtain ⟨x, h1, h2⟩ := sim_up true h
    exact ⟨x, h1, h2.res, fun errs he => (sim_shows h2 he).2⟩

/-! ## Lines -/

theorem fine_lines {rows : List Row} {text : List Char} (h : Shows rows text) (hf : ∀ r ∈ rows, r.Fine fun s => '\n' ∉ s.toList) :
    ∀ line ∈ getlines '\n' text, LogLine line ∨ KeyLine line := by
  induction h with
  | nil => simp [getlines]
  | @cons row rows v text hv _ ih =>
    have hr := hf row (by simp)
    have hkey : row.key ∈ benchKeys ∧ '\n' ∉ v := by
      obtain ⟨key, val⟩ := row
      cases hv with
      | str s => exact hr
      | num k => exact ⟨hr, showNat_line k⟩
      | time k => exact ⟨hr, showNat_line k⟩
      | date t => exact ⟨hr, tm_line t⟩
      | total k t => exact ⟨hr, by simp [showNat_line]⟩
    have hnl : ∀ k ∈ benchKeys, '\n' ∉ k.toList := by decide
    have hline : '\n' ∉ row.key.toList ++ [','] ++ v := by
      simp only [List.mem_append, List.mem_singleton, not_or]
      exact ⟨⟨hnl _ hkey.1, by decide⟩, hkey.2⟩
    rw [List.append_assoc _ ['\n'], List.singleton_append, getlines_line _ _ hline]
    intro line hl
    rcases List.mem_cons.1 hl with rfl | hl
    · exact .inr ⟨row.key, hkey.1, v, by simp⟩
    · exact ih (fun r hr => hf r (List.mem_cons_of_mem _ hr)) line hl
  | @log level s rows text stamp hst _ ih =>
    obtain ⟨h1, h2⟩ := hf ⟨level, .message s⟩ (by simp)
    dsimp only at h1
    have hnl : ∀ k ∈ ["info", "debug"], '\n' ∉ k.toList := by decide
    have hline : '\n' ∉ "[".toList ++ stamp ++ "] [".toList ++ level.toList ++ "] ".toList ++ s := by
      simp only [List.mem_append, not_or]
      exact ⟨⟨⟨⟨⟨by decide, hst⟩, by decide⟩, hnl _ h1⟩, by decide⟩, h2⟩
    rw [List.append_assoc _ ['\n'], List.singleton_append, getlines_line _ _ hline]
    intro line hl
    rcases List.mem_cons.1 hl with rfl | hl
    · exact .inl ⟨stamp, level, s, h1, rfl⟩
    · exact ih (fun r hr => hf r (List.mem_cons_of_mem _ hr)) line hl

theorem shows_append {a b : List Row} {s t : List Char} (h : Shows a s) (h' : Shows b t) : Shows (a ++ b) (s ++ t) := by
  induction h with
  | nil => exact h'
  | cons hv _ ih => simpa using Shows.cons hv ih
  | log stamp hst _ ih => simpa using Shows.log stamp hst ih

/-- a message of a log can be seen in it -/
theorem shows_message {rows : List Row} {text : List Char} (h : Shows rows text) {level : String} {s : List Char} (hm : ⟨level, .message s⟩ ∈ rows) :
    ∃ a stamp b, text = a ++ "[".toList ++ stamp ++ "] [".toList ++ level.toList ++ "] ".toList ++ s ++ '\n' :: b := by
  induction h with
  | nil => simp at hm
  | @cons row rows v text hv _ ih =>
    rcases List.mem_cons.1 hm with rfl | hm
    · cases hv
    · obtain ⟨a, stamp, b, rfl⟩ := ih hm
      exact ⟨row.key.toList ++ [','] ++ v ++ ['\n'] ++ a, stamp, b, by simp⟩
  | @log level' s' rows text stamp hst _ ih =>
    rcases List.mem_cons.1 hm with e | hm
    · cases e
      exact ⟨[], stamp, text, by simp⟩
    · obtain ⟨a, stamp', b, rfl⟩ := ih hm
      exact ⟨"[".toList ++ stamp ++ "] [".toList ++ level'.toList ++ "] ".toList ++ s' ++ ['\n'] ++ a, stamp', b, by simp⟩

/-- the names in a call are among the words of its command line -/
theorem callNames_line {c : BenchCmd} {items : List Item} {s : String} (h : s ∈ callNames (c.call items)) : s = "" ∨ s ∈ line items := by
  have key : ∀ n, opt items n = "" ∨ opt items n ∈ line items := by
    intro n
    unfold opt
    cases ho : opt? items n with
    | none => exact .inl rfl
    | some v => exact .inr (List.mem_flatMap.2 ⟨.opt n v, opt?_mem ho, by simp [Item.words]⟩)
  cases c <;> simp only [BenchCmd.call, callNames, List.mem_cons, List.not_mem_nil, or_false] at h <;> rcases h with rfl | rfl <;> exact key _

end Homfa.Cli
