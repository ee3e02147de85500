import Verif.Proof.NoDie
import Verif.Proof.Complaint
/-!
# Helpers for C122: nothing gives up without a message
-/

namespace Homfa
open Homfa.Spec

variable {N n l : Nat} {α β : Type}

/-- Nothing is said only if the computation does not end in `error_die`. -/
structure Loud (x : Said α) : Prop where
  out : x.notes = [] → NoDie x.res

namespace Loud

theorem silent {r : Res α} (h : NoDie r) : Loud (Homfa.silent r) := ⟨fun _ => h⟩

theorem pure (a : α) : Loud (Pure.pure a : Said α) := ⟨fun _ => .ok a⟩

theorem die (m : List Char) : Loud (dieSaying m : Said α) := ⟨nofun⟩

theorem bind {x : Said α} {f : α → Said β} (h : Loud x) (hf : ∀ a, x.res = .ok a → Loud (f a)) : Loud (x >>= f) := by
  cases x with
  | mk nx rx =>
    cases rx with
    | error e =>
      refine ⟨fun hn => ⟨fun he => (h.out hn).out ?_⟩⟩
      have : e = .die := Except.error.inj he
      subst this
      rfl
    | ok a =>
      refine ⟨fun hn => ?_⟩
      exact (hf a rfl).out (List.append_eq_nil_iff.1 hn).2

theorem ite {c : Prop} [Decidable c] {x y : Said α} (hx : c → Loud x) (hy : ¬ c → Loud y) : Loud (if c then x else y) := by
  split
  · exact hx ‹_›
  · exact hy ‹_›

/-! ## Specifications -/

theorem spec (text : List Char) : Loud (fromIstreamSaid text).errors := by
  obtain ⟨h0, h1, -⟩ := C121_blames text _ (textLines_iff.2 rfl)
  refine ⟨fun hn => ⟨fun hd => ?_⟩⟩
  rw [errors_res] at hd
  obtain ⟨a, line, b, rows, m, ns, g1, g2, g3, g4, g5⟩ := h1 hd
  unfold Said.errors at hn
  rw [g5, List.filter_append] at hn
  exact absurd (List.append_eq_nil_iff.1 hn).2 (by simp [isError])

theorem att (text : List Char) : Loud (fromAttIstreamSaid text) := by
  obtain ⟨h0, h1, h2, h3, _⟩ := C121_att text _ (textLines_iff.2 rfl)
  refine ⟨fun hn => ⟨fun hd => ?_⟩⟩
  rw [h0] at hd
  obtain ⟨a, line, b, g1, g2, g3⟩ := h3 hd
  rw [(h2 a line b g1 g2 g3).2] at hn
  cases hn

theorem attFile (name : List Char) : ∀ content, Loud (fromAttFileSaid name content)
  | none => die _
  | some text => att text

/-! ## The runners -/

theorem backstream (g : Graph) (b : Nat) (k : Option Nat) (s : Bool) : Loud (Backstream.makeSaid g b k true s : Said (Backstream N)) :=
  bind (silent (.cassert _)) fun _ _ => ite (fun _ => die _) fun _ => silent (.backstreamMake _ _ _ _)

theorem reverse (g : Graph) (b : Nat) (r s : Bool) : Loud (reverseMakeSaid g b r true s : Said (Backstream N)) :=
  bind (silent (by nodie)) fun _ _ => backstream _ _ _ _

theorem flutQueued (S : Scheme N n l) (r : Flut N l) : Loud (r.evalQueuedSaid S) := by
  refine ite (fun _ => pure _) fun _ => bind (silent (.vat _ _)) fun memo h1 => bind (silent (.flutNext _ _ _ _)) fun next h2 => bind (silent (.flutIdx _ _)) fun _ _ =>
    bind (silent (.shl1Cap _)) fun cap h3 => ite (fun _ => die _) fun h4 => silent (.flutQueued S r h1 h2 h3 h4)

theorem flutOne (S : Scheme N n l) (r : Flut N l) (c : Gsw l N) : Loud (r.evalOneSaid S c) :=
  ite (fun _ => pure _) fun _ => flutQueued S _

theorem flutResult (S : Scheme N n l) (r : Flut N l) : Loud (r.resultSaid S) :=
  bind (flutQueued S r) fun _ _ => silent (by nodie)

theorem loop {ρ : Type} {evalOne : ρ → Gsw l N → Said ρ} {result : ρ → Said (TLWE N × ρ)} (he : ∀ r c, Loud (evalOne r c)) (hr : ∀ r, Loud (result r))
    (outDir : Option String) (freq : Nat) : ∀ (cs : List (Gsw l N)) (i : Nat) (r : ρ), Loud (onlineLoopSaid evalOne result outDir freq cs i r)
  | [], _, _ => pure _
  | c :: cs, i, r => by
    have ih := loop he hr outDir freq cs (i + 1)
    rw [onlineLoopSaid]
    refine bind (he r c) fun r' _ => ?_
    cases outDir with
    | none => exact ih _
    | some dir =>
      refine ite (fun _ => silent (.err nofun)) fun _ => ite (fun _ => ?_) fun _ => ih _
      exact bind (hr _) fun p _ => bind (ih _) fun _ _ => pure _

end Loud

namespace NoDie

theorem loop {ρ : Type} {evalOne : ρ → Gsw l N → Res ρ} {result : ρ → Res (TLWE N × ρ)} (he : ∀ r c, NoDie (evalOne r c)) (hr : ∀ r, NoDie (result r))
    (outDir : Option String) (freq : Nat) : ∀ (cs : List (Gsw l N)) (i : Nat) (r : ρ), NoDie (onlineLoop evalOne result outDir freq cs i r)
  | [], _, _ => ok _
  | c :: cs, i, r => by
    have ih := loop he hr outDir freq cs (i + 1)
    rw [onlineLoop]
    refine bind (he r c) fun r' => ?_
    cases outDir with
    | none => exact ih _
    | some dir =>
      dsimp only
      split
      · exact err nofun
      · split
        · exact bind (hr _) fun p => bind (ih _) fun _ => ok _
        · exact ih _

theorem lastOut (a b : Option String) (k : Nat) : NoDie (Homfa.lastOut a b k) := by unfold Homfa.lastOut; nodie
macro_rules | `(tactic| nodie1) => `(tactic| with_reducible exact NoDie.lastOut _ _ _)

/-! ## Input streams -/

theorem loadOp : ∀ (op : LoadOp l N) (p : IStream × Gsw l N), NoDie (op.run p)
  | .assertNotBeg, _ => bind (NoDie.cassert _) fun _ => ok _
  | .seekBack, _ => ok _
  | .load x, (is, c) => by
    refine bind (α := BitVec 64 × IStream) ?_ fun p => ok _
    unfold loadDouble
    nodie

theorem startLoading {kind : StreamKind} {s : StreamState l N} (h : s.died ≠ some .die) : (Homfa.startLoading kind s).died ≠ some .die := by
  unfold Homfa.startLoading
  split
  · exact h
  · exact nofun

theorem callOp {kind : StreamKind} {op : CallOp l N} {s t : StreamState l N} (h : s.died ≠ some .die) (ht : op.run kind s = some t) : t.died ≠ some .die := by
  cases op with
  | assertNonEmpty =>
    simp only [CallOp.run, Option.some.injEq] at ht
    subst ht
    split
    · exact h
    · exact nofun
  | get =>
    simp only [CallOp.run] at ht
    split at ht
    · cases ht; exact nofun
    · cases ht; exact h
    · cases ht
  | copy x => cases ht; exact h
  | dec => cases ht; exact h
  | startIfNonEmpty =>
    simp only [CallOp.run, Option.some.injEq] at ht
    subst ht
    split
    · exact startLoading h
    · exact h
  | startIfNotBeg =>
    simp only [CallOp.run, Option.some.injEq] at ht
    subst ht
    split
    · exact startLoading h
    · exact h
  | ret => cases ht; exact h

theorem streamStep {kind : StreamKind} {s t : StreamState l N} (h : s.died ≠ some .die) (ht : StreamStep kind s t) : t.died ≠ some .die := by
  rcases ht with ht | ht
  · unfold loaderStep at ht
    split at ht
    · rename_i op ops _ _
      have := loadOp op (s.is, s.loaded)
      split at ht
      · cases ht; exact h
      · rename_i e he
        cases ht
        intro hd
        have hd : some e = some .die := hd
        cases hd
        exact this.out he
    · cases ht
  · unfold callerStep at ht
    split at ht
    · cases ht
    · exact callOp (by exact h) ht
    · cases ht; exact h
    · cases ht; exact h
    · cases ht

theorem streamExec {kind : StreamKind} {k : Nat} {s t : StreamState l N} (h : s.died ≠ some .die) (ht : StreamExec kind k s t) : t.died ≠ some .die := by
  induction ht with
  | refl => exact h
  | step _ h2 ih => exact streamStep (ih h) h2

theorem openStream (kind : StreamKind) (file : Option (List Byte)) (junk : Gsw l N) (script : List StreamCall) : NoDie (Homfa.openStream kind file junk script) := by
  unfold Homfa.openStream
  refine bind (by nodie) fun bytes => bind (α := Nat) ?_ fun size => ok _
  unfold deserTell
  nodie

theorem openStream_died {kind : StreamKind} {file : Option (List Byte)} {junk : Gsw l N} {script : List StreamCall} {s : StreamState l N}
    (h : Homfa.openStream kind file junk script = .ok s) : s.died ≠ some .die := by
  unfold Homfa.openStream at h
  obtain ⟨_, _, h⟩ := Res.bind_eq_ok.1 h
  obtain ⟨_, _, h⟩ := Res.bind_eq_ok.1 h
  cases h
  cases kind
  · dsimp only
    split
    · exact startLoading nofun
    · exact nofun
  · dsimp only
    split
    · exact startLoading nofun
    · exact nofun

theorem fetch {kind : StreamKind} {file : Option (List Byte)} {r : Res (List Nat × List (Gsw l N))} (h : Cli.Fetch kind file r) : NoDie r := by
  cases h with
  | bad h =>
    exact err fun he => (openStream kind file _ _).out (h.trans (congrArg Except.error he))
  | dies h1 h2 h3 _ _ => exact err fun he => streamExec (openStream_died h1) h2 (h3.trans (congrArg some he))
  | forward => exact ok _
  | reversed => exact ok _

end NoDie
end Homfa

namespace Homfa.Cli
open Homfa.Spec

variable {N n l : Nat} {L : Lib N n l} {stdin : List Char} {fs : Files}

theorem loud_archive {α : Type} (load : List Byte → Option α) (fs : Files) (f : String) : Loud (readArchiveSaid load fs f) := by
  unfold readArchiveSaid
  split
  · exact .silent (.err nofun)
  · split
    · exact .pure _
    · exact .die _

theorem loud_debugKey (L : Lib N n l) (fs : Files) : ∀ name, Loud (readDebugKeySaid L fs name)
  | none => .pure _
  | some _ => .bind (loud_archive _ _ _) fun _ _ => .pure _

theorem loud_file (file : Option (List Byte)) : Loud (fromFileSaid file) := by
  refine .bind (.silent ?_) fun s _ => .spec s
  unfold readSpec
  nodie

theorem loud_specArg (name : Option String) : Loud (specArgSaid fs stdin name) := .ite (fun _ => .spec _) fun _ => loud_file _

theorem loud_attArg (name : Option String) : Loud (attArgSaid fs stdin name) := .ite (fun _ => .att _) fun _ => .attFile _ _

theorem loud_offline {spec out : String} {boot : Nat} {bkey : String} {s : Bool} {pre : List Nat} {cs : List (Gsw l N)} :
    Loud (runOfflineSaid L fs spec out boot bkey s pre cs) :=
  .bind (loud_archive _ _ _) fun _ _ => .bind (loud_file _) fun _ _ => .bind (.silent (.minimized _)) fun _ _ => .bind (.backstream _ _ _ _) fun _ _ => .silent (by nodie)

theorem loud_reverse {spec : String} {out outDir : Option String} {freq boot : Nat} {isRev : Bool} {bkey : String} {s : Bool} {pre : List Nat} {cs : List (Gsw l N)} :
    Loud (runReverseSaid L fs spec out outDir freq boot isRev bkey s pre cs) :=
  .bind (.silent (.cassert _)) fun _ _ => .bind (loud_archive _ _ _) fun _ _ => .bind (loud_file _) fun _ _ => .bind (.reverse _ _ _ _) fun _ _ =>
    .silent (.bind (.loop (fun _ _ => .backstreamEval _ _ _) (fun _ => .bind (.backstreamResult _) fun _ => .ok _) _ _ _ _ _) fun _ => by nodie)

theorem loud_block {spec out : String} {queue : Nat} {bkey : String} {s : Bool} {cs : List (Gsw l N)} : Loud (runBlockSaid L fs spec out queue bkey s cs) :=
  .bind (loud_file _) fun _ _ => .bind (loud_archive _ _ _) fun _ _ => .bind (.ite (fun _ => .die _) fun _ => .silent (.blockMake _ _)) fun _ _ => .silent (by nodie)

theorem loud_flut {spec : String} {out outDir : Option String} {freq queue boot : Nat} {bkey : String} {max : Option Nat} {dbg : Option String} {s : Bool} {pre : List Nat}
    {cs : List (Gsw l N)} : Loud (runFlutSaid L fs spec out outDir freq queue boot bkey max dbg s pre cs) :=
  .bind (loud_file _) fun _ _ => .bind (loud_archive _ _ _) fun _ _ => .bind (loud_debugKey _ _ _) fun _ _ =>
    .bind (.ite (fun _ => .die _) fun _ => .silent (.flutMake _ _ _ _)) fun _ _ => .bind (.silent (by nodie)) fun _ _ =>
    .bind (.loop (fun _ _ => .flutOne _ _ _) (fun _ => .flutResult _ _) _ _ _ _ _) fun _ _ => .bind (.silent (.lastOut _ _ _)) fun _ _ =>
    .bind (.flutResult _ _) fun _ _ => .pure _

/-- No command gives up without a message. -/
theorem loud_exec (hspot : ∀ f k, L.monitor f k ≠ .error .die) {c : Call} {x : Said (Files × List Char)} (h : ExecSaid L stdin fs c x) : Loud x := by
  cases h with
  | genkey => exact .pure _
  | genbkey => exact .bind (loud_archive _ _ _) fun _ _ => .pure _
  | enc => exact .bind (loud_archive _ _ _) fun _ _ => .silent (.bind (.doEnc _ _ _ _) fun _ => .ok _)
  | dec => exact .bind (loud_archive _ _ _) fun _ _ => .bind (loud_archive _ _ _) fun _ _ => .pure _
  | runOffline hf => exact .bind (.silent (.fetch hf)) fun _ _ => loud_offline
  | runOfflineEarly => exact loud_offline
  | runReverse hf => exact .bind (.silent (.fetch hf)) fun _ _ => loud_reverse
  | runReverseEarly => exact loud_reverse
  | runBlock hf => exact .bind (.silent (.fetch hf)) fun _ _ => loud_block
  | runBlockEarly => exact loud_block
  | runFlut hf => exact .bind (.silent (.fetch hf)) fun _ _ => loud_flut
  | runFlutEarly => exact loud_flut
  | runPlain =>
    exact .bind (loud_file _) fun _ _ => .silent (.bind (.eachInputBit (fun _ _ => .nextState _ _ _) _ _ _) fun _ => by nodie)
  | ltl2spec => exact .silent (.bind ⟨hspot _ _⟩ fun _ => by nodie)
  | spec2spec => exact .bind (loud_specArg _) fun _ _ => .silent (by nodie)
  | spec2dot => exact .bind (loud_specArg _) fun _ _ => .silent (by nodie)
  | spec2att => exact .bind (loud_specArg _) fun _ _ => .silent (by nodie)
  | att2spec => exact .bind (loud_attArg _) fun _ _ => .silent (by nodie)

end Homfa.Cli
