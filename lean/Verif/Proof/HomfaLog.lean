import Verif.Model.HomfaLog
import Verif.Proof.Oblivious
import Verif.Proof.Verbose
import Verif.Proof.BenchEnd
import Verif.Proof.CliMain
import Verif.Proof.Tree

/-! # The log of homfa -/

namespace Homfa.Cli

variable {N n l : Nat}

/-! ## The log changes nothing else -/

theorem res_bind {α β : Type} (x : Out α) (f : α → Out β) : (x >>= f).res = x.res >>= fun a => (f a).res := by
  obtain ⟨r, e⟩ := x
  cases e <;> rfl

theorem res_pure {α : Type} (a : α) : (pure a : Out α).res = .ok a := rfl
theorem res_quiet {α : Type} (r : Res α) : (quiet r).res = r := rfl
theorem res_info (s : List Char) : (infoMsg s).res = .ok () := rfl
theorem res_warn (s : List Char) : (warnMsg s).res = .ok () := rfl
theorem res_debug (v : Bool) (s : List Char) : (debugMsg v s).res = .ok () := rfl
theorem res_spec (s : List Char) : (specOut s).res = Graph.fromIstream s := rfl

theorem res_foldlM {α ι : Type} {f : α → ι → Out α} {g : α → ι → Res α} (h : ∀ a x, (f a x).res = g a x) : ∀ (xs : List ι) (a : α),
    (xs.foldlM f a).res = xs.foldlM g a
  | [], a => rfl
  | x :: xs, a => by
    rw [List.foldlM_cons, List.foldlM_cons, res_bind, h]
    exact congrArg _ (funext fun b => res_foldlM h xs b)

theorem logRunOffline_res (v : Bool) (S : Scheme N n l) (file : Option (List Byte)) (size : Nat) (cs : List (Gsw l N)) (boot : Nat) (sanitize : Bool) :
    (logRunOffline v S file size cs boot sanitize).res = (do let s ← readSpec file; doRunOffline S s size cs boot sanitize) := by
  unfold logRunOffline doRunOffline
  simp only [res_bind, res_quiet, res_info, res_spec, Res.bind_ok, res_foldlM (evalOut_res v S)]

theorem logDest_res (f d : Option String) (k : Nat) : (logDest f d k).res = .ok () := by
  cases f <;> cases d <;> rfl

theorem onlineLoopOut_res {ρ : Type} {v : Bool} {eval : ρ → Gsw l N → Out ρ} {eval' : ρ → Gsw l N → Res ρ} {result : ρ → Out (TLWE N × ρ)}
    {result' : ρ → Res (TLWE N × ρ)} (he : ∀ r c, (eval r c).res = eval' r c) (hr : ∀ r, (result r).res = result' r) (outDir : Option String) (freq : Nat) :
    ∀ (cs : List (Gsw l N)) (i : Nat) (r : ρ), (onlineLoopOut v eval result outDir freq cs i r).res = onlineLoop eval' result' outDir freq cs i r
  | [], i, r => rfl
  | c :: cs, i, r => by
    rw [onlineLoopOut, onlineLoop, res_bind, res_debug, Res.bind_ok, res_bind, he]
    refine congrArg _ (funext fun r => ?_)
    cases outDir with
    | none => exact onlineLoopOut_res he hr none freq cs _ r
    | some dir =>
      dsimp only
      split
      · rfl
      · split
        · rw [res_bind, hr]
          refine congrArg _ (funext fun p => ?_)
          rw [res_bind, onlineLoopOut_res he hr (some dir) freq cs]
          rfl
        · exact onlineLoopOut_res he hr (some dir) freq cs _ r

theorem logRunReverse_res (v : Bool) (S : Scheme N n l) (file : Option (List Byte)) (size hidden : Nat) (cs : List (Gsw l N)) (outFile outDir : Option String)
    (freq boot : Nat) (rev sanitize : Bool) : ∀ rs, (logRunReverse v S file size hidden cs outFile outDir freq boot rev sanitize).res = .ok rs ↔
      (do let s ← readSpec file; doRunReverse S s hidden cs outFile outDir freq boot rev sanitize) = .ok rs := by
  intro rs
  unfold logRunReverse doRunReverse
  simp only [res_bind, res_quiet, res_info, res_spec, logDest_res, Res.bind_ok]
  have := fun r => onlineLoopOut_res (v := v) (evalOut_res v S) (resultOut_res (N := N)) outDir freq cs 0 r
  simp only [this, res_pure]
  constructor
  · intro h
    obtain ⟨_, h1, h⟩ := Res.bind_eq_ok.1 h
    obtain ⟨s, h2, h⟩ := Res.bind_eq_ok.1 h
    refine Res.bind_eq_ok.2 ⟨s, h2, ?_⟩
    exact Res.bind_eq_ok.2 ⟨_, h1, h⟩
  · intro h
    obtain ⟨s, h2, h⟩ := Res.bind_eq_ok.1 h
    obtain ⟨_, h1, h⟩ := Res.bind_eq_ok.1 h
    refine Res.bind_eq_ok.2 ⟨_, h1, ?_⟩
    exact Res.bind_eq_ok.2 ⟨_, h2, h⟩

theorem logRunFlut_res (v : Bool) (S : Scheme N n l) (s : List Char) (size hidden : Nat) (cs : List (Gsw l N)) (outFile outDir : Option String)
    (freq queue boot : Nat) (ms : Option Nat) (sanitize : Bool) {g : Graph} (hg : Graph.fromIstream s = .ok g) :
    (logRunFlut v S g size hidden cs outFile outDir freq queue boot ms sanitize).res = doRunFlut S s hidden cs outFile outDir freq queue boot ms sanitize := by
  unfold logRunFlut doRunFlut
  rw [hg, Res.bind_ok]
  simp only [res_bind, res_quiet, res_info, logDest_res, Res.bind_ok]
  refine congrArg _ (funext fun r => ?_)
  have := fun r => onlineLoopOut_res (v := v) (eval := fun r c => Flut.evalOneOut v S r c) (result := fun r => Flut.resultOut v S r)
    (eval' := fun r c => Flut.evalOne S r c) (result' := fun r => Flut.result S r) (fun _ _ => rfl) (fun _ => rfl) outDir freq cs 0 r
  by_cases h0 : outDir.isSome ∧ queue = 0
  · rw [if_pos h0, if_pos h0]; rfl
  · rw [if_neg h0, if_neg h0]
    by_cases h1 : outDir.isSome ∧ freq % queue ≠ 0
    · rw [if_pos h1]
      simp only [res_bind, res_warn, res_quiet, this, Res.bind_ok]
      rfl
    · rw [if_neg h1]
      simp only [res_bind, res_quiet, this, res_pure, Res.bind_ok]
      rfl

theorem blockLoopOut_res (v : Bool) (S : Scheme N n l) : ∀ (cs : List (Gsw l N)) (i : Nat) (r : Block N l),
    (blockLoopOut v S cs i r).res = cs.foldlM (fun r c => r.evalOne S c) r
  | [], i, r => rfl
  | c :: cs, i, r => by
    rw [blockLoopOut, List.foldlM_cons, res_bind, res_debug, Res.bind_ok, res_bind]
    exact congrArg _ (funext fun b => blockLoopOut_res v S cs _ b)

theorem logRunBlock_res (v : Bool) (S : Scheme N n l) (s : List Char) (size : Nat) (cs : List (Gsw l N)) (queue : Nat) (sanitize : Bool) {g : Graph}
    (hg : Graph.fromIstream s = .ok g) : (logRunBlock v S g size cs queue sanitize).res = doRunBlock S s cs queue sanitize := by
  unfold logRunBlock doRunBlock
  rw [hg, Res.bind_ok]
  simp only [res_bind, res_quiet, res_info, Res.bind_ok, blockLoopOut_res, res_pure]
  rfl

theorem res_printResult (b : Bool) : (printResultOut b).res = .ok (printResult b) := rfl

theorem execLog_exec {L : Lib N n l} {stdin : List Char} {fs : Files} {v : Bool} {c : Call} {o : Out (Files × List Char)} (h : ExecLog L stdin fs v c o)
    {p : Files × List Char} (hp : o.res = .ok p) : Exec L stdin fs c (.ok p) := by
  cases h with
  | genkey r => cases hp; exact .genkey r
  | genbkey r => rw [← hp]; simp only [res_bind, res_quiet]; exact .genbkey r
  | enc rand => rw [← hp]; simp only [res_bind, res_quiet]; exact .enc rand
  | dec => rw [← hp]; simp only [res_bind, res_quiet, res_printResult, Res.bind_ok]; exact .dec
  | runOffline h1 =>
    refine (congrArg (Exec L stdin fs _) ?_).mp (Exec.runOffline h1)
    rw [← hp]
    simp only [res_bind, res_quiet, logRunOffline_res, res_pure, bind_assoc]
    rfl
  | runReverse h1 =>
    refine (congrArg (Exec L stdin fs _) ?_).mp (Exec.runReverse h1)
    simp only [res_bind, res_quiet, res_pure] at hp
    obtain ⟨b, k1, hp⟩ := Res.bind_eq_ok.1 hp
    obtain ⟨rs, k2, hp⟩ := Res.bind_eq_ok.1 hp
    rw [logRunReverse_res] at k2
    obtain ⟨s, k3, k4⟩ := Res.bind_eq_ok.1 k2
    rw [Res.bind_ok]
    dsimp only
    rw [k1, Res.bind_ok, k3, Res.bind_ok, k4, Res.bind_ok]
    exact hp
  | runBlock h1 =>
    refine (congrArg (Exec L stdin fs _) ?_).mp (Exec.runBlock h1)
    simp only [res_bind, res_quiet, res_pure, res_spec] at hp
    obtain ⟨s, k1, hp⟩ := Res.bind_eq_ok.1 hp
    obtain ⟨g, k2, hp⟩ := Res.bind_eq_ok.1 hp
    obtain ⟨b, k3, hp⟩ := Res.bind_eq_ok.1 hp
    rw [logRunBlock_res _ _ s _ _ _ _ k2] at hp
    rw [Res.bind_ok]
    dsimp only
    rw [k1, Res.bind_ok, k3, Res.bind_ok]
    exact hp
  | runFlut h1 =>
    refine (congrArg (Exec L stdin fs _) ?_).mp (Exec.runFlut h1)
    simp only [res_bind, res_quiet, res_pure, res_spec] at hp
    obtain ⟨s, k1, hp⟩ := Res.bind_eq_ok.1 hp
    obtain ⟨g, k2, hp⟩ := Res.bind_eq_ok.1 hp
    obtain ⟨b, k3, hp⟩ := Res.bind_eq_ok.1 hp
    obtain ⟨_, k4, hp⟩ := Res.bind_eq_ok.1 hp
    rw [logRunFlut_res _ _ s _ _ _ _ _ _ _ _ _ _ k2] at hp
    rw [Res.bind_ok]
    dsimp only
    rw [k1, Res.bind_ok, k3, Res.bind_ok, k4, Res.bind_ok]
    exact hp
  | runPlain =>
    refine (congrArg (Exec L stdin fs _) ?_).mp Exec.runPlain
    rw [← hp]
    simp only [res_bind, res_quiet, res_pure, res_spec, res_printResult, bind_assoc, Res.bind_ok, doRunPlain]
    rfl
  | ltl2spec notes => rw [← hp]; simp only [res_bind, res_quiet, res_pure, Res.bind_ok]; exact .ltl2spec
  | spec2spec =>
    refine (congrArg (Exec L stdin fs _) ?_).mp Exec.spec2spec
    simp only [res_bind, res_quiet, res_pure, res_spec] at hp
    obtain ⟨s, k1, hp⟩ := Res.bind_eq_ok.1 hp
    obtain ⟨g, k2, hp⟩ := Res.bind_eq_ok.1 hp
    rw [k1, Res.bind_ok]
    exact hp
  | spec2dot =>
    refine (congrArg (Exec L stdin fs _) ?_).mp Exec.spec2dot
    simp only [res_bind, res_quiet, res_pure, res_spec] at hp
    obtain ⟨s, k1, hp⟩ := Res.bind_eq_ok.1 hp
    obtain ⟨g, k2, hp⟩ := Res.bind_eq_ok.1 hp
    rw [k1, Res.bind_ok]
    exact hp
  | spec2att =>
    refine (congrArg (Exec L stdin fs _) ?_).mp Exec.spec2att
    simp only [res_bind, res_quiet, res_pure, res_spec] at hp
    obtain ⟨s, k1, hp⟩ := Res.bind_eq_ok.1 hp
    obtain ⟨g, k2, hp⟩ := Res.bind_eq_ok.1 hp
    rw [k1, Res.bind_ok]
    exact hp
  | att2spec => rw [← hp]; simp only [res_bind, res_quiet, res_pure]; exact .att2spec

theorem exec_execLog {L : Lib N n l} {stdin : List Char} {fs : Files} (v : Bool) {c : Call} {p : Files × List Char} (h : Exec L stdin fs c (.ok p)) :
    ∃ rows, ExecLog L stdin fs v c ⟨rows, .ok p⟩ := by
  suffices hh : ∃ o, ExecLog L stdin fs v c o ∧ o.res = .ok p by
    obtain ⟨⟨rows, r⟩, h1, h2⟩ := hh
    dsimp only at h2
    subst h2
    exact ⟨rows, h1⟩
  suffices hh : ∀ r, Exec L stdin fs c r → .ok p = r → ∃ o, ExecLog L stdin fs v c o ∧ o.res = .ok p from hh _ h rfl
  intro r h hp
  cases h with
  | genkey r => cases hp; exact ⟨_, .genkey r, rfl⟩
  | genbkey r => rw [hp]; refine ⟨_, .genbkey r, ?_⟩; simp only [res_bind, res_quiet]; rfl
  | enc rand => rw [hp]; refine ⟨_, .enc rand, ?_⟩; simp only [res_bind, res_quiet]; rfl
  | dec => rw [hp]; refine ⟨_, .dec, ?_⟩; simp only [res_bind, res_quiet, res_printResult, Res.bind_ok]; rfl
  | runOffline h1 =>
    obtain ⟨⟨pre, cs⟩, e, hq⟩ := Res.bind_eq_ok.1 hp.symm
    clear hp
    have hp := hq
    subst e
    refine ⟨_, .runOffline h1, ?_⟩
    rw [← hp]
    simp only [res_bind, res_quiet, logRunOffline_res, res_pure, bind_assoc]
    rfl
  | runReverse h1 =>
    obtain ⟨⟨pre, cs⟩, e, hq⟩ := Res.bind_eq_ok.1 hp.symm
    clear hp
    have hp := hq
    subst e
    refine ⟨_, .runReverse h1, ?_⟩
    dsimp only at hp
    obtain ⟨b, k1, hp⟩ := Res.bind_eq_ok.1 hp
    obtain ⟨s, k3, hp⟩ := Res.bind_eq_ok.1 hp
    obtain ⟨rs, k4, hp⟩ := Res.bind_eq_ok.1 hp
    simp only [res_bind, res_quiet, res_pure]
    refine Res.bind_eq_ok.2 ⟨b, k1, Res.bind_eq_ok.2 ⟨rs, ?_, hp⟩⟩
    rw [logRunReverse_res, k3, Res.bind_ok, k4]
  | runBlock h1 =>
    obtain ⟨⟨pre, cs⟩, e, hq⟩ := Res.bind_eq_ok.1 hp.symm
    clear hp
    have hp := hq
    subst e
    refine ⟨_, .runBlock h1, ?_⟩
    dsimp only at hp
    obtain ⟨s, k1, hp⟩ := Res.bind_eq_ok.1 hp
    obtain ⟨b, k3, hp⟩ := Res.bind_eq_ok.1 hp
    obtain ⟨rs, k4, hp⟩ := Res.bind_eq_ok.1 hp
    obtain ⟨g, k2, -⟩ := Res.bind_eq_ok.1 (show (Graph.fromIstream s >>= _) = _ from k4)
    simp only [res_bind, res_quiet, res_pure, res_spec]
    refine Res.bind_eq_ok.2 ⟨s, k1, Res.bind_eq_ok.2 ⟨g, k2, Res.bind_eq_ok.2 ⟨b, k3, Res.bind_eq_ok.2 ⟨rs, ?_, hp⟩⟩⟩⟩
    rw [logRunBlock_res _ _ s _ _ _ _ k2, k4]
  | runFlut h1 =>
    obtain ⟨⟨pre, cs⟩, e, hq⟩ := Res.bind_eq_ok.1 hp.symm
    clear hp
    have hp := hq
    subst e
    refine ⟨_, .runFlut h1, ?_⟩
    dsimp only at hp
    obtain ⟨s, k1, hp⟩ := Res.bind_eq_ok.1 hp
    obtain ⟨b, k3, hp⟩ := Res.bind_eq_ok.1 hp
    obtain ⟨u, k5, hp⟩ := Res.bind_eq_ok.1 hp
    obtain ⟨rs, k4, hp⟩ := Res.bind_eq_ok.1 hp
    obtain ⟨g, k2, -⟩ := Res.bind_eq_ok.1 (show (Graph.fromIstream s >>= _) = _ from k4)
    simp only [res_bind, res_quiet, res_pure, res_spec]
    refine Res.bind_eq_ok.2 ⟨s, k1, Res.bind_eq_ok.2 ⟨g, k2, Res.bind_eq_ok.2 ⟨b, k3, Res.bind_eq_ok.2 ⟨u, k5, Res.bind_eq_ok.2 ⟨rs, ?_, hp⟩⟩⟩⟩⟩
    rw [logRunFlut_res _ _ s _ _ _ _ _ _ _ _ _ _ k2, k4]
  | runPlain =>
    refine ⟨_, .runPlain, ?_⟩
    rw [hp]
    simp only [res_bind, res_quiet, res_pure, res_spec, res_printResult, bind_assoc, Res.bind_ok, doRunPlain]
    rfl
  | ltl2spec => rw [hp]; refine ⟨_, .ltl2spec [], ?_⟩; simp only [res_bind, res_quiet, res_pure, Res.bind_ok]; rfl
  | spec2spec =>
    refine ⟨_, .spec2spec, ?_⟩
    obtain ⟨s, k1, hp⟩ := Res.bind_eq_ok.1 hp.symm
    obtain ⟨out, k4, hp⟩ := Res.bind_eq_ok.1 hp
    obtain ⟨g, k2, -⟩ := Res.bind_eq_ok.1 (show (Graph.fromIstream s >>= _) = _ from k4)
    simp only [res_bind, res_quiet, res_pure, res_spec]
    exact Res.bind_eq_ok.2 ⟨s, k1, Res.bind_eq_ok.2 ⟨g, k2, Res.bind_eq_ok.2 ⟨out, k4, hp⟩⟩⟩
  | spec2dot =>
    refine ⟨_, .spec2dot, ?_⟩
    obtain ⟨s, k1, hp⟩ := Res.bind_eq_ok.1 hp.symm
    obtain ⟨out, k4, hp⟩ := Res.bind_eq_ok.1 hp
    obtain ⟨g, k2, -⟩ := Res.bind_eq_ok.1 (show (Graph.fromIstream s >>= _) = _ from k4)
    simp only [res_bind, res_quiet, res_pure, res_spec]
    exact Res.bind_eq_ok.2 ⟨s, k1, Res.bind_eq_ok.2 ⟨g, k2, Res.bind_eq_ok.2 ⟨out, k4, hp⟩⟩⟩
  | spec2att =>
    refine ⟨_, .spec2att, ?_⟩
    obtain ⟨s, k1, hp⟩ := Res.bind_eq_ok.1 hp.symm
    obtain ⟨out, k4, hp⟩ := Res.bind_eq_ok.1 hp
    obtain ⟨g, k2, -⟩ := Res.bind_eq_ok.1 (show (Graph.fromIstream s >>= _) = _ from k4)
    simp only [res_bind, res_quiet, res_pure, res_spec]
    exact Res.bind_eq_ok.2 ⟨s, k1, Res.bind_eq_ok.2 ⟨g, k2, Res.bind_eq_ok.2 ⟨out, k4, hp⟩⟩⟩
  | att2spec => rw [hp]; refine ⟨_, .att2spec, ?_⟩; simp only [res_bind, res_quiet, res_pure]; rfl

/-! ## Levels -/

/-- `y` is `x` without the messages of level debug; there are no errors. -/
structure Quieter {α : Type} (x y : Out α) : Prop where
  res : x.res = y.res
  rows : y.rows = x.rows.filter fun r => r.key != "debug"
  levels : ∀ r ∈ x.rows, r.key ∈ ["info", "warning", "debug"]

theorem Quieter.bind {α β : Type} {x y : Out α} {f g : α → Out β} (h : Quieter x y) (hf : ∀ a, Quieter (f a) (g a)) : Quieter (x >>= f) (y >>= g) := by
  obtain ⟨rx, ex⟩ := x
  obtain ⟨ry, ey⟩ := y
  obtain ⟨h1, h2, h3⟩ := h
  dsimp only at h1 h2 h3
  subst h1 h2
  cases ex with
  | error e => exact ⟨rfl, rfl, h3⟩
  | ok a =>
    rw [out_ok, out_ok]
    obtain ⟨k1, k2, k3⟩ := hf a
    refine ⟨k1, by simp [k2], fun r hr => ?_⟩
    rcases List.mem_append.1 hr with hr | hr
    · exact h3 r hr
    · exact k3 r hr

theorem Quieter.quiet {α : Type} (r : Res α) : Quieter (quiet r) (quiet r) := ⟨rfl, rfl, by simp [Cli.quiet]⟩
theorem Quieter.pure {α : Type} (a : α) : Quieter (Pure.pure a : Out α) (Pure.pure a) := ⟨rfl, rfl, by simp [out_pure]⟩
theorem Quieter.info (s : List Char) : Quieter (infoMsg s) (infoMsg s) := ⟨rfl, rfl, by simp [infoMsg]⟩
theorem Quieter.warn (s : List Char) : Quieter (warnMsg s) (warnMsg s) := ⟨rfl, rfl, by simp [warnMsg]⟩

theorem Quieter.drop {α : Type} {rows : List Row} {r : Res α} (h : ∀ r ∈ rows, r.key = "debug") : Quieter (⟨rows, r⟩ : Out α) ⟨[], r⟩ := by
  refine ⟨rfl, ?_, fun r hr => by simp [h r hr]⟩
  symm
  rw [List.filter_eq_nil_iff]
  intro r hr
  simp [h r hr]

theorem debugRow_key {v : Bool} {s : List Char} : ∀ r ∈ debugRow v s, r.key = "debug" := by
  unfold debugRow
  cases v <;> simp

theorem Quieter.debug (v : Bool) (s : List Char) : Quieter (debugMsg v s) (debugMsg false s) := .drop debugRow_key

theorem Quieter.spec (s : List Char) : Quieter (specOut s) (specOut s) := by
  refine ⟨rfl, ?_, ?_⟩
  · symm
    rw [List.filter_eq_self]
    intro r hr
    obtain ⟨x, -, rfl⟩ := List.mem_map.1 hr
    rfl
  · intro r hr
    obtain ⟨x, -, rfl⟩ := List.mem_map.1 hr
    simp [skipRow]

theorem Quieter.foldlM {α ι : Type} {f g : α → ι → Out α} (h : ∀ a x, Quieter (f a x) (g a x)) : ∀ (xs : List ι) (a : α), Quieter (xs.foldlM f a) (xs.foldlM g a)
  | [], a => .pure a
  | x :: xs, a => by
    rw [List.foldlM_cons, List.foldlM_cons]
    exact (h a x).bind fun b => Quieter.foldlM h xs b

theorem Quieter.of_sim {α : Type} {x y : Out α} {P : String → Prop} (h : Sim P x y) (hm : ∀ r ∈ x.rows, r.key = "debug") (hy : y.rows = []) : Quieter x y := by
  obtain ⟨rx, ex⟩ := x
  obtain ⟨ry, ey⟩ := y
  obtain ⟨h1, -, -⟩ := h
  dsimp only at h1 hm hy
  subst h1 hy
  exact .drop hm

theorem Quieter.backstream (v : Bool) (S : Scheme N n l) (r : Backstream N) (c : Gsw l N) : Quieter (Backstream.evalOut v S r c) (Backstream.evalOut false S r c) := by
  unfold Backstream.evalOut
  cases r.eval S c with
  | error e => exact .drop (by simp)
  | ok r' =>
    dsimp only
    split
    · exact .drop debugRow_key
    · exact .drop (by simp)

theorem Quieter.flut (v : Bool) (S : Scheme N n l) (r : Flut N l) (c : Gsw l N) : Quieter (Flut.evalOneOut v S r c) (Flut.evalOneOut false S r c) := by
  unfold Flut.evalOneOut
  split
  · exact .drop (by simp)
  · rw [evalQueuedLog_quiet]
    exact .drop fun r hr => (evalQueuedLog_debug _ _ r hr).1

theorem Quieter.flutResult (v : Bool) (S : Scheme N n l) (r : Flut N l) : Quieter (Flut.resultOut v S r) (Flut.resultOut false S r) := by
  unfold Flut.resultOut
  rw [evalQueuedLog_quiet]
  exact .drop fun r hr => (evalQueuedLog_debug _ _ r hr).1

theorem Quieter.dest (f d : Option String) (k : Nat) : Quieter (logDest f d k) (logDest f d k) := by
  unfold logDest
  cases f <;> cases d
  · exact .pure _
  · exact (Quieter.info _).bind fun _ => .info _
  · exact (Quieter.info _).bind fun _ => .pure _
  · exact (Quieter.info _).bind fun _ => (Quieter.info _).bind fun _ => .info _

theorem Quieter.loop {ρ : Type} {v : Bool} {eval eval' : ρ → Gsw l N → Out ρ} {result result' : ρ → Out (TLWE N × ρ)} (he : ∀ r c, Quieter (eval r c) (eval' r c))
    (hr : ∀ r, Quieter (result r) (result' r)) (outDir : Option String) (freq : Nat) : ∀ (cs : List (Gsw l N)) (i : Nat) (r : ρ),
    Quieter (onlineLoopOut v eval result outDir freq cs i r) (onlineLoopOut false eval' result' outDir freq cs i r)
  | [], i, r => .pure _
  | c :: cs, i, r => by
    rw [onlineLoopOut, onlineLoopOut]
    refine (Quieter.debug v _).bind fun _ => (he r c).bind fun r => ?_
    cases outDir with
    | none => exact Quieter.loop he hr none freq cs _ r
    | some dir =>
      dsimp only
      split
      · exact .quiet _
      · split
        · exact (hr r).bind fun p => (Quieter.loop he hr (some dir) freq cs _ _).bind fun q => .pure _
        · exact Quieter.loop he hr (some dir) freq cs _ r

theorem Quieter.blockLoop (v : Bool) (S : Scheme N n l) : ∀ (cs : List (Gsw l N)) (i : Nat) (r : Block N l), Quieter (blockLoopOut v S cs i r) (blockLoopOut false S cs i r)
  | [], i, r => .pure _
  | c :: cs, i, r => by
    rw [blockLoopOut, blockLoopOut]
    exact (Quieter.debug v _).bind fun _ => (Quieter.quiet _).bind fun r => Quieter.blockLoop v S cs _ r

theorem Quieter.offline (v : Bool) (S : Scheme N n l) (file : Option (List Byte)) (size : Nat) (cs : List (Gsw l N)) (boot : Nat) (sanitize : Bool) :
    Quieter (logRunOffline v S file size cs boot sanitize) (logRunOffline false S file size cs boot sanitize) := by
  unfold logRunOffline
  exact (Quieter.quiet _).bind fun _ => (Quieter.spec _).bind fun _ => (Quieter.quiet _).bind fun _ => (Quieter.quiet _).bind fun _ =>
    (Quieter.info _).bind fun _ => (Quieter.info _).bind fun _ => (Quieter.info _).bind fun _ => (Quieter.info _).bind fun _ => (Quieter.info _).bind fun _ =>
    (Quieter.quiet _).bind fun _ => (Quieter.info _).bind fun _ => (Quieter.info _).bind fun _ => (Quieter.info _).bind fun _ =>
    (Quieter.foldlM (Quieter.backstream v S) _ _).bind fun _ => .quiet _

theorem Quieter.reverse (v : Bool) (S : Scheme N n l) (file : Option (List Byte)) (size hidden : Nat) (cs : List (Gsw l N)) (outFile outDir : Option String)
    (freq boot : Nat) (rev sanitize : Bool) : Quieter (logRunReverse v S file size hidden cs outFile outDir freq boot rev sanitize)
      (logRunReverse false S file size hidden cs outFile outDir freq boot rev sanitize) := by
  unfold logRunReverse
  exact (Quieter.quiet _).bind fun _ => (Quieter.quiet _).bind fun _ => (Quieter.spec _).bind fun _ => (Quieter.quiet _).bind fun _ =>
    (Quieter.info _).bind fun _ => (Quieter.info _).bind fun _ => (Quieter.info _).bind fun _ => (Quieter.info _).bind fun _ => (Quieter.dest _ _ _).bind fun _ =>
    (Quieter.info _).bind fun _ => (Quieter.info _).bind fun _ => (Quieter.info _).bind fun _ =>
    (Quieter.loop (Quieter.backstream v S) (fun _ => (Quieter.quiet _).bind fun _ => .pure _) _ _ _ _ _).bind fun _ =>
    (Quieter.quiet _).bind fun _ => (Quieter.quiet _).bind fun _ => .pure _

theorem Quieter.runFlut (v : Bool) (S : Scheme N n l) (g : Graph) (size hidden : Nat) (cs : List (Gsw l N)) (outFile outDir : Option String)
    (freq queue boot : Nat) (ms : Option Nat) (sanitize : Bool) : Quieter (logRunFlut v S g size hidden cs outFile outDir freq queue boot ms sanitize)
      (logRunFlut false S g size hidden cs outFile outDir freq queue boot ms sanitize) := by
  unfold logRunFlut
  refine (Quieter.quiet _).bind fun _ => (Quieter.info _).bind fun _ => (Quieter.info _).bind fun _ => (Quieter.info _).bind fun _ => (Quieter.info _).bind fun _ =>
    (Quieter.info _).bind fun _ => (Quieter.dest _ _ _).bind fun _ => (Quieter.info _).bind fun _ => (Quieter.info _).bind fun _ => (Quieter.info _).bind fun _ => ?_
  have rest := fun r : Flut N l => (Quieter.loop (v := v) (Quieter.flut v S) (Quieter.flutResult v S) outDir freq cs 0 r).bind fun p =>
    (Quieter.quiet (lastOut outFile outDir hidden)).bind fun f => (Quieter.flutResult v S p.2).bind fun c => Quieter.pure (p.1 ++ [(f, c.1)])
  split
  · exact (Quieter.quiet _).bind fun _ => rest _
  · split
    · exact (Quieter.warn _).bind fun _ => rest _
    · exact rest _

theorem Quieter.runBlock (v : Bool) (S : Scheme N n l) (g : Graph) (size : Nat) (cs : List (Gsw l N)) (queue : Nat) (sanitize : Bool) :
    Quieter (logRunBlock v S g size cs queue sanitize) (logRunBlock false S g size cs queue sanitize) := by
  unfold logRunBlock
  exact (Quieter.quiet _).bind fun _ => (Quieter.info _).bind fun _ => (Quieter.info _).bind fun _ => (Quieter.info _).bind fun _ => (Quieter.info _).bind fun _ =>
    (Quieter.info _).bind fun _ => (Quieter.info _).bind fun _ => (Quieter.info _).bind fun _ => (Quieter.blockLoop v S _ _ _).bind fun _ =>
    (Quieter.quiet _).bind fun _ => .pure _

theorem Quieter.print (b : Bool) : Quieter (printResultOut b) (printResultOut b) := (Quieter.info _).bind fun _ => .pure _

theorem Quieter.notes (v : Bool) (notes : List (List Char)) : Quieter (⟨notes.flatMap (debugRow v), .ok ()⟩ : Out Unit) ⟨notes.flatMap (debugRow false), .ok ()⟩ := by
  have : notes.flatMap (debugRow false) = [] := by simp [debugRow]
  rw [this]
  refine .drop fun r hr => ?_
  obtain ⟨x, -, hx⟩ := List.mem_flatMap.1 hr
  exact debugRow_key r hx

theorem execLog_quieter {L : Lib N n l} {stdin : List Char} {fs : Files} {c : Call} : ∀ (v : Bool) {o : Out (Files × List Char)}, ExecLog L stdin fs v c o →
    ∃ o', ExecLog L stdin fs false c o' ∧ Quieter o o' := by
  intro v o h
  cases h with
  | genkey r => exact ⟨_, .genkey r, .pure _⟩
  | genbkey r => exact ⟨_, .genbkey r, (Quieter.quiet _).bind fun _ => .pure _⟩
  | enc rand => exact ⟨_, .enc rand, (Quieter.quiet _).bind fun _ => (Quieter.quiet _).bind fun _ => .pure _⟩
  | dec => exact ⟨_, .dec, (Quieter.quiet _).bind fun _ => (Quieter.quiet _).bind fun _ => (Quieter.print _).bind fun _ => .pure _⟩
  | runOffline h1 => exact ⟨_, .runOffline h1, (Quieter.quiet _).bind fun _ => (Quieter.offline v _ _ _ _ _ _).bind fun _ => .pure _⟩
  | runReverse h1 => exact ⟨_, .runReverse h1, (Quieter.quiet _).bind fun _ => (Quieter.reverse v _ _ _ _ _ _ _ _ _ _ _).bind fun _ => .pure _⟩
  | runBlock h1 => exact ⟨_, .runBlock h1, (Quieter.quiet _).bind fun _ => (Quieter.spec _).bind fun _ => (Quieter.quiet _).bind fun _ =>
      (Quieter.runBlock v _ _ _ _ _ _).bind fun _ => .pure _⟩
  | runFlut h1 => exact ⟨_, .runFlut h1, (Quieter.quiet _).bind fun _ => (Quieter.spec _).bind fun _ => (Quieter.quiet _).bind fun _ => (Quieter.quiet _).bind fun _ =>
      (Quieter.runFlut v _ _ _ _ _ _ _ _ _ _ _ _).bind fun _ => .pure _⟩
  | runPlain => exact ⟨_, .runPlain, (Quieter.quiet _).bind fun _ => (Quieter.spec _).bind fun _ => (Quieter.quiet _).bind fun _ => (Quieter.quiet _).bind fun _ =>
      (Quieter.print _).bind fun _ => .pure _⟩
  | ltl2spec notes => exact ⟨_, .ltl2spec notes, (Quieter.quiet _).bind fun _ => (Quieter.notes v notes).bind fun _ => (Quieter.quiet _).bind fun _ => .pure _⟩
  | spec2spec => exact ⟨_, .spec2spec, (Quieter.quiet _).bind fun _ => (Quieter.spec _).bind fun _ => (Quieter.quiet _).bind fun _ => .pure _⟩
  | spec2dot => exact ⟨_, .spec2dot, (Quieter.quiet _).bind fun _ => (Quieter.spec _).bind fun _ => (Quieter.quiet _).bind fun _ => .pure _⟩
  | spec2att => exact ⟨_, .spec2att, (Quieter.quiet _).bind fun _ => (Quieter.spec _).bind fun _ => (Quieter.quiet _).bind fun _ => .pure _⟩
  | att2spec => exact ⟨_, .att2spec, (Quieter.quiet _).bind fun _ => (Quieter.quiet _).bind fun _ => .pure _⟩

/-! ## What the log says does not depend on the ciphertexts -/

/-- the same messages, and the same kind of end -/
def OutAlike {α β : Type} (R : α → β → Prop) (x : Out α) (y : Out β) : Prop := x.rows = y.rows ∧ Alike R x.res y.res

section
variable {α β γ δ : Type} {R : α → β → Prop} {Q : γ → δ → Prop}

theorem OutAlike.bind {x : Out α} {y : Out β} {f : α → Out γ} {g : β → Out δ} (h : OutAlike R x y) (hf : ∀ a b, R a b → OutAlike Q (f a) (g b)) :
    OutAlike Q (x >>= f) (y >>= g) := by
  obtain ⟨rx, ex⟩ := x
  obtain ⟨ry, ey⟩ := y
  obtain ⟨h1, h2⟩ := h
  dsimp only at h1
  subst h1
  cases ex <;> cases ey <;> simp only [Alike] at h2
  · subst h2; exact ⟨rfl, rfl⟩
  · obtain ⟨k1, k2⟩ := hf _ _ h2
    exact ⟨by rw [out_ok, out_ok, k1], k2⟩

theorem OutAlike.quiet {x : Res α} {y : Res β} (h : Alike R x y) : OutAlike R (quiet x) (quiet y) := ⟨rfl, h⟩
theorem OutAlike.pure {a : α} {b : β} (h : R a b) : OutAlike R (Pure.pure a : Out α) (Pure.pure b : Out β) := ⟨rfl, h⟩
theorem OutAlike.refl (x : Out α) : OutAlike (· = ·) x x := ⟨rfl, Alike.refl _⟩

theorem OutAlike.bind_same {x : Out α} {f : α → Out γ} {g : α → Out δ} (hf : ∀ a, OutAlike Q (f a) (g a)) : OutAlike Q (x >>= f) (x >>= g) :=
  (OutAlike.refl x).bind fun a b h => by subst h; exact hf a

theorem OutAlike.mono {R' : α → β → Prop} {x : Out α} {y : Out β} (h : OutAlike R x y) (hr : ∀ a b, R a b → R' a b) : OutAlike R' x y := ⟨h.1, h.2.mono hr⟩

end

theorem outFold_alike {ρ : Type} {Q : ρ → ρ → Prop} {eval eval' : ρ → Gsw l N → Out ρ} (he : ∀ r r' c c', Q r r' → OutAlike Q (eval r c) (eval' r' c')) :
    ∀ (cs cs' : List (Gsw l N)), cs.length = cs'.length → ∀ (r r' : ρ), Q r r' → OutAlike Q (cs.foldlM eval r) (cs'.foldlM eval' r')
  | [], [], _, r, r', hq => .pure hq
  | [], _ :: _, h, _, _, _ => by simp at h
  | _ :: _, [], h, _, _, _ => by simp at h
  | c :: cs, c' :: cs', h, r, r', hq => by
    rw [List.foldlM_cons, List.foldlM_cons]
    exact (he r r' c c' hq).bind fun r r' hq => outFold_alike he cs cs' (by simpa using h) r r' hq

theorem evalOut_alike (v : Bool) (S S' : Scheme N n l) {r r' : Backstream N} (h : r.Same r') (c c' : Gsw l N) :
    OutAlike Backstream.Same (Backstream.evalOut v S r c) (Backstream.evalOut v S' r' c') := by
  have := Backstream.eval_alike S S' h c c'
  unfold Backstream.evalOut
  revert this
  cases r.eval S c <;> cases r'.eval S' c' <;> intro this
  · exact ⟨rfl, this⟩
  · exact this.elim
  · exact this.elim
  · have h : Backstream.Same _ _ := this
    refine ⟨?_, this⟩
    dsimp only
    rw [h.numProcessed, h.bootInterval]

theorem evalQueuedLog_alike (v : Bool) {r r' : Flut N l} (h : r.Same r') : Flut.evalQueuedLog v r = Flut.evalQueuedLog v r' := by
  unfold Flut.evalQueuedLog
  rw [h.queued, h.graph, h.live, h.memo, h.maxSecond]

theorem flutEval_alike (v : Bool) (S S' : Scheme N n l) {r r' : Flut N l} (h : r.Same r') (c c' : Gsw l N) :
    OutAlike Flut.Same (Flut.evalOneOut v S r c) (Flut.evalOneOut v S' r' c') := by
  refine ⟨?_, Flut.evalOne_alike S S' h c c'⟩
  have h' : Flut.Same { r with queued := r.queued ++ [c] } { r' with queued := r'.queued ++ [c'] } :=
    ⟨h.graph, h.weight, by simp [h.queued], h.maxSecond, h.queueSize, h.live, h.memo, h.numEval, h.bootFreq, h.first, h.second⟩
  unfold Flut.evalOneOut
  dsimp only
  rw [evalQueuedLog_alike v h', h.queued, h.queueSize]

theorem flutResult_alike (v : Bool) (S S' : Scheme N n l) {r r' : Flut N l} (h : r.Same r') :
    OutAlike (fun p q => p.2.Same q.2) (Flut.resultOut v S r) (Flut.resultOut v S' r') :=
  ⟨evalQueuedLog_alike v h, Flut.result_alike S S' h⟩

theorem onlineLoopOut_alike {ρ : Type} {Q : ρ → ρ → Prop} {v : Bool} {eval eval' : ρ → Gsw l N → Out ρ} {result result' : ρ → Out (TLWE N × ρ)}
    (he : ∀ r r' c c', Q r r' → OutAlike Q (eval r c) (eval' r' c')) (hr : ∀ r r', Q r r' → OutAlike (fun p q => Q p.2 q.2) (result r) (result' r'))
    (outDir : Option String) (freq : Nat) : ∀ (cs cs' : List (Gsw l N)), cs.length = cs'.length → ∀ (i : Nat) (r r' : ρ), Q r r' →
    OutAlike (fun p q => Q p.2 q.2) (onlineLoopOut v eval result outDir freq cs i r) (onlineLoopOut v eval' result' outDir freq cs' i r')
  | [], [], _, _, r, r', hq => .pure hq
  | [], _ :: _, h, _, _, _, _ => by simp at h
  | _ :: _, [], h, _, _, _, _ => by simp at h
  | c :: cs, c' :: cs', h, i, r, r', hq => by
    have h : cs.length = cs'.length := by simpa using h
    rw [onlineLoopOut, onlineLoopOut]
    refine OutAlike.bind_same fun _ => (he r r' c c' hq).bind fun r1 r1' h1 => ?_
    cases outDir with
    | none => exact onlineLoopOut_alike he hr none freq cs cs' h _ _ _ h1
    | some dir =>
      dsimp only
      by_cases hf : freq = 0
      · rw [if_pos hf, if_pos hf]; exact ⟨rfl, rfl⟩
      · rw [if_neg hf, if_neg hf]
        by_cases hi : i % freq = freq - 1
        · rw [if_pos hi, if_pos hi]
          refine (hr r1 r1' h1).bind fun p p' hp => ?_
          exact (onlineLoopOut_alike he hr (some dir) freq cs cs' h _ _ _ hp).bind fun q q' hqq => .pure hqq
        · rw [if_neg hi, if_neg hi]
          exact onlineLoopOut_alike he hr (some dir) freq cs cs' h _ _ _ h1

theorem blockLoopOut_alike (v : Bool) (S S' : Scheme N n l) : ∀ (cs cs' : List (Gsw l N)), cs.length = cs'.length → ∀ (i : Nat) (r r' : Block N l), r.Same r' →
    OutAlike Block.Same (blockLoopOut v S cs i r) (blockLoopOut v S' cs' i r')
  | [], [], _, _, r, r', hq => .pure hq
  | [], _ :: _, h, _, _, _, _ => by simp at h
  | _ :: _, [], h, _, _, _, _ => by simp at h
  | c :: cs, c' :: cs', h, i, r, r', hq => by
    rw [blockLoopOut, blockLoopOut]
    exact OutAlike.bind_same fun _ => (OutAlike.quiet (Block.evalOne_alike S S' hq c c')).bind fun r1 r1' h1 =>
      blockLoopOut_alike v S S' cs cs' (by simpa using h) _ _ _ h1

theorem logRunOffline_alike (v : Bool) (S S' : Scheme N n l) (file : Option (List Byte)) (size : Nat) (cs cs' : List (Gsw l N)) (h : cs.length = cs'.length)
    (boot : Nat) (sanitize : Bool) :
    OutAlike (fun _ _ => True) (logRunOffline v S file size cs boot sanitize) (logRunOffline v S' file size cs' boot sanitize) := by
  unfold logRunOffline
  refine .bind_same fun _ => .bind_same fun _ => .bind_same fun _ => .bind_same fun r => .bind_same fun _ => .bind_same fun _ => .bind_same fun _ =>
    .bind_same fun _ => .bind_same fun _ => .bind_same fun _ => .bind_same fun _ => .bind_same fun _ => .bind_same fun _ => ?_
  exact (outFold_alike (fun _ _ c c' hr => evalOut_alike v S S' hr c c') cs cs' h r r (Backstream.Same.refl r)).bind fun _ _ hr => .quiet hr.result_alike

theorem logRunReverse_alike (v : Bool) (S S' : Scheme N n l) (file : Option (List Byte)) (size hidden : Nat) (cs cs' : List (Gsw l N)) (h : cs.length = cs'.length)
    (outFile outDir : Option String) (freq boot : Nat) (rev sanitize : Bool) :
    OutAlike (fun _ _ => True) (logRunReverse v S file size hidden cs outFile outDir freq boot rev sanitize)
      (logRunReverse v S' file size hidden cs' outFile outDir freq boot rev sanitize) := by
  unfold logRunReverse
  refine .bind_same fun _ => .bind_same fun _ => .bind_same fun _ => .bind_same fun r => .bind_same fun _ => .bind_same fun _ => .bind_same fun _ =>
    .bind_same fun _ => .bind_same fun _ => .bind_same fun _ => .bind_same fun _ => .bind_same fun _ => ?_
  refine (onlineLoopOut_alike (Q := Backstream.Same) (fun _ _ c c' hr => evalOut_alike v S S' hr c c')
    (fun r r' hr => (OutAlike.quiet hr.result_alike).bind fun _ _ _ => .pure hr) outDir freq cs cs' h 0 r r (Backstream.Same.refl r)).bind fun p q hpq => ?_
  exact .bind_same fun _ => (OutAlike.quiet hpq.result_alike).bind fun _ _ _ => .pure trivial

theorem logRunFlut_alike (v : Bool) (S S' : Scheme N n l) (g : Graph) (size hidden : Nat) (cs cs' : List (Gsw l N)) (h : cs.length = cs'.length)
    (outFile outDir : Option String) (freq queue boot : Nat) (ms : Option Nat) (sanitize : Bool) :
    OutAlike (fun _ _ => True) (logRunFlut v S g size hidden cs outFile outDir freq queue boot ms sanitize)
      (logRunFlut v S' g size hidden cs' outFile outDir freq queue boot ms sanitize) := by
  unfold logRunFlut
  refine .bind_same fun r => .bind_same fun _ => .bind_same fun _ => .bind_same fun _ => .bind_same fun _ =>
    .bind_same fun _ => .bind_same fun _ => .bind_same fun _ => .bind_same fun _ => .bind_same fun _ => ?_
  have rest := (onlineLoopOut_alike (v := v) (Q := Flut.Same) (fun _ _ c c' hr => flutEval_alike v S S' hr c c')
    (fun r r' hr => flutResult_alike v S S' hr) outDir freq cs cs' h 0 r r (Flut.Same.refl r)).bind (Q := fun _ _ => True) fun p q hpq =>
    OutAlike.bind_same (x := quiet (lastOut outFile outDir hidden)) fun f => (flutResult_alike v S S' hpq).bind fun c c' _ =>
      OutAlike.pure (a := p.1 ++ [(f, c.1)]) (b := q.1 ++ [(f, c'.1)]) trivial
  split
  · exact .bind_same fun _ => rest
  · split
    · exact .bind_same fun _ => rest
    · exact rest

theorem logRunBlock_alike (v : Bool) (S S' : Scheme N n l) (g : Graph) (size : Nat) (cs cs' : List (Gsw l N)) (h : cs.length = cs'.length)
    (queue : Nat) (sanitize : Bool) :
    OutAlike (fun _ _ => True) (logRunBlock v S g size cs queue sanitize) (logRunBlock v S' g size cs' queue sanitize) := by
  unfold logRunBlock
  refine .bind_same fun r => .bind_same fun _ => .bind_same fun _ => .bind_same fun _ => .bind_same fun _ =>
    .bind_same fun _ => .bind_same fun _ => .bind_same fun _ => ?_
  exact (blockLoopOut_alike v S S' cs cs' h 0 r r (Block.Same.refl r)).bind fun p q hpq => (OutAlike.quiet (Block.result_alike S S' hpq)).bind fun _ _ _ =>
    .pure trivial

/-! ## What it says -/

theorem out_bind_ok {α β : Type} {x : Out α} {f : α → Out β} {rows : List Row} {b : β} (h : (x >>= f) = ⟨rows, .ok b⟩) :
    ∃ r1 a r2, x = ⟨r1, .ok a⟩ ∧ f a = ⟨r2, .ok b⟩ ∧ rows = r1 ++ r2 := by
  obtain ⟨rx, ex⟩ := x
  cases ex with
  | error e => rw [out_error] at h; cases h
  | ok a =>
    rw [out_ok] at h
    injection h with h1 h2
    refine ⟨rx, a, (f a).rows, rfl, ?_, h1.symm⟩
    rw [← h2]

theorem quiet_ok {α : Type} {r : Res α} {rows : List Row} {a : α} (h : quiet r = ⟨rows, .ok a⟩) : rows = [] ∧ r = .ok a := by
  unfold quiet at h
  injection h with h1 h2
  exact ⟨h1.symm, h2⟩

theorem quiet_bind_ok {α β : Type} {r : Res α} {f : α → Out β} {rows : List Row} {b : β} (h : (quiet r >>= f) = ⟨rows, .ok b⟩) :
    ∃ a, r = .ok a ∧ f a = ⟨rows, .ok b⟩ := by
  obtain ⟨r1, a, r2, h1, h2, h3⟩ := out_bind_ok h
  obtain ⟨e, h4⟩ := quiet_ok h1
  subst e
  exact ⟨a, h4, by rw [h2, h3]; rfl⟩

theorem info_bind_ok {β : Type} {s : List Char} {f : Unit → Out β} {rows : List Row} {b : β} (h : (infoMsg s >>= f) = ⟨rows, .ok b⟩) :
    ∃ r2, f () = ⟨r2, .ok b⟩ ∧ rows = ⟨"info", .message s⟩ :: r2 := by
  obtain ⟨r1, a, r2, h1, h2, h3⟩ := out_bind_ok h
  unfold infoMsg at h1
  injection h1 with h1 _
  subst h1
  exact ⟨r2, h2, h3⟩

theorem spec_bind_ok {β : Type} {s : List Char} {f : Graph → Out β} {rows : List Row} {b : β} (h : (specOut s >>= f) = ⟨rows, .ok b⟩)
    {lines skip : List (List Char)} (hl : Spec.TextLines s lines) (hk : Skips lines skip) :
    ∃ g r2, Graph.fromIstream s = .ok g ∧ f g = ⟨r2, .ok b⟩ ∧ rows = skipNotes skip ++ r2 := by
  obtain ⟨r1, g, r2, h1, h2, h3⟩ := out_bind_ok h
  unfold specOut at h1
  injection h1 with h1 hg
  refine ⟨g, r2, hg, h2, ?_⟩
  rw [h3, ← h1, textLines_iff.1 hl]
  have hg' := hg
  unfold Graph.fromIstream at hg'
  rw [textLines_iff.1 hl] at hg'
  obtain ⟨p, h1, _⟩ := Res.bind_eq_ok.1 hg'
  rw [skips_of h1 hk]
  rfl

/-- nothing is said -/
def Silent {α : Type} (x : Out α) : Prop := x.rows = []

theorem Silent.bind {α β : Type} {x : Out α} {f : α → Out β} (h : Silent x) (hf : ∀ a, Silent (f a)) : Silent (x >>= f) := by
  obtain ⟨rx, ex⟩ := x
  cases h
  cases ex with
  | error e => rfl
  | ok a => rw [out_ok]; exact hf a

theorem Silent.quiet {α : Type} (r : Res α) : Silent (quiet r) := rfl
theorem Silent.pure {α : Type} (a : α) : Silent (Pure.pure a : Out α) := rfl
theorem Silent.debug (s : List Char) : Silent (debugMsg false s) := rfl

theorem Silent.foldlM {α ι : Type} {f : α → ι → Out α} (h : ∀ a x, Silent (f a x)) : ∀ (xs : List ι) (a : α), Silent (xs.foldlM f a)
  | [], a => rfl
  | x :: xs, a => by
    rw [List.foldlM_cons]
    exact (h a x).bind fun b => Silent.foldlM h xs b

theorem Silent.eval (S : Scheme N n l) (r : Backstream N) (c : Gsw l N) : Silent (Backstream.evalOut false S r c) := by
  unfold Backstream.evalOut Silent
  cases r.eval S c with
  | error e => rfl
  | ok r' => dsimp only; split <;> rfl

theorem Silent.flut (S : Scheme N n l) (r : Flut N l) (c : Gsw l N) : Silent (Flut.evalOneOut false S r c) := by
  unfold Flut.evalOneOut Silent
  dsimp only
  split
  · rfl
  · exact evalQueuedLog_quiet _

theorem Silent.flutResult (S : Scheme N n l) (r : Flut N l) : Silent (Flut.resultOut false S r) := evalQueuedLog_quiet _

theorem Silent.loop {ρ : Type} {eval : ρ → Gsw l N → Out ρ} {result : ρ → Out (TLWE N × ρ)} (he : ∀ r c, Silent (eval r c)) (hr : ∀ r, Silent (result r))
    (outDir : Option String) (freq : Nat) : ∀ (cs : List (Gsw l N)) (i : Nat) (r : ρ), Silent (onlineLoopOut false eval result outDir freq cs i r)
  | [], i, r => rfl
  | c :: cs, i, r => by
    rw [onlineLoopOut]
    refine (Silent.debug _).bind fun _ => (he r c).bind fun r => ?_
    cases outDir with
    | none => exact Silent.loop he hr none freq cs _ r
    | some dir =>
      dsimp only
      split
      · rfl
      · split
        · exact (hr r).bind fun p => (Silent.loop he hr (some dir) freq cs _ _).bind fun q => .pure _
        · exact Silent.loop he hr (some dir) freq cs _ r

theorem Silent.blockLoop (S : Scheme N n l) : ∀ (cs : List (Gsw l N)) (i : Nat) (r : Block N l), Silent (blockLoopOut false S cs i r)
  | [], i, r => rfl
  | c :: cs, i, r => by
    rw [blockLoopOut]
    exact (Silent.debug _).bind fun _ => (Silent.quiet _).bind fun r => Silent.blockLoop S cs _ r

theorem Silent.rows {α : Type} {x : Out α} (h : Silent x) {rows : List Row} {r : Res α} (e : x = ⟨rows, r⟩) : rows = [] := by
  subst e; exact h

/-! ## Reading the ciphertexts -/

theorem fetch_head {kind : StreamKind} (hbs : 0 < blockSize l N) (hbs' : blockSize l N < 2 ^ 63) {file : List Byte} (hlen : file.length < 2 ^ 63)
    {pre : List Nat} {cs : List (Gsw l N)} (h : Fetch kind (some file) (.ok (pre, cs))) :
    pre.headD 0 = cs.length ∧ pre.getLastD 0 = cs.length ∧ cs.length * blockSize l N = file.length := by
  obtain ⟨b, e, k, hk⟩ := fetch_whole hbs (fun b hb => by cases hb; exact hlen) h
  cases e
  obtain ⟨cs', rfl⟩ := file_surj (l := l) (N := N) hbs k file (by rw [hk, Nat.mul_comm])
  have hn : (cs'.flatMap saveGsw).length = cs'.length * blockSize l N := length_file cs'
  have all : ∀ {pre : List Nat} {k : Nat}, pre ≠ [] → (∀ p ∈ pre, p = k) → pre.headD 0 = k ∧ pre.getLastD 0 = k := by
    intro pre k h1 h2
    cases pre with
    | nil => exact absurd rfl h1
    | cons p pre =>
      refine ⟨h2 p (by simp), ?_⟩
      rw [List.getLastD_cons]
      cases hp : pre.getLast? with
      | none => rw [List.getLastD_eq_getLast?, hp]; exact h2 p (by simp)
      | some x => rw [List.getLastD_eq_getLast?, hp]; exact h2 x (by simp [List.mem_of_getLast? hp])
  cases h with
  | forward hne h3 =>
    obtain ⟨rfl, k3⟩ := readsForward_eq hbs hbs' hlen h3
    obtain ⟨a1, a2⟩ := all hne k3
    exact ⟨a1, a2, hn.symm⟩
  | reversed h3 =>
    obtain ⟨rfl, k2, k3⟩ := readsReversed_eq hbs hbs' hlen h3
    obtain ⟨a1, a2⟩ := all k2 k3
    exact ⟨by rw [a1, List.length_reverse], by rw [a2, List.length_reverse], by rw [List.length_reverse]; exact hn.symm⟩

end Homfa.Cli
