import Verif.Spec.Alias
import Verif.Proof.Runs
import Verif.Proof.Crash

/-! # Lemmas about the name of the output file -/

namespace Homfa.Cli

variable {N n l : Nat} {L : Lib N n l} {δ : Noise} {Enc : L.Key → Gsw l N → Bool → Prop}

theorem redirect_opt_mem {R m v : String} {items : List Item} (h : .opt m v ∈ redirect R items) :
    ∃ u, .opt m u ∈ items ∧ v = if m = "--out" then R else u := by
  obtain ⟨i, hi, e⟩ := List.mem_map.1 h
  cases i with
  | opt a u =>
    dsimp only at e
    split at e
    · rename_i ha
      injection e with e1 e2
      subst e1 e2
      exact ⟨u, hi, by rw [if_pos ha]⟩
    · rename_i ha
      injection e with e1 e2
      subst e1 e2
      exact ⟨u, hi, by rw [if_neg ha]⟩
  | flag a => cases e
  | arg a => cases e

theorem mem_redirect_opt {R m u : String} {items : List Item} (h : .opt m u ∈ items) : ∃ v, .opt m v ∈ redirect R items := by
  by_cases hm : m = "--out"
  · exact ⟨R, List.mem_map.2 ⟨_, h, by dsimp only; rw [if_pos hm]⟩⟩
  · exact ⟨u, List.mem_map.2 ⟨_, h, by dsimp only; rw [if_neg hm]⟩⟩

theorem redirect_flag {R m : String} {items : List Item} : .flag m ∈ redirect R items ↔ .flag m ∈ items := by
  constructor
  · intro h
    obtain ⟨i, hi, e⟩ := List.mem_map.1 h
    cases i with
    | opt a u => dsimp only at e; split at e <;> cases e
    | flag a => cases e; exact hi
    | arg a => cases e
  · intro h; exact List.mem_map.2 ⟨_, h, rfl⟩

theorem redirect_optNames (R : String) (items : List Item) : optNames (redirect R items) = optNames items := by
  unfold optNames redirect
  rw [List.filterMap_map]
  congr 1
  funext i
  cases i with
  | opt a u => by_cases ha : a = "--out" <;> simp [ha]
  | flag a => rfl
  | arg a => rfl

theorem redirect_args (R : String) (items : List Item) : args (redirect R items) = args items := by
  unfold args redirect
  rw [List.filterMap_map]
  congr 1
  funext i
  cases i with
  | opt a u => by_cases ha : a = "--out" <;> simp [ha]
  | flag a => rfl
  | arg a => rfl

theorem redirect_opt?_other (R : String) (items : List Item) {m : String} (hm : m ≠ "--out") : opt? (redirect R items) m = opt? items m := by
  unfold opt? redirect
  rw [List.findSome?_map]
  congr 1
  funext i
  cases i with
  | opt a u =>
    simp only [Function.comp]
    by_cases ha : a = "--out"
    · rw [if_pos ha, ha]
      simp only [if_neg (Ne.symm hm)]
    · rw [if_neg ha]
  | flag a => rfl
  | arg a => rfl

theorem redirect_opt?_out (R : String) {items : List Item} {v : String} (h : .opt "--out" v ∈ items) : opt? (redirect R items) "--out" = some R := by
  cases ho : opt? (redirect R items) "--out" with
  | none =>
    rw [opt?_none, redirect_optNames] at ho
    exact absurd (List.mem_filterMap.2 ⟨.opt "--out" v, h, rfl⟩ : "--out" ∈ optNames items) ho
  | some u =>
    obtain ⟨_, _, e⟩ := redirect_opt_mem (opt?_mem ho)
    rw [e, if_pos rfl]

theorem redirect_has (R : String) (items : List Item) (m : String) : has (redirect R items) m = has items m := by
  unfold has
  rw [Bool.eq_iff_iff, decide_eq_true_iff, decide_eq_true_iff, redirect_flag]

/-- in the manual `--out` is any word -/
theorem Cmd.out_text (c : Cmd) (k : Kind) (h : ("--out", k) ∈ c.usage.required ++ c.usage.optional) : k = .text := by
  cases c <;> simp [Cmd.usage] at h <;> exact h

theorem Cmd.redirect_follows (c : Cmd) {ex : String → Bool} {items : List Item} (h : c.usage.Follows ex items) {R : String} (hR : Word R) :
    c.usage.Follows ex (redirect R items) := by
  refine ⟨fun m v hm => ?_, ?_, fun m k hk => ?_, fun m hm => h.flags m (redirect_flag.1 hm), ?_, ?_, ?_⟩
  · obtain ⟨u, hu, e⟩ := redirect_opt_mem hm
    obtain ⟨k, hk, hok⟩ := h.known m u hu
    refine ⟨k, hk, ?_⟩
    by_cases hmo : m = "--out"
    · subst hmo
      rw [e, if_pos rfl, c.out_text k hk]
      exact hR.text ex
    · rw [e, if_neg hmo]; exact hok
  · rw [redirect_optNames]; exact h.once
  · obtain ⟨v, hv⟩ := h.all m k hk
    exact mem_redirect_opt hv
  · rw [redirect_args]; exact h.enough
  · rw [redirect_args]; exact h.notMore
  · rw [redirect_args]; exact h.kinds

theorem onlineLoop_no_dir {ρ : Type} (evalOne : ρ → Gsw l N → Res ρ) (result : ρ → Res (TLWE N × ρ)) (freq : Nat) :
    ∀ (cs : List (Gsw l N)) (i : Nat) (r : ρ), ∃ q : Res ρ, onlineLoop evalOne result none freq cs i r = q.map fun r => ([], r) := by
  intro cs
  induction cs with
  | nil => intro i r; exact ⟨.ok r, rfl⟩
  | cons c cs ih =>
    intro i r
    rw [onlineLoop]
    cases he : evalOne r c with
    | error e => exact ⟨.error e, rfl⟩
    | ok r1 => rw [Res.bind_ok]; exact ih _ _

/-- `run reverse` writes one result, to whatever file is named -/
theorem reverse_anywhere (S : Scheme N n l) (spec : List Char) (hidden : Nat) (cs : List (Gsw l N)) (freq boot : Nat) (isRev san : Bool) :
    ∃ q : Res (TLWE N), ∀ R, doRunReverse S spec hidden cs (some R) none freq boot isRev san = q.map fun c => [(.file R, c)] := by
  unfold doRunReverse
  cases hg : Graph.fromIstream spec with
  | error e => exact ⟨.error e, fun R => rfl⟩
  | ok g =>
  cases hm : (reverseMake g boot isRev true san : Res (Backstream N)) with
  | error e => exact ⟨.error e, fun R => by simp only [Option.isSome, cassert, Bool.not_false, Bool.and_true, Bool.or_false]; rw [Res.bind_ok, hm]; rfl⟩
  | ok r =>
  obtain ⟨q, hq⟩ := onlineLoop_no_dir (fun (r : Backstream N) c => r.eval S c) (fun r => do let c ← r.result; pure (c, r)) freq cs 0 r
  cases q with
  | error e =>
    refine ⟨.error e, fun R => ?_⟩
    simp only [Option.isSome, cassert, Bool.not_false, Bool.and_true, Bool.or_false]
    rw [Res.bind_ok, hm, Res.bind_ok, hq]; rfl
  | ok r' =>
    refine ⟨r'.result, fun R => ?_⟩
    simp only [Option.isSome, cassert, Bool.not_false, Bool.and_true, Bool.or_false]
    rw [Res.bind_ok, hm, Res.bind_ok, hq]
    show (r'.result).bind _ = _
    cases r'.result <;> rfl

/-- `run flut` writes one result, to whatever file is named -/
theorem flut_anywhere (S : Scheme N n l) (spec : List Char) (hidden : Nat) (cs : List (Gsw l N)) (freq queue boot : Nat) (d : Option Nat) (san : Bool) :
    ∃ q : Res (TLWE N), ∀ R, doRunFlut S spec hidden cs (some R) none freq queue boot d san = q.map fun c => [(.file R, c)] := by
  unfold doRunFlut
  cases hg : Graph.fromIstream spec with
  | error e => exact ⟨.error e, fun R => rfl⟩
  | ok g =>
  cases hm : (Flut.make g (d.getD 8) queue boot san : Res (Flut N l)) with
  | error e => exact ⟨.error e, fun R => by rw [Res.bind_ok, hm]; rfl⟩
  | ok r =>
  obtain ⟨q, hq⟩ := onlineLoop_no_dir (fun (r : Flut N l) c => Flut.evalOne S r c) (fun r => Flut.result S r) freq cs 0 r
  cases q with
  | error e =>
    refine ⟨.error e, fun R => ?_⟩
    rw [Res.bind_ok, hm, Res.bind_ok]
    simp only [Option.isSome, Bool.false_eq_true, false_and, if_false]
    rw [hq]; rfl
  | ok r' =>
    refine ⟨(r'.result S).map Prod.fst, fun R => ?_⟩
    rw [Res.bind_ok, hm, Res.bind_ok]
    simp only [Option.isSome, Bool.false_eq_true, false_and, if_false]
    rw [hq]
    show (r'.result S).bind _ = _
    cases r'.result S <;> rfl

/-- the sequence in which `enc` overwrites its input -/
theorem over_input {N n l : Nat} {L : Lib N n l} {δ : Noise} {Enc : L.Key → Gsw l N → Bool → Prop} (hL : L.Sound δ Enc) {S I K B R : String}
    (hn : Usable S S K B I R) (fs : Files) {specB inB : List Byte} (hs : fs S = some specB) (hi : fs I = some inB) {ap : Nat} (hap : 0 < ap)
    (hap64 : ap < 2 ^ 64) {fs' : Files} {out : List Char}
    (hplain : RunHomfa L [] (fs.set I []) ["run", "plain", "--ap", toString ap, "--spec", S, "--in", I] (.ok (fs', out))) {X : List String}
    (hX : doRunPlain (textOf specB) (some []) ap = .ok out → RunRight L S B I R specB [] ap out X) :
    AlwaysPrints L fs [["genkey", "--out", K], ["genbkey", "--key", K, "--out", B],
      ["enc", "--ap", toString ap, "--key", K, "--in", I, "--out", I], X, ["dec", "--key", K, "--in", R]] out [K, B, I, R] := by
  have wI := hn.words I (by simp)
  have hS := hn.spec
  have hm := hn.made
  simp only [List.nodup_cons, List.mem_cons, List.not_mem_nil, or_false, not_or] at hS hm
  have hp := (run_plain (hn.words S (by simp)) wI (by rw [Files.set_other _ _ hS.2.2]; exact hs) (Files.set_same _ _ _) hap hap64).1 hplain
  have hplain : doRunPlain (textOf specB) (some []) ap = .ok out := by
    cases h : doRunPlain (textOf specB) (some []) ap with
    | error e => rw [h] at hp; cases hp
    | ok o => rw [h] at hp; cases hp; rfl
  refine pipeline_from hL hn wI ?_ fs hs hi (fun fs' _ => Files.set_same _ _ _) (by simp) hap hap64 hplain _ (hX hplain)
  simp only [List.mem_cons, List.not_mem_nil, or_false, not_or]
  exact ⟨Ne.symm hm.1.2, Ne.symm hm.2.1⟩

end Homfa.Cli
