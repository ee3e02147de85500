import Verif.Spec.BenchEnd
import Verif.Proof.CleanRun
import Verif.Proof.BenchRun
import Verif.Proof.Oblivious
import Verif.Props.Clean
/-!
# Helpers for C97: every part of the benchmark program ends orderly
-/

namespace Homfa.Cli

variable {N n l : Nat}

/-- ends orderly, and a result satisfies `P` -/
def Tidy {α : Type} (x : Out α) (P : α → Prop) : Prop := Orderly x.res ∧ ∀ a, x.res = .ok a → P a

namespace Tidy

variable {α β σ : Type} {P : α → Prop} {Q : β → Prop}

theorem bind {x : Out α} {f : α → Out β} (h : Tidy x P) (hf : ∀ a, P a → Tidy (f a) Q) : Tidy (x >>= f) Q := by
  obtain ⟨rows, e | a⟩ := x
  · exact ⟨fun e' h' => h.1 e (by cases h'; rfl) |> fun k => by cases h'; exact k, fun a h' => by cases h'⟩
  · exact hf a (h.2 a rfl)

theorem pure {a : α} (h : P a) : Tidy (Pure.pure a) P := ⟨.ok _, fun b hb => by cases hb; exact h⟩

theorem print (key : String) (v : Val) : Tidy (Cli.print key v) fun _ => True := ⟨.ok _, fun _ _ => trivial⟩

theorem lines (rows : List Row) : Tidy (⟨rows, .ok ()⟩ : Out Unit) fun _ => True := ⟨.ok _, fun _ _ => trivial⟩

theorem quiet {r : Res α} (h : Orderly r) (h' : ∀ a, r = .ok a → P a) : Tidy (Cli.quiet r) P := ⟨h, h'⟩

theorem of_res {x : Out α} {r : Res α} (e : x.res = r) (h : Orderly r) (h' : ∀ a, r = .ok a → P a) : Tidy x P := by subst e; exact ⟨h, h'⟩

theorem elapsed {x : Out α} (key : String) (h : Tidy x P) : Tidy (printElapsed key x) P :=
  h.bind fun _ ha => (print _ _).bind fun _ _ => pure ha

theorem mono {x : Out α} {P' : α → Prop} (h : Tidy x P) (hp : ∀ a, P a → P' a) : Tidy x P' := ⟨h.1, fun a ha => hp a (h.2 a ha)⟩

theorem logKeys : Tidy Cli.logKeys fun _ => True := (print _ _).bind fun _ _ => print _ _

variable {I : σ → Prop} {func : σ → Bool → Out σ}

theorem byte (h : ∀ s b, I s → Tidy (func s b) I) : ∀ (k : Nat) (v : Byte) (rest : Nat) (s : σ), I s →
    Tidy (inputByteOut func k v rest s) fun p => I p.2
  | 0, _, _, _, hs => pure hs
  | k + 1, v, rest, s, hs => by
    unfold inputByteOut
    split
    · exact pure hs
    · exact (h s _ hs).bind fun s' hs' => byte h k _ _ s' hs'

theorem bytes (h : ∀ s b, I s → Tidy (func s b) I) (ap : Nat) : ∀ (bytes : List Byte) (rest : Nat) (s : σ), I s →
    Tidy (inputBytesOut ap func bytes rest s) fun p => I p.2
  | [], _, _, hs => pure hs
  | v :: bs, rest, s, hs => by
    unfold inputBytesOut
    exact (byte h 8 v _ s hs).bind fun p hp => bytes h ap bs _ _ hp

theorem each (h : ∀ s b, I s → Tidy (func s b) I) (file : Option (List Byte)) (ap : Nat) (s : σ) (hs : I s) :
    Tidy (eachInputBitOut file ap func s) I := by
  unfold eachInputBitOut
  refine bind (P := fun _ => True) ?_ fun bs _ => (bytes h ap bs 0 s hs).bind fun p hp =>
    (quiet (P := fun _ => True) (.cassert _) fun _ _ => trivial).bind fun _ _ => pure hp
  cases file with
  | none => exact quiet .assertFail fun _ _ => trivial
  | some b => exact quiet (.ok b) fun _ _ => trivial

end Tidy

theorem quiet_tidy {α : Type} {r : Res α} (h : Orderly r) : Tidy (quiet r) fun a => r = .ok a := .quiet h fun _ h => h

/-- From `r` on, inputs and results end orderly, in the order in which the benchmark asks for them: `I` holds at any time, `J` after an input. -/
def Serves {ρ : Type} (evalOne : ρ → Gsw l N → Res ρ) (result : ρ → Res (TLWE N × ρ)) (r : ρ) : Prop :=
  ∃ I J : ρ → Prop, I r ∧ (∀ r c, I r → Orderly (evalOne r c) ∧ ∀ r', evalOne r c = .ok r' → J r') ∧
    (∀ r, J r → Orderly (result r) ∧ ∀ p, result r = .ok p → I p.2) ∧ ∀ r, J r → I r

theorem tidy_turn {ρ : Type} {S : Scheme N n l} {rand : Nat → Nat} {evalOne : ρ → Gsw l N → Res ρ} {result : ρ → Res (TLWE N × ρ)}
    {evalOut : ρ → Gsw l N → Out ρ} {resultOut : ρ → Out (TLWE N × ρ)} {info : ρ → List Row} {freq : Nat} (hf : 0 < freq)
    (heo : ∀ r c, (evalOut r c).res = evalOne r c) (hro : ∀ r, (resultOut r).res = result r) {I J : ρ → Prop}
    (he : ∀ r c, I r → Orderly (evalOne r c) ∧ ∀ r', evalOne r c = .ok r' → J r')
    (hr : ∀ r, J r → Orderly (result r) ∧ ∀ p, result r = .ok p → I p.2) (hJ : ∀ r, J r → I r) (s : ρ × Nat) (b : Bool) (h : I s.1) :
    Tidy (logTurn S rand evalOut resultOut info freq s b) fun s => I s.1 := by
  unfold logTurn
  refine (Tidy.elapsed (P := fun _ => True) _ (.pure trivial)).bind fun c _ => ?_
  refine (Tidy.elapsed (P := fun p => I p.1) _ ?_).bind fun p hp => ?_
  · refine (Tidy.lines _).bind fun _ _ => (Tidy.of_res (heo _ _) (he s.1 c h).1 (he s.1 c h).2).bind fun r hr1 => ?_
    rw [if_neg (by omega)]
    split
    · exact .pure (hJ r hr1)
    · exact (Tidy.of_res (hro _) (hr r hr1).1 (hr r hr1).2).bind fun q hq => .pure hq
  · split
    · exact .pure hp
    · exact (Tidy.elapsed (P := fun _ => True) _ (.pure trivial)).bind fun _ _ => (Tidy.print _ _).bind fun _ _ => .pure hp

theorem evalOut_res (verbose : Bool) (S : Scheme N n l) (r : Backstream N) (c : Gsw l N) : (Backstream.evalOut verbose S r c).res = r.eval S c := by
  unfold Backstream.evalOut
  cases r.eval S c <;> rfl

theorem resultOut_res (r : Backstream N) : (do let c ← quiet r.result; pure (c, r) : Out (TLWE N × Backstream N)).res = (do let c ← r.result; pure (c, r)) := by
  cases h : r.result <;> rfl

theorem inputSize_orderly (file : Option (List Byte)) (ap : Nat) : Orderly (benchInputSize file ap) := .eachInputBit (fun _ _ => .ok _) _ _ _

theorem fromIstream_orderly (text : List Char) : Orderly (Graph.fromIstream text) := by
  rcases fromIstream_cases text with ⟨e, h1, rfl | rfl⟩ | h1 | ⟨g, h1, _⟩ <;> rw [h1]
  · exact .die
  · exact .outOfRange
  · exact .ok _
  · exact .ok _

theorem read_tidy (fs : Files) (spec : String) :
    Tidy (readSpecOut fs spec) fun g => ∃ b, fs spec = some b ∧ Graph.fromIstream (textOf b) = .ok g ∧ (g = emptyGraph ∨ g.WF) := by
  unfold readSpecOut
  refine (quiet_tidy (readSpec_orderly _)).bind fun text ht => ?_
  refine ⟨fromIstream_orderly _, fun g h => ?_⟩
  dsimp only at h
  cases hf : fs spec with
  | none => rw [hf] at ht; cases ht
  | some b =>
    rw [hf] at ht
    cases ht
    refine ⟨b, rfl, h, ?_⟩
    rcases fromIstream_cases (textOf b) with ⟨e, h1, _⟩ | h1 | ⟨g', h1, h2⟩ <;> rw [h] at h1 <;> cases h1
    · exact .inl rfl
    · exact .inr h2

theorem tidy_online {ρ : Type} {S : Scheme N n l} {rand : Nat → Nat} {fs : Files} {spec input : String} {freq ap : Nat} {make : Graph → Res ρ}
    {graph : ρ → Graph} {evalOne : ρ → Gsw l N → Res ρ} {result : ρ → Res (TLWE N × ρ)} {evalOut : ρ → Gsw l N → Out ρ}
    {resultOut : ρ → Out (TLWE N × ρ)} {info : ρ → List Row} (hf : 0 < freq) (heo : ∀ r c, (evalOut r c).res = evalOne r c)
    (hro : ∀ r, (resultOut r).res = result r)
    (hm : ∀ b g, fs spec = some b → Graph.fromIstream (textOf b) = .ok g → g = emptyGraph ∨ g.WF →
      Orderly (make g) ∧ ∀ r, make g = .ok r → Serves evalOne result r) :
    Tidy (logOnline S rand fs spec input freq ap make graph evalOut resultOut info) fun _ => True := by
  unfold logOnline
  refine (Tidy.elapsed (P := Serves evalOne result) _ ((read_tidy fs spec).bind fun g ⟨b, h1, h2, h3⟩ =>
    .quiet (hm b g h1 h2 h3).1 (hm b g h1 h2 h3).2)).bind fun r hr => ?_
  · obtain ⟨I, J, h0, he, hr, hJ⟩ := hr
    refine (Tidy.print _ _).bind fun _ _ => (Tidy.quiet (P := fun _ => True) (inputSize_orderly _ _) fun _ _ => trivial).bind fun _ _ =>
      (Tidy.print _ _).bind fun _ _ => ?_
    refine (Tidy.each (I := fun s => I s.1) (fun s b hs => tidy_turn hf heo hro he hr hJ s b hs) _ _ _ h0).bind fun _ _ => .pure trivial

/-! ## PLAIN -/

theorem plain_tidy (fs : Files) (spec input : String) {freq : Nat} (hf : 0 < freq) (ap : Nat) : Tidy (logPlain fs spec input freq ap) fun _ => True := by
  unfold logPlain
  refine (Tidy.print _ _).bind fun _ _ => (Tidy.print _ _).bind fun _ _ => (Tidy.print _ _).bind fun _ _ => (Tidy.print _ _).bind fun _ _ => ?_
  refine (read_tidy _ _).bind fun g _ => (Tidy.print _ _).bind fun _ _ => (quiet_tidy (inputSize_orderly _ _)).bind fun _ _ =>
    (Tidy.print _ _).bind fun _ _ => (Tidy.each (I := fun _ => True) (fun s b _ => ?_) _ _ _ trivial).bind fun _ _ => .pure trivial
  unfold logPlainTurn
  refine (quiet_tidy (.nextState _ _ _)).bind fun cur _ => (Tidy.print _ _).bind fun _ _ => ?_
  dsimp only
  rw [if_neg (by omega)]
  split
  · refine (quiet_tidy (.vat _ _)).bind fun b _ => ?_
    cases b
    · exact (Tidy.print _ _).bind fun _ _ => .pure trivial
    · exact (Tidy.print _ _).bind fun _ _ => .pure trivial
  · exact .pure trivial

/-! ## OFFLINE -/

section
variable (S : Scheme N n l) (hN : 0 < N)
include hN

theorem offline_fold (rand : Nat → Nat) {g : Graph} (hg : g.WF) {boot : Nat} (hb : 0 < boot) (bits : List Bool) :
    ∃ r : Backstream N, offlineMake g bits.length boot true false = .ok r ∧
      Orderly ((bits.reverse.zipIdx).foldlM (fun s (p : Bool × Nat) => benchOfflineRun S s (S.encrypt (rand p.2) p.1))
        (r, (⟨fun _ => 0, 0⟩ : TLWE N), bits.length)) := by
  obtain ⟨r, h1, h2, h3, h4, h5, h6, h7, _⟩ := Backstream.make_ok (n := n) (l := l) hg hN boot (some bits.length)
  have hsz : r.graph.size = g.size := by rw [h2]; rfl
  have hwf : r.graph.WF := by rw [h2]; exact hg.withDepth _
  refine ⟨r, h1, ?_⟩
  by_cases h31 : 2 ^ 31 ≤ bits.length
  · obtain ⟨r0, o1, o2⟩ := C28_offline_aborts S hN g hg boot hb bits.length
      ((bits.reverse.zipIdx).map fun p => S.encrypt (rand p.2) p.1) (.inr ⟨h31, by simp⟩)
    have h1 : offlineMake g bits.length boot true false = .ok r := h1
    rw [h1] at o1
    cases o1
    rw [benchOffline_fold_error (S := S) rand bits.reverse 0 r ⟨fun _ => 0, 0⟩ bits.length (by simp) o2]
    exact .assertFail
  obtain ⟨r', k1, k2, _, _, _, k6, _⟩ := Backstream.evalAll_struct (S := S) hN hwf (by rw [h5]; exact hb) h6 (by rw [h3, hsz]) h7
    (offDom g bits.length) bits.length
    (by intro k hk; rw [h2, h4]; exact offStates _ _ hk (by omega))
    (fun k => (Graph.sorted_levelSet (by simp) _).nodup)
    (fun k q hq => by rw [hsz]; exact Graph.levelSet_lt (init_lt_all hg) _ q hq)
    ((bits.reverse.zipIdx).map fun p => S.encrypt (rand p.2) p.1) (by simp)
  have hi : r'.graph.init < r'.weight.length := by rw [k2, k6]; exact hwf.init_lt
  have hres : r'.result = .ok (sampleExtract r'.weight[r'.graph.init] ⟨0, hN⟩) := by
    unfold Backstream.result
    show (vat r'.weight r'.graph.init >>= _) = _
    rw [vat_lt hi, Res.bind_ok, sampleExtractAt_ok hN]
  obtain ⟨s, q1, _⟩ := benchOffline_fold (S := S) rand bits.reverse 0 r r' ⟨fun _ => 0, 0⟩ _ bits.length (by simp) k1 hres
  exact .of_eq_ok q1

theorem offline_tidy (verbose : Bool) (rand : Nat → Nat) (fs : Files) (spec input : String) {boot : Nat} (hb : 0 < boot) (ap : Nat) (sanitize : Bool) :
    Tidy (logOffline verbose S rand fs spec input boot ap sanitize) fun _ => True := by
  unfold logOffline
  refine (Tidy.print _ _).bind fun _ _ => (Tidy.print _ _).bind fun _ _ => (Tidy.print _ _).bind fun _ _ => (Tidy.print _ _).bind fun _ _ =>
    (Tidy.print _ _).bind fun _ _ => (Tidy.print _ _).bind fun _ _ => Tidy.logKeys.bind fun _ _ => ?_
  refine (quiet_tidy (.eachInputBit (fun _ _ => .ok _) _ _ _)).bind fun bits _ => ?_
  have hmake : ∀ g, g = emptyGraph ∨ g.WF → Orderly (offlineMake (N := N) g bits.length boot true sanitize) ∧
      ∀ r, offlineMake g bits.length boot true sanitize = .ok r →
        Orderly ((bits.reverse.zipIdx).foldlM (fun s (p : Bool × Nat) => benchOfflineRun S s (S.encrypt (rand p.2) p.1))
          (r, (⟨fun _ => 0, 0⟩ : TLWE N), bits.length)) := by
    intro g hg
    cases sanitize with
    | true => exact ⟨.die, fun r h => by cases h⟩
    | false =>
      rcases hg with rfl | hg
      · exact ⟨.outOfRange, fun r h => by cases h⟩
      · obtain ⟨r, h1, h2⟩ := offline_fold S hN rand hg hb bits
        exact ⟨.of_eq_ok h1, fun r' h => by rw [h1] at h; cases h; exact h2⟩
  refine (Tidy.elapsed _ ((read_tidy fs spec).bind fun g ⟨_, _, _, h3⟩ => .quiet (hmake g h3).1 (hmake g h3).2)).bind fun r ho => ?_
  refine (Tidy.print _ _).bind fun _ _ => (Tidy.print _ _).bind fun _ _ => ?_
  refine Tidy.bind (P := fun _ => True) ⟨?_, fun _ _ => trivial⟩ fun _ _ =>
    (Tidy.elapsed (P := fun _ => True) _ (.pure trivial)).bind fun _ _ => (Tidy.print _ _).bind fun _ _ => .pure trivial
  cases hs : (bits.reverse.zipIdx).foldlM (fun s (p : Bool × Nat) => benchOfflineRun S s (S.encrypt (rand p.2) p.1))
      (r, (⟨fun _ => 0, 0⟩ : TLWE N), bits.length) with
  | ok s => rw [offline_log (S := S) verbose rand _ _ _ _ hs rfl rfl]; exact .ok _
  | error e =>
    rw [offline_log_error (S := S) verbose rand _ _ hs, ← hs]
    rw [hs] at ho
    rw [hs]
    exact fun e' h' => ho e' (by cases h'; rfl)

/-! ## REVERSED -/

theorem reverse_serves {g : Graph} (hg : g = emptyGraph ∨ g.WF) {boot : Nat} (hb : 0 < boot) (rev sanitize : Bool) :
    Orderly (reverseMake (N := N) g boot rev true sanitize) ∧ ∀ r, reverseMake g boot rev true sanitize = .ok r →
      Serves (fun r c => Backstream.eval S r c) (fun r => do let c ← r.result; pure (c, r)) r := by
  have hwf : ∀ g : Graph, g.WF → ∃ r, Backstream.make g boot none true false = .ok r ∧
      Serves (fun r c => Backstream.eval S r c) (fun r => do let c ← r.result; pure (c, r)) r := by
    intro g hg
    obtain ⟨r, h1, h2, h3, h4, h5, h6, h7, _⟩ := Backstream.make_ok (n := n) (l := l) hg hN boot none
    have h2 : r.graph = g := h2
    refine ⟨r, h1, fun r => r.graph.WF ∧ r.inputSize = none ∧ 0 < r.bootInterval ∧ r.weight.length = r.graph.size,
      fun r => r.graph.WF ∧ r.inputSize = none ∧ 0 < r.bootInterval ∧ r.weight.length = r.graph.size,
      ⟨by rw [h2]; exact hg, h4, by rw [h5]; exact hb, by rw [h3, h2]⟩, ?_, ?_, fun _ h => h⟩
    · rintro r c ⟨k1, k2, k3, k4⟩
      beta_reduce
      obtain ⟨r', e1, e2, e3, e4, _, e5, _⟩ := Backstream.eval_struct (S := S) hN k1 (sts := List.range r.graph.size) c
        (by rw [k2]; rfl) List.nodup_range (fun q hq => List.mem_range.1 hq) k4 k3
      refine ⟨.of_eq_ok e1, fun r'' h => ?_⟩
      rw [e1] at h
      cases h
      exact ⟨by rw [e2]; exact k1, by rw [e3, k2], by rw [e4]; exact k3, by rw [e5, e2]⟩
    · rintro r ⟨k1, k2, k3, k4⟩
      beta_reduce
      have hi : r.graph.init < r.weight.length := by rw [k4]; exact k1.init_lt
      have hres : r.result = .ok (sampleExtract r.weight[r.graph.init] ⟨0, hN⟩) := by
        unfold Backstream.result
        show (vat r.weight r.graph.init >>= _) = _
        rw [vat_lt hi, Res.bind_ok, sampleExtractAt_ok hN]
      rw [hres, Res.bind_ok]
      exact ⟨.ok _, fun p h => by cases h; exact ⟨k1, k2, k3, k4⟩⟩
  rcases hg with rfl | hg
  · cases rev with
    | false =>
      have hm : ∀ b, reverseMake emptyGraph boot false true b = (Backstream.make (Graph.built 0 [] [(0, 0, 0)]) boot none true b : Res (Backstream N)) := by
        intro b
        unfold reverseMake
        simp only [Bool.false_eq_true, if_false]
        rw [show emptyGraph.reversed = .ok (Graph.built 0 [] [(0, 0, 0)]) from by decide, Res.bind_ok,
          show (Graph.built 0 [] [(0, 0, 0)]).minimized = .ok (Graph.built 0 [] [(0, 0, 0)]) from by decide, Res.bind_ok]
      rw [hm]
      cases sanitize with
      | true => exact ⟨.die, fun r h => by cases h⟩
      | false =>
        have h1 : Graph.fromIstream ">0\t0\t0\n".toList = .ok (Graph.built 0 [] [(0, 0, 0)]) := by decide
        obtain ⟨r, e1, e2⟩ := hwf _ (wf_of_fromIstream h1 (by decide))
        exact ⟨.of_eq_ok e1, fun r' h => by rw [e1] at h; cases h; exact e2⟩
    | true =>
      cases sanitize with
      | true => exact ⟨.die, fun r h => by cases h⟩
      | false =>
        have hm : reverseMake emptyGraph boot true true false =
          (.ok { graph := emptyGraph, weight := [], inputSize := none, bootInterval := boot, numProcessed := 0, workspace := [], timer := [] } : Res (Backstream N)) := rfl
        rw [hm]
        refine ⟨.ok _, fun r h => ?_⟩
        cases h
        refine ⟨fun r => r.graph = emptyGraph ∧ r.weight = [] ∧ r.inputSize = none ∧ r.bootInterval = boot ∧ r.workspace = [],
          fun r => r.graph = emptyGraph ∧ r.weight = [] ∧ r.inputSize = none ∧ r.bootInterval = boot ∧ r.workspace = [], ⟨rfl, rfl, rfl, rfl, rfl⟩, ?_, ?_, fun _ h => h⟩
        · rintro r c ⟨h1, h2, h3, h4, h5⟩
          beta_reduce
          unfold Backstream.eval
          rw [h1, h2, h3, h5]
          have e1 : evalStates emptyGraph none r.numProcessed = .ok [] := rfl
          have e2 : vresize ([] : List (TRLWE N)) emptyGraph.size (trivialTRLWEZero N) = [] := rfl
          rw [e1, Res.bind_ok, e2]
          show Orderly (if r.bootInterval = 0 then _ else _) ∧ ∀ r', (if r.bootInterval = 0 then _ else _) = _ → _
          rw [if_neg (by rw [h4]; omega)]
          split
          · exact ⟨.ok _, fun r' e => by cases e; exact ⟨rfl, rfl, rfl, h4, rfl⟩⟩
          · exact ⟨.ok _, fun r' e => by cases e; exact ⟨rfl, rfl, rfl, h4, rfl⟩⟩
        · rintro r ⟨h1, h2, _⟩
          beta_reduce
          have : r.result = .error .outOfRange := by
            unfold Backstream.result
            rw [h1, h2]
            rfl
          rw [this, Res.bind_err]
          exact ⟨.outOfRange, fun p h => by cases h⟩
  · cases sanitize with
    | true =>
      rw [reverseMake_sanitize hg]
      exact ⟨.die, fun r h => by cases h⟩
    | false =>
      have key : ∃ g' : Graph, g'.WF ∧ reverseMake g boot rev true false = (Backstream.make g' boot none true false : Res (Backstream N)) := by
        cases rev
        · obtain ⟨g1, a1, a2, a3⟩ := C03_reversed_language g hg
          obtain ⟨g2, b1, b2, b3⟩ := C04_minimized_language g1 a2
          refine ⟨g2, b2, ?_⟩
          unfold reverseMake
          rw [if_neg (by decide), a1, Res.bind_ok, b1, Res.bind_ok]
        · exact ⟨g, hg, rfl⟩
      obtain ⟨g', hg', e⟩ := key
      obtain ⟨r, e1, e2⟩ := hwf g' hg'
      rw [e]
      exact ⟨.of_eq_ok e1, fun r' h => by rw [e1] at h; cases h; exact e2⟩

end

/-! ## BBS -/

theorem block_serves (S : Scheme N n l) {g : Graph} (hg : g = emptyGraph ∨ g.WF) (hsz : g.size < 2 ^ 30) (hN : 30 < N) (queue : Nat) (sanitize : Bool) :
    Orderly (Block.make (N := N) (l := l) g queue sanitize) ∧ ∀ r, Block.make g queue sanitize = .ok r →
      Serves (fun r c => Block.evalOne S r c) (fun r => Block.result S r) r := by
  cases sanitize with
  | true => exact ⟨.die, fun r h => by cases h⟩
  | false =>
    rcases hg with rfl | hg
    · refine ⟨.ok _, fun r h => ?_⟩
      cases h
      refine ⟨fun r => r.graph = emptyGraph ∧ r.live = [0] ∧ r.selector = none, fun r => r.graph = emptyGraph ∧ r.live = [0] ∧ r.selector = none,
        ⟨rfl, rfl, rfl⟩, ?_, ?_, fun _ h => h⟩
      · rintro r c ⟨h1, h2, h3⟩
        beta_reduce
        unfold Block.evalOne
        dsimp only
        split
        · exact ⟨.ok _, fun r' e => by cases e; exact ⟨h1, h2, h3⟩⟩
        · rcases block_empty_eval S (r := { r with queued := r.queued ++ [c] }) h1 h2 with ⟨k, _⟩ | k
          · simp at k
          · rw [k]; exact ⟨.outOfRange, fun r' e => by cases e⟩
      · rintro r ⟨h1, h2, h3⟩
        beta_reduce
        unfold Block.result
        rcases block_empty_eval S h1 h2 with ⟨_, k⟩ | k
        · rw [k, Res.bind_ok, h3]; exact ⟨.assertFail, fun p h => by cases h⟩
        · rw [k]; exact ⟨.outOfRange, fun p h => by cases h⟩
    · have hB := (liveBits_of_size hg hsz).level hg
      refine ⟨.ok _, fun r h => ?_⟩
      cases h
      refine ⟨fun r => ∃ d k, BStr g queue r d k, fun r => ∃ d k, BStr g queue r d k ∧ d + k ≠ 0,
        ⟨0, 0, rfl, rfl, rfl, rfl, fun h => absurd rfl h⟩, ?_, ?_, fun _ ⟨d, k, h, _⟩ => ⟨d, k, h⟩⟩
      · rintro r c ⟨d, k, h⟩
        beta_reduce
        obtain ⟨r', e1, e2⟩ := bstr_one S hg hB hN (by decide) h c
        refine ⟨.of_eq_ok e1, fun r'' h' => ?_⟩
        rw [e1] at h'
        cases h'
        rcases e2 with ⟨_, e2, _⟩ | ⟨_, e2, _⟩
        · exact ⟨_, _, e2, by omega⟩
        · exact ⟨_, _, e2, by omega⟩
      · rintro r ⟨d, k, h, hne⟩
        beta_reduce
        obtain ⟨c, r', e1, e2, _⟩ := bstr_result S hg hB hN (by decide) h hne
        refine ⟨.of_eq_ok e1, fun p h' => ?_⟩
        rw [e1] at h'
        cases h'
        exact ⟨_, _, e2⟩

/-! ## QTRLWE2 -/

theorem alike_ends {α β : Type} {R : α → β → Prop} {x : Res α} {y : Res β} (h : Alike R x y) :
    (Orderly y → Orderly x) ∧ ∀ a, x = .ok a → ∃ b, y = .ok b ∧ R a b := by
  cases x with
  | ok a =>
    cases y with
    | ok b => exact ⟨fun _ => .ok _, fun a' e => by cases e; exact ⟨b, rfl, h⟩⟩
    | error e => exact h.elim
  | error e =>
    cases y with
    | ok b => exact h.elim
    | error e' =>
      have h : e = e' := h
      subst h
      exact ⟨fun ho e' h' => by cases h'; exact ho e rfl, fun a h' => by cases h'⟩

theorem flut_serves (S : Scheme N n l) {g : Graph} (hg : g = emptyGraph ∨ g.WF) (hl : 0 < l) {max queue boot : Nat} (hq0 : 0 < queue) (hq : queue < 31)
    (hmax : max < 31) (hmaxN : 2 ^ max ≤ N) (hb : 0 < boot) (sanitize : Bool) :
    Orderly (Flut.make (N := N) (l := l) g max queue boot sanitize) ∧ ∀ r, Flut.make g max queue boot sanitize = .ok r →
      Serves (fun r c => Flut.evalOne S r c) (fun r => Flut.result S r) r := by
  have hN : 0 < N := Nat.lt_of_lt_of_le (Nat.pos_of_ne_zero (by simp)) hmaxN
  cases sanitize with
  | true => exact ⟨.die, fun r h => by cases h⟩
  | false =>
    rcases hg with rfl | hg
    · rw [flut_empty_make hq]
      refine ⟨.ok _, fun r h => ?_⟩
      cases h
      refine ⟨fun r => r.graph = emptyGraph ∧ r.live = [0] ∧ r.memo = List.replicate (queue + 1) [] ∧ r.queueSize = queue ∧ r.queued.length < queue,
        fun r => r.graph = emptyGraph ∧ r.live = [0] ∧ r.memo = List.replicate (queue + 1) [] ∧ r.queueSize = queue ∧ r.queued.length < queue,
        ⟨rfl, rfl, rfl, rfl, hq0⟩, ?_, ?_, fun _ h => h⟩
      · rintro r c ⟨h1, h2, h3, h4, h5⟩
        beta_reduce
        unfold Flut.evalOne
        dsimp only
        split
        · rename_i hlt
          rw [h4] at hlt
          exact ⟨.ok _, fun r' e => by cases e; exact ⟨h1, h2, h3, h4, hlt⟩⟩
        · rcases flut_empty_eval S hq (r := { r with queued := r.queued ++ [c] }) h1 h2 h3 (by rw [List.length_append]; exact h5) with ⟨k, _⟩ | k
          · simp at k
          · rw [k]; exact ⟨.outOfRange, fun r' e => by cases e⟩
      · rintro r ⟨h1, h2, h3, h4, h5⟩
        beta_reduce
        unfold Flut.result
        rcases flut_empty_eval S hq h1 h2 h3 h5.le with ⟨_, k⟩ | k
        · rw [k, Res.bind_ok, h1, h2]; exact ⟨.outOfRange, fun p h => by cases h⟩
        · rw [k]; exact ⟨.outOfRange, fun p h => by cases h⟩
    · -- the same computation with a library that makes no errors
      have hS := exact_sound (n := n) hl hN
      obtain ⟨r, h1, h2⟩ := finv_make (N := N) (l := l) (S := exactScheme N n l) (δ := ⟨0, 0, 0, 0, 0, 0⟩) (Enc := toyEnc) hg max queue boot g.size hq
      rw [h1]
      refine ⟨.ok _, fun r' h => ?_⟩
      cases h
      have hbud : g.size * 2 ^ (queue / 2) * flutErr ⟨0, 0, 0, 0, 0, 0⟩ g.size queue (boot - 1) + queue * 0 + 0 + 0 < 2 ^ 30 := by
        rw [flutErr_zero]; simp
      have hL := (liveMax_of_size hg).level hg
      refine ⟨fun r => ∃ r0 u v, r.Same r0 ∧ FInv (exactScheme N n l) ⟨0, 0, 0, 0, 0, 0⟩ toyEnc g max queue boot g.size r0 u v ∧ v.length < queue,
        fun r => ∃ r0 u v, r.Same r0 ∧ FInv (exactScheme N n l) ⟨0, 0, 0, 0, 0, 0⟩ toyEnc g max queue boot g.size r0 u v ∧ v.length < queue,
        ⟨r, [], [], .refl r, h2, hq0⟩, ?_, ?_, fun _ h => h⟩
      · rintro r c ⟨r0, u, v, e1, e2, e3⟩
        obtain ⟨k1, k2⟩ := alike_ends (Flut.evalOne_alike S (exactScheme N n l) e1 c ((exactScheme N n l).encrypt 0 true))
        rcases finv_one hS hg hL hq hmax hmaxN hb hbud e2 e3 (hS.encrypt 0 true) with ⟨t, _⟩ | ⟨r0', u', v', t1, t2, _, t3⟩
        · exact ⟨k1 (by rw [t]; exact .die), fun r' h => by obtain ⟨_, h', _⟩ := k2 r' h; rw [t] at h'; cases h'⟩
        · refine ⟨k1 (.of_eq_ok t1), fun r' h => ?_⟩
          obtain ⟨r1, h', hs⟩ := k2 r' h
          rw [t1] at h'
          cases h'
          exact ⟨r0', u', v', hs, t2, t3⟩
      · rintro r ⟨r0, u, v, e1, e2, e3⟩
        obtain ⟨k1, k2⟩ := alike_ends (Flut.result_alike S (exactScheme N n l) e1)
        rcases finv_result hS hg hL hq hmax hmaxN hb hbud e2 e3 with ⟨t, _⟩ | ⟨c, r0', t1, t2, _⟩
        · exact ⟨k1 (by rw [t]; exact .die), fun r' h => by obtain ⟨_, h', _⟩ := k2 r' h; rw [t] at h'; cases h'⟩
        · refine ⟨k1 (.of_eq_ok t1), fun r' h => ?_⟩
          obtain ⟨r1, h', hs⟩ := k2 r' h
          rw [t1] at h'
          cases h'
          exact ⟨r0', _, [], hs, t2, hq0⟩

/-! ## A loop that stops in the middle -/

/-- the loop up to a turn that fails -/
theorem fold_stops {σ α : Type} (func : σ → α → Out σ) (w : List α) (Inv : Nat → σ → Prop) (rows : Nat → List Row) (i : Nat) (hi : i < w.length)
    {last : List Row} {e : Err}
    (h : ∀ j, (hj : j < i) → ∀ s, Inv j s → ∃ s', func s (w[j]'(by omega)) = ⟨rows j, .ok s'⟩ ∧ Inv (j + 1) s')
    (hlast : ∀ s, Inv i s → func s w[i] = ⟨last, .error e⟩) (s : σ) (hs : Inv 0 s) :
    w.foldlM func s = ⟨(List.range i).flatMap rows ++ last, .error e⟩ := by
  have hw : w = w.take i ++ w[i] :: w.drop (i + 1) := by rw [← List.drop_eq_getElem_cons hi, List.take_append_drop]
  have hl : (w.take i).length = i := by rw [List.length_take]; omega
  obtain ⟨s', k1, k2⟩ := fold_log func (w.take i) Inv rows (by
    intro j hj s hs
    rw [hl] at hj
    obtain ⟨s', h1, h2⟩ := h j hj s hs
    exact ⟨s', by rw [List.getElem_take]; exact h1, h2⟩) s hs
  rw [hl] at k1 k2
  rw [hw, List.foldlM_append, k1, out_ok, List.foldlM_cons, hlast s' k2, out_error]

end Homfa.Cli
