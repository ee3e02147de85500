import Verif.Proof.Sched
import Verif.Props.Backstream
import Verif.Props.Flut
import Verif.Props.Online1

/-!
# C64: whole runs do not depend on the schedule

In every call of a history every parallel loop is executed under an interleaving of its own (Spec/Sched.lean).
-/

namespace Homfa

variable {N n l : Nat} {S : Scheme N n l} {δ : Noise} {Enc : Gsw l N → Bool → Prop}

/-- `result` of the OFFLINE and REVERSE runners contains no loop and does not change the runner. -/
def Backstream.resultCall (_ : Loops) (r : Backstream N) : Res (TLWE N × Backstream N) := do
  let c ← r.result
  pure (c, r)

/-- **C64 (OFFLINE, REVERSE).** Over any history, whatever the schedules: the run succeeds with these results exactly if the sequential run
does. -/
theorem C64_backstream (S : Scheme N n l) (hN : 0 < N) (g : Graph) (hg : g.WF) (boot : Nat) (isz : Option Nat) (r : Backstream N)
    (hr : Backstream.make g boot isz true false = .ok r) (cs : List (Loops × Call (Gsw l N))) (hs : ∀ p ∈ cs, p.1.Schedules)
    (x : List (TLWE N) × Backstream N) :
    runCallsWith (fun pf r c => Backstream.evalWith pf S r c) Backstream.resultCall r cs = .ok x ↔
      runCalls (fun r c => Backstream.eval S r c) (Backstream.resultCall .sequential) r (cs.map Prod.snd) = .ok x := by
  refine (runCalls_same (evalW := fun pf r c => Backstream.evalWith pf S r c) (ev := fun r c => Backstream.eval S r c)
    (resW := Backstream.resultCall) (re := Backstream.resultCall .sequential) (fun r' => r'.graph = r.graph ∧ r'.inputSize = r.inputSize) (fun pf r' c hp hI => ?_) (fun _ _ _ _ => ⟨fun _ => Iff.rfl⟩)
    (fun r1 c r2 hI h => ?_) (fun r1 b r2 hI h => ?_) cs hs r ⟨rfl, rfl⟩).iff x
  · refine Backstream.eval_same hp S r' c fun k sts hk => ?_
    rw [hI.1, hI.2] at hk
    exact Backstream.evalStates_nodup hN hg hr hk
  · have := Backstream.eval_keeps h
    exact ⟨this.1.trans hI.1, this.2.trans hI.2⟩
  · obtain ⟨_, _, h⟩ := Res.bind_eq_ok.1 h
    cases h
    exact hI

/-- **C64 (BLOCK).** -/
theorem C64_block (S : Scheme N n l) (g : Graph) (hg : g.WF) (qs : Nat) (r : Block N l) (hr : Block.make g qs false = .ok r)
    (cs : List (Loops × Call (Gsw l N))) (hs : ∀ p ∈ cs, p.1.Schedules) (x : List (TLWE N) × Block N l) :
    runCallsWith (fun pf r c => Block.evalOneWith pf S r c) (fun pf r => Block.resultWith pf S r) r cs = .ok x ↔
      runCalls (fun r c => Block.evalOne S r c) (fun r => Block.result S r) r (cs.map Prod.snd) = .ok x := by
  cases hr
  have hi : ∀ q ∈ [g.init], q < g.size := by intro q hq; simp at hq; subst hq; exact hg.init_lt
  refine (runCalls_same Block.Ready (fun pf r' c hp hI => Block.evalOne_same hp S r' c hI) (fun pf r' hp hI => Block.result_same hp S r' hI)
    (fun r1 c r2 hI h => ?_) (fun r1 b r2 hI h => ?_) cs hs _ ⟨hg, List.pairwise_singleton _ _, hi⟩).iff x
  · obtain ⟨h1, h2, h3⟩ := Block.one_keeps h hI.1 hI.2.1 hI.2.2
    exact ⟨h1 ▸ hI.1, h2, by rw [h1]; exact h3⟩
  · have h' : runCalls (fun r c => Block.evalOne S r c) (fun r => Block.result S r) r1 [.result] = .ok ([b], r2) := by
      rw [runCalls, h]; rfl
    obtain ⟨h1, h2, h3⟩ := Block.calls_keeps _ h' hI.1 hI.2.1 hI.2.2
    exact ⟨h1 ▸ hI.1, h2, by rw [h1]; exact h3⟩

/-- **C64 (FLUT).** From any state of the runner. -/
theorem C64_flut (S : Scheme N n l) (r : Flut N l) (cs : List (Loops × Call (Gsw l N))) (hs : ∀ p ∈ cs, p.1.Schedules)
    (x : List (TLWE N) × Flut N l) :
    runCallsWith (fun pf r c => Flut.evalOneWith pf S r c) (fun pf r => Flut.resultWith pf S r) r cs = .ok x ↔
      runCalls (fun r c => Flut.evalOne S r c) (fun r => Flut.result S r) r (cs.map Prod.snd) = .ok x :=
  (runCalls_same (fun _ => True) (fun _ r' c hp _ => Flut.evalOne_same hp S r' c) (fun _ r' hp _ => Flut.result_same hp S r')
    (fun _ _ _ _ _ => trivial) (fun _ _ _ _ _ => trivial) cs hs r trivial).iff x

/-- **C64 (first online runner).** From any state of the runner, one input at a time. -/
theorem C64_online1 (S : Scheme N n l) (r : Online1 N) (cs : List (Loops × Gsw l N)) (hs : ∀ p ∈ cs, p.1.Schedules) (r' : Online1 N) :
    cs.foldlM (fun (r : Online1 N) p => r.evalOneWith p.1 S p.2) r = .ok r' ↔
      (cs.map Prod.snd).foldlM (fun (r : Online1 N) c => r.evalOne S c) r = .ok r' := by
  induction cs generalizing r with
  | nil => exact Iff.rfl
  | cons p cs ih =>
    rw [List.map_cons, List.foldlM_cons, List.foldlM_cons, Res.bind_eq_ok, Res.bind_eq_ok]
    have h1 := (Online1.evalOne_same (hs p List.mem_cons_self) S r p.2).iff
    have h2 := fun r1 => ih r1 (fun q hq => hs q (List.mem_cons_of_mem _ hq))
    exact exists_congr fun r1 => and_congr (h1 r1) (h2 r1)

/-! ## So the answers are right under every schedule -/

/-- feed a sequence of ciphertexts, each step with its own schedules -/
def Backstream.evalAllWith (S : Scheme N n l) (r : Backstream N) (inputs : List (Loops × Gsw l N)) : Res (Backstream N) :=
  inputs.foldlM (fun r p => r.evalWith p.1 S p.2) r

theorem Backstream.evalAll_same (hN : 0 < N) {g : Graph} (hg : g.WF) {boot : Nat} {isz : Option Nat} {r0 : Backstream N}
    (hr : Backstream.make g boot isz true false = .ok r0) (cs : List (Loops × Gsw l N)) (hs : ∀ p ∈ cs, p.1.Schedules) (r : Backstream N)
    (hI : r.graph = r0.graph ∧ r.inputSize = r0.inputSize) : SameOk (r.evalAllWith S cs) (r.evalAll S (cs.map Prod.snd)) := by
  unfold Backstream.evalAllWith Backstream.evalAll
  induction cs generalizing r with
  | nil => exact SameOk.rfl
  | cons p cs ih =>
    rw [List.map_cons, List.foldlM_cons, List.foldlM_cons]
    refine SameOk.bind (Backstream.eval_same (hs p List.mem_cons_self) S r p.2 fun k sts hk => ?_) fun r1 h1 => ?_
    · rw [hI.1, hI.2] at hk
      exact Backstream.evalStates_nodup hN hg hr hk
    · have := Backstream.eval_keeps h1
      exact ih (fun q hq => hs q (List.mem_cons_of_mem _ hq)) r1 ⟨this.1.trans hI.1, this.2.trans hI.2⟩

/-- **C64 (OFFLINE answers).** C28 under every schedule. -/
theorem C64_offline_decides (hS : S.Sound δ Enc) (hN : 0 < N) (g : Graph) (hg : g.WF) (boot : Nat) (hb : 0 < boot)
    (w : List Bool) (cs : List (Loops × Gsw l N)) (hs : ∀ p ∈ cs, p.1.Schedules) (hcs : List.Forall₂ Enc (cs.map Prod.snd) w.reverse)
    (hbud : δ.br + min boot w.length * δ.cmux + δ.ks + δ.ms < 2 ^ 30) (h31 : w.length < 2 ^ 31) :
    ∃ r r' c, offlineMake g w.length boot true false = .ok r ∧ r.evalAllWith S cs = .ok r' ∧ r'.result = .ok c ∧
      g.accepts w = .ok (decryptBit c S.sk) := by
  obtain ⟨r, r', c, h1, h2, h3, h4⟩ := C28_offline_decides hS hN g hg boot hb w _ hcs hbud h31
  exact ⟨r, r', c, h1, ((Backstream.evalAll_same hN hg h1 cs hs r ⟨rfl, rfl⟩).iff r').2 h2, h3, h4⟩

/-- **C64 (REVERSE answers).** C29 under every schedule. -/
theorem C64_reverse_decides (hS : S.Sound δ Enc) (hN : 0 < N) (g : Graph) (hg : g.WF) (boot : Nat) (hb : 0 < boot)
    (w : List Bool) (cs : List (Loops × Gsw l N)) (hs : ∀ p ∈ cs, p.1.Schedules) (hcs : List.Forall₂ Enc (cs.map Prod.snd) w)
    (hbud : δ.br + min boot w.length * δ.cmux + δ.ks + δ.ms < 2 ^ 30) :
    ∃ r, reverseMake g boot false true false = .ok r ∧ ∀ k ≤ w.length,
      ∃ r' c, r.evalAllWith S (cs.take k) = .ok r' ∧ r'.result = .ok c ∧ g.accepts (w.take k) = .ok (decryptBit c S.sk) := by
  obtain ⟨r, h1, h2⟩ := C29_reverse_decides hS hN g hg boot hb w _ hcs hbud
  refine ⟨r, h1, fun k hk => ?_⟩
  obtain ⟨r', c, h3, h4, h5⟩ := h2 k hk
  refine ⟨r', c, ?_, h4, h5⟩
  obtain ⟨g1, a1, a2, _⟩ := C03_reversed_language g hg
  obtain ⟨g2, b1, b2, _⟩ := C04_minimized_language g1 a2
  have hm : Backstream.make g2 boot none true false = .ok r := by
    unfold reverseMake at h1
    simp only [Bool.false_eq_true, if_false] at h1
    rw [a1, Res.bind_ok, b1, Res.bind_ok] at h1
    exact h1
  refine ((Backstream.evalAll_same hN b2 hm (cs.take k) (fun p hp => hs p (List.mem_of_mem_take hp)) r ⟨rfl, rfl⟩).iff r').2 ?_
  rw [List.map_take]
  exact h3

/-- **C64 (BLOCK answers).** C30 under every schedule. -/
theorem C64_block_decides (hS : S.Sound δ Enc) (g : Graph) (hg : g.WF) (qs B : Nat) (hB : LiveBits g B) (hBN : B < N) (hB31 : B < 31)
    (hbud : (max 1 qs + B) * δ.cmux + δ.cb < 2 ^ 29) (hint : qs ≤ 2 ^ 31)
    (cs : List (Loops × Call (Gsw l N))) (hs : ∀ p ∈ cs, p.1.Schedules) (ps : List (Call Bool))
    (hcs : List.Forall₂ (Call.Rel Enc) (cs.map Prod.snd) ps) (hfirst : ∀ rest, ps ≠ .result :: rest) :
    ∃ r r' outs, Block.make g qs false = .ok r ∧
      runCallsWith (fun pf r c => Block.evalOneWith pf S r c) (fun pf r => Block.resultWith pf S r) r cs = .ok (outs, r') ∧
      outs.map (fun c => Except.ok (decryptBit c S.sk)) = (resultWords [] ps).map g.accepts := by
  obtain ⟨r, r', outs, h1, h2, h3⟩ := C30_block_decides hS g hg qs B hB hBN hB31 hbud hint _ ps hcs hfirst
  exact ⟨r, r', outs, h1, (C64_block S g hg qs r h1 cs hs (outs, r')).2 h2, h3⟩

/-- **C64 (FLUT answers).** C32 under every schedule. -/
theorem C64_flut_decides (hS : S.Sound δ Enc) (g : Graph) (hg : g.WF) (max qs boot L : Nat) (hL : LiveMax g L) (hLmax : L < 2 ^ max)
    (hqs0 : 0 < qs) (hqs : qs < 31) (hmax : max < 31) (hmaxN : 2 ^ max ≤ N) (hboot : 0 < boot)
    (hbud : L * 2 ^ (qs / 2) * flutErr δ L qs (boot - 1) + qs * δ.cmux + δ.ks + δ.ms < 2 ^ 30)
    (cs : List (Loops × Call (Gsw l N))) (hs : ∀ p ∈ cs, p.1.Schedules) (ps : List (Call Bool))
    (hcs : List.Forall₂ (Call.Rel Enc) (cs.map Prod.snd) ps) :
    ∃ r r' outs, Flut.make g max qs boot false = .ok r ∧
      runCallsWith (fun pf r c => Flut.evalOneWith pf S r c) (fun pf r => Flut.resultWith pf S r) r cs = .ok (outs, r') ∧
      outs.map (fun c => Except.ok (decryptBit c S.sk)) = (resultWords [] ps).map g.accepts := by
  obtain ⟨r, r', outs, h1, h2, h3⟩ := C32_flut_no_exit hS g hg max qs boot L hL hLmax hqs0 hqs hmax hmaxN hboot hbud _ ps hcs
  exact ⟨r, r', outs, h1, (C64_flut S r cs hs (outs, r')).2 h2, h3⟩

/-! ## There are many schedules -/

/-- Running the tasks one after the other is one choice; and whatever an interleaving can do, some choice does. -/
example : Loops.sequential.Schedules ∧
    (∀ (id : LoopId) (ts : List (Prog Nat)) (m : Mem Nat) (o : Res (Mem Nat)), AnySchedule ts m o →
      ∃ pf : Loops, pf.Schedules ∧ pf.run id ts m = o) :=
  ⟨Loops.sequential_schedules, Loops.exists_schedules⟩

/-- The choice matters in general: two tasks that increment the same element end with 1 under some schedules and with 2 under others. -/
example : ∃ pf pf' : Loops, pf.Schedules ∧ pf'.Schedules ∧
    (let ts : List (Prog Nat) := [.read 0 0 fun x => .write 0 0 (x + 1) .ret, .read 0 0 fun x => .write 0 0 (x + 1) .ret]
     pf.run (1, 0) ts [[0]] = .ok [[2]] ∧ pf'.run (1, 0) ts [[0]] = .ok [[1]]) := by
  obtain ⟨pf, h1, h2⟩ := Loops.exists_schedules (α := Nat) (1, 0)
    [.read 0 0 fun x => .write 0 0 (x + 1) .ret, .read 0 0 fun x => .write 0 0 (x + 1) .ret] [[0]] (.ok [[1]])
    ⟨[.ret, .ret], .tail (.tail (.tail (.tail .refl
      (.step (l := []) (.read (m := [[0]]) (x := 0) rfl)))
      (.step (l := [_]) (r := []) (.read (m := [[0]]) (x := 0) rfl)))
      (.step (l := []) (.write (m := [[0]]) rfl)))
      (.step (l := [_]) (r := []) (.write (m := [[1]]) rfl)), by intro p hp; simpa using hp⟩
  exact ⟨.sequential, pf, Loops.sequential_schedules, h1, rfl, h2⟩

end Homfa
