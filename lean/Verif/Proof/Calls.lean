import Verif.Model.Calls
import Verif.Proof.Cpp

/-! # Programs that call the library -/

namespace Homfa

variable {N n l : Nat} {α β σ ι : Type}

namespace Comp

theorem run_bind (S : Scheme N n l) (x : Comp N n l α) (f : α → Comp N n l β) :
    (x >>= f).run S = x.run S >>= fun a => (f a).run S := by
  induction x with
  | ret r => cases r <;> rfl
  | call c k ih => exact ih _

theorem run_pure (S : Scheme N n l) (a : α) : (pure a : Comp N n l α).run S = pure a := rfl

theorem run_ret (S : Scheme N n l) (r : Res α) : (.ret r : Comp N n l α).run S = r := rfl

theorem run_ask (S : Scheme N n l) (c : OpCall N n l) : (ask c).run S = .ok (c.answer S) := rfl

theorem run_cmux (S : Scheme N n l) (g : Gsw l N) (a b : TRLWE N) : (cmuxC g a b : Comp N n l (TRLWE N)).run S = .ok (S.cmux g a b) := rfl
theorem run_iks (S : Scheme N n l) (c : TLWE N) : (iksC c : Comp N n l (TLWE n)).run S = .ok (S.iks c) := rfl
theorem run_tlwe2trlwe (S : Scheme N n l) (c : TLWE N) : (tlwe2trlweC c : Comp N n l (TRLWE N)).run S = .ok (S.tlwe2trlwe c) := rfl
theorem run_cb (S : Scheme N n l) (c : TLWE N) : (cbC c : Comp N n l (Gsw l N)).run S = .ok (S.cb c) := rfl

theorem bind_ok_right (x : Res α) : (x >>= fun a => (.ok a : Res α)) = x := by cases x <;> rfl

theorem trace_bind (S : Scheme N n l) (x : Comp N n l α) (f : α → Comp N n l β) :
    (x >>= f).trace S = x.trace S ++ (match x.run S with | .ok a => (f a).trace S | .error _ => []) := by
  induction x with
  | ret r => cases r <;> rfl
  | call c k ih =>
    show c :: ((k (c.answer S) >>= f).trace S) = c :: (k (c.answer S)).trace S ++ _
    rw [ih]
    rfl

theorem trace_bind_ok {S : Scheme N n l} {x : Comp N n l α} {a : α} (h : x.run S = .ok a) (f : α → Comp N n l β) :
    (x >>= f).trace S = x.trace S ++ (f a).trace S := by rw [trace_bind, h]

theorem run_foldlM (S : Scheme N n l) (f : σ → ι → Comp N n l σ) (xs : List ι) (s : σ) :
    (xs.foldlM f s).run S = xs.foldlM (fun s x => (f s x).run S) s := by
  induction xs generalizing s with
  | nil => rfl
  | cons x xs ih => rw [List.foldlM_cons, List.foldlM_cons, run_bind]; congr; funext a; exact ih a

/-- the result depends on the answers to the calls only -/
theorem run_congr {S S' : Scheme N n l} (p : Comp N n l α) (h : ∀ c ∈ p.trace S, c.answer S' = c.answer S) : p.run S' = p.run S := by
  induction p with
  | ret r => rfl
  | call c k ih =>
    have hc := h c (by simp [trace])
    show (k (c.answer S')).run S' = (k (c.answer S)).run S
    rw [hc]
    exact ih _ fun c' hc' => h c' (by simp [trace, hc'])

/-- and so do the calls -/
theorem trace_congr {S S' : Scheme N n l} (p : Comp N n l α) (h : ∀ c ∈ p.trace S, c.answer S' = c.answer S) : p.trace S' = p.trace S := by
  induction p with
  | ret r => rfl
  | call c k ih =>
    have hc := h c (by simp [trace])
    show c :: (k (c.answer S')).trace S' = c :: (k (c.answer S)).trace S
    rw [hc, ih _ fun c' hc' => h c' (by simp [trace, hc'])]

end Comp

/-- loops of tasks -/
theorem run_parFor (S : Scheme N n l) {f : Mem α → ι → Comp N n l (Mem α)} {p : ι → Prog α}
    (h : ∀ m i, (f m i).run S = (p i).run m) (is : List ι) (m : Mem α) : (is.foldlM f m).run S = parFor (is.map p) m := by
  rw [Comp.run_foldlM, parFor, List.foldlM_map]
  congr
  funext m i
  exact h m i

theorem run_local {γ : Type} (r : Res γ) (k : γ → Prog α) (m : Mem α) : (Prog.local r k).run m = r >>= fun x => (k x).run m := by
  cases r <;> rfl

theorem run_write_ret (v i : Nat) (x : α) (m : Mem α) : (Prog.write v i x .ret).run m = mwrite m v i x := by
  simp only [Prog.run]
  cases mwrite m v i x <;> rfl

open Homfa.Comp

theorem bsHalfToHalfC_run (S : Scheme N n l) (c : TLWE n) : (bsHalfToHalfC c : Comp N n l _).run S = .ok (S.bsHalfToHalf c) := rfl

theorem bootHalfC_run (S : Scheme N n l) (w : TRLWE N) : (bootHalfC w : Comp N n l _).run S = S.bootHalf w := by
  unfold bootHalfC Scheme.bootHalf
  rw [run_bind, run_ret]
  rfl

theorem backstreamTaskC_run (S : Scheme N n l) (g : Graph) (c : Gsw l N) (m : Mem (TRLWE N)) (q : Nat) :
    (backstreamTaskC g c m q : Comp N n l _).run S = (backstreamTask S g c q).run m := by
  unfold backstreamTaskC backstreamTask
  simp only [run_bind, run_ret, run_cmux, run_iks, run_tlwe2trlwe, run_cb, run_local, Prog.run, Res.bind_ok, bind_ok_right]

theorem bootTaskC_run (S : Scheme N n l) (m : Mem (TRLWE N)) (q : Nat) : (bootTaskC m q : Comp N n l _).run S = (bootTask S q).run m := by
  unfold bootTaskC bootTask
  simp only [run_bind, run_ret, bootHalfC_run, run_local, Prog.run]
  congr; funext w; congr; funext w'
  cases mwrite m 0 q w' <;> rfl

theorem Backstream.bootstrapWeightC_run (S : Scheme N n l) (r : Backstream N) (ts : List Nat) :
    (r.bootstrapWeightC ts : Comp N n l _).run S = r.bootstrapWeight S ts := by
  unfold Backstream.bootstrapWeightC Backstream.bootstrapWeight
  simp only [run_bind, run_ret, run_pure, run_parFor S (bootTaskC_run S)]

theorem Backstream.evalC_run (S : Scheme N n l) (r : Backstream N) (c : Gsw l N) : (r.evalC c : Comp N n l _).run S = r.eval S c := by
  unfold Backstream.evalC Backstream.eval
  simp only [run_bind, run_ret, run_parFor S (backstreamTaskC_run S r.graph c)]
  congr; funext states; congr; funext m; congr; funext p
  split
  · rfl
  split
  · exact Backstream.bootstrapWeightC_run S _ _
  · rfl

theorem doRunOfflineC_run (S : Scheme N n l) (spec : List Char) (size : Nat) (cs : List (Gsw l N)) (boot : Nat) (sanitize : Bool) :
    (doRunOfflineC spec size cs boot sanitize : Comp N n l _).run S = doRunOffline S spec size cs boot sanitize := by
  unfold doRunOfflineC doRunOffline
  simp only [run_bind, run_ret, run_foldlM, Backstream.evalC_run]

theorem onlineLoopC_run (S : Scheme N n l) {ρ : Type} {e : ρ → Gsw l N → Comp N n l ρ} {f : ρ → Comp N n l (TLWE N × ρ)}
    (outDir : Option String) (freq : Nat) (cs : List (Gsw l N)) (i : Nat) (r : ρ) :
    (onlineLoopC e f outDir freq cs i r).run S = onlineLoop (fun r c => (e r c).run S) (fun r => (f r).run S) outDir freq cs i r := by
  induction cs generalizing i r with
  | nil => rfl
  | cons c cs ih =>
    rw [onlineLoopC, onlineLoop, run_bind]
    congr; funext r'
    cases outDir with
    | none => exact ih _ _
    | some d =>
      dsimp only
      split
      · rfl
      split
      · simp only [run_bind, run_pure, ih]
      · exact ih _ _

theorem doRunReverseC_run (S : Scheme N n l) (spec : List Char) (hidden : Nat) (cs : List (Gsw l N)) (outFile outDir : Option String)
    (freq boot : Nat) (isRev sanitize : Bool) :
    (doRunReverseC spec hidden cs outFile outDir freq boot isRev sanitize : Comp N n l _).run S =
      doRunReverse S spec hidden cs outFile outDir freq boot isRev sanitize := by
  unfold doRunReverseC doRunReverse
  simp only [run_bind, run_ret, run_pure, onlineLoopC_run, Backstream.evalC_run]

theorem lutTaskC_run (S : Scheme N n l) (c : Gsw l N) (m : Mem (TRLWE N)) (j : Nat) :
    (lutTaskC c m j : Comp N n l _).run S = (lutTask S c j).run m := by
  unfold lutTaskC lutTask
  simp only [run_bind, run_ret, run_cmux, Prog.run, Res.bind_ok, bind_ok_right]

theorem lutLoopC_run (S : Scheme N n l) (k : Nat) (cs : List (Gsw l N)) (i : Nat) (tmp table : List (TRLWE N)) (timer : List (Target × Nat)) :
    (lutLoopC k cs i tmp table timer : Comp N n l _).run S = lutLoop S k cs i tmp table timer := by
  induction cs generalizing i tmp table timer with
  | nil => rfl
  | cons c cs ih =>
    rw [lutLoopC, lutLoop]
    simp only [run_bind, run_ret, run_parFor S (lutTaskC_run S c), ih]

theorem lookupTableTimerC_run (S : Scheme N n l) (table : List (TRLWE N)) (cs : List (Gsw l N)) (ws : List (TRLWE N)) (timer : List (Target × Nat)) :
    (lookupTableTimerC table cs ws timer : Comp N n l _).run S = lookupTableTimer S table cs ws timer := by
  unfold lookupTableTimerC lookupTableTimer
  simp only [run_bind, run_ret]
  congr; funext sz; congr; funext _
  split
  · rfl
  · simp only [run_bind, run_ret, run_pure, lutLoopC_run]

theorem lookupTableC_run (S : Scheme N n l) (table : List (TRLWE N)) (cs : List (Gsw l N)) (ws : List (TRLWE N)) :
    (lookupTableC table cs ws : Comp N n l _).run S = lookupTable S table cs ws := by
  unfold lookupTableC lookupTable
  simp only [run_bind, run_pure, lookupTableTimerC_run]

theorem blockTaskC_run (S : Scheme N n l) (g : Graph) (queued : List (Gsw l N)) (i : Nat) (m : Mem (TRLWE N)) (q : Nat) :
    (blockTaskC g queued i m q : Comp N n l _).run S = (blockTask S g queued i q).run m := by
  unfold blockTaskC blockTask
  simp only [run_bind, run_ret, run_cmux, run_iks, run_tlwe2trlwe, run_cb, run_local, Prog.run, Res.bind_ok, bind_ok_right]

theorem blockPropagateC_run (S : Scheme N n l) (g : Graph) (queued : List (Gsw l N)) (d : List (List Nat)) (k : Nat) (w o : List (TRLWE N))
    (timer : List (Target × Nat)) :
    (blockPropagateC g queued d k w o timer : Comp N n l _).run S = blockPropagate S g queued d k w o timer := by
  induction k generalizing w o timer with
  | zero => rfl
  | succ k ih =>
    rw [blockPropagateC, blockPropagate]
    simp only [run_bind, run_ret, run_parFor S (blockTaskC_run S g queued k), ih]

theorem cbTaskC_run (S : Scheme N n l) (ws4 : List (TLWE N)) (m : Mem (Gsw l N)) (i : Nat) :
    (cbTaskC ws4 m i : Comp N n l _).run S = (cbTask S ws4 i).run m := by
  unfold cbTaskC cbTask
  simp only [run_bind, run_ret, run_cmux, run_iks, run_tlwe2trlwe, run_cb, run_local, Prog.run, Res.bind_ok, bind_ok_right]

theorem Block.evalQueuedC_run (S : Scheme N n l) (r : Block N l) : (r.evalQueuedC : Comp N n l _).run S = r.evalQueued S := by
  unfold Block.evalQueuedC Block.evalQueued
  dsimp only
  split
  · rfl
  simp only [run_bind, run_ret, blockPropagateC_run]
  congr; funext d; congr; funext w; congr; funext p
  split
  · simp only [run_bind, run_ret, run_pure]
  · simp only [run_bind, run_ret, run_pure, run_parFor S (cbTaskC_run S _), lookupTableTimerC_run, bind_assoc]
    rfl

theorem Block.resultC_run (S : Scheme N n l) (r : Block N l) : (r.resultC : Comp N n l _).run S = r.result S := by
  unfold Block.resultC Block.result
  simp only [run_bind, Block.evalQueuedC_run]
  congr; funext r'
  cases r'.selector with
  | none => rfl
  | some s => simp only [run_bind, run_ret, run_pure]

theorem Block.evalOneC_run (S : Scheme N n l) (r : Block N l) (c : Gsw l N) : (r.evalOneC c : Comp N n l _).run S = r.evalOne S c := by
  unfold Block.evalOneC Block.evalOne
  dsimp only
  split
  · rfl
  · exact Block.evalQueuedC_run S _

theorem doRunBlockC_run (S : Scheme N n l) (spec : List Char) (cs : List (Gsw l N)) (queue : Nat) (sanitize : Bool) :
    (doRunBlockC spec cs queue sanitize : Comp N n l _).run S = doRunBlock S spec cs queue sanitize := by
  unfold doRunBlockC doRunBlock
  simp only [run_bind, run_ret, run_pure, run_foldlM, Block.evalOneC_run, Block.resultC_run]

theorem splitTaskC_run (S : Scheme N n l) (idx : List Nat) (boot : Bool) (m : Mem (TRLWE N)) (st : Nat) :
    (splitTaskC idx boot m st : Comp N n l _).run S = (splitTask S idx boot st).run m := by
  unfold splitTaskC splitTask
  cases boot <;>
    simp only [run_bind, run_ret, run_cmux, run_iks, run_tlwe2trlwe, run_pure, run_local, Prog.run, Res.bind_ok, bind_ok_right, bsHalfToHalfC_run, if_true, if_false,
      Bool.false_eq_true, Res.pure_eq]

theorem Flut.evalQueuedC_run (S : Scheme N n l) (r : Flut N l) : (r.evalQueuedC : Comp N n l _).run S = r.evalQueued S := by
  unfold Flut.evalQueuedC Flut.evalQueued
  dsimp only
  split
  · rfl
  simp only [run_bind, run_ret, lookupTableC_run, bind_assoc]
  refine bind_congr fun memo => bind_congr fun next => bind_congr fun idx => bind_congr fun d => bind_congr fun c1 => bind_congr fun c2 =>
    bind_congr fun m1 => bind_congr fun p => bind_congr fun t1 => bind_congr fun m2 => bind_congr fun table => bind_congr fun t2 => ?_
  split
  · rfl
  · simp only [run_bind, run_ret, run_pure, run_parFor S (splitTaskC_run S _ _)]

theorem Flut.resultC_run (S : Scheme N n l) (r : Flut N l) : (r.resultC : Comp N n l _).run S = r.result S := by
  unfold Flut.resultC Flut.result
  simp only [run_bind, run_ret, run_pure, Flut.evalQueuedC_run]

theorem Flut.evalOneC_run (S : Scheme N n l) (r : Flut N l) (c : Gsw l N) : (r.evalOneC c : Comp N n l _).run S = r.evalOne S c := by
  unfold Flut.evalOneC Flut.evalOne
  dsimp only
  split
  · rfl
  · exact Flut.evalQueuedC_run S _

theorem doRunFlutC_run (S : Scheme N n l) (spec : List Char) (hidden : Nat) (cs : List (Gsw l N)) (outFile outDir : Option String)
    (freq queue boot : Nat) (maxSecond : Option Nat) (sanitize : Bool) :
    (doRunFlutC spec hidden cs outFile outDir freq queue boot maxSecond sanitize : Comp N n l _).run S =
      doRunFlut S spec hidden cs outFile outDir freq queue boot maxSecond sanitize := by
  unfold doRunFlutC doRunFlut
  simp only [run_bind, run_ret]
  congr; funext g; congr; funext r
  split
  · rfl
  · simp only [run_bind, run_ret, run_pure, onlineLoopC_run, Flut.evalOneC_run, Flut.resultC_run]

end Homfa
