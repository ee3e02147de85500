import Verif.Spec.CounterCalls
import Verif.Proof.Oblivious
import Verif.Proof.Calls

/-! # The calls of the BTT runner -/

set_option linter.unusedSimpArgs false

namespace Homfa

variable {N n l : Nat} {α β γ δ σ ι : Type}

namespace GComp

theorem run_bind (S : GateScheme N n l) (x : GComp N n l α) (f : α → GComp N n l β) :
    (x >>= f).run S = x.run S >>= fun a => (f a).run S := by
  induction x with
  | ret r => cases r <;> rfl
  | call c k ih => exact ih _

theorem run_pure (S : GateScheme N n l) (a : α) : (pure a : GComp N n l α).run S = pure a := rfl

theorem run_ret (S : GateScheme N n l) (r : Res α) : (.ret r : GComp N n l α).run S = r := rfl

theorem run_gask (S : GateScheme N n l) (c : GateCall N n l) : (gask c).run S = .ok (c.answer S) := rfl

theorem run_gcmux (S : GateScheme N n l) (g : Gsw l N) (a b : TRLWE N) : (gcmux g a b : GComp N n l _).run S = .ok (S.cmux g a b) := rfl
theorem run_giks (S : GateScheme N n l) (c : TLWE N) : (giks c : GComp N n l _).run S = .ok (S.iks c) := rfl
theorem run_gxor (S : GateScheme N n l) (x y : TLWE n) : (gxor x y : GComp N n l _).run S = .ok (S.homXor x y) := rfl
theorem run_gor (S : GateScheme N n l) (x y : TLWE n) : (gor x y : GComp N n l _).run S = .ok (S.homOR x y) := rfl
theorem run_gandny (S : GateScheme N n l) (x y : TLWE n) : (gandny x y : GComp N n l _).run S = .ok (S.homANDNY x y) := rfl
theorem run_gcb (S : GateScheme N n l) (c : TLWE n) : (gcb c : GComp N n l _).run S = .ok (S.cb01 c) := rfl

theorem run_foldlM (S : GateScheme N n l) (f : σ → ι → GComp N n l σ) (xs : List ι) (s : σ) :
    (xs.foldlM f s).run S = xs.foldlM (fun s x => (f s x).run S) s := by
  induction xs generalizing s with
  | nil => rfl
  | cons x xs ih => rw [List.foldlM_cons, List.foldlM_cons, run_bind]; congr; funext a; exact ih a

theorem run_gmap (S : GateScheme N n l) (f : α → GComp N n l β) (xs : List α) : (gmap f xs).run S = xs.mapM fun x => (f x).run S := by
  induction xs with
  | nil => rfl
  | cons x xs ih =>
    rw [gmap, List.mapM_cons, run_bind]
    congr; funext y
    rw [run_bind, ih]
    rfl

theorem run_tasks (S : GateScheme N n l) {f : Mem α → ι → GComp N n l (Mem α)} {p : ι → Prog α}
    (h : ∀ m i, (f m i).run S = (p i).run m) (is : List ι) (m : Mem α) : (is.foldlM f m).run S = parFor (is.map p) m := by
  rw [run_foldlM, parFor, List.foldlM_map]
  congr
  funext m i
  exact h m i

end GComp

open Homfa.GComp
open Homfa.Comp (bind_ok_right)

theorem bitToLvl0C_run (S : GateScheme N n l) (c : TRLWE N) : (bitToLvl0C c : GComp N n l _).run S = bitToLvl0 S.toScheme c := by
  unfold bitToLvl0C bitToLvl0
  rw [run_bind]; rfl

theorem RedTree.evalC_run (S : GateScheme N n l) (vals : List (TLWE n)) (t : RedTree) :
    (t.evalC vals : GComp N n l _).run S = t.eval S.homOR vals := by
  induction t with
  | leaf i => rfl
  | node a b iha ihb =>
    rw [RedTree.evalC, RedTree.eval, run_bind, iha]
    congr; funext x
    rw [run_bind, ihb]; rfl

theorem Counter.isZeroC_run (S : GateScheme N n l) (ctr : Counter N) (t : RedTree) :
    (ctr.isZeroC t : GComp N n l _).run S = ctr.isZero S t := by
  unfold Counter.isZeroC Counter.isZero
  simp only [run_bind, run_gmap, bitToLvl0C_run, RedTree.evalC_run, run_pure]

theorem minusTaskC_run (S : GateScheme N n l) (memo : List (TLWE n)) (m : Mem (TRLWE N)) (i : Nat) :
    (minusTaskC memo m i : GComp N n l _).run S = (minusTask S.toScheme memo i).run m := by
  unfold minusTaskC minusTask
  simp only [run_bind, run_ret, run_gcmux, run_giks, run_gxor, run_gandny, run_gcb, run_local, run_write_ret, Res.bind_ok]

theorem Counter.minusOneC_run (S : GateScheme N n l) (ctr : Counter N) (b : TLWE n) :
    (ctr.minusOneC b : GComp N n l _).run S = ctr.minusOne S b := by
  unfold Counter.minusOneC Counter.minusOne
  simp only [run_bind, run_ret, run_pure, run_foldlM, borrowC, bitToLvl0C_run, run_gcmux, run_giks, run_gxor, run_gandny, run_gcb, Res.bind_ok]
  congr; funext p
  rw [← run_tasks S (minusTaskC_run S p.1), run_foldlM]

theorem Counter.cmuxC_run (S : GateScheme N n l) (out : Counter N) (sel : Gsw l N) (in1 in0 : Counter N) :
    (out.cmuxC sel in1 in0 : GComp N n l _).run S = out.cmux S.toScheme sel in1 in0 := by
  unfold Counter.cmuxC Counter.cmux
  simp only [run_bind, run_ret, run_pure, run_foldlM, ctrCmuxStepC, run_gcmux, run_giks, run_gxor, run_gandny, run_gcb, Res.bind_ok]

theorem Weight.conditionsC_run (S : GateScheme N n l) (w : Weight N) (trees : Nat → RedTree) :
    (w.conditionsC trees : GComp N n l _).run S = w.conditions S trees := by
  unfold Weight.conditionsC Weight.conditions
  simp only [run_gmap, run_bind, run_ret, Counter.isZeroC_run, run_gcmux, run_giks, run_gxor, run_gandny, run_gcb]
  rfl

theorem Weight.selectorsC_run (S : GateScheme N n l) (w : Weight N) (k : Nat) :
    (w.selectorsC k : GComp N n l _).run S = w.selectors S k := by
  unfold Weight.selectorsC Weight.selectors
  simp only [run_gmap, run_bind, run_ret, run_gcmux, run_giks, run_gxor, run_gandny, run_gcb]
  rfl

theorem updateTaskC_run (S : GateScheme N n l) (g : TRLWE N) (m : Mem (Counter N)) (i : Nat) :
    (updateTaskC g m i : GComp N n l _).run S = (updateTask S g i).run m := by
  unfold updateTaskC updateTask
  simp only [run_bind, run_ret, run_gcmux, run_giks, run_gxor, run_gandny, run_gcb, run_local, Prog.run, Counter.minusOneC_run, Res.bind_ok, bind_ok_right]

theorem Weight.updateCountersC_run (S : GateScheme N n l) (w : Weight N) : (w.updateCountersC : GComp N n l _).run S = w.updateCounters S := by
  unfold Weight.updateCountersC Weight.updateCounters
  simp only [run_bind, run_ret, run_pure, run_tasks S (updateTaskC_run S w.general)]

theorem Weight.cmuxC_run (S : GateScheme N n l) (out : Weight N) (sel : Gsw l N) (in1 in0 : Weight N) :
    (out.cmuxC sel in1 in0 : GComp N n l _).run S = out.cmux S.toScheme sel in1 in0 := by
  unfold Weight.cmuxC Weight.cmux
  simp only [run_bind, run_ret, run_pure, run_foldlM, weightCmuxStepC, Counter.cmuxC_run, run_gcmux, run_giks, run_gxor, run_gandny, run_gcb, Res.bind_ok]

theorem wlutTaskC_run (S : GateScheme N n l) (c : Gsw l N) (m : Mem (Weight N)) (j : Nat) :
    (wlutTaskC c m j : GComp N n l _).run S = (wlutTask S.toScheme c j).run m := by
  unfold wlutTaskC wlutTask
  simp only [run_bind, run_ret, run_local, Prog.run, Weight.cmuxC_run, bind_ok_right]

theorem wlutLoopC_run (S : GateScheme N n l) (k : Nat) (cs : List (Gsw l N)) (i : Nat) (tmp table : List (Weight N)) :
    (wlutLoopC k cs i tmp table : GComp N n l _).run S = wlutLoop S.toScheme k cs i tmp table := by
  induction cs generalizing i tmp table with
  | nil => rfl
  | cons c cs ih =>
    rw [wlutLoopC, wlutLoop]
    simp only [run_bind, run_ret, run_tasks S (wlutTaskC_run S c), ih]

theorem wlookupTableC_run (S : GateScheme N n l) (table : List (Weight N)) (cs : List (Gsw l N)) :
    (wlookupTableC table cs : GComp N n l _).run S = wlookupTable S.toScheme table cs := by
  unfold wlookupTableC wlookupTable
  simp only [run_bind, run_ret]
  congr; funext sz; congr; funext _
  split
  · rfl
  · simp only [run_bind, run_ret, run_pure, wlutLoopC_run]

theorem bttTaskC_run (S : GateScheme N n l) (b : Btt) (st : Weight N) (c : Gsw l N) (m : Mem (Option (Weight N))) (q : Nat) :
    (bttTaskC b st c m q : GComp N n l _).run S = (bttTask S.toScheme b st c q).run m := by
  unfold bttTaskC bttTask
  simp only [run_bind, run_ret, run_local, Prog.run, Weight.cmuxC_run, bind_ok_right, bind_assoc]

theorem bttBlockC_run (S : GateScheme N n l) (b : Btt) (st : Weight N) (inputs : List (Gsw l N)) (d : List (List Nat)) (k : Nat)
    (w t : List (Option (Weight N))) : (bttBlockC b st inputs d k w t : GComp N n l _).run S = bttBlock S.toScheme b st inputs d k w t := by
  induction k generalizing w t with
  | zero => rfl
  | succ k ih =>
    rw [bttBlockC, bttBlock]
    simp only [run_bind, run_ret, run_tasks S (bttTaskC_run S b st _), ih]

theorem bttSelectC_run (S : GateScheme N n l) (st : Weight N) (live : List Nat) (w : List (Option (Weight N))) :
    (bttSelectC st live w : GComp N n l _).run S = bttSelect S st live w := by
  unfold bttSelectC bttSelect
  split
  · simp only [run_bind, run_ret]
  · simp only [run_bind, run_ret, Weight.selectorsC_run, wlookupTableC_run]

theorem BttRunner.evalQueuedC_run (S : GateScheme N n l) (r : BttRunner N l) (trees : Nat → RedTree) :
    (r.evalQueuedC trees : GComp N n l _).run S = r.evalQueued S trees := by
  unfold BttRunner.evalQueuedC BttRunner.evalQueued
  split
  · rfl
  · simp only [run_bind, run_ret, run_pure, Weight.conditionsC_run, bttBlockC_run, bttSelectC_run, Weight.updateCountersC_run]

theorem BttRunner.resultC_run (S : GateScheme N n l) (r : BttRunner N l) (trees : Nat → RedTree) :
    (r.resultC trees : GComp N n l _).run S = r.result S trees := by
  unfold BttRunner.resultC BttRunner.result
  simp only [run_bind, run_ret, run_pure, BttRunner.evalQueuedC_run]

theorem BttRunner.evalOneC_run (S : GateScheme N n l) (r : BttRunner N l) (c : Gsw l N) (trees : Nat → RedTree) :
    (r.evalOneC c trees : GComp N n l _).run S = r.evalOne S c trees := by
  unfold BttRunner.evalOneC BttRunner.evalOne
  dsimp only
  split
  · rfl
  · exact BttRunner.evalQueuedC_run S _ _

theorem bttRunC_run (S : GateScheme N n l) (b : Btt) (queue : Nat) (cs : List (Gsw l N × (Nat → RedTree))) (trees : Nat → RedTree) :
    (bttRunC b queue cs trees : GComp N n l _).run S = bttRunQ S b queue cs trees := by
  unfold bttRunC bttRunQ
  simp only [run_bind, run_ret, run_foldlM, BttRunner.evalOneC_run, BttRunner.resultC_run]

end Homfa
