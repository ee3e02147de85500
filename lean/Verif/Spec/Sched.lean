import Verif.Model.Par
import Verif.Spec.History

/-!
# Schedules of whole runs
-/

namespace Homfa

/-- The task is about to end with the error `e`. -/
def Prog.FailsWith {α : Type} (p : Prog α) (m : Mem α) (e : Err) : Prop :=
  p = .fail e ∨ (∃ v i k, p = .read v i k ∧ mread m v i = .error e) ∨ (∃ v i x k, p = .write v i x k ∧ mwrite m v i x = .error e)

/-- `o` is an outcome of the parallel loop with tasks `ts` from memory `m` under some interleaving of their accesses: the memory once every
task has returned, or the error of a task that throws on the way. -/
def AnySchedule {α : Type} (ts : List (Prog α)) (m : Mem α) : Res (Mem α) → Prop
  | .ok n => ∃ us, ParExec ts m us n ∧ Done us
  | .error e => ∃ us n, ParExec ts m us n ∧ ∃ p ∈ us, p.FailsWith n e

/-- Which loop is executed: the line of /repo where it stands, and a number telling apart its executions within one call. -/
abbrev LoopId := Nat × Nat

/-- Something that executes the parallel loops of one call. -/
structure Loops where
  run : {α : Type} → LoopId → List (Prog α) → Mem α → Res (Mem α)

/-- Every loop is executed under some interleaving, chosen afresh for every execution. -/
def Loops.Schedules (pf : Loops) : Prop :=
  ∀ {α : Type} (id : LoopId) (ts : List (Prog α)) (m : Mem α), AnySchedule ts m (pf.run id ts m)

/-- A history in which every call comes with its own schedules. -/
def runCallsWith {ρ α β : Type} (evalOne : Loops → ρ → α → Res ρ) (result : Loops → ρ → Res (β × ρ)) :
    ρ → List (Loops × Call α) → Res (List β × ρ)
  | r, [] => .ok ([], r)
  | r, (pf, .feed x) :: cs => do
    let r ← evalOne pf r x
    runCallsWith evalOne result r cs
  | r, (pf, .result) :: cs => do
    let (b, r) ← result pf r
    let (bs, r) ← runCallsWith evalOne result r cs
    pure (b :: bs, r)

end Homfa
