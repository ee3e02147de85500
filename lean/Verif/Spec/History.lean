/-!
# Histories of calls on an online runner
-/

namespace Homfa

/-- A call: feed one input, or ask for the result. -/
inductive Call (α : Type) where
  | feed (x : α)
  | result

/-- The ciphertext calls `xs` encrypt the plain calls `ys`. -/
inductive Call.Rel {α β : Type} (P : α → β → Prop) : Call α → Call β → Prop
  | feed {x y} : P x y → Rel P (.feed x) (.feed y)
  | result : Rel P .result .result

/-- Execute a history: `evalOne` for `feed`, `result` (which may change the runner) for `result`, collecting the results. -/
def runCalls {ρ α β ε : Type} (evalOne : ρ → α → Except ε ρ) (result : ρ → Except ε (β × ρ)) :
    ρ → List (Call α) → Except ε (List β × ρ)
  | r, [] => .ok ([], r)
  | r, .feed x :: cs => do
    let r ← evalOne r x
    runCalls evalOne result r cs
  | r, .result :: cs => do
    let (b, r) ← result r
    let (bs, r) ← runCalls evalOne result r cs
    pure (b :: bs, r)

/-- For each `result` call of a history, the word of all inputs fed before it. -/
def resultWords {β : Type} : List β → List (Call β) → List (List β)
  | _, [] => []
  | u, .feed b :: cs => resultWords (u ++ [b]) cs
  | u, .result :: cs => u :: resultWords u cs

/-- the inputs of a history -/
def fedWord {β : Type} : List (Call β) → List β
  | [] => []
  | .feed b :: cs => b :: fedWord cs
  | .result :: cs => fedWord cs

end Homfa
