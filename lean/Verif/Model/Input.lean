import Verif.Model.Cpp

/-!
# Reading plaintext inputs (src/utility.hpp)

A file is `none` when it cannot be opened, otherwise its bytes.  The callback `func` is any C++ function with
state `σ` that may itself stop the program.
-/

namespace Homfa

/-- (src/utility.hpp:20) -/
abbrev Byte := BitVec 8

/-- One turn of the inner `for` loop of `each_input_bit` (src/utility.hpp:23-27): `n` is the number of turns the
counter `i < 8` still allows, `v` the shifted byte, `rest` the bits still missing from the record. -/
def inputByte {σ : Type} (func : σ → Bool → Res σ) : Nat → Byte → Nat → σ → Res (Nat × σ)
  | 0, _, rest, s => .ok (rest, s)
  | n + 1, v, rest, s =>
    if rest = 0 then .ok (rest, s)
    else do
      let s ← func s ((v &&& 1#8) != 0#8)
      inputByte func n (v >>> 1) (rest - 1) s

/-- The `while` loop of `each_input_bit` (src/utility.hpp:16-28). -/
def inputBytes {σ : Type} (numAp : Nat) (func : σ → Bool → Res σ) : List Byte → Nat → σ → Res (Nat × σ)
  | [], rest, s => .ok (rest, s)
  | v :: bytes, rest, s => do
    let rest := if rest = 0 then numAp else rest
    let (rest, s) ← inputByte func 8 v rest s
    inputBytes numAp func bytes rest s

/-- `each_input_bit` (src/utility.hpp:9-30). -/
def eachInputBit {σ : Type} (file : Option (List Byte)) (numAp : Nat) (func : σ → Bool → Res σ) (s : σ) : Res σ := do
  let bytes ← (match file with
    | some b => .ok b
    | none => .error .assertFail : Res (List Byte))
  let (rest, s) ← inputBytes numAp func bytes 0 s
  cassert (rest == 0)
  pure s

end Homfa
