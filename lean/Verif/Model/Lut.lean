import Verif.Model.Par
import Verif.Model.Runners

/-!
# Lookup tables (src/online_dfa.cpp:190-242)
-/

namespace Homfa

variable {N n l : Nat}

/-- `1 << i` with an `int` literal, used as the new size of a vector or as the number of entries that are put in one.  homfa is C++20
(CMakeLists.txt:17), where the value at `i = 31` is INT_MIN, 2^64 - 2^31 as a `size_t`: a vector of 4-byte elements or larger cannot hold that
many, and `resize` or `push_back` throws.  From 32 on the shift is undefined.  (In the assertion on the size of the table and in the loop of
`lookup_table` the value is only compared with; that is not told apart, since no vector of that size exists.) -/
def shl1 (i : Nat) : Res Nat := if i < 31 then .ok (2 ^ i) else if i = 31 then .error .noMem else .error .ub

/-- `1 << i` with an `int` literal, compared with a number of states.  At `i = 31` the value is 2^64 - 2^31 as a `size_t`, which like 2^31
exceeds every number of states, since states are numbered by `int`. (src/online_dfa.cpp:154) -/
def shl1Cap (i : Nat) : Res Nat := if i < 32 then .ok (2 ^ i) else .error .ub

/-- `1 << i` with an `int` literal, converted to an unsigned 64-bit number to be combined with one. (src/online_dfa.cpp:293) -/
def shl1Int (i : Nat) : Res Nat := if i < 31 then .ok (2 ^ i) else if i = 31 then .ok (2 ^ 64 - 2 ^ 31) else .error .ub

/-- One task of a CMUX layer (src/online_dfa.cpp:207-209); vector 0 is `tmp`, vector 1 is `table`. -/
def lutTask (S : Scheme N n l) (input : Gsw l N) (j : Nat) : Prog (TRLWE N) :=
  .read 1 (j * 2 + 1) fun c1 =>
  .read 1 (j * 2) fun c0 =>
  .write 0 j (S.cmux input c1 c0) .ret

/-- The loop over the inputs (src/online_dfa.cpp:204-212, 228-241).  State: `tmp`, `table` and the recorded CMUX samples; `i` is the
index of the next input. -/
def lutLoop (S : Scheme N n l) (inputSize : Nat) : List (Gsw l N) → Nat → List (TRLWE N) → List (TRLWE N) →
    List (Target × Nat) → Res (List (TRLWE N) × List (TRLWE N) × List (Target × Nat))
  | [], _, tmp, table, timer => .ok (tmp, table, timer)
  | c :: rest, i, tmp, table, timer => do
    let cnt ← shl1 (inputSize - i - 1)
    let p ← two (← parFor ((List.range cnt).map (lutTask S c)) [tmp, table])
    lutLoop S inputSize rest (i + 1) p.2 p.1 (timer ++ [(.cmux, cnt)])

/-- `lookup_table_with_timer` (src/online_dfa.cpp:215-242): returns the new `table`, `workspace` and timer.  `lookup_table`
(src/online_dfa.cpp:190-213) is the same code without the timer. -/
def lookupTableTimer (S : Scheme N n l) (table : List (TRLWE N)) (inputs : List (Gsw l N)) (workspace : List (TRLWE N))
    (timer : List (Target × Nat)) : Res (List (TRLWE N) × List (TRLWE N) × List (Target × Nat)) := do
  let inputSize := inputs.length
  let sz ← shl1 inputSize
  cassert (decide (table.length = sz))
  if inputSize = 0 then
    pure (table, workspace, timer)
  else do
    let half ← shl1 (inputSize - 1)
    let tmp := List.replicate half (trivialTRLWEZero N)
    let r ← lutLoop S inputSize inputs 0 tmp table timer
    pure (r.2.1, r.1, r.2.2)

/-- `lookup_table` (src/online_dfa.cpp:190-213). -/
def lookupTable (S : Scheme N n l) (table : List (TRLWE N)) (inputs : List (Gsw l N)) (workspace : List (TRLWE N)) :
    Res (List (TRLWE N) × List (TRLWE N)) := do
  let r ← lookupTableTimer S table inputs workspace []
  pure (r.1, r.2.1)

end Homfa
