/-!
# The fragment of C++ the model is written in

Failure is explicit.  `Res α` is the result of a piece of C++ code: a value or one of the ways the
process can stop.  `std::vector` and `std::array` are lists, `std::set<int>` is a strictly increasing list,
`std::map`/`std::unordered_map` are association lists (only `find`/`at`/`emplace`/`size` are used on them),
`std::queue` is a list popped at the head and pushed at the end.

Simplification: machine integers used as container sizes and state numbers (`int`, `size_t`) are `Nat`;
this is faithful as long as the containers are smaller than 2^31.  Code whose behaviour *depends* on the
width of an integer (shifts, torus arithmetic, stream offsets) is modelled with `BitVec`.
-/

namespace Homfa

/-- How a C++ computation can stop without a value.
(assertions such as src/graph.cpp:138, exceptions such as that of .at in src/graph.cpp:35, undefined behaviour such as src/graph.cpp:361) -/
inductive Err where
  /-- `std::out_of_range` (from `vector::at`, `map::at`, `std::stoi`); never caught in homfa. -/
  | outOfRange
  /-- a failing `assert` (active in all homfa builds: `NDEBUG` is never defined, CMakeLists.txt:36-38,57-62) -/
  | assertFail
  /-- `error_die`: log and `std::exit(EXIT_FAILURE)` (src/error.hpp:54-77) -/
  | die
  /-- `std::bad_optional_access` (`optional::value`) -/
  | badOptional
  /-- `std::invalid_argument` (from `std::stoi`) -/
  | invalidArgument
  /-- `std::length_error` / `std::bad_alloc`: more elements than a `std::vector` can ever hold -/
  | noMem
  /-- undefined behaviour -/
  | ub
  /-- the loop fuel of the *model* was exhausted; proved unreachable for every loop -/
  | diverge
  deriving DecidableEq, Repr

/-- (the value of any function of src/*.cpp) -/
abbrev Res := Except Err

/-- `v.at(i)` on a `std::vector` (read). (e.g. src/graph.cpp:35) -/
def vat {α : Type u} (v : List α) (i : Nat) : Res α :=
  match v[i]? with
  | some x => .ok x
  | none => .error .outOfRange

/-- `v.at(i) = x` on a `std::vector` (write). (e.g. src/graph.cpp:44) -/
def vset {α : Type u} (v : List α) (i : Nat) (x : α) : Res (List α) :=
  if i < v.length then .ok (v.set i x) else .error .outOfRange

/-- `assert(b)` (e.g. src/graph.cpp:138) -/
def cassert (b : Bool) : Res Unit := if b then .ok () else .error .assertFail

/-- `s.insert(x)` on a `std::set<int>`. (e.g. src/graph.cpp:156) -/
def sinsert (x : Nat) : List Nat → List Nat
  | [] => [x]
  | y :: ys => if x < y then x :: y :: ys else if x = y then y :: ys else y :: sinsert x ys

/-- `s.insert(xs.begin(), xs.end())` on a `std::set<int>`. (e.g. src/graph.cpp:228) -/
def sinsertAll (s xs : List Nat) : List Nat := xs.foldl (fun s x => sinsert x s) s

/-- `m.at(k)` on a `std::map` / `std::unordered_map`. (e.g. src/graph.cpp:766) -/
def mapAt {κ α : Type u} [BEq κ] (m : List (κ × α)) (k : κ) : Res α :=
  match m.lookup k with
  | some x => .ok x
  | none => .error .outOfRange

/-- `while (cond) body`, with fuel. (e.g. src/graph.cpp:213, 284) -/
def whileM {σ : Type u} (cond : σ → Bool) (body : σ → Res σ) : Nat → σ → Res σ
  | 0, s => if cond s then .error .diverge else .ok s
  | n + 1, s => if cond s then (body s).bind (whileM cond body n) else .ok s

/-- `(1 << i)` with the *int* literal 1, converted to a 64-bit operand.  C++20: well defined for i ≤ 31
(1 << 31 is INT_MIN, and the conversion to 64 bits sign-extends), undefined for i ≥ 32. (src/graph.cpp:361) -/
def shlInt64 (i : Nat) : Res (BitVec 64) :=
  if i < 32 then .ok (((1#32) <<< i).signExtend 64) else .error .ub

end Homfa
