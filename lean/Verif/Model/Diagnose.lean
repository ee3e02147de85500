import Verif.Model.Text
import Verif.Spec.Diagnose
/-!
# Model of the readers of specifications with what they write to the log

The functions of `Verif.Model.Text` again, now with the calls of `spdlog`.  Not the project's own and not here: what the C++ runtime prints when an exception is not
caught or an assertion fails.
-/

namespace Homfa
open Homfa.Spec (Note)

/-- The log and the outcome of a computation. -/
structure Said (α : Type) where
  notes : List Note
  res : Res α

/-- Sequencing: the second part runs, and writes, only if the first one returned. (modelling device: C++ sequencing, e.g. src/graph.cpp:139-164) -/
def Said.bind {α β : Type} (x : Said α) (f : α → Said β) : Said β :=
  match x.res with
  | .ok a => ⟨x.notes ++ (f a).notes, (f a).res⟩
  | .error e => ⟨x.notes, .error e⟩

/-- (modelling device: C++ sequencing, e.g. src/graph.cpp:139-164) -/
instance : Monad Said where
  pure a := ⟨[], .ok a⟩
  bind := Said.bind

/-- A computation that writes nothing to the log. (modelling device, e.g. src/graph.cpp:192) -/
def silent {α : Type} (r : Res α) : Said α := ⟨[], r⟩

/-- `spdlog::info(..)` (src/graph.cpp:141) -/
def sayInfo (m : List Char) : Said Unit := ⟨[.info m], .ok ()⟩

/-- `error_die(..)` when `NDEBUG` is not defined, which it never is, src/error.hpp:61-77. -/
def dieSaying {α : Type} (m : List Char) : Said α := ⟨[.error m, .error "Preparing backtrace...".toList, .backtrace], .error .die⟩

/-- The loop over the fields of `load_comma_separated_states`, src/graph.cpp:119-127; `what()` of the exception that `std::stoi` throws is "stoi". -/
def loadFieldsSaid : List (List Char) → Said (List Nat)
  | [] => pure []
  | field :: fields =>
    match stoi field with
    | .error .invalidArgument => dieSaying ("Expected number as comma separted state, but got ".toList ++ field ++ " (".toList ++ "stoi".toList ++ ")".toList)
    | r => do
      let q ← silent r
      let qs ← loadFieldsSaid fields
      pure (q :: qs)

/-- `load_comma_separated_states`, src/graph.cpp:110-131. -/
def loadStatesSaid (s : List Char) : Said (List Nat) :=
  if s = ['_'] then pure [] else loadFieldsSaid (getlines ',' s)

/-- Body of the line loop of `from_istream`, src/graph.cpp:139-164. -/
def specLineSaid (p : SpecSt) (line : List Char) : Said SpecSt :=
  match matchSpecLine line with
  | none => do
    sayInfo ("Skip line \"".toList ++ line ++ "\"".toList)
    pure p
  | some (ini, num, fin, t0, t1) => do
    let q := p.delta.length
    let q0s ← loadStatesSaid t0
    let q1s ← loadStatesSaid t1
    let n ← silent (stoi num)
    if q ≠ n then do
      let n ← silent (stoi num)
      dieSaying ("Invalid state number: ".toList ++ showNat n ++ " != ".toList ++ showNat q)
    else pure {
      initSts := if ini then sinsert q p.initSts else p.initSts
      finalSts := if fin then sinsert q p.finalSts else p.finalSts
      delta := p.delta ++ [(q, q0s, q1s)]
      isDfa := p.isDfa && q0s.length == 1 && q1s.length == 1 }

/-- The line loop of `from_istream`, src/graph.cpp:139-164. -/
def specLinesSaid : SpecSt → List (List Char) → Said SpecSt
  | p, [] => pure p
  | p, line :: lines => do
    let p ← specLineSaid p line
    specLinesSaid p lines

/-- `Graph::from_istream`, src/graph.cpp:107-194. -/
def fromIstreamSaid (text : List Char) : Said Graph := do
  let p ← specLinesSaid { initSts := [], finalSts := [], delta := [], isDfa := true } (getlines '\n' text)
  silent (finishSpec p)

/-- Body of the line loop of `from_att_istream`, src/graph.cpp:213-233. -/
def attLineSaid (p : List Nat × NFADelta) (line : List Char) : Said (List Nat × NFADelta) :=
  match matchAttEdge line with
  | some (a, b, c) => do
    let src ← silent (stoi a)
    let dst ← silent (stoi b)
    let ch ← silent (stoi c)
    let delta := growRows p.2 (src + 1 - p.2.length)
    if ch = 0 then
      silent (do
        let t ← vat delta src
        let delta ← vset delta src (t.1, t.2.1 ++ [dst], t.2.2)
        pure (p.1, delta))
    else if ch = 1 then
      silent (do
        let t ← vat delta src
        let delta ← vset delta src (t.1, t.2.1, t.2.2 ++ [dst])
        pure (p.1, delta))
    else dieSaying ("Invalid letter: ".toList ++ showNat ch)
  | none =>
    match matchAttFinal line with
    | some a => do
      let st ← silent (stoi a)
      pure (sinsert st p.1, p.2)
    | none => dieSaying ("Invalid line: ".toList ++ line)

/-- The line loop of `from_att_istream`, src/graph.cpp:213-233. -/
def attLinesSaid : List Nat × NFADelta → List (List Char) → Said (List Nat × NFADelta)
  | p, [] => pure p
  | p, line :: lines => do
    let p ← attLineSaid p line
    attLinesSaid p lines

/-- `Graph::from_att_istream`, src/graph.cpp:203-236. -/
def fromAttIstreamSaid (text : List Char) : Said Graph := do
  let p ← attLinesSaid ([], []) (getlines '\n' text)
  silent (Graph.fromNfa [0] p.1 p.2)

/-- `Graph::from_att_file`, src/graph.cpp:238-244; `content` is `none` if the file cannot be opened. -/
def fromAttFileSaid (filename : List Char) (content : Option (List Char)) : Said Graph :=
  match content with
  | none => dieSaying ("Invalid filename: ".toList ++ filename)
  | some text => fromAttIstreamSaid text

end Homfa
