import Verif.Model.Nfa
/-!
# Model of the text formats: `Graph::from_istream`, `from_att_istream`, `dump`, `dump_att`, `dump_dot`

A `std::string` / stream content is a list of characters (bytes).  Streams are in a good state when handed over
(`assert(is)`, src/graph.cpp:138, 205).  `std::regex_match` with a pattern whose neighbouring parts use disjoint
character classes is modelled by scanning; `Spec.SpecLine` states the pattern declaratively and `Proof/Text.lean` proves
the scanner equivalent to it.
-/

namespace Homfa

/-- Repeated `std::getline(is, line, d)` until it fails (src/graph.cpp:121, 139, 213): the pieces between delimiters; no
piece after a final delimiter. -/
def getlines (d : Char) : List Char → List (List Char)
  | [] => []
  | c :: s =>
    if c = d then [] :: getlines d s
    else match getlines d s with
      | [] => [[c]]
      | l :: ls => (c :: l) :: ls

/-- `\s` in the classic locale (src/graph.cpp:133) -/
def isSpace (c : Char) : Bool :=
  c = ' ' || c = '\t' || c = '\n' || c = '\x0b' || c = '\x0c' || c = '\r'

/-- `std::stoi` on a string of decimal digits (the only strings it is applied to): `invalid_argument` if there is no
digit, `out_of_range` beyond `INT_MAX`. (src/graph.cpp:121, 151) -/
def stoi (s : List Char) : Res Nat :=
  if s = [] then .error .invalidArgument
  else
    let v := Nat.ofDigitChars 10 s 0
    if v < 2 ^ 31 then .ok v else .error .outOfRange

/-- `load_comma_separated_states`, src/graph.cpp:110-131. -/
def loadStates (s : List Char) : Res (List Nat) :=
  if s = ['_'] then .ok []
  else (getlines ',' s).mapM (fun field =>
    match stoi field with
    | .error .invalidArgument => .error .die
    | r => r)

/-- `(_|[\d,]+)` as a whole-string test -/
def isTargetField (t : List Char) : Bool := t = ['_'] || (!t.isEmpty && t.all (fun c => c.isDigit || c = ','))

/-- `std::regex_match(line, match, re)` with `re = ^(>)?(\d+)(\*)?\s+(_|[\d,]+)\s+(_|[\d,]+)$`,
src/graph.cpp:135, 140: the captures 1, 2, 3, 4, 5. -/
def matchSpecLine (s : List Char) : Option (Bool × List Char × Bool × List Char × List Char) :=
  let ini := s.head? = some '>'
  let s := if ini then s.tail else s
  let num := s.takeWhile Char.isDigit
  let s := s.dropWhile Char.isDigit
  let fin := s.head? = some '*'
  let s := if fin then s.tail else s
  let b1 := s.takeWhile isSpace
  let s := s.dropWhile isSpace
  let t0 := s.takeWhile (fun c => !isSpace c)
  let s := s.dropWhile (fun c => !isSpace c)
  let b2 := s.takeWhile isSpace
  let t1 := s.dropWhile isSpace
  if !num.isEmpty && !b1.isEmpty && isTargetField t0 && !b2.isEmpty && isTargetField t1 then some (ini, num, fin, t0, t1)
  else none

/-- The local variables of `from_istream`, src/graph.cpp:133-137. -/
structure SpecSt where
  initSts : List Nat
  finalSts : List Nat
  delta : NFADelta
  isDfa : Bool
  deriving DecidableEq

/-- Body of the line loop of `from_istream`, src/graph.cpp:139-164. -/
def specLine (p : SpecSt) (line : List Char) : Res SpecSt :=
  match matchSpecLine line with
  | none => .ok p
  | some (ini, num, fin, t0, t1) => do
    let q := p.delta.length
    let q0s ← loadStates t0
    let q1s ← loadStates t1
    let n ← stoi num
    if q ≠ n then .error .die
    else pure {
      initSts := if ini then sinsert q p.initSts else p.initSts
      finalSts := if fin then sinsert q p.finalSts else p.finalSts
      delta := p.delta ++ [(q, q0s, q1s)]
      isDfa := p.isDfa && q0s.length == 1 && q1s.length == 1 }

/-- The part of `from_istream` after the line loop, src/graph.cpp:165-193. -/
def finishSpec (p : SpecSt) : Res Graph := do
  let initSts := if p.initSts.length = 0 then sinsert 0 p.initSts else p.initSts
  let isDfa := if initSts.length ≠ 1 then false else p.isDfa
  if isDfa then
    cassert (initSts.length = 1)
    let delta ← p.delta.mapM (fun t => do
      cassert (t.2.1.length = 1 && t.2.2.length = 1)
      let a ← vat t.2.1 0
      let b ← vat t.2.2 0
      pure (t.1, a, b))
    let i ← vat initSts 0
    Graph.make i p.finalSts delta
  else Graph.fromNfa initSts p.finalSts p.delta

/-- `Graph::from_istream`, src/graph.cpp:107-194. -/
def Graph.fromIstream (text : List Char) : Res Graph := do
  let p ← (getlines '\n' text).foldlM specLine { initSts := [], finalSts := [], delta := [], isDfa := true }
  finishSpec p

/-- `std::regex_match` with `^([0-9]+)\t([0-9]+)\t(0|1)$`, src/graph.cpp:210, 214: captures 1 to 3. -/
def matchAttEdge (s : List Char) : Option (List Char × List Char × List Char) :=
  let a := s.takeWhile Char.isDigit
  let s := s.dropWhile Char.isDigit
  if a.isEmpty || s.head? ≠ some '\t' then none
  else
    let s := s.tail
    let b := s.takeWhile Char.isDigit
    let s := s.dropWhile Char.isDigit
    if b.isEmpty || s.head? ≠ some '\t' then none
    else
      let c := s.tail
      if c = ['0'] || c = ['1'] then some (a, b, c) else none

/-- `std::regex_match` with `^([0-9]+)$`, src/graph.cpp:210, 227. -/
def matchAttFinal (s : List Char) : Option (List Char) :=
  if !s.isEmpty && s.all Char.isDigit then some s else none

/-- `while (delta.size() <= from) delta.push_back({delta.size(), {}, {}});`, src/graph.cpp:217-218.  `n` counts the rows
to add. -/
def growRows (d : NFADelta) : Nat → NFADelta
  | 0 => d
  | n + 1 => growRows (d ++ [(d.length, [], [])]) n

/-- Body of the line loop of `from_att_istream`, src/graph.cpp:213-233; state: (final_sts, delta). -/
def attLine (p : List Nat × NFADelta) (line : List Char) : Res (List Nat × NFADelta) :=
  match matchAttEdge line with
  | some (a, b, c) => do
    let src ← stoi a
    let dst ← stoi b
    let ch ← stoi c
    let delta := growRows p.2 (src + 1 - p.2.length)
    if ch = 0 then
      let t ← vat delta src
      let delta ← vset delta src (t.1, t.2.1 ++ [dst], t.2.2)
      pure (p.1, delta)
    else if ch = 1 then
      let t ← vat delta src
      let delta ← vset delta src (t.1, t.2.1, t.2.2 ++ [dst])
      pure (p.1, delta)
    else .error .die
  | none =>
    match matchAttFinal line with
    | some a => do
      let st ← stoi a
      pure (sinsert st p.1, p.2)
    | none => .error .die

/-- `Graph::from_att_istream`, src/graph.cpp:203-236. -/
def Graph.fromAttIstream (text : List Char) : Res Graph := do
  let p ← (getlines '\n' text).foldlM attLine ([], [])
  Graph.fromNfa [0] p.1 p.2

/-- `os << q` for a non-negative `int` (src/graph.cpp:582) -/
def showNat (n : Nat) : List Char := Nat.toDigits 10 n

/-- `Graph::dump`, src/graph.cpp:577-591. -/
def Graph.dump (g : Graph) : Res (List Char) :=
  g.allStates.foldlM (fun os q => do
    let f ← g.isFinalState q
    let q0 ← g.nextState q false
    let q1 ← g.nextState q true
    pure (os ++ (if g.initialState = q then ['>'] else []) ++ showNat q ++ (if f then ['*'] else []) ++ ['\t'] ++
      showNat q0 ++ ['\t'] ++ showNat q1 ++ ['\n'])) []

/-- `Graph::dump_att`, src/graph.cpp:615-623. -/
def Graph.dumpAtt (g : Graph) : Res (List Char) :=
  g.allStates.foldlM (fun os q => do
    let q0 ← g.nextState q false
    let q1 ← g.nextState q true
    let f ← g.isFinalState q
    pure (os ++ showNat q ++ ['\t'] ++ showNat q0 ++ "\t0\n".toList ++ showNat q ++ ['\t'] ++ showNat q1 ++ "\t1\n".toList ++
      (if f then showNat q ++ ['\n'] else []))) []

/-- `Graph::dump_dot`, src/graph.cpp:593-613. -/
def Graph.dumpDot (g : Graph) : Res (List Char) := do
  let os ← g.allStates.foldlM (fun os q => do
    let q0 ← g.nextState q false
    let q1 ← g.nextState q true
    let f ← g.isFinalState q
    let os := os ++ "  ".toList ++ showNat q ++ " [label=\"".toList ++ showNat q ++ "\"".toList ++
      (if f then ", peripheries=2".toList else []) ++ "]".toList
    if q0 = q1 then
      pure (os ++ "  ".toList ++ showNat q ++ " -> ".toList ++ showNat q0 ++ " [label=\"0,1\"]\n".toList)
    else
      pure (os ++ "  ".toList ++ showNat q ++ " -> ".toList ++ showNat q0 ++ " [label=\"0\"]\n".toList ++
        "  ".toList ++ showNat q ++ " -> ".toList ++ showNat q1 ++ " [label=\"1\"]\n".toList))
    ("digraph \"graph\" {\n".toList ++ "rankdir=\"LR\"".toList ++ "  node[shape=\"circle\"]\n".toList ++
      "  I [label=\"\", style=invis, width=0]\n".toList ++ "  I -> ".toList ++ showNat g.initialState ++ "\n".toList)
  pure (os ++ "}\n".toList)

end Homfa
