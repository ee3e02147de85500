import Verif.Model.Graph
/-!
# Model of `UnionFind`, `Graph::removed_unreachable`, `Graph::grouped_nondistinguishable`, `Graph::minimized`
-/

namespace Homfa

namespace UnionFind

/-- `UnionFind::UnionFind`, src/graph.cpp:28-31.  The object is its vector `g_`. -/
def new (size : Nat) : List Nat := List.range size

/-- `UnionFind::find` with path compression, src/graph.cpp:33-38 (recursion with fuel). -/
def findAux : Nat → List Nat → Nat → Res (Nat × List Nat)
  | 0, _, _ => .error .diverge
  | fuel + 1, g, x => do
    let p ← vat g x
    if x = p then pure (x, g)
    else
      let (r, g) ← findAux fuel g p
      let g ← vset g x r
      pure (r, g)

/-- `UnionFind::find` (src/graph.cpp:33-38) -/
def find (g : List Nat) (x : Nat) : Res (Nat × List Nat) := findAux (g.length + 1) g x

/-- `UnionFind::unite`, src/graph.cpp:40-45. -/
def unite (g : List Nat) (x y : Nat) : Res (List Nat) := do
  let (px, g) ← find g x
  let (py, g) ← find g y
  if px ≠ py then vset g px py else pure g

/-- `UnionFind::size`, src/graph.cpp:47-54. -/
def size (g : List Nat) : Res Nat :=
  (List.range g.length).foldlM (fun ans i => do
    let p ← vat g i
    pure (if i = p then ans + 1 else ans)) 0

end UnionFind

namespace Graph

/-- Body of the reachability loop, src/graph.cpp:454-462; state: (reachable, queue). -/
def reachBody (g : Graph) (s : List Nat × List Nat) : Res (List Nat × List Nat) :=
  match s.2 with
  | [] => .ok s
  | q :: rest =>
    if s.1.contains q then .ok (s.1, rest)
    else do
      let q0 ← g.nextState q false
      let q1 ← g.nextState q true
      pure (sinsert q s.1, rest ++ [q0, q1])

/-- `Graph::removed_unreachable`, src/graph.cpp:449-483. -/
def removedUnreachable (g : Graph) : Res Graph := do
  let s ← whileM (fun s : List Nat × List Nat => !s.2.isEmpty) g.reachBody (2 * g.size + 1)
    ([], [g.initialState])
  let reachable := s.1
  let old2new := reachable.zipIdx
  let initSt ← mapAt old2new g.initialState
  let finalSts ← g.finals.foldlM (fun fs q =>
      if reachable.contains q then do
        let q' ← mapAt old2new q
        pure (sinsert q' fs)
      else pure fs) []
  let delta ← g.delta.foldlM (fun (d : List (Nat × Nat × Nat)) t =>
      if reachable.contains t.1 then do
        let q ← mapAt old2new t.1
        let q0 ← mapAt old2new t.2.1
        let q1 ← mapAt old2new t.2.2
        vset d q (q, q0, q1)
      else pure d) (List.replicate reachable.length (0, 0, 0))
  make initSt finalSts delta

/-- State of the table-filling loop: (table, queue). (src/graph.cpp:485-519) -/
abbrev TableSt := List Bool × List (Nat × Nat)

/-- The pairs `(qa, qb)` with `qa < qb < siz` in the order of the double loops of src/graph.cpp:491-492 and 524-525. -/
def pairs (siz : Nat) : List (Nat × Nat) :=
  (List.range siz).flatMap (fun qa => (List.range' (qa + 1) (siz - (qa + 1))).map (fun qb => (qa, qb)))

/-- Initialisation of the table and the queue, src/graph.cpp:491-499. -/
def tableInit (g : Graph) : Res TableSt :=
  (pairs g.size).foldlM (fun (s : TableSt) p => do
      let fa ← g.isFinalState p.1
      let fb ← g.isFinalState p.2
      if (fa && !fb) || (!fa && fb) then
        let t ← vset s.1 (p.1 + p.2 * g.size) true
        pure (t, s.2 ++ [p])
      else pure s)
    (List.replicate (g.size * g.size) false, [])

/-- Innermost statement of the table-filling loop, src/graph.cpp:508-515. -/
def tableMark (siz : Nat) (s : TableSt) (qa qb : Nat) : Res TableSt := do
  if qa < qb then
    let m ← vat s.1 (qa + siz * qb)
    if !m then
      let t ← vset s.1 (qa + siz * qb) true
      pure (t, s.2 ++ [(qa, qb)])
    else pure s
  else if qa > qb then
    let m ← vat s.1 (qb + siz * qa)
    if !m then
      let t ← vset s.1 (qb + siz * qa) true
      pure (t, s.2 ++ [(qb, qa)])
    else pure s
  else pure s

/-- Body of the table-filling loop, src/graph.cpp:500-519. -/
def tableBody (g : Graph) (s : TableSt) : Res TableSt :=
  match s.2 with
  | [] => .ok s
  | (ql, qr) :: rest => do
    cassert (ql < qr)
    [true, false].foldlM (fun s inp => do
      let pas ← g.prevStates ql inp
      pas.foldlM (fun s qa => do
        let pbs ← g.prevStates qr inp
        pbs.foldlM (fun s qb => tableMark g.size s qa qb) s) s) (s.1, rest)

/-- The table-filling algorithm, src/graph.cpp:488-519. -/
def fillTable (g : Graph) : Res (List Bool) := do
  let s ← g.tableInit
  let s ← whileM (fun s : TableSt => !s.2.isEmpty) g.tableBody (g.size * g.size + 1) s
  pure s.1

/-- Union of all equivalent pairs, src/graph.cpp:523-531. -/
def uniteAll (siz : Nat) (table : List Bool) : Res (List Nat) :=
  (pairs siz).foldlM (fun uf p => do
      let m ← vat table (p.1 + p.2 * siz)
      if m then pure uf else UnionFind.unite uf p.1 p.2)
    (UnionFind.new siz)

/-- State of the grouping loop src/graph.cpp:532-542: the union-find vector (mutated by path compression), `uf2st`
(`none` is the placeholder `-1`), `st`, `next`. -/
structure GroupSt where
  uf : List Nat
  uf2st : List (Option Nat)
  st : List (List Nat)
  next : Nat

/-- Body of the grouping loop, src/graph.cpp:537-540. -/
def groupBody (s : GroupSt) (q : Nat) : Res GroupSt := do
  let (u, uf) ← UnionFind.find s.uf q
  let e ← vat s.uf2st u
  match e with
  | none =>
    let uf2st ← vset s.uf2st u (some s.next)
    let row ← vat s.st s.next
    let st ← vset s.st s.next (sinsert q row)
    pure { uf := uf, uf2st := uf2st, st := st, next := s.next + 1 }
  | some k =>
    let row ← vat s.st k
    let st ← vset s.st k (sinsert q row)
    pure { s with uf := uf, st := st }

/-- `uf2st.at(uf.find(q))`; the placeholder `-1` would later make the constructor throw. (src/graph.cpp:560-561) -/
def groupOf (uf2st : List (Option Nat)) (uf : List Nat) (q : Nat) : Res (Nat × List Nat) := do
  let (u, uf) ← UnionFind.find uf q
  let e ← vat uf2st u
  match e with
  | some k => pure (k, uf)
  | none => .error .outOfRange

/-- State of the output loop src/graph.cpp:544-563. -/
structure OutSt where
  uf : List Nat
  initSt : Option Nat
  finals : List Nat
  delta : List (Nat × Nat × Nat)

/-- Body of the output loop, src/graph.cpp:548-562.  `*s.begin()` on an empty set is undefined behaviour. -/
def outBody (g : Graph) (uf2st : List (Option Nat)) (o : OutSt) (e : List Nat × Nat) : Res OutSt := do
  let repr ← match e.1 with
    | [] => Except.error Err.ub
    | r :: _ => pure r
  let initial := e.1.any (fun q => g.initialState == q)
  let final ← g.isFinalState repr
  let n0 ← g.nextState repr false
  let (q0, uf) ← groupOf uf2st o.uf n0
  let n1 ← g.nextState repr true
  let (q1, uf) ← groupOf uf2st uf n1
  pure { uf := uf
         initSt := if initial then some e.2 else o.initSt
         finals := if final then sinsert e.2 o.finals else o.finals
         delta := o.delta ++ [(e.2, q0, q1)] }

/-- `Graph::grouped_nondistinguishable`, src/graph.cpp:485-566. -/
def groupedNondistinguishable (g : Graph) : Res Graph := do
  let table ← g.fillTable
  let uf ← uniteAll g.size table
  let n ← UnionFind.size uf
  let s ← g.allStates.foldlM groupBody
    { uf := uf, uf2st := List.replicate g.size none, st := List.replicate n [], next := 0 }
  let o ← s.st.zipIdx.foldlM (outBody g s.uf2st) { uf := s.uf, initSt := none, finals := [], delta := [] }
  match o.initSt with
  | none => .error .badOptional
  | some i => make i o.finals o.delta

/-- `Graph::minimized`, src/graph.cpp:444-447. -/
def minimized (g : Graph) : Res Graph := do
  let r ← g.removedUnreachable
  r.groupedNondistinguishable

end Graph
end Homfa
