import Verif.Model.Nfa
/-!
# Model of `Graph::ltl_to_nfa_tuple`, `Graph::from_ltl_formula`, `Graph::from_ltl_formula_reversed`

Spot (parsing an LTL formula, translating it to a monitor, `ltl_to_monitor`, src/graph.cpp:625-637) is an external library; the
code below starts from the monitor it returns, an arbitrary `Monitor`.
-/

namespace Homfa

/-- A BuDDy decision diagram: `bddfalse`, `bddtrue`, or a node with its variable (`bdd_var`), `bdd_low` and `bdd_high`.  BuDDy shares equal
nodes, so comparing node numbers (`==`, `spot::bdd_less_than`) is comparing diagrams. (src/graph.cpp:686-703, 766-783) -/
inductive Bdd where
  | ff
  | tt
  | node (v : Nat) (lo hi : Bdd)
  deriving DecidableEq, Repr

namespace Bdd

/-- All sub-diagrams, for the fuel of the loop over them. (src/graph.cpp:686-703) -/
def subs : Bdd → List Bdd
  | ff => [ff]
  | tt => [tt]
  | node v lo hi => node v lo hi :: (lo.subs ++ hi.subs)

end Bdd

/-- A `spot::twa_graph_ptr` as the code looks at it: `out[q]` are the conditions and destinations of the edges leaving state `q`
(`aut->out(q)`), `init` is `get_init_state_number()`, and `varOf i` is the BDD variable of proposition `p<i>` in the automaton's dictionary, if
it has one (`dict->var_map.find(...)`). (src/graph.cpp:643-668) -/
structure Monitor where
  out : List (List (Bdd × Nat))
  init : Nat
  varOf : Nat → Option Nat

namespace Ltl

/-- `var2idx`, src/graph.cpp:645-654. -/
def var2idx (varOf : Nat → Option Nat) (varSize : Nat) : List (Nat × Nat) :=
  (List.range varSize).filterMap fun i => (varOf i).map fun v => (v, i)

/-! ## Reversing one condition (src/graph.cpp:667-705) -/

/-- The local variables of src/graph.cpp:667-686.  The first component of the tuples of `reversed` is their position and is dropped. -/
structure RevSt where
  reversed : List (List Nat × List Nat × Bdd)
  bdd2rst : List (Bdd × Nat)
  que : List Bdd
  visited : List Bdd

/-- The lambda `get`, src/graph.cpp:672-680. -/
def revGet (s : RevSt) (b : Bdd) : Nat × RevSt :=
  match s.bdd2rst.lookup b with
  | some q => (q, s)
  | none => (s.reversed.length,
      { s with reversed := s.reversed ++ [([], [], b)], bdd2rst := s.bdd2rst ++ [(b, s.reversed.length)] })

/-- `std::get<1>(v.at(i)).push_back(x)`, or `std::get<2>` when `bit`. (src/graph.cpp:699-703) -/
def pushEdge {α : Type} (bit : Bool) (v : List (List Nat × List Nat × α)) (i x : Nat) : Res (List (List Nat × List Nat × α)) := do
  let t ← vat v i
  vset v i (if bit then (t.1, t.2.1 ++ [x], t.2.2) else (t.1 ++ [x], t.2.1, t.2.2))

/-- The part of the loop body for an inner node, src/graph.cpp:698-703. -/
def revNode (s : RevSt) (node low high : Bdd) : Res RevSt := do
  let q ← mapAt s.bdd2rst node
  let p0 := revGet s low
  let p1 := revGet p0.2 high
  let rev ← pushEdge false p1.2.reversed p0.1 q
  let rev ← pushEdge true rev p1.1 q
  pure { p1.2 with reversed := rev, que := p1.2.que ++ [low, high] }

/-- Body of the loop, src/graph.cpp:687-704. -/
def revBody (s : RevSt) : Res RevSt :=
  match s.que with
  | [] => .ok s
  | node :: rest =>
    if s.visited.contains node then .ok { s with que := rest }
    else
      let s := { s with que := rest, visited := s.visited ++ [node] }
      match node with
      | .ff => .ok s
      | .tt => .ok s
      | .node _ low high => revNode s node low high

/-- src/graph.cpp:667-705. -/
def revBdd (cond : Bdd) : Res RevSt :=
  whileM (fun s : RevSt => !s.que.isEmpty) revBody (2 * cond.subs.length + 1)
    { reversed := [([], [], cond)], bdd2rst := [(cond, 0)], que := [cond], visited := [] }

/-! ## Expanding one edge (src/graph.cpp:721-821) -/

/-- The local variables of src/graph.cpp:721-735; `delta` is the table under construction. -/
structure ExpSt where
  delta : NFADelta
  rst2st : List (Nat × Nat)
  visited : List Nat
  que : List (Nat × Nat × Nat)
  srcAlt : Option Nat

/-- The lambda `get`, src/graph.cpp:722-730. -/
def expGet (s : ExpSt) (rq : Nat) : Nat × ExpSt :=
  match s.rst2st.lookup rq with
  | some q => (q, s)
  | none => (s.delta.length, { s with delta := s.delta ++ [(s.delta.length, [], [])], rst2st := s.rst2st ++ [(rq, s.delta.length)] })

/-- `n` turns of a loop that puts a new state with both edges to `cq` in front (src/graph.cpp:754-759, 770-776, 786-791): the new
table and the new `cq`. -/
def chain (delta : NFADelta) (cq : Nat) : Nat → NFADelta × Nat
  | 0 => (delta, cq)
  | n + 1 => chain (delta ++ [(delta.length, [cq], [cq])]) delta.length n

/-- `std::get<1>(delta.at(q)).push_back(x)`, or `std::get<2>` when `bit`. (src/graph.cpp:778, 793, 803-805) -/
def pushRow (bit : Bool) (delta : NFADelta) (q x : Nat) : Res NFADelta := do
  let t ← vat delta q
  vset delta q (if bit then (t.1, t.2.1, t.2.2 ++ [x]) else (t.1, t.2.1 ++ [x], t.2.2))

/-- Body of the loops over `q0s` (src/graph.cpp:764-780) and, when `bit`, over `q1s` (781-795).  The loop `while (cidx > idx + 1)` makes
`curVarIdx - (idx + 1)` turns.  `bdd_var` of a constant is undefined. -/
def parentStep (v2i : List (Nat × Nat)) (reversed : List (List Nat × List Nat × Bdd)) (curVarIdx curQ : Nat) (bit : Bool) (s : ExpSt)
    (p : Nat) : Res ExpSt := do
  let e ← vat reversed p
  let v ← (match e.2.2 with
    | .node v _ _ => .ok v
    | _ => .error .ub : Res Nat)
  let idx ← mapAt v2i v
  let c := chain s.delta curQ (curVarIdx - (idx + 1))
  let g := expGet { s with delta := c.1 } p
  let delta ← pushRow bit g.2.delta g.1 c.2
  pure { g.2 with delta := delta, que := g.2.que ++ [(p, idx, g.1)] }

/-- Body of the work-list loop for an unvisited node, src/graph.cpp:744-795. -/
def expNode (v2i : List (Nat × Nat)) (reversed : List (List Nat × List Nat × Bdd)) (curRq curVarIdx curQ : Nat) (s : ExpSt) : Res ExpSt := do
  let e ← vat reversed curRq
  if curVarIdx = 0 then do
    cassert (e.1.isEmpty && e.2.1.isEmpty && s.srcAlt.isNone)
    pure { s with srcAlt := some curQ }
  else if e.1.isEmpty && e.2.1.isEmpty then do
    cassert s.srcAlt.isNone
    let c := chain s.delta curQ curVarIdx
    pure { s with delta := c.1, srcAlt := some c.2 }
  else do
    let s ← e.1.foldlM (parentStep v2i reversed curVarIdx curQ false) s
    e.2.1.foldlM (parentStep v2i reversed curVarIdx curQ true) s

/-- Body of the work-list loop, src/graph.cpp:736-796. -/
def expBody (v2i : List (Nat × Nat)) (reversed : List (List Nat × List Nat × Bdd)) (s : ExpSt) : Res ExpSt :=
  match s.que with
  | [] => .ok s
  | (curRq, curVarIdx, curQ) :: rest =>
    if s.visited.contains curRq then .ok { s with que := rest }
    else expNode v2i reversed curRq curVarIdx curQ { s with que := rest, visited := s.visited ++ [curRq] }

/-- The last part of an edge, src/graph.cpp:797-806: the rows of `*src_alt` (a copy) are added to those of `src`. -/
def addSrc (delta : NFADelta) (src alt : Nat) : Res NFADelta := do
  let t ← vat delta alt
  cassert (decide (t.2.1.length ≤ 1) && decide (t.2.2.length ≤ 1))
  let delta ← (if t.2.1.length = 1 then do
    let x ← vat t.2.1 0
    pushRow false delta src x
  else pure delta : Res NFADelta)
  if t.2.2.length = 1 then do
    let x ← vat t.2.2 0
    pushRow true delta src x
  else pure delta

/-- The edge from `src` with condition `cond` to `dst`, src/graph.cpp:662-822. -/
def expandEdge (v2i : List (Nat × Nat)) (varSize src : Nat) (delta : NFADelta) (e : Bdd × Nat) : Res NFADelta := do
  let r ← revBdd e.1
  let t ← mapAt r.bdd2rst .tt
  let s ← whileM (fun s : ExpSt => !s.que.isEmpty) (expBody v2i r.reversed)
    ((r.reversed.map fun e => e.1.length + e.2.1.length).sum + 1)
    { delta := delta, rst2st := [], visited := [], que := [(t, varSize, e.2)], srcAlt := none }
  match s.srcAlt with
  | none => .error .assertFail
  | some alt => addSrc s.delta src alt

/-- `Graph::ltl_to_nfa_tuple` after `ltl_to_monitor`, src/graph.cpp:645-849: initial states, final states, table. -/
def nfaTuple (aut : Monitor) (varSize : Nat) (allFinal : Bool) : Res (List Nat × List Nat × NFADelta) := do
  let v2i := var2idx aut.varOf varSize
  let ns := aut.out.length
  let delta ← aut.out.zipIdx.foldlM (fun delta (p : List (Bdd × Nat) × Nat) => p.1.foldlM (expandEdge v2i varSize p.2) delta)
    ((List.range ns).map fun i => (i, [], []))
  pure ([aut.init], List.range (if allFinal then delta.length else ns), delta)

end Ltl

/-- `Graph::from_ltl_formula`, src/graph.cpp:313-319, from the monitor of the formula. -/
def Graph.fromMonitor (aut : Monitor) (varSize : Nat) (allFinal : Bool) : Res Graph := do
  let t ← Ltl.nfaTuple aut varSize allFinal
  Graph.fromNfa t.1 t.2.1 t.2.2

/-- `Graph::from_ltl_formula_reversed`, src/graph.cpp:321-329, from the monitor of the formula. -/
def Graph.fromMonitorReversed (aut : Monitor) (varSize : Nat) (allFinal : Bool) : Res Graph := do
  let t ← Ltl.nfaTuple aut varSize allFinal
  let rev ← reversedNfaDelta t.2.2
  Graph.fromNfa t.2.1 t.1 rev

end Homfa
