import Verif.Model.Cpp
/-!
# Model of `class Graph` (src/graph.hpp, src/graph.cpp): the automaton object and its plain queries

`Graph::State` is `int`; all state numbers that occur are non-negative and are modelled by `Nat`.  The only
negative values in the code are the placeholders `-1` in `from_nfa` and `grouped_nondistinguishable`, which the
model represents by `none`.
-/

namespace Homfa

/-- src/graph.hpp:11-25.  `delta` holds tuples (index, next when 0, next when 1). -/
structure Graph where
  delta : List (Nat × Nat × Nat)
  parents0 : List (List Nat)
  parents1 : List (List Nat)
  statesAtDepth : List (List Nat)
  finals : List Nat
  finalVec : List Bool
  init : Nat
  deriving DecidableEq, Repr

/-- `v.at(i).push_back(x)` on a `std::vector<std::vector<State>>`. (src/graph.cpp:100-101) -/
def pushAt (v : List (List Nat)) (i x : Nat) : Res (List (List Nat)) := do
  let row ← vat v i
  vset v i (row ++ [x])

namespace Graph

/-- `Graph::Graph(State init_st, const std::set<State>& final_sts, const DFADelta& delta)`, src/graph.cpp:89-105. -/
def make (init : Nat) (finals : List Nat) (delta : List (Nat × Nat × Nat)) : Res Graph := do
  let ps ← delta.foldlM (fun (ps : List (List Nat) × List (List Nat)) (t : Nat × Nat × Nat) => do
      let p0 ← pushAt ps.1 t.2.1 t.1
      let p1 ← pushAt ps.2 t.2.2 t.1
      pure (p0, p1))
    (List.replicate delta.length [], List.replicate delta.length [])
  let fv ← finals.foldlM (fun v q => vset v q true) (List.replicate delta.length false)
  pure { delta := delta, parents0 := ps.1, parents1 := ps.2, statesAtDepth := [],
         finals := finals, finalVec := fv, init := init }

/-- `Graph::size`, src/graph.cpp:331-334. -/
def size (g : Graph) : Nat := g.delta.length

/-- `Graph::is_final_state`, src/graph.cpp:336-340. -/
def isFinalState (g : Graph) (q : Nat) : Res Bool := vat g.finalVec q

/-- `Graph::next_state`, src/graph.cpp:342-346. -/
def nextState (g : Graph) (q : Nat) (input : Bool) : Res Nat := do
  let t ← vat g.delta q
  pure (if input then t.2.2 else t.2.1)

/-- `Graph::prev_states`, src/graph.cpp:348-355. -/
def prevStates (g : Graph) (q : Nat) (input : Bool) : Res (List Nat) :=
  if input then vat g.parents1 q else vat g.parents0 q

/-- `Graph::transition64`, src/graph.cpp:357-363.  Simplification: `length` (an `int`) is a natural number; a
negative length (converted to a huge `size_t` by the loop comparison) is not modelled. -/
def transition64 (g : Graph) (src : Nat) (input : BitVec 64) (length : Nat) : Res Nat :=
  (List.range length).foldlM (fun dst i => do
    let m ← shlInt64 i
    g.nextState dst ((input &&& m) != 0#64)) src

/-- `Graph::initial_state`, src/graph.cpp:365-368. -/
def initialState (g : Graph) : Nat := g.init

/-- `Graph::all_states`, src/graph.cpp:402-407. -/
def allStates (g : Graph) : List Nat := List.range g.size

/-- One round of the inner loops of `reserve_states_at_depth`, src/graph.cpp:381-391: collect (and clear) the marked
states in increasing order, then mark their successors. -/
def depthRound (g : Graph) (sts : List Bool) : Res (List Bool × List Nat) := do
  let r ← (List.range g.size).foldlM (fun (r : List Bool × List Nat) st => do
      let b ← vat r.1 st
      let sts ← vset r.1 st false
      pure (sts, if b then r.2 ++ [st] else r.2)) (sts, [])
  let sts ← r.2.foldlM (fun sts st => do
      let q0 ← g.nextState st false
      let sts ← vset sts q0 true
      let q1 ← g.nextState st true
      vset sts q1 true) r.1
  pure (sts, r.2)

/-- `Graph::reserve_states_at_depth`, src/graph.cpp:370-395. -/
def reserveStatesAtDepth (g : Graph) (depth : Nat) : Res Graph := do
  let sts ← vset (List.replicate g.size false) g.initialState true
  let r ← (List.range depth).foldlM (fun (r : List Bool × List (List Nat)) _ => do
      let p ← g.depthRound r.1
      pure (p.1, r.2 ++ [p.2])) (sts, [])
  pure { g with statesAtDepth := r.2 }

/-- `Graph::states_at_depth`, src/graph.cpp:397-400. -/
def statesAtDepthAt (g : Graph) (depth : Nat) : Res (List Nat) := vat g.statesAtDepth depth

/-- One round of `track_live_states` (src/graph.cpp:419-427): the set of successors of the states of `tmp1`. -/
def liveRound (g : Graph) (tmp1 : List Nat) : Res (List Nat) :=
  tmp1.foldlM (fun tmp2 q => do
    let q1 ← g.nextState q true
    let q0 ← g.nextState q false
    pure (sinsert q0 (sinsert q1 tmp2))) []

/-- `Graph::track_live_states`, src/graph.cpp:409-432. -/
def trackLiveStates (g : Graph) (initLive : List Nat) (maxDepth : Nat) : Res (List (List Nat)) := do
  let r ← (List.range maxDepth).foldlM (fun (r : List Nat × List (List Nat)) _ => do
      let tmp ← g.liveRound r.1
      pure (tmp, r.2 ++ [tmp])) (sinsertAll [] initLive, [initLive])
  pure r.2

/-- `Graph::negated`, src/graph.cpp:568-575. -/
def negated (g : Graph) : Res Graph := do
  let newFinal ← g.allStates.foldlM (fun s q => do
      let f ← g.isFinalState q
      pure (if f then s else sinsert q s)) []
  make g.init newFinal g.delta

/-- The loop of `check_if_accept` (src/test_plain_random.cpp:31-33) and of `do_run_dfa_plain` (src/main.cpp:527-531): the
state reached from `q` on a word, through the public interface. -/
def runWord (g : Graph) (q : Nat) (w : List Bool) : Res Nat := w.foldlM (fun q b => g.nextState q b) q

/-- `check_if_accept` (src/test_plain_random.cpp:29-35): run the graph over a word from its initial state. -/
def accepts (g : Graph) (w : List Bool) : Res Bool := do
  let q ← g.runWord g.initialState w
  g.isFinalState q

end Graph
end Homfa
