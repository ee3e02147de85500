import Verif.Model.Graph
/-!
# Model of `Graph::from_nfa` (subset construction), `Graph::reversed`, `Graph::reversed_nfa_delta`
-/

namespace Homfa

/-- `Graph::NFADelta` (src/graph.hpp:16-17): tuples (index, successors on 0, successors on 1). -/
abbrev NFADelta := List (Nat × List Nat × List Nat)

namespace FromNfa

/-- The local variables of `Graph::from_nfa` (src/graph.cpp:253-282).  A `df` entry is `none` while it still holds
the placeholder `(qsd, -1, -1)` of src/graph.cpp:265. -/
structure St where
  stMap : List (List Nat × Nat)
  df : List (Option (Nat × Nat))
  ff : List Nat
  visited : List (List Nat)
  que : List (List Nat)

/-- `get_or_create_state`, src/graph.cpp:260-268. -/
def getOrCreate (s : St) (qs : List Nat) : Nat × St :=
  match s.stMap.lookup qs with
  | some q => (q, s)
  | none => (s.df.length, { s with df := s.df ++ [none], stMap := s.stMap ++ [(qs, s.df.length)] })

/-- The successor subsets of `qs`, src/graph.cpp:290-295. -/
def succs (dn : NFADelta) (qs : List Nat) : Res (List Nat × List Nat) :=
  qs.foldlM (fun (r : List Nat × List Nat) q => do
    let t ← vat dn q
    pure (sinsertAll r.1 t.2.1, sinsertAll r.2 t.2.2)) ([], [])

/-- Body of the work-list loop, src/graph.cpp:284-308. -/
def body (fn : List Nat) (dn : NFADelta) (s : St) : Res St :=
  match s.que with
  | [] => .ok s
  | qs :: rest =>
    let s := { s with que := rest }
    if s.visited.contains qs then .ok s
    else do
      let r ← succs dn qs
      let final := qs.any (fun q => fn.contains q)
      let (qsd, s) := getOrCreate s qs
      let (qs0d, s) := getOrCreate s r.1
      let (qs1d, s) := getOrCreate s r.2
      let df ← vset s.df qsd (some (qs0d, qs1d))
      pure { s with
        df := df
        visited := s.visited ++ [qs]
        ff := if final then sinsert qsd s.ff else s.ff
        que := s.que ++ [r.1, r.2] }

/-- The delta table handed to the constructor; a surviving placeholder `-1` would make `parents0_.at(-1)` throw. (src/graph.cpp:265, 300, 310) -/
def finishDelta (df : List (Option (Nat × Nat))) : Res (List (Nat × Nat × Nat)) :=
  df.zipIdx.mapM (fun (e : Option (Nat × Nat) × Nat) =>
    match e.1 with
    | some (a, b) => .ok (e.2, a, b)
    | none => .error .outOfRange)

end FromNfa

open FromNfa in
/-- `Graph::from_nfa`, src/graph.cpp:246-311. -/
def Graph.fromNfa (q0n fn : List Nat) (dn : NFADelta) : Res Graph := do
  let s ← whileM (fun s : St => !s.que.isEmpty) (body fn dn) (2 ^ (dn.length + 1) + 1)
    { stMap := [], df := [], ff := [], visited := [], que := [q0n] }
  let (q0, s) := getOrCreate s q0n
  let delta ← finishDelta s.df
  Graph.make q0 s.ff delta

/-- `Graph::reversed`, src/graph.cpp:434-442. -/
def Graph.reversed (g : Graph) : Res Graph := do
  let delta ← g.allStates.mapM (fun q => do
    let p0 ← g.prevStates q false
    let p1 ← g.prevStates q true
    pure (q, p0, p1))
  Graph.fromNfa g.finals [g.initialState] delta

/-- `Graph::reversed_nfa_delta`, src/graph.cpp:852-867. -/
def reversedNfaDelta (src : NFADelta) : Res NFADelta := do
  let ps ← src.zipIdx.foldlM (fun (ps : List (List Nat) × List (List Nat)) (e : (Nat × List Nat × List Nat) × Nat) => do
      let p0 ← e.1.2.1.foldlM (fun p q0 => pushAt p q0 e.2) ps.1
      let p1 ← e.1.2.2.foldlM (fun p q1 => pushAt p q1 e.2) ps.2
      pure (p0, p1))
    (List.replicate src.length [], List.replicate src.length [])
  (List.range src.length).mapM (fun q => do
    let a ← vat ps.1 q
    let b ← vat ps.2 q
    pure (q, a, b))

end Homfa
