import Verif.Spec.Noise
import Verif.Spec.Automata
import Verif.Spec.Lut

/-!
# What BLOCK computes, and the errors that its CMUXes happen to make

Nothing is assumed about the library here.
-/

namespace Homfa

variable {N n l : Nat}

/-- `L` lists, in increasing order, the states reachable from the start by exactly `k` letters. -/
def IsLive (d : Spec.Dfa Nat) (k : Nat) (L : List Nat) : Prop :=
  L.Pairwise (· < ·) ∧ ∀ q, q ∈ L ↔ ∃ w : List Bool, w.length = k ∧ w.foldl d.next d.start = q

/-- The message of a weight: 1/2 or 0 in coefficient 0 as the state `q` is final or not, and +1/8 or -1/8 in the following ones for the bits of the place of
`q` in the list `L`. -/
def blockMsg (d : Spec.Dfa Nat) (L : List Nat) (q i : Nat) : Torus :=
  if i = 0 then half (d.accept q) else if i ≤ Nat.log2 L.length + 1 then eighth ((L.idxOf q).testBit (i - 1)) else 0#32

/-- The weight of state `q` before a block with the encrypted letters `cs`: a CMUX per letter between the weights of the two successors. -/
def blockTree (S : Scheme N n l) (d : Spec.Dfa Nat) (L : List Nat) : List (Gsw l N) → Nat → TRLWE N
  | [], q => trivialTRLWE fun i => blockMsg d L q i.val
  | c :: cs, q => S.cmux c (blockTree S d L cs (d.next q true)) (blockTree S d L cs (d.next q false))

/-- the error of a CMUX in coefficient `i` when its selector is supposed to be `b` -/
def Scheme.cmuxErrorAt (S : Scheme N n l) (i : Fin N) (c : Gsw l N) (b : Bool) (x1 x0 : TRLWE N) : Torus :=
  (S.cmux c x1 x0).phase S.sk.lvl1 i - (if b then x1 else x0).phase S.sk.lvl1 i

/-- the errors of the CMUXes that the word `bs` takes from `q` in `blockTree` -/
def blockErrors (S : Scheme N n l) (d : Spec.Dfa Nat) (L : List Nat) (i : Fin N) : List (Gsw l N) → List Bool → Nat → List Torus
  | c :: cs, b :: bs, q =>
    S.cmuxErrorAt i c b (blockTree S d L cs (d.next q true)) (blockTree S d L cs (d.next q false)) ::
      blockErrors S d L i cs bs (d.next q b)
  | _, _, _ => []

/-- Looking up an entry of the table `T`: the first selector halves the table, and so on. -/
def lutTree (S : Scheme N n l) : List (Gsw l N) → (Nat → TRLWE N) → TRLWE N
  | [], T => T 0
  | c :: cs, T => lutTree S cs fun j => S.cmux c (T (2 * j + 1)) (T (2 * j))

/-- the errors of the CMUXes on the way to the entry whose number has the bits `bs`, the lowest first -/
def lutErrors (S : Scheme N n l) (i : Fin N) : List (Gsw l N) → List Bool → (Nat → TRLWE N) → List Torus
  | c :: cs, b :: bs, T =>
    S.cmuxErrorAt i c b (T (2 * lsbIndex bs + 1)) (T (2 * lsbIndex bs)) ::
      lutErrors S i cs bs fun j => S.cmux c (T (2 * j + 1)) (T (2 * j))
  | _, _, _ => []

/-- The selectors made of the coefficients 1, ..., `k` of the previous result `s` by circuit bootstrapping. -/
def selectors (S : Scheme N n l) (s : TRLWE N) (k : Nat) (hk : k < N) : List (Gsw l N) :=
  List.ofFn fun i : Fin k => S.cb (sampleExtract s ⟨i.val + 1, by omega⟩)

/-- One block: after the word `u` with previous result `s`, the letters `v` encrypted as `cv` lead to the result `w`; `es i` lists the errors, in coefficient `i`, of
the CMUXes on the path of `v` and of those that look up the state reached by `u`. -/
inductive BlockStep (S : Scheme N n l) (d : Spec.Dfa Nat) (u : List Bool) (cv : List (Gsw l N)) (v : List Bool) :
    Option (TRLWE N) → TRLWE N → (Fin N → List Torus) → Prop
  /-- only one state can be reached by `u.length` letters -/
  | single {L : List Nat} {s : Option (TRLWE N)} (hone : IsLive d u.length [d.run d.start u]) (hL : IsLive d (u.length + v.length) L) :
      BlockStep S d u cv v s (blockTree S d L cv (d.run d.start u)) fun i => blockErrors S d L i cv v (d.run d.start u)
  /-- several states can be reached; the table holds their weights, and possibly more entries behind them -/
  | many {L0 L : List Nat} {s : TRLWE N} {T : Nat → TRLWE N} (h0 : IsLive d u.length L0) (hmany : L0.length ≠ 1)
      (hL : IsLive d (u.length + v.length) L) (hk : Nat.log2 L0.length + 1 < N)
      (hT : ∀ j (h : j < L0.length), T j = blockTree S d L cv L0[j]) :
      BlockStep S d u cv v (some s) (lutTree S (selectors S s (Nat.log2 L0.length + 1) hk) T) fun i =>
        lutErrors S i (selectors S s (Nat.log2 L0.length + 1) hk) ((List.range (Nat.log2 L0.length + 1)).map (L0.idxOf (d.run d.start u)).testBit) T ++
          blockErrors S d L i cv v (d.run d.start u)

/-- A run in blocks over the word `u`, encrypted as `cu`: its result, if there was a block, and the errors of the last block. -/
inductive BlockRun (S : Scheme N n l) (d : Spec.Dfa Nat) : List (Gsw l N) → List Bool → Option (TRLWE N) → (Fin N → List Torus) → Prop
  | start : BlockRun S d [] [] none fun _ => []
  | block {cu u s es0 cv v w es} : BlockRun S d cu u s es0 → v ≠ [] → cv.length = v.length → BlockStep S d u cv v s w es →
      BlockRun S d (cu ++ cv) (u ++ v) (some w) es

/-- What is assumed of circuit bootstrapping: it encrypts the sign of a phase away from the boundary, as in `Scheme.Sound`. -/
structure Scheme.CbSound (S : Scheme N n l) (margin : Nat) (Enc : Gsw l N → Bool → Prop) : Prop where
  pos : ∀ c : TLWE N, (margin : Int) < (c.phase S.sk.lvl1).toInt → (c.phase S.sk.lvl1).toInt < (2 : Int) ^ 31 - margin → Enc (S.cb c) true
  neg : ∀ c : TLWE N, -(2 : Int) ^ 31 + margin < (c.phase S.sk.lvl1).toInt → (c.phase S.sk.lvl1).toInt < -(margin : Int) → Enc (S.cb c) false

end Homfa
