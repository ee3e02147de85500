import Verif.Model.Cpp
import Verif.Model.Serial
import Mathlib.Data.BitVec
import Mathlib.Algebra.BigOperators.Fin

/-!
# Ciphertexts (src/tfhepp_util.hpp:8-17) and the operations homfa implements on them (src/tfhepp_util.cpp:182-461)

The torus is `uint32_t` (`TFHEpp::lvl0param::T`, `lvl1param::T`).  `N` is `Lvl1::n` and `n` is `Lvl0::n`; both are
arbitrary.  `std::array` is a function on `Fin`; a subscript outside the array is undefined behaviour (`Err.ub`).
-/

namespace Homfa

/-- `uint32_t` as an approximation of the torus: `x` stands for `x / 2^32`. (src/tfhepp_util.hpp:8-17) -/
abbrev Torus := BitVec 32

/-- `PolyLvl1` (src/tfhepp_util.hpp:15) -/
abbrev Poly (N : Nat) := Fin N → Torus

/-- `TRLWELvl1`: element `[0]` is `a`, element `[1]` is `b`. (src/tfhepp_util.hpp:14) -/
@[ext] structure TRLWE (N : Nat) where
  a : Poly N
  b : Poly N
  deriving DecidableEq

/-- `TLWE<P>`: elements `[0..n-1]` are `a`, element `[n]` is `b`. (src/tfhepp_util.hpp:9-12) -/
@[ext] structure TLWE (n : Nat) where
  a : Fin n → Torus
  b : Torus
  deriving DecidableEq

/-- `SecretKey`: `key.lvl1` and `key.lvl0`. (src/tfhepp_util.hpp:16) -/
structure SecretKey (N n : Nat) where
  lvl1 : Fin N → Torus
  lvl0 : Fin n → Torus

/-- 1/8, 1/4 and 1/2 of the torus: `1u << 29`, `1u << 30`, `1u << 31` (src/online_dfa.cpp:28, src/tfhepp_util.cpp:401) -/
def mu8 : Torus := 1#32 <<< 29
/-- (src/online_dfa.cpp:28, src/tfhepp_util.cpp:401) -/
def mu4 : Torus := 1#32 <<< 30
/-- (src/online_dfa.cpp:28, src/tfhepp_util.cpp:401) -/
def mu2 : Torus := 1#32 <<< 31

/-! ## Trivial ciphertexts -/

/-- `trivial_TRLWELvl1` (src/tfhepp_util.cpp:184-189) -/
def trivialTRLWE {N : Nat} (src : Poly N) : TRLWE N := ⟨fun _ => 0#32, src⟩

/-- `trivial_TRLWELvl1_zero` (src/tfhepp_util.cpp:191-195) -/
def trivialTRLWEZero (N : Nat) : TRLWE N := ⟨fun _ => 0#32, fun _ => 0#32⟩

/-- `w[1][0] = x` (src/online_dfa.cpp:466) -/
def TRLWE.setB0 {N : Nat} (w : TRLWE N) (x : Torus) : TRLWE N := { w with b := fun i => if i.val = 0 then x else w.b i }

/-- `trivial_TLWELvl0_minus_1over8`, `trivial_TLWELvl1_minus_1over8` (src/tfhepp_util.cpp:197-202, 211-216) -/
def trivialTLWEMinus8 (n : Nat) : TLWE n := ⟨fun _ => 0#32, -mu8⟩

/-- `trivial_TLWELvl0_1over8`, `trivial_TLWELvl1_1over8` (src/tfhepp_util.cpp:204-209, 218-223) -/
def trivialTLWE8 (n : Nat) : TLWE n := ⟨fun _ => 0#32, mu8⟩

/-- `trivial_TRLWELvl1_minus_1over8` (src/tfhepp_util.cpp:225-230) -/
def trivialTRLWEMinus8 (N : Nat) : TRLWE N := (trivialTRLWEZero N).setB0 (-mu8)

/-- `trivial_TRLWELvl1_1over8` (src/tfhepp_util.cpp:232-237) -/
def trivialTRLWE8 (N : Nat) : TRLWE N := (trivialTRLWEZero N).setB0 mu8

/-- `trivial_TRLWELvl1_1over2` (src/tfhepp_util.cpp:239-244) -/
def trivialTRLWE2 (N : Nat) : TRLWE N := (trivialTRLWEZero N).setB0 mu2

/-! ## Linear operations -/

/-- `TLWELvl0_add`, `TLWELvl1_add` (src/tfhepp_util.cpp:246-256); the loops touch every element once. -/
def TLWE.add {n : Nat} (lhs rhs : TLWE n) : TLWE n := ⟨fun i => lhs.a i + rhs.a i, lhs.b + rhs.b⟩

/-- `TRLWELvl1_add` (src/tfhepp_util.cpp:259-265). -/
def TRLWE.add {N : Nat} (out src : TRLWE N) : TRLWE N := ⟨fun i => out.a i + src.a i, fun i => out.b i + src.b i⟩

/-- `p[i]` on an array of `N` elements; the index is the mathematical value of the `size_t` expression before
wrap-around, so that every wrapped index is out of bounds too. (src/online_dfa.cpp:466-475) -/
def pget {N : Nat} (p : Poly N) (i : Int) : Res Torus :=
  if h : 0 ≤ i ∧ i < N then .ok (p ⟨i.toNat, by omega⟩) else .error .ub

/-- `p[i] = x` (src/online_dfa.cpp:466-475) -/
def pset {N : Nat} (p : Poly N) (i : Int) (x : Torus) : Res (Poly N) :=
  if 0 ≤ i ∧ i < N then .ok (fun j => if (j.val : Int) = i then x else p j) else .error .ub

/-- `PolyLvl1_mult_X_k` (src/tfhepp_util.cpp:268-288).  `out` is the old content of the output variable. -/
def polyMultXk {N : Nat} (out src : Poly N) (k : Nat) : Res (Poly N) :=
  if k = 0 then .ok src
  else if k < N then do
    let out ← (List.range k).foldlM (fun out (i : Nat) => do
      let v ← pget src ((i : Int) - k + N)
      pset out i (-v)) out
    (List.range (N - k)).foldlM (fun out (i : Nat) => do
      let v ← pget src i
      pset out ((i : Int) + k) v) out
  else do
    let k2 := k - N
    let out ← (List.range k2).foldlM (fun out (i : Nat) => do
      let v ← pget src ((i : Int) - k2 + N)
      pset out i v) out
    (List.range (N - k2)).foldlM (fun out (i : Nat) => do
      let v ← pget src i
      pset out ((i : Int) + k2) (-v)) out

/-- `TRLWELvl1_mult_X_k` (src/tfhepp_util.cpp:292-296). -/
def TRLWE.multXk {N : Nat} (out src : TRLWE N) (k : Nat) : Res (TRLWE N) := do
  let a ← polyMultXk out.a src.a k
  let b ← polyMultXk out.b src.b k
  pure ⟨a, b⟩

/-! ## Phases and decryption -/

/-- `phase_of_TLWELvl1` (src/tfhepp_util.cpp:298-304). -/
def TLWE.phase {n : Nat} (src : TLWE n) (key : Fin n → Torus) : Torus :=
  (List.finRange n).foldl (fun phase i => phase - src.a i * key i) src.b

/-- `TFHEpp::PolyMul<Lvl1>` by its definition: the product in Z_{2^32}[X]/(X^N+1).  TFHEpp computes it with a floating
point FFT; rounding is not modelled. (src/tfhepp_util.cpp:309) -/
def polyMul {N : Nat} (p q : Poly N) : Poly N := fun i =>
  ∑ j : Fin N, if h : j.val ≤ i.val then p j * q ⟨i.val - j.val, by omega⟩
    else -(p j * q ⟨N + i.val - j.val, by omega⟩)

/-- `phase_of_TRLWELvl1` (src/tfhepp_util.cpp:306-314). -/
def TRLWE.phase {N : Nat} (src : TRLWE N) (key : Fin N → Torus) : Poly N :=
  let as := polyMul src.a key
  fun i => src.b i - as i

/-- `TFHEpp::SampleExtractIndex<Lvl1>` by its definition. (src/tfhepp_util.cpp:320) -/
def sampleExtract {N : Nat} (src : TRLWE N) (index : Fin N) : TLWE N :=
  { a := fun i => if h : i.val ≤ index.val then src.a ⟨index.val - i.val, by omega⟩
      else -src.a ⟨N + index.val - i.val, by omega⟩
    b := src.b index }

/-- `decrypt_TLWELvl1_to_bit` (src/tfhepp_util.cpp:395-402): unsigned comparison. -/
def decryptBit {N n : Nat} (c : TLWE N) (skey : SecretKey N n) : Bool :=
  decide ((c.phase skey.lvl1 + mu4).toNat > mu2.toNat)

/-! ## Weights as text -/

/-- `uint2weight` (src/tfhepp_util.cpp:404-414). -/
def uint2weight (N : Nat) (n : BitVec 64) : Poly N := fun i =>
  if i.val < 64 then (if ((n >>> i.val) &&& 1#64) != 0#64 then mu2 else 0#32) else 0#32

/-- `between_25_75` (src/tfhepp_util.cpp:416-420). -/
def between25_75 (n : Torus) : Bool := decide (mu4.toNat ≤ n.toNat) && decide (n.toNat ≤ (mu4 + mu2).toNat)

/-- `dump_weight` / `weight2bitstring` (src/tfhepp_util.cpp:422-442): the text written. -/
def weight2bitstring {N : Nat} (w : Poly N) : List Char :=
  ((List.finRange N).flatMap fun i =>
    (if i.val % 32 = 0 then ['\n'] else if i.val % 8 = 0 then [' '] else []) ++
      (if between25_75 (w i) then ['1'] else ['0'])) ++ ['\n']

end Homfa
