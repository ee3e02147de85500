import Verif.Spec.Counter
import Verif.Spec.NegaAt

/-!
# The algorithms of TFHE

TFHEpp is a submodule whose source is not part of the repository.  `Scheme.Sound` (Spec/Scheme.lean) is what the proofs assume about it.  This file defines the operations of TFHE as
they are published (Chillotti, Gama, Georgieva, Izabachène: TFHE, J. Cryptology 33, 2020), so that it can be proved that they meet the assumption.

Simplifications: products of polynomials are exact (TFHEpp uses a floating point FFT), so the 64-bit words of a TRGSW ciphertext in the FFT domain are replaced by coefficients; level 2, inside
the circuit bootstrapping, has 32 bits instead of 64.  Encryption is anything whose phases are right up to a bounded noise.
-/

namespace Homfa.Tfhe

variable {N n l t : Nat}

/-! ## Decomposition -/

/-- A way to write torus elements approximately as sums of small multiples of the elements `step`. -/
structure Gadget (t : Nat) where
  digit : Torus → Fin t → Torus
  step : Fin t → Torus

/-- The digits are at most `B` in size, and the sum is within `e` of the element. -/
structure Gadget.Ok (G : Gadget t) (B e : Nat) : Prop where
  small : ∀ x j, Torus.abs (G.digit x j) ≤ B
  close : ∀ x, Near e (∑ j, G.digit x j * G.step j) x

/-- digit number `j` (the highest first) of the `t` highest digits of `w` bits each -/
def bitsDigit (w : Nat) (x : Torus) (j : Nat) : Torus := BitVec.ofNat 32 (x.toNat / 2 ^ (32 - (j + 1) * w) % 2 ^ w)

/-- what is added for rounding: half of the lowest digit's step -/
def roundOffset (t w : Nat) : Torus := if t * w < 32 then 1#32 <<< (31 - t * w) else 0#32

/-- Digits from 0 to 2^w-1, as the key switches use them. -/
def plainGadget (t w : Nat) : Gadget t where
  digit x j := bitsDigit w (x + roundOffset t w) j
  step j := 1#32 <<< (32 - (j.val + 1) * w)

/-- the sum of 2^(w-1) for every digit -/
def signOffset (t w : Nat) : Torus := ∑ j : Fin t, (1#32 <<< (w - 1)) * (1#32 <<< (32 - (j.val + 1) * w))

/-- Digits from -2^(w-1) to 2^(w-1)-1, as the external product uses them. -/
def signedGadget (t w : Nat) : Gadget t where
  digit x j := bitsDigit w (x + signOffset t w + roundOffset t w) j - 1#32 <<< (w - 1)
  step j := 1#32 <<< (32 - (j.val + 1) * w)

/-- half of a step of these gadgets -/
def halfStep (w : Nat) (j : Nat) : Torus := 1#32 <<< (31 - (j + 1) * w)

/-! ## External product and CMUX -/

/-- the rows of a TRGSW ciphertext -/
abbrev Rows (l N : Nat) := Fin (2 * l) → TRLWE N

/-- digit `j` of every coefficient -/
def Gadget.poly (G : Gadget l) (p : Poly N) (j : Fin l) : Poly N := fun i => G.digit (p i) j

/-- the rows for the digits of the mask and for those of the body -/
def rowA (j : Fin l) : Fin (2 * l) := ⟨j.val, by omega⟩
def rowB (j : Fin l) : Fin (2 * l) := ⟨l + j.val, by omega⟩

/-- the external product -/
def extProd (G : Gadget l) (g : Rows l N) (c : TRLWE N) : TRLWE N where
  a i := (∑ j, polyMul (G.poly c.a j) (g (rowA j)).a i) + ∑ j, polyMul (G.poly c.b j) (g (rowB j)).a i
  b i := (∑ j, polyMul (G.poly c.a j) (g (rowA j)).b i) + ∑ j, polyMul (G.poly c.b j) (g (rowB j)).b i

def _root_.Homfa.TRLWE.minus (x y : TRLWE N) : TRLWE N := ⟨fun i => x.a i - y.a i, fun i => x.b i - y.b i⟩

/-- CMUX -/
def cmux (G : Gadget l) (g : Rows l N) (c1 c0 : TRLWE N) : TRLWE N := c0.add (extProd G g (c1.minus c0))

/-- a bit as a number -/
def bit (b : Bool) : Torus := if b then 1#32 else 0#32

/-- The rows encrypt the bit `b`: the phase of every row is a step times the bit, times minus the key in the first half, up to an error of at most `η` in every coefficient. -/
structure IsTrgsw (G : Gadget l) (key : Fin N → Torus) (η : Nat) (g : Rows l N) (b : Bool) : Prop where
  a : ∀ j i, Near η ((g (rowA j)).phase key i) (-(bit b * G.step j * key i))
  b : ∀ j i, Near η ((g (rowB j)).phase key i) (if i.val = 0 then bit b * G.step j else 0)

/-! ## Key switches -/

/-- the sum over all elements and digits; nothing is added for the digit 0 -/
def ksSum {ι M : Type} [Fintype ι] [AddCommMonoid M] (G : Gadget t) (x : ι → Torus) (tab : ι → Fin t → Torus → M) : M :=
  ∑ i, ∑ j, if G.digit (x i) j = 0 then 0 else tab i j (G.digit (x i) j)

/-- Key switch from level 1 to level 0.  `tab i j d` encrypts `d` times key bit `i` times step `j`. -/
def iks (G : Gadget t) (tab : Fin N → Fin t → Torus → TLWE n) (c : TLWE N) : TLWE n where
  a k := -ksSum G c.a fun i j d => (tab i j d).a k
  b := c.b - ksSum G c.a fun i j d => (tab i j d).b

/-- From TLWE to TRLWE.  `tab i j d` encrypts the same in the constant coefficient. -/
def tlwe2trlwe (G : Gadget t) (tab : Fin N → Fin t → Torus → TRLWE N) (c : TLWE N) : TRLWE N where
  a k := -ksSum G c.a fun i j d => (tab i j d).a k
  b k := (if k.val = 0 then c.b else 0) - ksSum G c.a fun i j d => (tab i j d).b k

/-- all elements of a ciphertext, the body last -/
def elems {M : Nat} (c : TLWE M) (i : Option (Fin M)) : Torus := match i with
  | some i => c.a i
  | none => c.b

/-- Private key switch: `tab i j d` encrypts `d` times step `j` times a secret polynomial, times key bit `i` or, for the body, times -1. -/
def privKs {M : Nat} (G : Gadget t) (tab : Option (Fin M) → Fin t → Torus → TRLWE N) (c : TLWE M) : TRLWE N where
  a k := -ksSum G (elems c) fun i j d => (tab i j d).a k
  b k := -ksSum G (elems c) fun i j d => (tab i j d).b k

/-- key bits, and -1 for the body -/
def withBody {M : Nat} (key : Fin M → Torus) : Option (Fin M) → Torus
  | some i => key i
  | none => -1

/-! ## Blind rotation -/

/-- a torus element as a multiple of 1/(2N), rounded to the nearest, for N = 2^k -/
def modSwitch (k : Nat) (x : Torus) : Nat := (x + 1#32 <<< (30 - k)).toNat / 2 ^ (31 - k)

/-- Blind rotation of the test vector by the phase of `c`; `bk i` encrypts bit `i` of the key of level 0. -/
def blindRotate (k : Nat) (G : Gadget l) (bk : Fin n → Rows l (2 ^ k)) (c : TLWE n) (v : Poly (2 ^ k)) : TRLWE (2 ^ k) :=
  (List.finRange n).foldl (fun acc i => cmux G (bk i) (acc.mulX (modSwitch k (c.a i))) acc) ((trivialTRLWE v).mulX (-(modSwitch k c.b : Int)))

/-! ## Circuit bootstrapping -/

/-- From level 0, row by row: a blind rotation with half a step, and a private key switch. -/
def circuitBootstrap {t2 l2 : Nat} (k2 : Nat) (G2 : Gadget l2) (bk : Fin n → Rows l2 (2 ^ k2)) (G3 : Gadget t2)
    (pk : Bool → Option (Fin (2 ^ k2)) → Fin t2 → Torus → TRLWE N) (hs : Fin l → Torus) (c : TLWE n) : Rows l N :=
  fun r =>
    let j : Fin l := ⟨r.val % l, Nat.mod_lt _ (by have := r.isLt; omega)⟩
    let x := sampleExtract (blindRotate k2 G2 bk c (muPoly _ (hs j))) ⟨0, Nat.two_pow_pos _⟩
    privKs G3 (pk (decide (l ≤ r.val))) { x with b := x.b + hs j }

/-- the secret polynomial of the private key switch: minus the key for the first half of the rows, 1 for the second -/
def pksFactor (key : Fin N → Torus) (body : Bool) : Poly N := fun k => if body then (if k.val = 0 then 1 else 0) else -key k

/-! ## Encryption -/

/-- TLWE encryption of `m` with mask `a` and noise `e` -/
def tlweEnc (key a : Fin n → Torus) (m e : Torus) : TLWE n := ⟨a, (∑ i, a i * key i) + m + e⟩

/-- TRLWE encryption -/
def trlweEnc (key : Fin N → Torus) (a m e : Poly N) : TRLWE N := ⟨a, fun i => polyMul a key i + m i + e i⟩

/-- TRGSW encryption of a bit: encryptions of 0; then step `j` times the bit is added to the constant coefficient of the mask of row `j` and of the body of row `l + j`. -/
def trgswEnc (G : Gadget l) (key : Fin N → Torus) (a e : Fin (2 * l) → Poly N) (b : Bool) : Rows l N := fun r =>
  let j : Fin l := ⟨r.val % l, Nat.mod_lt _ (by have := r.isLt; omega)⟩
  let z := trlweEnc key (a r) (fun _ => 0) (e r)
  if r.val < l then { z with a := fun i => z.a i + (if i.val = 0 then bit b * G.step j else 0) }
  else { z with b := fun i => z.b i + (if i.val = 0 then bit b * G.step j else 0) }

/-! ## A scheme -/

/-- The parameters: dimensions and decompositions. -/
structure Params where
  /-- 2^k is the dimension of level 1, `n` of level 0 and 2^k2 of level 2 -/
  (k n k2 : Nat)
  /-- numbers of digits: TRGSW of level 1 and 2; key switch 1 to 0, 1 to 1, 2 to 1 -/
  (l l2 t10 t11 t21 : Nat)
  G : Gadget l
  G2 : Gadget l2
  G10 : Gadget t10
  G11 : Gadget t11
  G21 : Gadget t21
  /-- halves of the steps of `G` -/
  hs : Fin l → Torus

/-- The random choices: the keys, and the masks and noises of all encryptions. -/
structure Coins (P : Params) where
  s0 : Fin P.n → Bool
  s1 : Fin (2 ^ P.k) → Bool
  s2 : Fin (2 ^ P.k2) → Bool
  a10 : Fin (2 ^ P.k) → Fin P.t10 → Torus → Fin P.n → Torus
  e10 : Fin (2 ^ P.k) → Fin P.t10 → Torus → Torus
  a11 : Fin (2 ^ P.k) → Fin P.t11 → Torus → Poly (2 ^ P.k)
  e11 : Fin (2 ^ P.k) → Fin P.t11 → Torus → Poly (2 ^ P.k)
  a21 : Bool → Option (Fin (2 ^ P.k2)) → Fin P.t21 → Torus → Poly (2 ^ P.k)
  e21 : Bool → Option (Fin (2 ^ P.k2)) → Fin P.t21 → Torus → Poly (2 ^ P.k)
  a01 : Fin P.n → Fin (2 * P.l) → Poly (2 ^ P.k)
  e01 : Fin P.n → Fin (2 * P.l) → Poly (2 ^ P.k)
  a02 : Fin P.n → Fin (2 * P.l2) → Poly (2 ^ P.k2)
  e02 : Fin P.n → Fin (2 * P.l2) → Poly (2 ^ P.k2)
  /-- for the encryption number `r` of an input bit -/
  a : Nat → Fin (2 * P.l) → Poly (2 ^ P.k)
  e : Nat → Fin (2 * P.l) → Poly (2 ^ P.k)

/-- key bits as torus elements -/
def keyOf {M : Nat} (s : Fin M → Bool) : Fin M → Torus := fun i => bit (s i)

namespace Coins

variable {P : Params} (C : Coins P)

def ik10 (i : Fin (2 ^ P.k)) (j : Fin P.t10) (d : Torus) : TLWE P.n := tlweEnc (keyOf C.s0) (C.a10 i j d) (d * P.G10.step j * keyOf C.s1 i) (C.e10 i j d)
def ik11 (i : Fin (2 ^ P.k)) (j : Fin P.t11) (d : Torus) : TRLWE (2 ^ P.k) :=
  trlweEnc (keyOf C.s1) (C.a11 i j d) (fun k => if k.val = 0 then d * P.G11.step j * keyOf C.s1 i else 0) (C.e11 i j d)
def pk21 (body : Bool) (i : Option (Fin (2 ^ P.k2))) (j : Fin P.t21) (d : Torus) : TRLWE (2 ^ P.k) :=
  trlweEnc (keyOf C.s1) (C.a21 body i j d) (fun k => d * P.G21.step j * (withBody (keyOf C.s2) i * pksFactor (keyOf C.s1) body k)) (C.e21 body i j d)
def bk01 (i : Fin P.n) : Rows P.l (2 ^ P.k) := trgswEnc P.G (keyOf C.s1) (C.a01 i) (C.e01 i) (C.s0 i)
def bk02 (i : Fin P.n) : Rows P.l2 (2 ^ P.k2) := trgswEnc P.G2 (keyOf C.s2) (C.a02 i) (C.e02 i) (C.s0 i)

end Coins

/-- rows as the words of a ciphertext and back -/
def ofRows (g : Rows l N) : Gsw l N := fun r p i => ((if p = 0 then (g r).a else (g r).b) i).setWidth 64
def toRows (g : Gsw l N) : Rows l N := fun r => ⟨fun i => (g r 0 i).setWidth 32, fun i => (g r 1 i).setWidth 32⟩

/-- TFHE with these parameters and random choices. -/
def scheme (P : Params) (C : Coins P) : Scheme (2 ^ P.k) P.n P.l where
  sk := ⟨keyOf C.s1, keyOf C.s0⟩
  cmux g c1 c0 := cmux P.G (toRows g) c1 c0
  iks c := iks P.G10 C.ik10 c
  blindRotate c v := blindRotate P.k P.G C.bk01 c v
  tlwe2trlwe c := tlwe2trlwe P.G11 C.ik11 c
  cb c := ofRows (circuitBootstrap P.k2 P.G2 C.bk02 P.G21 C.pk21 P.hs (iks P.G10 C.ik10 c))
  encrypt r b := ofRows (trgswEnc P.G (keyOf C.s1) (C.a r) (C.e r) b)

/-- The gates of TFHE: a linear combination, a blind rotation, and a key switch. -/
def gate (P : Params) (C : Coins P) (c : TLWE P.n) : TLWE P.n :=
  iks P.G10 C.ik10 (sampleExtract (blindRotate P.k P.G C.bk01 c (muPoly _ mu8)) ⟨0, Nat.two_pow_pos _⟩)

def gateScheme (P : Params) (C : Coins P) : GateScheme (2 ^ P.k) P.n P.l where
  toScheme := scheme P C
  homOR x y := gate P C ⟨fun i => x.a i + y.a i, x.b + y.b + mu8⟩
  homANDNY x y := gate P C ⟨fun i => -x.a i + y.a i, -x.b + y.b - mu8⟩
  cb01 c := ofRows (circuitBootstrap P.k2 P.G2 C.bk02 P.G21 C.pk21 P.hs c)

/-- an input bit as `enc` encrypts it: with some randomness -/
def Fresh (P : Params) (C : Coins P) (c : Gsw P.l (2 ^ P.k)) (b : Bool) : Prop := ∃ r, c = (scheme P C).encrypt r b

/-! ## Bounds -/

/-- Bounds for the digits (`B`) and rounding errors (`r`) of the decompositions, and for the noises (`η`) of the encryptions: TRGSW of level 1 and 2; key switches; input bits. -/
structure Bounds where
  (B r B2 r2 B10 r10 B11 r11 B21 r21 : Nat)
  (η01 η02 η10 η11 η21 ηin : Nat)

structure Bounds.Hold (β : Bounds) (P : Params) (C : Coins P) : Prop where
  k : P.k ≤ 30
  k2 : P.k2 ≤ 30
  half : ∀ j, P.hs j + P.hs j = P.G.step j
  G : P.G.Ok β.B β.r
  G2 : P.G2.Ok β.B2 β.r2
  G10 : P.G10.Ok β.B10 β.r10
  G11 : P.G11.Ok β.B11 β.r11
  G21 : P.G21.Ok β.B21 β.r21
  e01 : ∀ i r k, Torus.abs (C.e01 i r k) ≤ β.η01
  e02 : ∀ i r k, Torus.abs (C.e02 i r k) ≤ β.η02
  e10 : ∀ i j d, Torus.abs (C.e10 i j d) ≤ β.η10
  e11 : ∀ i j d k, Torus.abs (C.e11 i j d k) ≤ β.η11
  e21 : ∀ b i j d k, Torus.abs (C.e21 b i j d k) ≤ β.η21
  e : ∀ q r k, Torus.abs (C.e q r k) ≤ β.ηin

namespace Bounds

variable (β : Bounds) (P : Params)

/-- the noise of the rows after circuit bootstrapping: `n` CMUXes of level 2 and a private key switch -/
def cbNoise : Nat := P.n * (2 * P.l2 * (2 ^ P.k2 * (β.B2 * β.η02)) + (2 ^ P.k2 + 1) * β.r2) + (2 ^ P.k2 + 1) * (P.t21 * β.η21 + β.r21)

/-- the noise of the selectors: input bits or the results of circuit bootstrapping -/
def gswNoise : Nat := max β.ηin (β.cbNoise P)

/-- The error bounds of the operations. -/
def noise : Noise where
  cmux := 2 * P.l * (2 ^ P.k * (β.B * β.gswNoise P)) + (2 ^ P.k + 1) * β.r
  ks := 2 ^ P.k * (P.t10 * β.η10 + β.r10)
  ms := (P.n + 1) * 2 ^ (30 - P.k)
  br := P.n * (2 * P.l * (2 ^ P.k * (β.B * β.η01)) + (2 ^ P.k + 1) * β.r)
  ik11 := 2 ^ P.k * (P.t11 * β.η11 + β.r11)
  cb := 2 ^ P.k * (P.t10 * β.η10 + β.r10) + (P.n + 1) * 2 ^ (30 - P.k2)

/-- A ciphertext encrypts a bit: the noise of its rows is bounded. -/
def Enc (C : Coins P) (g : Gsw P.l (2 ^ P.k)) (b : Bool) : Prop := IsTrgsw P.G (keyOf C.s1) (β.gswNoise P) (toRows g) b

end Bounds

end Homfa.Tfhe
