import Verif.Spec.BlockNoise
import Verif.Spec.NegaAt
import Mathlib.Data.Nat.Log

/-!
# What FLUT computes, and the errors that its operations happen to make

Nothing is assumed about the library here.
-/

namespace Homfa

variable {N n l : Nat}

def TRLWE.sum (cs : List (TRLWE N)) : TRLWE N := cs.foldl TRLWE.add (trivialTRLWEZero N)

/-- the `k` lowest bits of `x`, the lowest first -/
def bitsOf (k x : Nat) : List Bool := (List.range k).map x.testBit

/-- What the evaluation of a queue starts from: the automaton, the states reachable before and after the queued letters in increasing order, the number of letters
for the second lookup, the ciphertexts of the letters and the weights of the states. -/
structure FlutBlock (N l : Nat) where
  d : Spec.Dfa Nat
  before : List Nat
  after : List Nat
  second : Nat
  letters : List (Gsw l N)
  weight : Nat → TRLWE N

namespace FlutBlock

variable (B : FlutBlock N l)

/-- the number of letters for the first lookup -/
def first : Nat := B.letters.length - B.second

/-- all pairs of a state and a number of as many bits as the second lookup has letters -/
def pairs : List (Nat × Nat) := B.before.flatMap fun q => (List.range (2 ^ B.second)).map fun y => (q, y)

/-- where the state reached from `p.1` by the letters `w` and then the bits of `p.2` is kept in the packed ciphertext -/
def place (w : List Bool) (p : Nat × Nat) : Nat := p.2 * B.after.length + B.after.idxOf (B.d.run p.1 (w ++ bitsOf B.second p.2))

/-- the entry `x` of the first table -/
def entry (x : Nat) : TRLWE N := TRLWE.sum (B.pairs.map fun p => (B.weight p.1).mulX (B.place (bitsOf B.first x) p))

def firstLookup (S : Scheme N n l) : TRLWE N := lutTree S (B.letters.take B.first) B.entry

/-- the entry `y` of the second table -/
def entry2 (S : Scheme N n l) (y : Nat) : TRLWE N := (B.firstLookup S).mulX (-(y * B.after.length : Nat))

/-- the ciphertext with the weights of all the states in its coefficients -/
def packed (S : Scheme N n l) : TRLWE N := lutTree S (B.letters.drop B.first) (B.entry2 S)

/-- the weight of `q` in the packed ciphertext -/
def unpacked (S : Scheme N n l) (hN : B.after.length * 2 ^ B.second ≤ N) {q : Nat} (hq : q ∈ B.after) : TLWE N :=
  sampleExtract (B.packed S) ⟨B.after.idxOf q, Nat.lt_of_lt_of_le (List.idxOf_lt_length_iff.2 hq)
    (Nat.le_trans (Nat.le_mul_of_pos_right _ (Nat.two_pow_pos _)) hN)⟩

/-- The error of the weight of `q` in the packed ciphertext, when the letters are supposed to be `v` and the weights have the errors `E`: from every pair one
coefficient of the error of a weight; the errors of the CMUXes on the way to the entry of the first table, in the coefficient for `q` and the second part of `v`; and those
on the way to the entry of the second table, in the coefficient for `q`. -/
def errors (S : Scheme N n l) (hN : B.after.length * 2 ^ B.second ≤ N) (v : List Bool) (E : Nat → Poly N) {q : Nat} (hq : q ∈ B.after)
    (hy : lsbIndex (v.drop B.first) < 2 ^ B.second) : List Torus :=
  have h : lsbIndex (v.drop B.first) * B.after.length + B.after.idxOf q < N :=
    Nat.lt_of_lt_of_le (by
      have h1 := List.idxOf_lt_length_iff.2 hq
      have h2 : (lsbIndex (v.drop B.first) + 1) * B.after.length ≤ 2 ^ B.second * B.after.length := Nat.mul_le_mul_right _ hy
      rw [Nat.mul_comm B.after.length]
      rw [Nat.add_mul] at h2
      omega) hN
  (B.pairs.map fun p => (E p.1).at ((lsbIndex (v.drop B.first) * B.after.length + B.after.idxOf q : Nat) - B.place (v.take B.first) p)) ++
    lutErrors S ⟨_, h⟩ (B.letters.take B.first) (v.take B.first) B.entry ++
    lutErrors S ⟨B.after.idxOf q, Nat.lt_of_le_of_lt (Nat.le_add_left _ _) h⟩ (B.letters.drop B.first) (v.drop B.first) (B.entry2 S)

end FlutBlock

/-- the error of the conversion of `c` in coefficient `i`: the message of `c` should become coefficient 0, the others should be 0 -/
def Scheme.convertError (S : Scheme N n l) (c : TLWE N) (i : Fin N) : Torus :=
  (S.tlwe2trlwe c).phase S.sk.lvl1 i - (if i.val = 0 then c.phase S.sk.lvl1 else 0)

/-- bootstrapping of an unpacked weight -/
def Scheme.refreshLwe (S : Scheme N n l) (hN : 0 < N) (c : TLWE N) : TLWE N := sampleExtract (S.bsHalfToHalf (S.iks c)) ⟨0, hN⟩

/-- A run over the word `u`, encrypted as `cu`, that evaluated the queue `k` times: the weights, and their errors as polynomials. -/
inductive FlutRun (S : Scheme N n l) (hN0 : 0 < N) (d : Spec.Dfa Nat) (max boot : Nat) :
    Nat → List (Gsw l N) → List Bool → (Nat → TRLWE N) → (Nat → Poly N) → Prop
  | start {W : Nat → TRLWE N} : W d.start = trivialTRLWE (fun i => if i.val = 0 then mu2 else 0#32) → FlutRun S hN0 d max boot 0 [] [] W fun _ _ => 0#32
  /-- without bootstrapping -/
  | keep {k : Nat} {cu : List (Gsw l N)} {u v : List Bool} {W' : Nat → TRLWE N} {E E' : Nat → Poly N} {B : FlutBlock N l} :
      FlutRun S hN0 d max boot k cu u B.weight E → B.d = d → v ≠ [] → B.letters.length = v.length → IsLive d u.length B.before →
      IsLive d (u.length + v.length) B.after → B.second = min (v.length / 2) (max - Nat.clog 2 B.after.length) →
      (hN : B.after.length * 2 ^ B.second ≤ N) → (hy : lsbIndex (v.drop B.first) < 2 ^ B.second) → (k + 1) % boot ≠ 0 →
      (∀ q, ∀ h : q ∈ B.after, W' q = S.tlwe2trlwe (B.unpacked S hN h)) →
      (∀ q, ∀ h : q ∈ B.after, ∀ i, E' q i = (if i.val = 0 then (B.errors S hN v E h hy).sum else 0) + S.convertError (B.unpacked S hN h) i) →
      FlutRun S hN0 d max boot (k + 1) (cu ++ B.letters) (u ++ v) W' E'
  /-- with bootstrapping, whose error is the difference to the right message -/
  | boot {k : Nat} {cu : List (Gsw l N)} {u v : List Bool} {W' : Nat → TRLWE N} {E E' : Nat → Poly N} {B : FlutBlock N l} :
      FlutRun S hN0 d max boot k cu u B.weight E → B.d = d → v ≠ [] → B.letters.length = v.length → IsLive d u.length B.before →
      IsLive d (u.length + v.length) B.after → B.second = min (v.length / 2) (max - Nat.clog 2 B.after.length) →
      (hN : B.after.length * 2 ^ B.second ≤ N) → (k + 1) % boot = 0 →
      (∀ q, ∀ h : q ∈ B.after, W' q = S.tlwe2trlwe (S.refreshLwe hN0 (B.unpacked S hN h))) →
      (∀ q, ∀ h : q ∈ B.after, ∀ i, E' q i =
        (if i.val = 0 then (S.refreshLwe hN0 (B.unpacked S hN h)).phase S.sk.lvl1 - half (q = d.run d.start (u ++ v)) else 0) +
          S.convertError (S.refreshLwe hN0 (B.unpacked S hN h)) i) →
      FlutRun S hN0 d max boot (k + 1) (cu ++ B.letters) (u ++ v) W' E'

end Homfa
