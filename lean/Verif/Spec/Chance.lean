import Verif.Spec.Calls
import Verif.Spec.Input
import Mathlib.MeasureTheory.Measure.MeasureSpace

/-!
# The chance of a wrong verdict

`Ω` is everything the client's keys and encryptions depend on, with a measure of chance.  For each `ω : Ω` there is a library `S ω` with its
keys, the meaning `Enc ω` of its ciphertexts and the randomness `rand ω` of the encryptions.
-/

namespace Homfa

open MeasureTheory
open scoped ENNReal

variable {N n l : Nat} {Ω : Type}

/-- The ciphertexts of the bits `w`: the m-th one is made with the m-th random number. -/
def ctxts (S : Scheme N n l) (rand : Nat → Nat) (w : List Bool) : List (Gsw l N) := w.zipIdx.map fun p => S.encrypt (rand p.2) p.1

/-- The chances of single failures in running `p` on the encryptions of `w`: for each bit, `εe` that its encryption is not good, and for each
call of the library, `ε` of the function called that the answer is not within the bounds `δ`. -/
structure FailureRates [MeasurableSpace Ω] (μ : Measure Ω) (S : Ω → Scheme N n l) (Enc : Ω → Gsw l N → Bool → Prop) (rand : Ω → Nat → Nat)
    (δ : Noise) (w : List Bool) {α : Type} (p : List (Gsw l N) → Comp N n l α) (εe : ℝ≥0∞) (ε : CallKind → ℝ≥0∞) : Prop where
  enc : ∀ m b, w[m]? = some b → μ {ω | ¬ Enc ω ((S ω).encrypt (rand ω m) b) b} ≤ εe
  call : ∀ (i : Nat) k, μ {ω | ∃ c : OpCall N n l, ((p (ctxts (S ω) (rand ω) w)).trace (S ω))[i]? = some c ∧ c.kind = k ∧ ¬ c.Within (S ω) δ (Enc ω)} ≤ ε k

/-- Such a run makes the calls `K`, whatever the library and the ciphertexts are. -/
def MakesCalls (len : Nat) {α : Type} (p : List (Gsw l N) → Comp N n l α) (K : List CallKind) : Prop :=
  ∀ (T : Scheme N n l) (cs : List (Gsw l N)), cs.length = len → (p cs).kinds T = K

/-- `enc`, `run offline` and `dec` work and print `out`, in whatever way the ciphertexts are fetched. -/
def OfflinePrints (S : Scheme N n l) (rand : Nat → Nat) (spec : List Char) (input : List Byte) (ap boot : Nat) (out : List Char) : Prop :=
  ∃ file, doEnc S rand (some input) ap = .ok file ∧ ∀ (pre : List Nat) (cs : List (Gsw l N)), ReadsReversed file pre cs →
    ∃ c, doRunOffline S spec (pre.headD 0) cs boot false = .ok c ∧ doDec S c = out

/-- `enc`, `run reverse` and `dec` work and print `out`; `pre` are the answers to the calls of `size` before the loop. -/
def ReversePrints (S : Scheme N n l) (rand : Nat → Nat) (spec : List Char) (input : List Byte) (ap : Nat) (outName : String) (boot : Nat)
    (out : List Char) : Prop :=
  ∃ file, doEnc S rand (some input) ap = .ok file ∧ ∀ (pre : List Nat) (cs : List (Gsw l N)), pre ≠ [] → ReadsForward file pre cs →
    ∃ c, doRunReverse S spec (pre.getLastD 0) cs (some outName) none 1 boot false false = .ok [(.file outName, c)] ∧ doDec S c = out

/-- `enc`, `run block` and `dec` work and print `out`. -/
def BlockPrints (S : Scheme N n l) (rand : Nat → Nat) (spec : List Char) (input : List Byte) (ap qs : Nat) (out : List Char) : Prop :=
  ∃ file, doEnc S rand (some input) ap = .ok file ∧ ∀ (pre : List Nat) (cs : List (Gsw l N)), ReadsForward file pre cs →
    ∃ c, doRunBlock S spec cs qs false = .ok c ∧ doDec S c = out

/-- `enc`, `run flut` and `dec` work and print `out`. -/
def FlutPrints (S : Scheme N n l) (rand : Nat → Nat) (spec : List Char) (input : List Byte) (ap : Nat) (outName : String) (qs boot : Nat)
    (maxSecond : Option Nat) (out : List Char) : Prop :=
  ∃ file, doEnc S rand (some input) ap = .ok file ∧ ∀ (pre : List Nat) (cs : List (Gsw l N)), pre ≠ [] → ReadsForward file pre cs →
    ∃ c, doRunFlut S spec (pre.getLastD 0) cs (some outName) none 1 qs boot maxSecond false = .ok [(.file outName, c)] ∧ doDec S c = out

end Homfa
