import Verif.Model.Calls
import Verif.Spec.Scheme
import Verif.Spec.Crash

/-!
# Library calls that stay within their error bounds

`Scheme.Sound` speaks about every ciphertext the library could be called with.  Here the same bounds are stated for one call, so that a theorem
can ask for them in the calls a run makes and in no others.
-/

namespace Homfa

variable {N n l : Nat}

/-- The answer to this call is within the bounds `δ`: the clauses of `Scheme.Sound` for the arguments of the call. -/
def OpCall.Within (S : Scheme N n l) (δ : Noise) (Enc : Gsw l N → Bool → Prop) : OpCall N n l → Prop
  | .cmux g c1 c0 => ∀ b i, Enc g b → Near δ.cmux ((S.cmux g c1 c0).phase S.sk.lvl1 i) ((if b then c1 else c0).phase S.sk.lvl1 i)
  | .iks c => Near δ.ks ((S.iks c).phase S.sk.lvl0) (c.phase S.sk.lvl1)
  | .blindRotate c tv => ∀ (mu : Torus) (i : Fin N), tv = muPoly N mu → i.val = 0 →
      ((δ.ms : Int) < (c.phase S.sk.lvl0).toInt → (c.phase S.sk.lvl0).toInt < (2 : Int) ^ 31 - δ.ms →
        Near δ.br ((S.blindRotate c tv).phase S.sk.lvl1 i) mu) ∧
      (-(2 : Int) ^ 31 + δ.ms < (c.phase S.sk.lvl0).toInt → (c.phase S.sk.lvl0).toInt < -(δ.ms : Int) →
        Near δ.br ((S.blindRotate c tv).phase S.sk.lvl1 i) (-mu))
  | .tlwe2trlwe c => ∀ i, Near δ.ik11 ((S.tlwe2trlwe c).phase S.sk.lvl1 i) (if i.val = 0 then c.phase S.sk.lvl1 else 0)
  | .cb c =>
      ((δ.cb : Int) < (c.phase S.sk.lvl1).toInt → (c.phase S.sk.lvl1).toInt < (2 : Int) ^ 31 - δ.cb → Enc (S.cb c) true) ∧
      (-(2 : Int) ^ 31 + δ.cb < (c.phase S.sk.lvl1).toInt → (c.phase S.sk.lvl1).toInt < -(δ.cb : Int) → Enc (S.cb c) false)

/-- which function of the library is called -/
inductive CallKind where
  | cmux | keySwitch | blindRotate | toTrlwe | circuitBootstrapping
deriving DecidableEq

def OpCall.kind : OpCall N n l → CallKind
  | .cmux .. => .cmux
  | .iks _ => .keySwitch
  | .blindRotate .. => .blindRotate
  | .tlwe2trlwe _ => .toTrlwe
  | .cb _ => .circuitBootstrapping

/-- The functions of the library called by a run, in order. -/
def Comp.kinds {α : Type} (S : Scheme N n l) (p : Comp N n l α) : List CallKind := (p.trace S).map OpCall.kind

/-- how many operations the timer has recorded -/
def recorded (t : Target) (timer : List (Target × Nat)) : Nat := ((timer.filter fun e => e.1 = t).map (·.2)).sum

/-- the function of the library whose calls are recorded as `t` -/
def Target.kind : Target → CallKind
  | .circuitBootstrapping => .circuitBootstrapping
  | .bootstrapping => .blindRotate
  | .cmux => .cmux

/-- `D j` lists, without repetition, the states of `g` reached from the states `start` by the words of length `j`. -/
def Levels (g : Graph) (start : List Nat) (D : Nat → List Nat) : Prop :=
  ∀ j, (D j).Nodup ∧ ∀ q, q ∈ D j ↔ ∃ p ∈ start, ∃ w : List Bool, w.length = j ∧ g.runWord p w = .ok q

/-- `Enc` is a sensible notion of encryption: no ciphertext encrypts both bits, and both bits can be encrypted. -/
structure SensibleEnc (Enc : Gsw l N → Bool → Prop) : Prop where
  functional : ∀ g, ¬ (Enc g true ∧ Enc g false)
  exists_enc : ∀ b, ∃ g, Enc g b

/-- The encryptions made by `enc` on this input, with this randomness, are good ones. -/
def EncryptsWell (S : Scheme N n l) (Enc : Gsw l N → Bool → Prop) (rand : Nat → Nat) (ap : Nat) (input : Option (List Byte)) : Prop :=
  ∀ bytes w, input = some bytes → Cli.HoldsBits ap bytes w → ∀ m b, w[m]? = some b → Enc (S.encrypt (rand m) b) b

end Homfa
