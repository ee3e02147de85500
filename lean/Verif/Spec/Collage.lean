import Verif.Spec.Shell
import Verif.Spec.Input

/-! # Ciphertext files put together from parts of others -/

namespace Homfa.Cli

variable {N n l : Nat}

/-- an input of records of one bit: one byte for each -/
def bitBytes (w : List Bool) : List Byte := w.map fun b => if b then 1#8 else 0#8

/-- `part` is the ciphertext that `homfa enc`, with the key saved as `keyB`, wrote for one bit of some input, a bit with the value `b`: at the
place of that bit in its output, in a run that ended normally. -/
def Encrypted (L : Lib N n l) (keyB part : List Byte) (b : Bool) : Prop :=
  ∃ (fs fs1 : Files) (K I C : String) (ap : Nat) (records : List (List Byte)) (file : List Byte) (i : Nat),
    Word K ∧ Word I ∧ Word C ∧ I ≠ C ∧ 0 < ap ∧ ap < 2 ^ 64 ∧ fs K = some keyB ∧ fs I = some records.flatten ∧
    (∀ r ∈ records, r.length = recordBytes ap) ∧
    RunHomfa L [] fs ["enc", "--ap", toString ap, "--key", K, "--in", I, "--out", C] (.ok (fs1, [])) ∧ fs1 C = some file ∧
    (records.flatMap (recordBits ap))[i]? = some b ∧ part = (file.drop (i * blockSize l N)).take (blockSize l N)

end Homfa.Cli
