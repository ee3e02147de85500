import Verif.Model.Crash
import Verif.Spec.Input
import Verif.Spec.Shell

/-! # Words for statements about interrupted runs -/

namespace Homfa.Cli

variable {N n l : Nat}

/-- The bits in an input file, in order: those of its whole records and those of a last record that is cut off. -/
def HoldsBits (ap : Nat) (bytes : List Byte) (w : List Bool) : Prop :=
  ∃ (rs : List (List Byte)) (last : List Byte), bytes = rs.flatten ++ last ∧ (∀ r ∈ rs, r.length = recordBytes ap) ∧
    last.length < recordBytes ap ∧ w = rs.flatMap (recordBits ap) ++ recordBits (8 * last.length) last

/-- cereal refuses an archive whose end is missing -/
structure Lib.RejectsTruncated (L : Lib N n l) : Prop where
  key : ∀ k b, b <+: L.saveKey k → b ≠ L.saveKey k → L.loadKey b = none
  bkey : ∀ k b, b <+: L.saveBKey k → b ≠ L.saveBKey k → L.loadBKey b = none
  res : ∀ c b, b <+: L.saveRes c → b ≠ L.saveRes c → L.loadRes b = none

/-- `lines` are the command lines `cmds` in order, each attempted any number of times with any end, the last time with a normal end; `ends`
tells which attempts ended normally. -/
inductive Retried : List (List String) → List (List String) → List Bool → Prop
  | nil : Retried [] [] []
  | again {c cmds lines e ends} : Retried (c :: cmds) lines ends → Retried (c :: cmds) (c :: lines) (e :: ends)
  | done {c cmds lines ends} : Retried cmds lines ends → Retried (c :: cmds) (c :: lines) (true :: ends)

end Homfa.Cli
