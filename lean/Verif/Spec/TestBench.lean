import Verif.Model.TestBench
import Verif.Spec.BenchLog
import Verif.Spec.Shell

/-! # What the regression test of the benchmark program should tell -/

namespace Homfa.Cli

/-- A file name as it stands in the script: not an option, on one line. -/
def ScriptName (f : String) : Prop := Word f ∧ '\n' ∉ f.toList

/-- The line about a result. -/
def resultLine (b : Bool) : List Char := if b then "result,1".toList else "result,0".toList

/-- The spec file is one of the automaton `g`, which has states. -/
def SpecFile (fs : Files) (f : String) (g : Graph) : Prop := ∃ b, fs f = some b ∧ Graph.fromIstream (textOf b) = .ok g ∧ 0 < g.size

/-- The input file consists of complete records over `ap` propositions, with the bits `w`. -/
def InputFile (fs : Files) (f : String) (ap : Nat) (w : List Bool) : Prop :=
  ∃ rs : List (List Byte), fs f = some rs.flatten ∧ (∀ r ∈ rs, r.length = recordBytes ap) ∧ w = rs.flatMap (recordBits ap)

/-- The lengths at which a result is printed when there is one after every 30 inputs. -/
def reported (len : Nat) : List Nat := (List.range (len + 1)).filter fun i => decide (0 < i ∧ 30 ∣ i)

/-- the bytes of a text -/
def bytesOf (s : String) : List Byte := s.toList.map fun c => BitVec.ofNat 8 c.toNat

end Homfa.Cli
