import Verif.Spec.Sources
import Verif.Spec.Diagnose
/-!
# Specification: what homfa may say when it gives up
-/

namespace Homfa.Cli
open Homfa.Spec

variable {N n l : Nat}

/-- The text a converter reads: that of the named file, or standard input if there is no name or the name is a dash. -/
def ConverterText (stdin : List Char) (fs : Files) (items : List Item) (t : List Char) : Prop :=
  (((args items)[0]? = none ∨ (args items)[0]? = some "-") ∧ t = stdin) ∨ ∃ f b, (args items)[0]? = some f ∧ f ≠ "-" ∧ fs f = some b ∧ t = textOf b

/-- The text of the specification that a command line names. -/
def Cmd.SpecText (stdin : List Char) (fs : Files) (items : List Item) (t : List Char) : Cmd → Prop
  | .runOffline | .runReverse | .runBlock | .runFlut | .runPlain => ∃ b, fs (opt items "--spec") = some b ∧ t = textOf b
  | .spec2spec | .spec2dot | .spec2att => ConverterText stdin fs items t
  | _ => False

/-- The text has a line at fault after lines that are not. -/
def FaultyText (text : List Char) : Prop := ∃ a line b rows m, TextLines text (a ++ line :: b) ∧ SpecRows 0 a rows ∧ Fault rows.length line m

/-- The states in which the automaton can be after `k` bits. -/
def StatesAfter (g : Graph) (k : Nat) (qs : List Nat) : Prop :=
  qs.Nodup ∧ ∀ q, q ∈ qs ↔ ∃ w : List Bool, w.length = k ∧ w.foldlM g.nextState g.initialState = .ok q

/-- What a command may say before it gives up, and what is then so. -/
inductive Complaint (L : Lib N n l) (stdin : List Char) (fs : Files) (c : Cmd) (items : List Item) : List Char → Prop
  /-- a file named as a key or as a result exists but holds none -/
  | archive {f s b} : (f, s) ∈ c.sources items → s ≠ .spec → fs f = some b → ¬ s.Holds L fs f → Complaint L stdin fs c items ("Invalid archive: ".toList ++ f.toList)
  /-- a line of the specification is at fault, and the lines before it are not -/
  | spec {text line m a b rows} : c.SpecText stdin fs items text → TextLines text (a ++ line :: b) → SpecRows 0 a rows → Fault rows.length line m →
      Complaint L stdin fs c items m
  /-- a line of the AT&T file is neither an edge nor a final state -/
  | att {text line a b} : c = .att2spec → ConverterText stdin fs items text → TextLines text (a ++ line :: b) → (∀ x ∈ a, ∃ i, AttLine x i) → ¬ AttShape line →
      Complaint L stdin fs c items ("Invalid line: ".toList ++ line)
  /-- there is no such AT&T file -/
  | noFile {f} : c = .att2spec → (args items)[0]? = some f → f ≠ "-" → fs f = none → Complaint L stdin fs c items ("Invalid filename: ".toList ++ f.toList)
  /-- after some number of bits the automaton can be in `qs.length` states, which are too many -/
  | states {text g k qs} : c = .runFlut → c.SpecText stdin fs items text → Graph.fromIstream text = .ok g → StatesAfter g k qs →
      2 ^ num items "--max-second-lut-depth" ≤ qs.length →
      Complaint L stdin fs c items ("The number of next live states (".toList ++ numeral qs.length ++ ") must be smaller than 2^max_second_lut_depth (".toList ++
        numeral (2 ^ num items "--max-second-lut-depth") ++ ")".toList)

end Homfa.Cli
