import Verif.Spec.Shell

/-! # The converters on the command line -/

namespace Homfa.Cli

/-- the words of a converter, without the name of a file -/
inductive Converter : List String → Prop
  | spec2spec {flags : List String} : (∀ f ∈ flags, f = "--minimized" ∨ f = "--reversed" ∨ f = "--negated") → Converter ("spec2spec" :: flags)
  | spec2dot : Converter ["spec2dot"]
  | spec2att : Converter ["spec2att"]
  | att2spec : Converter ["att2spec"]

/-- The command line always ends normally, prints `text` and changes no file. -/
def JustPrints {N n l : Nat} (L : Lib N n l) (stdin : List Char) (fs : Files) (toks : List String) (text : List Char) : Prop :=
  ∀ r, RunHomfa L stdin fs toks r ↔ r = .ok (fs, text)

end Homfa.Cli
