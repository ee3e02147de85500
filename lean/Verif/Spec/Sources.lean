import Verif.Spec.Cli
import Verif.Model.Shell

/-! # The files a command line names as sources, and when their contents are of use -/

namespace Homfa.Cli

variable {N n l : Nat}

/-- What a file is supposed to hold. -/
inductive Source where
  | secretKey | evaluationKey | result | spec
  deriving DecidableEq

/-- keys, results and specs to be read by a command, as the manual would tell -/
def Cmd.sources (i : List Item) : Cmd → List (String × Source)
  | .genbkey | .enc => [(opt i "--key", .secretKey)]
  | .dec => [(opt i "--key", .secretKey), (opt i "--in", .result)]
  | .runOffline | .runReverse | .runBlock => [(opt i "--bkey", .evaluationKey), (opt i "--spec", .spec)]
  | .runFlut => [(opt i "--bkey", .evaluationKey), (opt i "--spec", .spec)] ++
      (opt? i "--debug-secret-key").toList.map fun f => (f, .secretKey)
  | .runPlain => [(opt i "--spec", .spec)]
  | .spec2spec | .spec2dot | .spec2att => ((args i)[0]?.toList.filter (· ≠ "-")).map fun f => (f, .spec)
  | _ => []

/-- The file exists and holds a key, a result or a spec. -/
def Source.Holds (L : Lib N n l) (fs : Files) (f : String) : Source → Prop
  | .secretKey => ∃ b k, fs f = some b ∧ L.loadKey b = some k
  | .evaluationKey => ∃ b k, fs f = some b ∧ L.loadBKey b = some k
  | .result => ∃ b c, fs f = some b ∧ L.loadRes b = some c
  | .spec => ∃ b g, fs f = some b ∧ Graph.fromIstream (textOf b) = .ok g

end Homfa.Cli
