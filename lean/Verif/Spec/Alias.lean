import Verif.Spec.Cli

/-! # The same command line with another output file -/

namespace Homfa.Cli

/-- the items with `R` given for `--out` -/
def redirect (R : String) (items : List Item) : List Item := items.map fun
  | .opt m v => if m = "--out" then .opt m R else .opt m v
  | i => i

end Homfa.Cli
