import Verif.Model.Block
import Verif.Model.Flut

/-!
# What a runner holds between two calls

Not counted: `workspace_table1_`, `workspace_table2_` (src/online_dfa.hpp:66) and `workspace1_` to `workspace3_` (118-119), which are filled anew before
they are read in each evaluation and which the model has as local variables.
-/

namespace Homfa

variable {N l : Nat}

/-- The ciphertexts an OFFLINE or REVERSE runner holds. -/
def Backstream.held (r : Backstream N) : Nat := r.weight.length + r.workspace.length

/-- The state numbers an OFFLINE runner holds in its lists of states by depth. -/
def Backstream.depthEntries (r : Backstream N) : Nat := (r.graph.statesAtDepth.map List.length).sum

/-- The ciphertexts a BLOCK runner holds: pending inputs, the encrypted state, and scratch space. -/
def Block.held (r : Block N l) : Nat := r.queued.length + r.selector.toList.length + r.ws4.length

/-- The ciphertexts a FLUT runner holds: one weight a state, and pending inputs. -/
def Flut.held (r : Flut N l) : Nat := r.weight.length + r.queued.length

/-- The state numbers a FLUT runner holds in its transition tables. -/
def Flut.tableEntries (r : Flut N l) : Nat := (r.memo.map List.length).sum

end Homfa
