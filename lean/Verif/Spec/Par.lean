import Verif.Model.Par

/-!
# Independence of the schedule
-/

namespace Homfa

/-- The tasks `ts` give the result of running them one after the other, however their accesses interleave:
every interleaving that completes ends with the memory of the sequential run; if the sequential run succeeds, no interleaving throws or gets
stuck; no interleaving goes on forever. -/
structure ScheduleFree {α : Type} (ts : List (Prog α)) : Prop where
  complete : ∀ m us n, ParExec ts m us n → Done us → parFor ts m = .ok n
  safe : ∀ m m', parFor ts m = .ok m' → ∀ us n, ParExec ts m us n → ¬ Throws us n ∧ (Done us ∨ ∃ vs k, ParStep us n vs k)
  finite : ∀ f : Nat → List (Prog α) × Mem α, (f 0).1 = ts → ∃ i, ¬ ParStep (f i).1 (f i).2 (f (i + 1)).1 (f (i + 1)).2

end Homfa
