/-!
# Specification of a disjoint-set structure

Independent of the code: the equivalence relation generated by a list of united pairs.
-/

namespace Homfa.Spec

/-- `x` and `y` are connected by the pairs `ps` (reflexive, symmetric, transitive closure). -/
inductive Conn (ps : List (Nat × Nat)) : Nat → Nat → Prop
  | refl (x : Nat) : Conn ps x x
  | pair {x y : Nat} : (x, y) ∈ ps → Conn ps x y
  | symm {x y : Nat} : Conn ps x y → Conn ps y x
  | trans {x y z : Nat} : Conn ps x y → Conn ps y z → Conn ps x z

/-- `k` is the number of classes of the relation `R` on `{0, ..., n-1}`: there are `k` pairwise unrelated elements and
every element is related to one of them. -/
def NumClasses (R : Nat → Nat → Prop) (n k : Nat) : Prop :=
  ∃ reps : List Nat, reps.length = k ∧ (∀ x ∈ reps, x < n) ∧ reps.Pairwise (fun x y => ¬ R x y) ∧
    ∀ x < n, ∃ y ∈ reps, R x y

/-- A call on a disjoint-set object. -/
inductive UfCall
  | unite (x y : Nat)
  | find (x : Nat)

/-- The pairs united by a history of calls. -/
def united : List UfCall → List (Nat × Nat)
  | [] => []
  | .unite x y :: cs => (x, y) :: united cs
  | .find _ :: cs => united cs

/-- All arguments of the history are elements of `{0, ..., n-1}`. -/
def UfCall.InRange (n : Nat) : UfCall → Prop
  | .unite x y => x < n ∧ y < n
  | .find x => x < n

end Homfa.Spec
