import Verif.Spec.Text

/-! # Text files whose end is missing -/

namespace Homfa.Spec

/-- The beginning `t` of `text` stops inside the last number of a line: after a digit, before another one. -/
def CutInLastNumber (text t : List Char) : Prop :=
  ∃ a d d' b, text = a ++ '\t' :: (d ++ (d' ++ '\n' :: b)) ∧ t = a ++ '\t' :: d ∧ Digits d ∧ Digits d'

/-- The beginning `t` of `text` stops before the end of the line that marks the initial state with `>`. -/
def CutBeforeInitial (text t : List Char) : Prop :=
  ∃ a l b, text = a ++ '>' :: (l ++ '\n' :: b) ∧ '\n' ∉ l ∧ t <+: a ++ '>' :: l ∧ t ≠ a ++ '>' :: l

end Homfa.Spec
