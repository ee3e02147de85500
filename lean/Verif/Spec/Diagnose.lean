import Verif.Spec.Text
/-!
# Specification: what the log says about a bad specification
-/

namespace Homfa.Spec

/-- A line of the log: information, an error message, or a backtrace (whose text is left open). -/
inductive Note where
  | info (text : List Char)
  | error (text : List Char)
  | backtrace
  deriving DecidableEq

/-- The notes about the skipped lines among `lines`, in order. -/
inductive SkipNotes : List (List Char) → List Note → Prop
  | nil : SkipNotes [] []
  | skip {l ls notes} : NotSpecLine l → SkipNotes ls notes → SkipNotes (l :: ls) (.info ("Skip line \"".toList ++ l ++ "\"".toList) :: notes)
  | state {l ls notes} : ¬ NotSpecLine l → SkipNotes ls notes → SkipNotes (l :: ls) notes

/-- The numeral of a number. -/
def numeral (n : Nat) : List Char := Nat.toDigits 10 n

/-- What is said about a wrong state number: the number on the line, and the one it should be. -/
def numberMessage (found expected : Nat) : List Char := "Invalid state number: ".toList ++ numeral found ++ " != ".toList ++ numeral expected

/-- What is said about an empty item of a list: nothing stands between "got" and the bracket but two blanks. -/
def itemMessage : List Char := "Expected number as comma separted state, but got  (stoi)".toList

/-- The line `l`, after `k` states, is at fault, and `m` says why. -/
inductive Fault (k : Nat) (l : List Char) : List Char → Prop
  | item {ini fin : Bool} {num t0 t1 : List Char} : SpecLine l ini num fin t0 t1 → (EmptyItem t0 ∨ (∃ on0, Targets t0 on0) ∧ EmptyItem t1) → Fault k l itemMessage
  | number {ini fin : Bool} {num t0 t1 : List Char} {on0 on1 : List Nat} : SpecLine l ini num fin t0 t1 → Targets t0 on0 → Targets t1 on1 →
      value num < 2 ^ 31 → value num ≠ k → Fault k l (numberMessage (value num) k)

/-- The end of the log of a program that gives up with the message `m`. -/
def lastWords (m : List Char) : List Note := [.error m, .error "Preparing backtrace...".toList, .backtrace]

/-- A line of an AT&T file has the shape of an edge or of a final state, whatever its numbers. -/
def AttShape (l : List Char) : Prop := Digits l ∨ ∃ a b c, Digits a ∧ Digits b ∧ (c = '0' ∨ c = '1') ∧ l = a ++ '\t' :: (b ++ ['\t', c])

end Homfa.Spec
