import Verif.Spec.Automata

/-!
# What a spec file and an AT&T file are, independently of the code

Text is a list of characters.
-/

namespace Homfa.Spec

/-- `ls` are the lines of `text`: each line is ended by a newline, which may be missing after a non-empty last line. -/
def TextLines (text : List Char) (ls : List (List Char)) : Prop :=
  (∀ l ∈ ls, '\n' ∉ l) ∧
  (text = ls.flatMap (· ++ ['\n']) ∨
    (text ++ ['\n'] = ls.flatMap (· ++ ['\n']) ∧ ls ≠ [] ∧ ls.getLast? ≠ some []))

/-- blank characters: space, tab, newline, vertical tab, form feed, carriage return -/
def Blank (c : Char) : Prop := c ∈ [' ', '\t', '\n', '\x0b', '\x0c', '\r']

/-- a non-empty string of decimal digits -/
def Digits (s : List Char) : Prop := s ≠ [] ∧ ∀ c ∈ s, c.isDigit = true

/-- value of a decimal numeral -/
def value (s : List Char) : Nat := s.foldl (fun v c => 10 * v + (c.toNat - '0'.toNat)) 0

/-- the shape of a target field: `_` or a non-empty string of digits and commas -/
def TargetField (t : List Char) : Prop := t = ['_'] ∨ (t ≠ [] ∧ ∀ c ∈ t, c.isDigit = true ∨ c = ',')

/-- A spec line: optional `>`, state number, optional `*`, blanks, target field, blanks, target field. -/
def SpecLine (line : List Char) (ini : Bool) (num : List Char) (fin : Bool) (t0 t1 : List Char) : Prop :=
  ∃ b1 b2, line = (if ini then ['>'] else []) ++ (num ++ ((if fin then ['*'] else []) ++ (b1 ++ (t0 ++ (b2 ++ t1))))) ∧
    Digits num ∧ TargetField t0 ∧ TargetField t1 ∧
    b1 ≠ [] ∧ (∀ c ∈ b1, Blank c) ∧ b2 ≠ [] ∧ (∀ c ∈ b2, Blank c)

/-- a line that is not a spec line (comments, blank lines, anything else) -/
def NotSpecLine (line : List Char) : Prop := ¬ ∃ ini num fin t0 t1, SpecLine line ini num fin t0 t1

/-- items separated by commas -/
def joinItems : List (List Char) → List Char
  | [] => []
  | [i] => i
  | i :: j :: is => i ++ ',' :: joinItems (j :: is)

/-- The state list a target field denotes: `_` is the empty list, otherwise decimal numbers that fit in an `int`,
separated by commas (one trailing comma is allowed). -/
def Targets (t : List Char) (l : List Nat) : Prop :=
  (t = ['_'] ∧ l = []) ∨
  (∃ items : List (List Char), items ≠ [] ∧ (∀ i ∈ items, Digits i ∧ value i < 2 ^ 31) ∧
    (t = joinItems items ∨ t = joinItems items ++ [',']) ∧ l = items.map value)

/-- The first item of the field that is not a number fitting an `int` is empty: there is a comma right at the start or after another one. -/
def EmptyItem (t : List Char) : Prop :=
  ∃ (items : List (List Char)) (rest : List Char), (∀ i ∈ items, Digits i ∧ value i < 2 ^ 31) ∧
    t = items.flatMap (· ++ [',']) ++ ',' :: rest

/-- One state of a spec: marks and successor lists on 0 and on 1. -/
structure Row where
  ini : Bool
  fin : Bool
  on0 : List Nat
  on1 : List Nat

/-- The lines `ls` are a well-formed spec whose states, numbered from `k` on, are `rows`. -/
inductive SpecRows : Nat → List (List Char) → List Row → Prop
  | nil (k : Nat) : SpecRows k [] []
  | skip {k : Nat} {l : List Char} {ls : List (List Char)} {rows : List Row} :
      NotSpecLine l → SpecRows k ls rows → SpecRows k (l :: ls) rows
  | row {k : Nat} {l : List Char} {ls : List (List Char)} {rows : List Row} {ini fin : Bool} {num t0 t1 : List Char}
      {on0 on1 : List Nat} :
      SpecLine l ini num fin t0 t1 → value num = k → k < 2 ^ 31 → Targets t0 on0 → Targets t1 on1 →
      SpecRows (k + 1) ls rows → SpecRows k (l :: ls) (⟨ini, fin, on0, on1⟩ :: rows)

/-- Initial states of a spec: the rows marked `>`, or state 0 when there is no mark. -/
def InitialRow (rows : List Row) (q : Nat) : Prop :=
  (∃ r, rows[q]? = some r ∧ r.ini = true) ∨ ((∀ r ∈ rows, r.ini = false) ∧ q = 0)

/-- Final states of a spec: the rows marked `*`. -/
def FinalRow (rows : List Row) (q : Nat) : Prop := ∃ r, rows[q]? = some r ∧ r.fin = true

/-- The transition relation of a spec. -/
def rowStep (rows : List Row) (p : Nat) (b : Bool) (q : Nat) : Prop :=
  ∃ r, rows[p]? = some r ∧ q ∈ (if b then r.on1 else r.on0)

/-- A deterministic spec: every row has one successor on each letter, and one row is initial. -/
def DetRows (rows : List Row) : Prop :=
  (∀ r ∈ rows, r.on0.length = 1 ∧ r.on1.length = 1) ∧ ∃ q, ∀ p, InitialRow rows p ↔ p = q

/-- The spec refers to a state without a row: in a deterministic spec anywhere, else on some path from an initial state. -/
def RefersOutside (rows : List Row) : Prop :=
  (DetRows rows ∧ ∃ r ∈ rows, ∃ q ∈ r.on0 ++ r.on1, rows.length ≤ q) ∨
  (¬ DetRows rows ∧ ∃ p w q, InitialRow rows p ∧ Path (rowStep rows) p w q ∧ rows.length ≤ q)

end Homfa.Spec

namespace Homfa.Spec

/-- What a line of an AT&T file says: an edge, or that a state is final. -/
inductive AttItem
  | edge (src dst : Nat) (letter : Bool)
  | final (q : Nat)

/-- A line of an AT&T file: `src TAB dst TAB letter` or a single state number; numbers fit in an `int`. -/
def AttLine (l : List Char) : AttItem → Prop
  | .edge src dst letter => ∃ a b, Digits a ∧ Digits b ∧ value a = src ∧ value b = dst ∧ src < 2 ^ 31 ∧ dst < 2 ^ 31 ∧
      l = a ++ '\t' :: (b ++ ['\t', if letter then '1' else '0'])
  | .final q => Digits l ∧ value l = q ∧ q < 2 ^ 31

/-- The transition relation of an AT&T file. -/
def attStep (items : List AttItem) (p : Nat) (b : Bool) (q : Nat) : Prop := AttItem.edge p q b ∈ items

end Homfa.Spec
