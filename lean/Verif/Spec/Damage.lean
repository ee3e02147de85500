import Verif.Spec.Text

/-! # Text files some lines of which are damaged -/

namespace Homfa.Spec

/-- `ls'` are the lines `ls`, some of which were lost or replaced by lines that are no spec lines; other lines that are no spec lines may be added. -/
inductive Damaged : List (List Char) → List (List Char) → Prop
  | nil : Damaged [] []
  | keep {l : List Char} {ls ls' : List (List Char)} : Damaged ls ls' → Damaged (l :: ls) (l :: ls')
  | lose {l : List Char} {ls ls' : List (List Char)} : Damaged ls ls' → Damaged (l :: ls) ls'
  | junk {l' : List Char} {ls ls' : List (List Char)} : NotSpecLine l' → Damaged ls ls' → Damaged ls (l' :: ls')

/-- `text'` is `text` with some of its lines damaged. -/
def DamagedText (text text' : List Char) : Prop := ∃ ls ls', TextLines text ls ∧ TextLines text' ls' ∧ Damaged ls ls'

/-- No line of the text is a spec line. -/
def NoSpecLine (text : List Char) : Prop := ∃ ls, TextLines text ls ∧ ∀ l ∈ ls, NotSpecLine l

/-- the text with a carriage return before every newline -/
def crlf (text : List Char) : List Char := text.flatMap fun c => if c = '\n' then ['\r', '\n'] else [c]

end Homfa.Spec
