import Verif.Model.Stream

/-! # What an input stream is: a list of ciphertexts consumed from the front -/

namespace Homfa

variable {l N : Nat}

/-- The answers to a sequence of calls on a stream holding the ciphertexts `cs`, and whether some call had to abort
because the stream was exhausted (nothing happens after that). -/
def streamSpec : List (Gsw l N) → List StreamCall → List (StreamOut l N) × Bool
  | _, [] => ([], false)
  | cs, .size :: script => let r := streamSpec cs script; (.size cs.length :: r.1, r.2)
  | c :: cs, .next :: script => let r := streamSpec cs script; (.ctxt c :: r.1, r.2)
  | [], .next :: _ => ([], true)

/-- An execution has come to its end: no thread can take a step. -/
def StreamStuck (kind : StreamKind) (s : StreamState l N) : Prop := ∀ t, ¬ StreamStep kind s t

end Homfa
