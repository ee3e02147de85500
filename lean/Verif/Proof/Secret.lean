import Verif.Model.Commands

/-! # The run commands do not look at the secret key -/

namespace Homfa

variable {N n l : Nat}

/-- the same evaluation operations with another secret key -/
def Scheme.withSecret (S : Scheme N n l) (sk : SecretKey N n) (enc : Nat → Bool → Gsw l N) : Scheme N n l :=
  { S with sk := sk, encrypt := enc }

variable (S : Scheme N n l) (sk : SecretKey N n) (enc : Nat → Bool → Gsw l N)

theorem lutTask_secret : lutTask (S.withSecret sk enc) = lutTask S := rfl

theorem lutLoop_secret (k : Nat) : lutLoop (S.withSecret sk enc) k = lutLoop S k := by
  funext cs
  induction cs with
  | nil => rfl
  | cons c cs ih =>
    funext i tmp table timer
    simp only [lutLoop, lutTask_secret, ih]

theorem lookupTableTimer_secret : lookupTableTimer (S.withSecret sk enc) = lookupTableTimer S := by
  funext table inputs workspace timer
  simp only [lookupTableTimer, lutLoop_secret]

theorem lookupTable_secret : lookupTable (S.withSecret sk enc) = lookupTable S := by
  funext table inputs workspace
  simp only [lookupTable, lookupTableTimer_secret]

theorem blockTask_secret : blockTask (S.withSecret sk enc) = blockTask S := rfl

theorem cbTask_secret : cbTask (S.withSecret sk enc) = cbTask S := rfl

theorem blockPropagate_secret (g : Graph) (q : List (Gsw l N)) (d : List (List Nat)) (k : Nat) :
    blockPropagate (S.withSecret sk enc) g q d k = blockPropagate S g q d k := by
  induction k with
  | zero => rfl
  | succ k ih =>
    funext w out timer
    simp only [blockPropagate, blockTask_secret, ih]

theorem blockEvalQueued_secret : Block.evalQueued (S.withSecret sk enc) = Block.evalQueued S := by
  funext r
  simp only [Block.evalQueued, blockPropagate_secret, cbTask_secret, lookupTableTimer_secret]

theorem blockEvalOne_secret : Block.evalOne (S.withSecret sk enc) = Block.evalOne S := by
  funext r c
  simp only [Block.evalOne, blockEvalQueued_secret]

theorem blockResult_secret : Block.result (S.withSecret sk enc) = Block.result S := by
  funext r
  simp only [Block.result, blockEvalQueued_secret]

theorem splitTask_secret : splitTask (S.withSecret sk enc) = splitTask S := rfl

theorem flutEvalQueued_secret : Flut.evalQueued (S.withSecret sk enc) = Flut.evalQueued S := by
  funext r
  simp only [Flut.evalQueued, splitTask_secret, lookupTable_secret]

theorem flutEvalOne_secret : Flut.evalOne (S.withSecret sk enc) = Flut.evalOne S := by
  funext r c
  simp only [Flut.evalOne, flutEvalQueued_secret]

theorem flutResult_secret : Flut.result (S.withSecret sk enc) = Flut.result S := by
  funext r
  simp only [Flut.result, flutEvalQueued_secret]

theorem backstreamEval_secret : Backstream.eval (S.withSecret sk enc) = Backstream.eval S := rfl

end Homfa
