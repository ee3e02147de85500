import Verif.Proof.Trace
import Verif.Proof.Scheme

/-!
# C63: what the server does depends on the number of ciphertexts only

`S` and `S'` are any two schemes with the same sizes, sound or not, with any keys; `cs` and `cs'` any two lists of ciphertexts of the same
length, proper encryptions or not.  Everything an onlooker sees of a run but the ciphertexts themselves is then the same: whether it succeeds,
how it fails, which files it writes and how many operations of which kind it performs.
-/

namespace Homfa

variable {N n l : Nat}

/-- **C63**, `run offline`: the same success or the same failure -/
theorem C63_offline (S S' : Scheme N n l) (cs cs' : List (Gsw l N)) (h : cs.length = cs'.length) (spec : List Char) (size boot : Nat)
    (sanitize : Bool) : (doRunOffline S spec size cs boot sanitize).map (fun _ => ()) =
      (doRunOffline S' spec size cs' boot sanitize).map (fun _ => ()) :=
  (doRunOffline_alike S S' spec size boot sanitize cs cs' h).map_eq fun _ _ _ => rfl

/-- **C63**, `run block`: the same success or the same failure -/
theorem C63_block (S S' : Scheme N n l) (cs cs' : List (Gsw l N)) (h : cs.length = cs'.length) (spec : List Char) (queue : Nat)
    (sanitize : Bool) : (doRunBlock S spec cs queue sanitize).map (fun _ => ()) = (doRunBlock S' spec cs' queue sanitize).map (fun _ => ()) :=
  (doRunBlock_alike S S' spec queue sanitize cs cs' h).map_eq fun _ _ _ => rfl

/-- **C63**, `run reverse`: the same files in the same order, or the same failure -/
theorem C63_reverse (S S' : Scheme N n l) (cs cs' : List (Gsw l N)) (h : cs.length = cs'.length) (spec : List Char) (size : Nat)
    (outFile outDir : Option String) (outFreq boot : Nat) (isRev sanitize : Bool) :
    (doRunReverse S spec size cs outFile outDir outFreq boot isRev sanitize).map (fun fs => fs.map (·.1)) =
      (doRunReverse S' spec size cs' outFile outDir outFreq boot isRev sanitize).map (fun fs => fs.map (·.1)) :=
  (doRunReverse_alike S S' spec size outFile outDir outFreq boot isRev sanitize cs cs' h).map_eq fun _ _ h => h

/-- **C63**, `run flut`: the same files in the same order, or the same failure -/
theorem C63_flut (S S' : Scheme N n l) (cs cs' : List (Gsw l N)) (h : cs.length = cs'.length) (spec : List Char) (size : Nat)
    (outFile outDir : Option String) (outFreq queue boot : Nat) (maxSecond : Option Nat) (sanitize : Bool) :
    (doRunFlut S spec size cs outFile outDir outFreq queue boot maxSecond sanitize).map (fun fs => fs.map (·.1)) =
      (doRunFlut S' spec size cs' outFile outDir outFreq queue boot maxSecond sanitize).map (fun fs => fs.map (·.1)) :=
  (doRunFlut_alike S S' spec size outFile outDir outFreq queue boot maxSecond sanitize cs cs' h).map_eq fun _ _ h => h

/-- **C63**, OFFLINE and REVERSE: the same operations in the same numbers, recorded after any number of ciphertexts -/
theorem C63_backstream_work (S S' : Scheme N n l) (cs cs' : List (Gsw l N)) (h : cs.length = cs'.length) (r : Backstream N) :
    (cs.foldlM (fun (r : Backstream N) c => r.eval S c) r).map (·.timer) = (cs'.foldlM (fun (r : Backstream N) c => r.eval S' c) r).map (·.timer) :=
  (foldlM_alike (fun _ _ c c' hr => Backstream.eval_alike S S' hr c c') h (Backstream.Same.refl r)).map_eq fun _ _ h => h.timer

/-- **C63**, BLOCK: the same operations in the same numbers, recorded after any number of ciphertexts -/
theorem C63_block_work (S S' : Scheme N n l) (cs cs' : List (Gsw l N)) (h : cs.length = cs'.length) (r : Block N l) :
    (cs.foldlM (fun (r : Block N l) c => r.evalOne S c) r).map (·.timer) = (cs'.foldlM (fun (r : Block N l) c => r.evalOne S' c) r).map (·.timer) :=
  (foldlM_alike (fun _ _ c c' hr => Block.evalOne_alike S S' hr c c') h (Block.Same.refl r)).map_eq fun _ _ h => h.timer

/-- **C63**, the four commands, whether they succeed or fail: the same functions of the library are called in the same order -/
theorem C63_calls (S S' : Scheme N n l) (cs cs' : List (Gsw l N)) (h : cs.length = cs'.length) (spec : List Char) (size : Nat)
    (outFile outDir : Option String) (outFreq queue boot : Nat) (maxSecond : Option Nat) (isRev sanitize : Bool) :
    (doRunOfflineC spec size cs boot sanitize).kinds S = (doRunOfflineC spec size cs' boot sanitize).kinds S' ∧
    (doRunReverseC spec size cs outFile outDir outFreq boot isRev sanitize).kinds S =
      (doRunReverseC spec size cs' outFile outDir outFreq boot isRev sanitize).kinds S' ∧
    (doRunBlockC spec cs queue sanitize).kinds S = (doRunBlockC spec cs' queue sanitize).kinds S' ∧
    (doRunFlutC spec size cs outFile outDir outFreq queue boot maxSecond sanitize).kinds S =
      (doRunFlutC spec size cs' outFile outDir outFreq queue boot maxSecond sanitize).kinds S' :=
  ⟨(doRunOfflineC_alike spec size boot sanitize cs cs' h).kinds_eq S S',
    (doRunReverseC_alike spec size outFile outDir outFreq boot isRev sanitize cs cs' h).kinds_eq S S',
    (doRunBlockC_alike spec queue sanitize cs cs' h).kinds_eq S S',
    (doRunFlutC_alike spec size outFile outDir outFreq queue boot maxSecond sanitize cs cs' h).kinds_eq S S'⟩

/-- **C63**, the client: the size of the ciphertext file depends on the size of the input only -/
theorem C63_enc (S S' : Scheme N n l) (rand rand' : Nat → Nat) (input input' : List Byte) (h : input.length = input'.length) (numAp : Nat) :
    (doEnc S rand (some input) numAp).map List.length = (doEnc S' rand' (some input') numAp).map List.length :=
  (doEnc_alike S S' rand rand' input input' h numAp).map_eq fun _ _ h => h

/-- Encryptions of different bits under different keys, and the DFA of a parity: both runs write the file named by `--out`. -/
example : let S := toyScheme 4 2 1 ⟨fun _ => 0#32, fun _ => 0#32⟩
    let S' := toyScheme 4 2 1 ⟨fun _ => 1#32, fun _ => 1#32⟩
    let spec := ">0* 0 1\n1 1 0\n".toList
    S.encrypt 0 true ≠ S'.encrypt 0 false ∧
    (doRunReverse S spec 1 [S.encrypt 0 true] (some "f") none 1 1 true false).map (fun fs => fs.map (·.1)) = .ok [.file "f"] ∧
    (doRunReverse S' spec 1 [S'.encrypt 0 false] (some "f") none 1 1 true false).map (fun fs => fs.map (·.1)) = .ok [.file "f"] := by
  refine ⟨?_, ?_, ?_⟩
  · intro h
    have := congrFun (congrFun (congrFun h 0) 0) 0
    revert this
    decide +kernel
  · decide +kernel
  · decide +kernel

end Homfa
