import Verif.Spec.Pieces
import Verif.Props.Block
import Verif.Props.Flut

/-!
# Histories of commands, and what each file holds

An account of the files kept by somebody who knows which commands have been run, but not the random numbers.  Keys are numbered in the
order in which they were made.
-/

namespace Homfa.Cli

variable {N n l : Nat}

/-- What a file holds. -/
inductive Content where
  /-- there is no such file -/
  | absent
  /-- these bytes -/
  | bytes (b : List Byte)
  /-- the `i`-th secret key -/
  | key (i : Nat)
  /-- an evaluation key made from the `i`-th secret key -/
  | bkey (i : Nat)
  /-- encryptions under the `i`-th key of the input `w`, of records of `ap` bits -/
  | ctxts (i ap : Nat) (w : List Byte)
  /-- a result that stands for the verdict `out` under the `i`-th key -/
  | result (i : Nat) (out : List Char)
  /-- anything -/
  | other

/-- The account: what each file holds, and how many keys have been made. -/
structure World where
  holds : String → Content
  keys : Nat

def World.set (w : World) (f : String) (c : Content) : World := { w with holds := fun g => if g = f then c else w.holds g }

/-- before the first command -/
def World.start (fs : Files) : World := ⟨fun f => match fs f with | some b => .bytes b | none => .absent, 0⟩

/-- The files are as the account says as far as files of known bytes go. -/
def World.Known (w : World) (fs : Files) : Prop :=
  (∀ f b, w.holds f = .bytes b → fs f = some b) ∧ ∀ f, w.holds f = .absent → fs f = none

/-- A run command, with parameters within the limits of the method for this spec and this input. -/
inductive RunLine (N l : Nat) (δ : Noise) (specB inB : List Byte) (ap : Nat) (B S C R : String) : List String → Prop
  | offline {boot : Nat} : 0 < boot → boot < 2 ^ 64 → δ.br + boot * δ.cmux + δ.ks + δ.ms < 2 ^ 30 → inB.length / recordBytes ap * ap < 2 ^ 31 →
      RunLine N l δ specB inB ap B S C R
        ["run", "offline", "--bkey", B, "--out", R, "--spec", S, "--in", C, "--bootstrapping-freq", toString boot]
  | reverse {freq boot : Nat} : 0 < freq → freq < 2 ^ 64 → 0 < boot → boot < 2 ^ 64 → δ.br + boot * δ.cmux + δ.ks + δ.ms < 2 ^ 30 →
      RunLine N l δ specB inB ap B S C R
        ["run", "reverse", "--bkey", B, "--out", R, "--spec", S, "--in", C, "--out-freq", toString freq,
          "--bootstrapping-freq", toString boot]
  | block {freq queue W : Nat} : inB ≠ [] → 0 < freq → freq < 2 ^ 64 → 0 < queue → queue ≤ 2 ^ 31 →
      (∀ g, Graph.fromIstream (textOf specB) = .ok g → LiveBits g W) → W < N → W < 31 → (queue + W) * δ.cmux + δ.cb < 2 ^ 29 →
      RunLine N l δ specB inB ap B S C R
        ["run", "block", "--bkey", B, "--out", R, "--spec", S, "--in", C, "--out-freq", toString freq, "--queue-size", toString queue]
  | flut {freq queue depth boot W : Nat} : 0 < freq → freq < 2 ^ 64 → 0 < queue → queue < 31 → 0 < depth → depth < 31 → 2 ^ depth ≤ N →
      0 < boot → boot < 2 ^ 64 → (∀ g, Graph.fromIstream (textOf specB) = .ok g → LiveMax g W) → W < 2 ^ depth →
      W * 2 ^ (queue / 2) * flutErr δ W queue (boot - 1) + queue * δ.cmux + δ.ks + δ.ms < 2 ^ 30 →
      RunLine N l δ specB inB ap B S C R
        ["run", "flut", "--bkey", B, "--out", R, "--spec", S, "--in", C, "--out-freq", toString freq, "--queue-size", toString queue,
          "--max-second-lut-depth", toString depth, "--bootstrapping-freq", toString boot]

/-- One command used as it is meant to be: the account before it, the account after it, and what it has to print. -/
inductive Step (L : Lib N n l) (δ : Noise) : World → ShellCmd → World → List Char → Prop
  /-- a new key -/
  | genkey {w K} : Word K → Step L δ w (.homfa ["genkey", "--out", K]) { w.set K (.key w.keys) with keys := w.keys + 1 } []
  /-- an evaluation key, from any copy of a secret key -/
  | genbkey {w K B i} : Word K → Word B → w.holds K = .key i → Step L δ w (.homfa ["genbkey", "--key", K, "--out", B]) (w.set B (.bkey i)) []
  /-- an input of whole records is encrypted -/
  | enc {w : World} {K I C : String} {i ap b} : Word K → Word I → Word C → w.holds K = .key i → w.holds I = .bytes b → I ≠ C → 0 < ap → ap < 2 ^ 64 →
      recordBytes ap ∣ b.length →
      Step L δ w (.homfa ["enc", "--ap", toString ap, "--key", K, "--in", I, "--out", C]) (w.set C (.ctxts i ap b)) []
  /-- a run, with an evaluation key that belongs to the key of the ciphertexts: the verdict is what `run plain` prints for the input -/
  | run {w : World} {B S C R : String} {i ap s b out X} : Word B → Word S → Word C → Word R → w.holds B = .bkey i → w.holds S = .bytes s →
      w.holds C = .ctxts i ap b → 8 * b.length * blockSize l N < 2 ^ 63 → RunLine N l δ s b ap B S C R X → PlainPrints L s b ap out →
      Step L δ w (.homfa X) (w.set R (.result i out)) []
  /-- a result is decrypted with its key -/
  | dec {w K R i out} : Word K → Word R → w.holds K = .key i → w.holds R = .result i out → Step L δ w (.homfa ["dec", "--key", K, "--in", R]) w out
  /-- any command that changes no file and whose text is determined by files of known bytes: `run plain`, the converters -/
  | known {w args o} : (∀ fs, w.Known fs → ∀ r, RunHomfa L [] fs args r ↔ r = .ok (fs, o)) → Step L δ w (.homfa args) w o
  /-- the text of a command goes to a file, which is emptied before the command starts -/
  | redirect {w args f w' o} : Step L δ (w.set f (.bytes [])) (.homfa args) w' o →
      Step L δ w (.redirect args f) (w'.set f (.bytes (o.map fun c => BitVec.ofNat 8 c.toNat))) []
  /-- a file is copied -/
  | copy {w : World} {src dst : String} : w.holds src ≠ .absent → w.holds src ≠ .other → Step L δ w (.copy src dst) (w.set dst (w.holds src)) []
  | remove {w f} : Step L δ w (.remove f) (w.set f .absent) []
  | write {w f b} : Step L δ w (.write f b) (w.set f (.bytes b)) []
  /-- bytes are appended to bytes -/
  | append {w : World} {src dst : String} {b b'} : src ≠ dst → w.holds src = .bytes b → w.holds dst = .bytes b' → Step L δ w (.append src dst) (w.set dst (.bytes (b' ++ b))) []
  /-- ciphertexts are appended to ciphertexts under the same key -/
  | appendCtxts {w : World} {src dst : String} {i ap b b'} : src ≠ dst → w.holds src = .ctxts i ap b → w.holds dst = .ctxts i ap b' →
      Step L δ w (.append src dst) (w.set dst (.ctxts i ap (b' ++ b))) []
  /-- appended to a file that does not exist -/
  | appendNew {w : World} {src dst : String} : w.holds src ≠ .absent → w.holds src ≠ .other → w.holds dst = .absent →
      Step L δ w (.append src dst) (w.set dst (w.holds src)) []

/-- Any number of commands used as they are meant to be. -/
inductive History (L : Lib N n l) (δ : Noise) : World → List ShellCmd → World → List Char → Prop
  | nil {w} : History L δ w [] w []
  | cons {w c w' o cs w'' out} : Step L δ w c w' o → History L δ w' cs w'' out → History L δ w (c :: cs) w'' (o ++ out)

end Homfa.Cli
