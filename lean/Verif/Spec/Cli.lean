import Verif.Model.Cli

/-!
# The command line as the user manual would describe it

What may follow each command word, what it means, and which function is to run with which arguments.  Independent of the way the program
registers and parses its options.
-/

namespace Homfa.Cli

/-- What a user writes after the command word: an option with its value, a flag, or a plain argument. -/
inductive Item where
  | opt (name value : String)
  | flag (name : String)
  | arg (value : String)
  deriving DecidableEq

def Item.words : Item → List String
  | .opt n v => [n, v]
  | .flag n => [n]
  | .arg v => [v]

/-- the words of a list of items -/
def line (items : List Item) : List String := items.flatMap Item.words

/-- What kind of value is expected. -/
inductive Kind where
  /-- any word that does not begin with a dash, or a single dash -/
  | text
  /-- the name of a file that exists -/
  | file
  /-- a number that fits in 64 bits, in decimal -/
  | number
  /-- such a number greater than 0 -/
  | positive
  deriving DecidableEq

/-- `v` is a decimal number -/
def IsNumber (v : String) (k : Nat) : Prop := v.toList = Nat.toDigits 10 k ∧ k < 2 ^ 64

def Kind.Ok (ex : String → Bool) (k : Kind) (v : String) : Prop :=
  (v.toList.head? = some '-' → v = "-") ∧ match k with
    | .text => True
    | .file => ex v = true
    | .number => ∃ m, IsNumber v m
    | .positive => ∃ m, IsNumber v m ∧ 0 < m

/-- The manual entry of a command. -/
structure Usage where
  required : List (String × Kind)
  optional : List (String × Kind)
  flags : List String
  requiredArgs : List Kind
  optionalArgs : List Kind
  deriving DecidableEq

/-- the names of the options given -/
def optNames (items : List Item) : List String := items.filterMap fun
  | .opt n _ => some n
  | _ => none

/-- the plain arguments given -/
def args (items : List Item) : List String := items.filterMap fun
  | .arg v => some v
  | _ => none

/-- The items follow the manual entry: only known options and flags, no option twice, all required ones, values of the right kind. -/
structure Usage.Follows (u : Usage) (ex : String → Bool) (items : List Item) : Prop where
  known : ∀ n v, .opt n v ∈ items → ∃ k : Kind, (n, k) ∈ u.required ++ u.optional ∧ k.Ok ex v
  once : (optNames items).Nodup
  all : ∀ n k, (n, k) ∈ u.required → ∃ v, .opt n v ∈ items
  flags : ∀ n, .flag n ∈ items → n ∈ u.flags
  enough : u.requiredArgs.length ≤ (args items).length
  notMore : (args items).length ≤ (u.requiredArgs ++ u.optionalArgs).length
  kinds : ∀ (i : Nat) (v : String) (k : Kind), (args items)[i]? = some v → (u.requiredArgs ++ u.optionalArgs)[i]? = some k → k.Ok ex v

/-- the value given for an option -/
def opt? (items : List Item) (n : String) : Option String := items.findSome? fun
  | .opt m v => if m = n then some v else none
  | _ => none

def opt (items : List Item) (n : String) : String := (opt? items n).getD ""

/-- the number given for an option -/
def num (items : List Item) (n : String) : Nat := Nat.ofDigitChars 10 (opt items n).toList 0

def has (items : List Item) (n : String) : Bool := decide (.flag n ∈ items)

/-! ## `homfa` -/

inductive Cmd where
  | genkey | genbkey | enc | dec | runOffline | runReverse | runBlock | runFlut | runPlain
  | ltl2spec | spec2spec | spec2dot | spec2att | att2spec
  deriving DecidableEq

/-- the words that call a command -/
def Cmd.names : Cmd → List (List String)
  | .genkey => [["genkey"]]
  | .genbkey => [["genbkey"]]
  | .enc => [["enc"]]
  | .dec => [["dec"]]
  | .runOffline => [["run", "offline"]]
  | .runReverse => [["run", "reverse"], ["run", "reversed"]]
  | .runBlock => [["run", "block"], ["run", "bbs"], ["run", "block-backstream"]]
  | .runFlut => [["run", "flut"], ["run", "qtrlwe2"]]
  | .runPlain => [["run", "plain"]]
  | .ltl2spec => [["ltl2spec"]]
  | .spec2spec => [["spec2spec"]]
  | .spec2dot => [["spec2dot"]]
  | .spec2att => [["spec2att"]]
  | .att2spec => [["att2spec"]]

def Cmd.usage : Cmd → Usage
  | .genkey => ⟨[("--out", .text)], [], [], [], []⟩
  | .genbkey => ⟨[("--key", .file), ("--out", .text)], [], [], [], []⟩
  | .enc => ⟨[("--ap", .positive), ("--key", .file), ("--in", .file), ("--out", .text)], [], [], [], []⟩
  | .dec => ⟨[("--key", .file), ("--in", .file)], [], [], [], []⟩
  | .runOffline => ⟨[("--bkey", .file), ("--out", .text), ("--spec", .file), ("--in", .file), ("--bootstrapping-freq", .positive)],
      [("--debug-secret-key", .file)], [], [], []⟩
  | .runReverse => ⟨[("--bkey", .file), ("--out", .text), ("--spec", .file), ("--in", .file), ("--out-freq", .positive),
      ("--bootstrapping-freq", .positive)], [("--debug-secret-key", .file)], ["--spec-reversed"], [], []⟩
  | .runBlock => ⟨[("--bkey", .file), ("--out", .text), ("--spec", .file), ("--in", .file), ("--out-freq", .positive),
      ("--queue-size", .positive)], [("--debug-secret-key", .file)], [], [], []⟩
  | .runFlut => ⟨[("--bkey", .file), ("--out", .text), ("--spec", .file), ("--in", .file), ("--out-freq", .positive),
      ("--queue-size", .positive), ("--max-second-lut-depth", .positive), ("--bootstrapping-freq", .positive)],
      [("--debug-secret-key", .file)], [], [], []⟩
  | .runPlain => ⟨[("--ap", .positive), ("--spec", .file), ("--in", .file)], [], [], [], []⟩
  | .ltl2spec => ⟨[], [], ["--make-all-live-states-final"], [.text, .number], []⟩
  | .spec2spec => ⟨[], [], ["--minimized", "--reversed", "--negated"], [], [.text]⟩
  | .spec2dot => ⟨[], [], [], [], [.text]⟩
  | .spec2att => ⟨[], [], [], [], [.text]⟩
  | .att2spec => ⟨[], [], [], [], [.text]⟩

/-- The function a command line asks for.  No command writes to a directory, and none sanitizes. -/
def Cmd.call (i : List Item) : Cmd → Call
  | .genkey => .genkey (opt i "--out")
  | .genbkey => .genbkey (opt i "--key") (opt i "--out")
  | .enc => .enc (opt i "--key") (opt i "--in") (opt i "--out") (num i "--ap")
  | .dec => .dec (opt i "--key") (opt i "--in")
  | .runOffline => .runOffline (opt i "--spec") (opt i "--in") (opt i "--out") (num i "--bootstrapping-freq") (opt i "--bkey") false
  | .runReverse => .runReverse (opt i "--spec") (opt i "--in") (some (opt i "--out")) none (num i "--out-freq")
      (num i "--bootstrapping-freq") (has i "--spec-reversed") (opt i "--bkey") false
  | .runBlock => .runBlock (opt i "--spec") (opt i "--in") (opt i "--out") (num i "--queue-size") (opt i "--bkey") false
  | .runFlut => .runFlut (opt i "--spec") (opt i "--in") (some (opt i "--out")) none (num i "--out-freq") (num i "--queue-size")
      (num i "--bootstrapping-freq") (opt i "--bkey") (some (num i "--max-second-lut-depth")) (opt? i "--debug-secret-key") false
  | .runPlain => .runPlain (opt i "--spec") (opt i "--in") (num i "--ap")
  | .ltl2spec => .ltl2spec ((args i)[0]?.getD "") (Nat.ofDigitChars 10 ((args i)[1]?.getD "").toList 0) (has i "--make-all-live-states-final")
  | .spec2spec => .spec2spec (args i)[0]? (has i "--minimized") (has i "--reversed") (has i "--negated")
  | .spec2dot => .spec2dot (args i)[0]?
  | .spec2att => .spec2att (args i)[0]?
  | .att2spec => .att2spec (args i)[0]?

/-! ## The benchmark program -/

inductive BenchCmd where
  | plain | offline | reversed | qtrlwe2 | bbs
  deriving DecidableEq

def BenchCmd.name : BenchCmd → String
  | .plain => "plain"
  | .offline => "offline"
  | .reversed => "reversed"
  | .qtrlwe2 => "qtrlwe2"
  | .bbs => "bbs"

def BenchCmd.usage : BenchCmd → Usage
  | .plain => ⟨[("--ap", .positive), ("--spec", .file), ("--in", .file), ("--out-freq", .positive)], [], [], [], []⟩
  | .offline => ⟨[("--ap", .positive), ("--bootstrapping-freq", .positive), ("--spec", .file), ("--in", .file)], [],
      ["--sanitize-result"], [], []⟩
  | .reversed => ⟨[("--ap", .positive), ("--out-freq", .positive), ("--bootstrapping-freq", .positive), ("--spec", .file), ("--in", .file)],
      [], ["--spec-reversed", "--sanitize-result"], [], []⟩
  | .qtrlwe2 => ⟨[("--ap", .positive), ("--out-freq", .positive), ("--queue-size", .positive), ("--bootstrapping-freq", .positive),
      ("--spec", .file), ("--in", .file), ("--max-second-lut-depth", .positive)], [], ["--sanitize-result"], [], []⟩
  | .bbs => ⟨[("--ap", .positive), ("--out-freq", .positive), ("--queue-size", .positive), ("--spec", .file), ("--in", .file)],
      [], ["--sanitize-result"], [], []⟩

def BenchCmd.call (i : List Item) : BenchCmd → Call
  | .plain => .benchPlain (opt i "--spec") (opt i "--in") (num i "--out-freq") (num i "--ap")
  | .offline => .benchOffline (opt i "--spec") (opt i "--in") (num i "--bootstrapping-freq") (num i "--ap") (has i "--sanitize-result")
  | .reversed => .benchReversed (opt i "--spec") (opt i "--in") (num i "--out-freq") (num i "--bootstrapping-freq") (num i "--ap")
      (has i "--spec-reversed") (has i "--sanitize-result")
  | .qtrlwe2 => .benchFlut (opt i "--spec") (opt i "--in") (num i "--out-freq") (num i "--max-second-lut-depth") (num i "--queue-size")
      (num i "--bootstrapping-freq") (num i "--ap") (has i "--sanitize-result")
  | .bbs => .benchBlock (opt i "--spec") (opt i "--in") (num i "--out-freq") (num i "--queue-size") (num i "--ap")
      (has i "--sanitize-result")

end Homfa.Cli
