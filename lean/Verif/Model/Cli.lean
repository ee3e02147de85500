import Verif.Model.Cpp

/-!
# The command line of `homfa` and of the benchmark program (src/main.cpp:24-215, 589-752, src/benchmark.cpp:445-596)

The registration of the subcommands and the dispatch are modelled from the source.  CLI11, which is not in `/repo`, is modelled by `parseSub`.

Simplifications about CLI11: a line has general flags, one subcommand and its own items; an option is written `--name value`; a value does
not begin with `-` unless it is `-`; numbers are decimal without leading zeros.  CLI11's other spellings (`--name=value`, `--help`, `0x10`), several
subcommands on one line, and abbreviations are not modelled: such lines count as usage errors.
-/

namespace Homfa.Cli

/-- `TYPE` (src/main.cpp:26-52) and the `TYPE` of src/benchmark.cpp:450-456. -/
inductive CmdType where
  | unspecified
  | genkey | genbkey
  | enc | dec
  | runOffline | runReverse | runBlock | runFlut | runPlain
  | ltl2spec | spec2spec | spec2dot | att2spec | spec2att
  | benchPlain | benchOffline | benchReversed | benchFlut | benchBlock
  deriving DecidableEq, Repr

/-- The `std::optional<std::string>` members of `Args` (src/main.cpp:61-62). -/
inductive StrField where
  | spec | skey | bkey | input | output | outputDir | debugSkey | formula
  deriving DecidableEq, Repr

/-- The `std::optional<size_t>` members of `Args` (src/main.cpp:63-64). -/
inductive NumField where
  | numVars | queueSize | bootFreq | maxSecond | numAp | outFreq
  deriving DecidableEq, Repr

/-- The `bool` members of `Args` (src/main.cpp:58-60). -/
inductive FlagField where
  | minimized | reversed | negated | allFinal | isSpecReversed | sanitize
  deriving DecidableEq, Repr

/-- `Args` (src/main.cpp:54-65); also the local variables of the benchmark's `main` (src/benchmark.cpp:457-460).  The verbosity is dropped. -/
structure Args where
  type : CmdType
  str : StrField → Option String
  num : NumField → Option Nat
  flag : FlagField → Bool

/-- The initial values. (src/main.cpp:54-65) -/
def Args.empty : Args := { type := .unspecified, str := fun _ => none, num := fun _ => none, flag := fun _ => false }

/-- The variable an option is bound to. (src/main.cpp:54-65) -/
inductive Dest where
  | str (f : StrField)
  | num (f : NumField)
  deriving DecidableEq, Repr

/-- `->check(CLI::ExistingFile)`, `->check(CLI::PositiveNumber)` (src/main.cpp:89, 99) -/
inductive Check where
  | any | existing | positive
  deriving DecidableEq, Repr

/-- `add_option(name, variable)->required()->check(...)` (src/main.cpp:88-89) -/
structure OptDecl where
  name : String
  dest : Dest
  required : Bool
  check : Check
  deriving DecidableEq, Repr

/-- A subcommand: its name and aliases, the type its callback sets, its options, flags and positional arguments. (src/main.cpp:75-212, 611-647) -/
structure SubDecl where
  names : List String
  type : CmdType
  opts : List OptDecl
  flags : List (String × FlagField)
  poss : List OptDecl

/-! ## CLI11 -/

/-- Conversion of a value to `size_t`. (src/main.cpp:98-99) -/
def toSize (v : String) : Option Nat :=
  let k := Nat.ofDigitChars 10 v.toList 0
  if v.toList = Nat.toDigits 10 k ∧ k < 2 ^ 64 then some k else none

/-- Check a value and store it; `none` is a usage error.  `ex` tells which files exist. (src/main.cpp:75-212) -/
def OptDecl.store (ex : String → Bool) (o : OptDecl) (v : String) (a : Args) : Option Args :=
  if o.check = .existing ∧ ex v = false then none
  else match o.dest with
    | .str f => some { a with str := fun g => if g = f then some v else a.str g }
    | .num f => match toSize v with
      | none => none
      | some k => if o.check = .positive ∧ k = 0 then none else some { a with num := fun g => if g = f then some k else a.num g }

/-- Does a token look like an option?  A single dash does not. (CLI11_PARSE, src/main.cpp:649) -/
def isOption (t : String) : Bool := match t.toList with
  | '-' :: _ :: _ => true
  | _ => false

/-- Read the items of a subcommand.  `seen` are the options and positional arguments that have got their value, which they take only
once. (CLI11_PARSE, src/main.cpp:649) -/
def parseToks (ex : String → Bool) (d : SubDecl) : List String → List OptDecl → Args → Option (List OptDecl × Args)
  | [], seen, a => some (seen, a)
  | [t], seen, a =>
    if isOption t then match d.flags.lookup t with
      | some f => some (seen, { a with flag := fun g => if g = f then true else a.flag g })
      | none => none
    else match d.poss.find? (fun o => !seen.contains o) with
      | some o => (o.store ex t a).map fun a => (o :: seen, a)
      | none => none
  | t :: v :: rest, seen, a =>
    if isOption t then match d.flags.lookup t with
      | some f => parseToks ex d (v :: rest) seen { a with flag := fun g => if g = f then true else a.flag g }
      | none => match d.opts.find? (fun o => o.name == t) with
        | some o => if isOption v || seen.contains o then none else
          match o.store ex v a with
          | some a => parseToks ex d rest (o :: seen) a
          | none => none
        | none => none
    else match d.poss.find? (fun o => !seen.contains o) with
      | some o => match o.store ex t a with
        | some a => parseToks ex d (v :: rest) (o :: seen) a
        | none => none
      | none => none

/-- Parse the items of a subcommand: all required ones must have been given; then `parse_complete_callback` sets the type.
(CLI11_PARSE, src/main.cpp:649) -/
def parseSub (ex : String → Bool) (d : SubDecl) (toks : List String) : Option Args :=
  match parseToks ex d toks [] Args.empty with
  | some (seen, a) => if (d.opts ++ d.poss).all (fun o => !o.required || seen.contains o) then some { a with type := d.type } else none
  | none => none

/-! ## Registration (src/main.cpp:67-212, 597-647) -/

/-- `->required()->check(CLI::ExistingFile)` (src/main.cpp:100) -/
def file (name : String) (f : StrField) : OptDecl := ⟨name, .str f, true, .existing⟩
/-- `->required()->check(CLI::PositiveNumber)` (src/main.cpp:98-99) -/
def pos (name : String) (f : NumField) : OptDecl := ⟨name, .num f, true, .positive⟩

/-- `register_genkey` (src/main.cpp:75-80) -/
def genkey : SubDecl := ⟨["genkey"], .genkey, [⟨"--out", .str .output, true, .any⟩], [], []⟩

/-- `register_genbkey` (src/main.cpp:82-91) -/
def genbkey : SubDecl := ⟨["genbkey"], .genbkey, [file "--key" .skey, ⟨"--out", .str .output, true, .any⟩], [], []⟩

/-- `register_enc` (src/main.cpp:93-103) -/
def enc : SubDecl :=
  ⟨["enc"], .enc, [pos "--ap" .numAp, file "--key" .skey, file "--in" .input, ⟨"--out", .str .output, true, .any⟩], [], []⟩

/-- `register_dec` (src/main.cpp:105-111) -/
def dec : SubDecl := ⟨["dec"], .dec, [file "--key" .skey, file "--in" .input], [], []⟩

/-- `add_run_common_options` with `benchmark = false` (src/main.cpp:113-131) -/
def runCommon : List OptDecl :=
  [file "--bkey" .bkey, ⟨"--out", .str .output, true, .any⟩, file "--spec" .spec, file "--in" .input,
   ⟨"--debug-secret-key", .str .debugSkey, false, .existing⟩]

/-- `register_offline` (src/main.cpp:133-143) -/
def runOffline : SubDecl := ⟨["offline"], .runOffline, runCommon ++ [pos "--bootstrapping-freq" .bootFreq], [], []⟩

/-- `register_reverse` (src/main.cpp:145-160) -/
def runReverse : SubDecl :=
  ⟨["reverse", "reversed"], .runReverse, runCommon ++ [pos "--out-freq" .outFreq, pos "--bootstrapping-freq" .bootFreq],
   [("--spec-reversed", .isSpecReversed)], []⟩

/-- `register_block` (src/main.cpp:162-177) -/
def runBlock : SubDecl :=
  ⟨["block", "bbs", "block-backstream"], .runBlock, runCommon ++ [pos "--out-freq" .outFreq, pos "--queue-size" .queueSize], [], []⟩

/-- `register_flut` (src/main.cpp:179-199) -/
def runFlut : SubDecl :=
  ⟨["flut", "qtrlwe2"], .runFlut, runCommon ++ [pos "--out-freq" .outFreq, pos "--queue-size" .queueSize,
    pos "--max-second-lut-depth" .maxSecond, pos "--bootstrapping-freq" .bootFreq], [], []⟩

/-- `register_plain` (src/main.cpp:201-212) -/
def runPlain : SubDecl := ⟨["plain"], .runPlain, [pos "--ap" .numAp, file "--spec" .spec, file "--in" .input], [], []⟩

/-- `ltl2spec` (src/main.cpp:611-619) -/
def ltl2spec : SubDecl :=
  ⟨["ltl2spec"], .ltl2spec, [], [("--make-all-live-states-final", .allFinal)],
   [⟨"formula", .str .formula, true, .any⟩, ⟨"#vars", .num .numVars, true, .any⟩]⟩

/-- `spec2spec` (src/main.cpp:620-629) -/
def spec2spec : SubDecl :=
  ⟨["spec2spec"], .spec2spec, [], [("--minimized", .minimized), ("--reversed", .reversed), ("--negated", .negated)],
   [⟨"SPEC-FILE", .str .spec, false, .any⟩]⟩

/-- `spec2dot` (src/main.cpp:630-635) -/
def spec2dot : SubDecl := ⟨["spec2dot"], .spec2dot, [], [], [⟨"SPEC-FILE", .str .spec, false, .any⟩]⟩

/-- `spec2att` (src/main.cpp:636-641) -/
def spec2att : SubDecl := ⟨["spec2att"], .spec2att, [], [], [⟨"SPEC-FILE", .str .spec, false, .any⟩]⟩

/-- `att2spec` (src/main.cpp:642-647) -/
def att2spec : SubDecl := ⟨["att2spec"], .att2spec, [], [], [⟨"ATT-SPEC-FILE", .str .spec, false, .any⟩]⟩

/-- The subcommands of `homfa` and those of `homfa run` (src/main.cpp:597-647). -/
def subs : List SubDecl := [genkey, genbkey, enc, dec, ltl2spec, spec2spec, spec2dot, spec2att, att2spec]
/-- (src/main.cpp:603-610) -/
def runSubs : List SubDecl := [runOffline, runReverse, runBlock, runFlut, runPlain]

/-! ## Dispatch (src/main.cpp:663-752) -/

/-- The function called by `main`, with its arguments. (src/main.cpp:663-752) -/
inductive Call where
  | genkey (out : String)
  | genbkey (skey out : String)
  | enc (skey input out : String) (ap : Nat)
  | dec (skey input : String)
  | runOffline (spec input out : String) (boot : Nat) (bkey : String) (sanitize : Bool)
  | runReverse (spec input : String) (out outDir : Option String) (freq boot : Nat) (isSpecReversed : Bool) (bkey : String) (sanitize : Bool)
  | runBlock (spec input out : String) (queue : Nat) (bkey : String) (sanitize : Bool)
  | runFlut (spec input : String) (out outDir : Option String) (freq queue boot : Nat) (bkey : String) (maxSecond : Option Nat)
      (debugSkey : Option String) (sanitize : Bool)
  | runPlain (spec input : String) (ap : Nat)
  | ltl2spec (formula : String) (numVars : Nat) (allFinal : Bool)
  | spec2spec (spec : Option String) (minimized reversed negated : Bool)
  | spec2dot (spec : Option String)
  | spec2att (spec : Option String)
  | att2spec (spec : Option String)
  | benchPlain (spec input : String) (freq ap : Nat)
  | benchOffline (spec input : String) (boot ap : Nat) (sanitize : Bool)
  | benchReversed (spec input : String) (freq boot ap : Nat) (isSpecReversed sanitize : Bool)
  | benchFlut (spec input : String) (freq maxSecond queue boot ap : Nat) (sanitize : Bool)
  | benchBlock (spec input : String) (freq queue ap : Nat) (sanitize : Bool)
  deriving DecidableEq, Repr

/-- `opt.value()` (src/main.cpp:665) -/
def value {α : Type} (o : Option α) : Res α := match o with
  | some x => .ok x
  | none => .error .badOptional

/-- The test in src/main.cpp:688-690, 698-700, 707-709. -/
def checkOut (a : Args) : Res Unit :=
  if !(((a.str .output).isSome && !(a.str .outputDir).isSome) || (!(a.str .output).isSome && (a.str .outputDir).isSome)) then .error .die
  else .ok ()

/-- The `switch` (src/main.cpp:663-752).  The types of the benchmark program cannot occur. -/
def dispatch (a : Args) : Res Call :=
  match a.type with
  | .genkey => do pure (.genkey (← value (a.str .output)))
  | .genbkey => do pure (.genbkey (← value (a.str .skey)) (← value (a.str .output)))
  | .enc => do pure (.enc (← value (a.str .skey)) (← value (a.str .input)) (← value (a.str .output)) (← value (a.num .numAp)))
  | .dec => do pure (.dec (← value (a.str .skey)) (← value (a.str .input)))
  | .runOffline => do
    pure (.runOffline (← value (a.str .spec)) (← value (a.str .input)) (← value (a.str .output)) (← value (a.num .bootFreq))
      (← value (a.str .bkey)) (a.flag .sanitize))
  | .runReverse => do
    checkOut a
    pure (.runReverse (← value (a.str .spec)) (← value (a.str .input)) (a.str .output) (a.str .outputDir) (← value (a.num .outFreq))
      (← value (a.num .bootFreq)) (a.flag .isSpecReversed) (← value (a.str .bkey)) (a.flag .sanitize))
  | .runBlock => do
    checkOut a
    pure (.runBlock (← value (a.str .spec)) (← value (a.str .input)) (← value (a.str .output)) (← value (a.num .queueSize))
      (← value (a.str .bkey)) (a.flag .sanitize))
  | .runFlut => do
    checkOut a
    pure (.runFlut (← value (a.str .spec)) (← value (a.str .input)) (a.str .output) (a.str .outputDir) (← value (a.num .outFreq))
      (← value (a.num .queueSize)) (← value (a.num .bootFreq)) (← value (a.str .bkey)) (some (← value (a.num .maxSecond)))
      (a.str .debugSkey) (a.flag .sanitize))
  | .runPlain => do pure (.runPlain (← value (a.str .spec)) (← value (a.str .input)) (← value (a.num .numAp)))
  | .ltl2spec => do pure (.ltl2spec (← value (a.str .formula)) (← value (a.num .numVars)) (a.flag .allFinal))
  | .spec2spec => .ok (.spec2spec (a.str .spec) (a.flag .minimized) (a.flag .reversed) (a.flag .negated))
  | .spec2dot => .ok (.spec2dot (a.str .spec))
  | .spec2att => .ok (.spec2att (a.str .spec))
  | .att2spec => .ok (.att2spec (a.str .spec))
  | _ => .error .die

/-- `register_general_options` (src/main.cpp:67-73): flags before the subcommand. -/
def skipGeneral : List String → List String
  | t :: toks => if t = "--verbose" ∨ t = "--quiet" then skipGeneral toks else t :: toks
  | [] => []

/-- `main` (src/main.cpp:590-755) up to the call: `none` when CLI11 rejects the line (exit with a message). -/
def homfaMain (ex : String → Bool) (toks : List String) : Res (Option Call) :=
  match skipGeneral toks with
  | [] => (dispatch Args.empty).map some
  | t :: rest =>
    if t = "run" then match rest with
      | [] => (dispatch Args.empty).map some
      | s :: rest => match runSubs.find? (fun d => d.names.contains s) with
        | some d => match parseSub ex d rest with
          | some a => (dispatch a).map some
          | none => .ok none
        | none => .ok none
    else match subs.find? (fun d => d.names.contains t) with
      | some d => match parseSub ex d rest with
        | some a => (dispatch a).map some
        | none => .ok none
      | none => .ok none

/-! ## The benchmark program (src/benchmark.cpp:445-596) -/

/-- `plain` (src/benchmark.cpp:463-478) -/
def bPlain : SubDecl :=
  ⟨["plain"], .benchPlain, [pos "--ap" .numAp, file "--spec" .spec, file "--in" .input, pos "--out-freq" .outFreq], [], []⟩

/-- `offline` (src/benchmark.cpp:479-495) -/
def bOffline : SubDecl :=
  ⟨["offline"], .benchOffline, [pos "--ap" .numAp, pos "--bootstrapping-freq" .bootFreq, file "--spec" .spec, file "--in" .input],
   [("--sanitize-result", .sanitize)], []⟩

/-- `reversed` (src/benchmark.cpp:496-514) -/
def bReversed : SubDecl :=
  ⟨["reversed"], .benchReversed, [pos "--ap" .numAp, pos "--out-freq" .outFreq, pos "--bootstrapping-freq" .bootFreq, file "--spec" .spec,
    file "--in" .input], [("--spec-reversed", .isSpecReversed), ("--sanitize-result", .sanitize)], []⟩

/-- `qtrlwe2` (src/benchmark.cpp:515-540) -/
def bFlut : SubDecl :=
  ⟨["qtrlwe2"], .benchFlut, [pos "--ap" .numAp, pos "--out-freq" .outFreq, pos "--queue-size" .queueSize,
    pos "--bootstrapping-freq" .bootFreq, file "--spec" .spec, file "--in" .input, pos "--max-second-lut-depth" .maxSecond],
   [("--sanitize-result", .sanitize)], []⟩

/-- `bbs` (src/benchmark.cpp:541-559) -/
def bBlock : SubDecl :=
  ⟨["bbs"], .benchBlock, [pos "--ap" .numAp, pos "--out-freq" .outFreq, pos "--queue-size" .queueSize, file "--spec" .spec,
    file "--in" .input], [("--sanitize-result", .sanitize)], []⟩

/-- (src/benchmark.cpp:463-559) -/
def benchSubs : List SubDecl := [bPlain, bOffline, bReversed, bFlut, bBlock]

/-- The `switch` (src/benchmark.cpp:568-593).  Here the variables are not optional: one that has not been set is uninitialised, and reading it is
undefined. -/
def benchDispatch (a : Args) : Res Call :=
  let str (f : StrField) : Res String := match a.str f with
    | some v => .ok v
    | none => .ok ""
  let num (f : NumField) : Res Nat := match a.num f with
    | some v => .ok v
    | none => .error .ub
  match a.type with
  | .benchPlain => do pure (.benchPlain (← str .spec) (← str .input) (← num .outFreq) (← num .numAp))
  | .benchOffline => do pure (.benchOffline (← str .spec) (← str .input) (← num .bootFreq) (← num .numAp) (a.flag .sanitize))
  | .benchReversed => do
    pure (.benchReversed (← str .spec) (← str .input) (← num .outFreq) (← num .bootFreq) (← num .numAp) (a.flag .isSpecReversed)
      (a.flag .sanitize))
  | .benchFlut => do
    pure (.benchFlut (← str .spec) (← str .input) (← num .outFreq) (← num .maxSecond) (← num .queueSize) (← num .bootFreq) (← num .numAp)
      (a.flag .sanitize))
  | .benchBlock => do
    pure (.benchBlock (← str .spec) (← str .input) (← num .outFreq) (← num .queueSize) (← num .numAp) (a.flag .sanitize))
  | _ => .error .ub

/-- The benchmark's `main` (src/benchmark.cpp:445-596) up to the call. -/
def benchMain (ex : String → Bool) (toks : List String) : Res (Option Call) :=
  match toks with
  | [] => .ok none
  | t :: rest =>
    if t = "--verbose" then benchMain ex rest
    else match benchSubs.find? (fun d => d.names.contains t) with
      | some d => match parseSub ex d rest with
        | some a => (benchDispatch a).map some
        | none => .ok none
      | none => .ok none

end Homfa.Cli
