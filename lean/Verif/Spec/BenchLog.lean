import Verif.Model.BenchLog
import Verif.Spec.Cli
import Verif.Spec.Input
import Verif.Spec.Text
import Mathlib.Data.Set.Card

/-! # What the benchmark program should print -/

namespace Homfa.Cli

variable {N n l : Nat}

/-- Every run of the benchmark program ends normally and prints these lines and then, in some order, these totals; and there is such a run. -/
def AlwaysLogs (L : Lib N n l) (fs : Files) (toks : List String) (rows totals : List Row) : Prop :=
  (∃ text r, RunBench L fs toks text r) ∧
  ∀ text r, RunBench L fs toks text r → r = .ok () ∧ ∃ order, order.Perm totals ∧ Shows (rows ++ order) text

/-- Every run of the benchmark program ends abnormally, in this way, and prints nothing about an input or a result; and there is a run. -/
def AlwaysFails (L : Lib N n l) (fs : Files) (toks : List String) (e : Err) : Prop :=
  (∃ text r, RunBench L fs toks text r) ∧
  ∀ text r, RunBench L fs toks text r → r = .error e ∧
    ∃ rows, Shows rows text ∧ ∀ row ∈ rows, row.key ∉ ["enc", "run", "dec", "state", "result"]

/-- The files of a command line can be read: the spec is one of the automaton `g`, which has states, and the input consists of complete
records, with the bits `w`. -/
structure Readable (fs : Files) (items : List Item) (g : Graph) (w : List Bool) : Prop where
  spec : ∃ sb, fs (opt items "--spec") = some sb ∧ Graph.fromIstream (textOf sb) = .ok g
  states : 0 < g.size
  input : ∃ rs : List (List Byte), fs (opt items "--in") = some rs.flatten ∧ (∀ r ∈ rs, r.length = recordBytes (num items "--ap")) ∧
    w = rs.flatMap (recordBits (num items "--ap"))

/-- The lines of the spec that are skipped, in order: those that do not describe a state. -/
inductive Skips : List (List Char) → List (List Char) → Prop
  | nil : Skips [] []
  | skip {l ls skip} : Spec.NotSpecLine l → Skips ls skip → Skips (l :: ls) (l :: skip)
  | state {l ls skip} : ¬ Spec.NotSpecLine l → Skips ls skip → Skips (l :: ls) skip

/-- `skip` are the lines of the spec of a command line that are skipped. -/
def SkipsIn (fs : Files) (items : List Item) (skip : List (List Char)) : Prop :=
  ∀ sb, fs (opt items "--spec") = some sb → ∃ lines, Spec.TextLines (textOf sb) lines ∧ Skips lines skip

/-- The log messages about skipped lines. -/
def skipNotes (skip : List (List Char)) : List Row := skip.map fun l => ⟨"info", .message ("Skip line \"".toList ++ l ++ "\"".toList)⟩

/-- A log message that is written with `--verbose` only. -/
def note (verbose : Bool) (s : String) : List Row := if verbose then [⟨"debug", .message s.toList⟩] else []

/-- The log message about the bootstrapping after every `boot` inputs. -/
def bootNote (verbose : Bool) (boot i : Nat) : List Row := if boot ∣ i + 1 then note verbose "Bootstrapping occurred" else []

/-- The lines of `plain` for the input with number `i`. -/
def plainRows (freq : Nat) (state : Nat → Nat) (verdict : Nat → Bool) (i : Nat) : List Row :=
  ⟨"state", .num (state (i + 1))⟩ :: if freq ∣ i + 1 then [⟨"result", .num (verdict (i + 1)).toNat⟩] else []

/-- The number of states that are reached by words of exactly this length. -/
noncomputable def liveCount (g : Graph) (d : Nat) : Nat :=
  {q | ∃ w : List Bool, w.length = d ∧ g.runWord g.initialState w = .ok q}.ncard

/-- The lines of the input with number `i` (from 0): encryption, what the runner tells, evaluation, and after every `freq` inputs the result. -/
def bitRows (freq : Nat) (info : Nat → List Row) (verdict : Nat → Bool) (i : Nat) : List Row :=
  [⟨"enc", .time⟩] ++ info i ++ [⟨"run", .time⟩] ++
    if freq ∣ i + 1 then [⟨"dec", .time⟩, ⟨"result", .num (verdict (i + 1)).toNat⟩] else []

/-- The lines from the generation of the keys on, for an automaton with `states` states and `len` inputs. -/
def onlineRows (skip : List (List Char)) (states len freq : Nat) (info : Nat → List Row) (verdict : Nat → Bool) : List Row :=
  [⟨"skey", .time⟩, ⟨"bkey", .time⟩] ++ skipNotes skip ++
    [⟨"init", .time⟩, ⟨"config-spec_num_states", .num states⟩, ⟨"config-input_size", .num len⟩] ++
    (List.range len).flatMap (bitRows freq info verdict)

/-- How many inputs are queued after `i` of them, when the queue is emptied at each result and when it is full. -/
def pending (freq queue i : Nat) : Nat := i % freq % queue

/-- How many inputs have been evaluated by then. -/
def evaluated (freq queue i : Nat) : Nat := i - pending freq queue i

/-- The length of the last block evaluated by then; 0 if there is none. -/
def lastBlock (freq queue i : Nat) : Nat :=
  if evaluated freq queue i = 0 then 0 else pending freq queue (evaluated freq queue i - 1) + 1

/-- What the BLOCK runner tells before the input with number `i`. -/
noncomputable def blockInfo (g : Graph) (freq queue i : Nat) : List Row :=
  [⟨"num_live_states", .num (liveCount g (evaluated freq queue i))⟩]

/-- What the FLUT runner tells before the input with number `i`: the last block was cut into two lookup tables. -/
noncomputable def flutInfo (g : Graph) (freq queue maxSecond i : Nat) : List Row :=
  let live := liveCount g (evaluated freq queue i)
  let block := lastBlock freq queue i
  let second := min (block / 2) (maxSecond - Nat.clog 2 live)
  [⟨"num_live_states", .num live⟩, ⟨"first_lut_depth", .num (block - second)⟩, ⟨"second_lut_depth", .num second⟩]

/-- The log messages of the FLUT runner when a block is evaluated with the input with number `i`: the number of states that can be reached
before and after it. -/
noncomputable def liveNotes (verbose : Bool) (g : Graph) (freq queue i : Nat) : List Row :=
  note verbose s!"live states: {liveCount g (evaluated freq queue i)}" ++ note verbose s!"next live states: {liveCount g (i + 1)}"

/-- The log messages of the FLUT runner at the input with number `i`: when a block is evaluated, those above and how it is cut. -/
noncomputable def flutNotes (verbose : Bool) (g : Graph) (freq queue maxSecond i : Nat) : List Row :=
  let block := pending freq queue i + 1
  let second := min (block / 2) (maxSecond - Nat.clog 2 (liveCount g (i + 1)))
  if pending freq queue (i + 1) = 0 then
    liveNotes verbose g freq queue i ++ note verbose s!"LUT {block - second} + {second} = {block}"
  else []

/-- A line of the dump of a timer, which is missing when nothing of the kind was done; the counts are 64-bit numbers. -/
def totalRow (label : String) (k : Nat) : List Row := if k = 0 then [] else [⟨label, .total (k % 2 ^ 64)⟩]

/-- The totals of the REVERSE runner, for an automaton with `states` states and `len` inputs: one CMUX gate for each state and input, and one
bootstrapping for each state after every `boot` inputs. -/
def reversedTotals (states len boot : Nat) : List Row :=
  totalRow "time_recorder-cmux" (states * len) ++ totalRow "time_recorder-bootstrapping" (states * (len / boot))

/-- the number of bits that select one of `k` states; none when there is one state -/
def selectBits (k : Nat) : Nat := if k = 1 then 0 else Nat.log2 k + 1

/-- The totals of the BLOCK runner: for each evaluated input one CMUX gate for each state reached by the inputs before it; and at the start of
each block a lookup table over the bits that select a live state, each from a circuit bootstrapping. -/
noncomputable def blockTotals (g : Graph) (freq queue len : Nat) : List Row :=
  let select d := if pending freq queue d = 0 then selectBits (liveCount g d) else 0
  totalRow "time_recorder-cmux" (∑ d ∈ Finset.range (evaluated freq queue len), (liveCount g d + (2 ^ select d - 1))) ++
    totalRow "time_recorder-circuit_bootstrapping" (∑ d ∈ Finset.range (evaluated freq queue len), select d)

end Homfa.Cli
