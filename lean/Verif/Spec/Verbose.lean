import Verif.Model.BenchLog
import Verif.Spec.Text

/-! # Log messages among the measurements of the benchmark program -/

namespace Homfa.Cli

/-- `text'` is what is left of `text` without some lines, each of which is a log message of level debug. -/
inductive WithoutDebug : List Char → List Char → Prop
  | nil : WithoutDebug [] []
  | debug {text text' : List Char} (stamp msg : List Char) : '\n' ∉ stamp → '\n' ∉ msg → WithoutDebug text text' →
      WithoutDebug ("[".toList ++ stamp ++ "] [debug] ".toList ++ msg ++ '\n' :: text) text'
  | keep {text text' : List Char} (line : List Char) : '\n' ∉ line → WithoutDebug text text' →
      WithoutDebug (line ++ '\n' :: text) (line ++ '\n' :: text')

/-- A log message: its time, its level and its text. -/
def LogLine (line : List Char) : Prop :=
  ∃ stamp level msg, level ∈ ["info", "debug"] ∧ line = "[".toList ++ stamp ++ "] [".toList ++ level.toList ++ "] ".toList ++ msg

/-- The keys of the lines that are not log messages. -/
def benchKeys : List String :=
  ["time", "config-method", "config-spec", "config-input", "config-num_ap", "config-output_freq", "config-bootstrapping_freq",
    "config-max_second_lut_depth", "config-queue_size", "config-sanitize_result", "config-sanitize_reuslt", "config-spec_num_states",
    "config-input_size", "skey", "bkey", "init", "enc", "run", "dec", "state", "result", "num_live_states", "first_lut_depth", "second_lut_depth",
    "time_recorder-cmux", "time_recorder-bootstrapping", "time_recorder-circuit_bootstrapping"]

/-- A line with a setting or a measurement. -/
def KeyLine (line : List Char) : Prop := ∃ key ∈ benchKeys, ∃ value, line = key.toList ++ ',' :: value

end Homfa.Cli
