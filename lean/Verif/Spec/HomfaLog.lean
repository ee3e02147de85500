import Verif.Model.HomfaLog
import Verif.Spec.BenchLog
import Verif.Spec.Automata
import Mathlib.Data.Set.Card

/-! # What the log of homfa should say -/

namespace Homfa.Cli

open Spec

/-- messages of level info -/
def told (texts : List (List Char)) : List Row := texts.map fun s => ⟨"info", .message s⟩

/-- The smallest deterministic automata for a set of words have `k` states. -/
def LeastStates (k : Nat) (lang : List Bool → Prop) : Prop :=
  (∃ d : Dfa (Fin k), ∀ w, d.accepts w = true ↔ lang w) ∧ ∀ (k' : Nat) (d : Dfa (Fin k')), (∀ w, d.accepts w = true ↔ lang w) → k ≤ k'

/-- the number of different sets of words that can remain to be read after `j` bits: the number of states which the smallest automaton can be in by then -/
noncomputable def futures (lang : List Bool → Prop) (j : Nat) : Nat := {R : Set (List Bool) | ∃ u : List Bool, u.length = j ∧ R = {v | lang (u ++ v)}}.ncard

/-- `skip` are the lines of this file that do not describe a state. -/
def SkippedLines (file : List Byte) (skip : List (List Char)) : Prop := ∃ lines, Spec.TextLines (textOf file) lines ∧ Skips lines skip

end Homfa.Cli
