/-!
# What an input file means

An input file is a sequence of records, one per time step.  A record holds the values of the `ap` atomic
propositions, eight per byte, lowest bit first; unused high bits of the last byte are padding.
-/

namespace Homfa

/-- Number of bytes of a record. -/
def recordBytes (ap : Nat) : Nat := (ap + 7) / 8

/-- Proposition `j` in a record: bit `j % 8` of byte `j / 8`. -/
def propBit (rec : List (BitVec 8)) (j : Nat) : Bool := (rec.getD (j / 8) 0#8).getLsbD (j % 8)

/-- The bits of a record, in order. -/
def recordBits (ap : Nat) (rec : List (BitVec 8)) : List Bool := (List.range ap).map (propBit rec)

end Homfa
