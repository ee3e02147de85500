/-! # Reading a list of bits as a number, least significant bit first -/

namespace Homfa

/-- The number whose binary digits are `bs`, the first one being the least significant. -/
def lsbIndex : List Bool → Nat
  | [] => 0
  | b :: bs => b.toNat + 2 * lsbIndex bs

end Homfa
