import Verif.Transparent.ModelShift

/-! Specification of shifts of words of 32 bits. -/

namespace Verif.M3

/-- The word `x` shifted by `s < 32` bits. -/
def shiftWord : Transparent.ShiftVariant → Nat → Nat → Nat
  | .logicalLeft, s, x => x * 2 ^ s % 2 ^ 32
  | .logicalRight, s, x => x / 2 ^ s
  | .circularLeft, s, x => x * 2 ^ s % 2 ^ 32 + x / 2 ^ (32 - s)

end Verif.M3
