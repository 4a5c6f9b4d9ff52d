import Verif.Field.Tower

/-! The numbers that the elements of the binary tower fields are stored as. -/

namespace Verif.M3

open Verif.Field

/-- The element of the field of level `N` that is stored as the number `v` (of which the low `2^N` bits count): the low
half of the bits is the first half of the element. -/
def ofVal : (N : Nat) → Nat → T N
  | 0, v => v.testBit 0
  | N + 1, v => (ofVal N v, ofVal N (v / 2 ^ 2 ^ N))

/-- The number that an element is stored as. -/
def toVal : (N : Nat) → T N → Nat
  | 0, b => Bool.toNat b
  | N + 1, x => toVal N x.1 + 2 ^ 2 ^ N * toVal N x.2

end Verif.M3
