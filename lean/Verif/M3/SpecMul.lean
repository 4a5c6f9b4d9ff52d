import Verif.M3.SpecTable

/-! Specification of numbers as elements of binary fields. -/

namespace Verif.M3

open Finset

variable {F : Type} [Field F]

/-- The element of the field of `n` bits whose bits are those of the number `v`. -/
def element (basis : Nat → F) (n v : Nat) : F := ∑ e ∈ range n, (if v.testBit e then 1 else 0) * basis e

end Verif.M3
