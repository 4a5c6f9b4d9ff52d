import Mathlib.Data.Int.Init

/-! Specification of signed 32-bit numbers. -/

namespace Verif.M3

/-- The signed number that 32 bits stand for. -/
def signed32 (x : Nat) : Int := if x < 2 ^ 31 then x else x - 2 ^ 32

/-- The `n` bits that stand for an integer in two's complement. -/
def twos (n : Nat) (z : Int) : Nat := (z % 2 ^ n).toNat

end Verif.M3
