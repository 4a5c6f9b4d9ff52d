import Verif.M3.SpecTable
import Mathlib.Data.Fin.Basic

/-! Specification of the permutation Keccak-f[1600], after FIPS 202, "SHA-3 Standard: Permutation-Based Hash and
Extendable-Output Functions": a state array of 5 × 5 × 64 bits and the five step mappings of its section 3.2, written
bit by bit.  The rotation offsets and the round constants are given by the algorithms of the standard, not by tables.
Arithmetic on coordinates is modulo 5 and modulo 64. -/

set_option linter.dupNamespace false

namespace Verif.Keccak

/-- A state array, FIPS 202, 3.1: the bit `A[x, y, z]`. -/
abbrev State := Fin 5 → Fin 5 → Fin 64 → Bool

/-- FIPS 202, 3.2.1, Algorithm 1. -/
def theta (A : State) : State := fun x y z =>
  let C : Fin 5 → Fin 64 → Bool := fun x z => A x 0 z ^^ A x 1 z ^^ A x 2 z ^^ A x 3 z ^^ A x 4 z
  let D : Fin 5 → Fin 64 → Bool := fun x z => C (x - 1) z ^^ C (x + 1) (z - 1)
  A x y z ^^ D x z

/-- The loop of FIPS 202, 3.2.2, Algorithm 2, over the values of `t` that are left; `A'` is the array so far. -/
def rhoLoop (A : State) : List Nat → Fin 5 → Fin 5 → State → State
  | [], _, _, A' => A'
  | t :: ts, x, y, A' =>
    rhoLoop A ts y (2 * x + 3 * y) fun x' y' z =>
      if x' = x ∧ y' = y then A x y (z - Fin.ofNat 64 ((t + 1) * (t + 2) / 2)) else A' x' y' z

/-- FIPS 202, 3.2.2, Algorithm 2. -/
def rho (A : State) : State := rhoLoop A (List.range 24) 1 0 fun x y z => if x = 0 ∧ y = 0 then A x y z else false

/-- FIPS 202, 3.2.3, Algorithm 3. -/
def pi (A : State) : State := fun x y z => A (x + 3 * y) x z

/-- FIPS 202, 3.2.4, Algorithm 4. -/
def chi (A : State) : State := fun x y z => A x y z ^^ ((A (x + 1) y z ^^ true) && A (x + 2) y z)

/-- The steps a to f of the loop of FIPS 202, 3.2.5, Algorithm 5, on the eight bits of `R`. -/
def lfsr : List Bool → List Bool
  | [r0, r1, r2, r3, r4, r5, r6, r7] =>
    [false ^^ r7, r0, r1, r2, r3 ^^ r7, r4 ^^ r7, r5 ^^ r7, r6]
  | _ => []

/-- FIPS 202, 3.2.5, Algorithm 5. -/
def rc (t : Nat) : Bool := (lfsr^[t % 255] [true, false, false, false, false, false, false, false]).head? == some true

/-- The round constant of FIPS 202, 3.2.5, Algorithm 6: `RC[2^j - 1] = rc(j + 7 i)` for `j` from 0 to 6, and the other
bits are 0. -/
def roundConstant (i : Nat) (z : Fin 64) : Bool := (List.range 7).any fun j => z.val == 2 ^ j - 1 && rc (j + 7 * i)

/-- FIPS 202, 3.2.5, Algorithm 6. -/
def iota (A : State) (i : Nat) : State := fun x y z => if x = 0 ∧ y = 0 then A x y z ^^ roundConstant i z else A x y z

/-- FIPS 202, 3.3: a round. -/
def rnd (A : State) (i : Nat) : State := iota (chi (pi (rho (theta A)))) i

/-- FIPS 202, 3.3 and 3.4: the permutation Keccak-f[1600], of 24 rounds. -/
def keccakF (A : State) : State := (List.range 24).foldl rnd A

/-- The state array of a 5 × 5 array of lanes of 64 bits, FIPS 202, 3.1.2. -/
def stateOf (lane : Nat → Nat → BitVec 64) : State := fun x y z => (lane x y).getLsbD z

open Finset in
/-- The element of the field of 64 bits that stands for a lane of 64 bits. -/
def laneElement {F : Type} [Field F] (Tw : M3.Tower F) (l : Fin 64 → Bool) : F :=
  ∑ z : Fin 64, (if l z then 1 else 0) * Tw.basis z

end Verif.Keccak
