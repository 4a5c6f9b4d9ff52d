import Mathlib.Data.Nat.Log
import Mathlib.Data.List.Basic

/-! Model of the serialization of transparent multilinear extensions, crates/core/src/transparent/multilinear_extension.rs.

The field is `BinaryField128b`, an element of which is a number below `2 ^ 128`, and the optimal underlier has `2 ^ c` of them.
Simplified: bytes are left out; what is written is the list of elements, whose serialization is that of C01. A panic is
`none`. -/

namespace Verif.TransparentMle

/-- `MultilinearExtensionTransparent`, crates/core/src/transparent/multilinear_extension.rs:25-33, with values in the field of
tower level `level`: the values are packed into underliers, which are given here by their elements of 128 bits. -/
structure Mle where
  level : Nat
  nVars : Nat
  elems : List Nat
  deriving DecidableEq

/-- Scalars of level `k` in an element of 128 bits. -/
def perElem (k : Nat) : Nat := 2 ^ (7 - k)

/-- The value at vertex `i` of the hypercube, which `evaluate`, crates/core/src/transparent/multilinear_extension.rs:141-147,
extends: the scalars of level `k` in an element are its parts of `2 ^ k` bits, the first the least significant. -/
def Mle.value (m : Mle) (i : Nat) : Nat :=
  m.elems.getD (i / perElem m.level) 0 / (2 ^ 2 ^ m.level) ^ (i % perElem m.level) % 2 ^ 2 ^ m.level

/-- `is_power_of_two`. -/
def isPowerOfTwo (n : Nat) : Bool := 2 ^ Nat.log 2 n == n

/-- `from_values`, crates/core/src/transparent/multilinear_extension.rs:108-113, with `from_values_generic`,
crates/math/src/multilinear_extension.rs:57-64. -/
def fromValues (c level : Nat) (elems : List Nat) : Option Mle :=
  let len := elems.length / 2 ^ c
  if isPowerOfTwo len then some ⟨level, Nat.log 2 len + (c + (7 - level)), elems⟩ else none

/-- `from_values_and_mu`, crates/core/src/transparent/multilinear_extension.rs:117-122, with `MultilinearExtension::new`,
crates/math/src/multilinear_extension.rs:66-90. -/
def fromValuesAndMu (c level nVars : Nat) (elems : List Nat) : Option Mle :=
  let len := elems.length / 2 ^ c
  if ¬ isPowerOfTwo len then none
  else if nVars < c + (7 - level) then if len ≠ 1 then none else some ⟨level, nVars, elems⟩
  else if c + (7 - level) + Nat.log 2 len ≠ nVars then none
  else some ⟨level, nVars, elems⟩

/-- `serialize`, crates/core/src/transparent/multilinear_extension.rs:35-55: `packed_evals` of the adapter,
crates/math/src/mle_adapters.rs:302-304, casts the packed values to elements of the extension. -/
def serialize (m : Mle) : List Nat := m.elems

/-- The number whose digits in base `b` are given. -/
def join (b : Nat) : List Nat → Nat
  | [] => 0
  | d :: l => d + b * join b l

/-- `pack_slice`, crates/field/src/packed.rs:443-448, of scalars of level `k`, with zeros for missing ones. -/
def packSlice (c k : Nat) (scalars : List Nat) : List Nat :=
  let width := 2 ^ c * perElem k
  (List.range ((scalars.length + width - 1) / width * 2 ^ c)).map fun j =>
    join (2 ^ 2 ^ k) ((List.range (perElem k)).map fun t => scalars.getD (j * perElem k + t) 0)

/-- `try_pack_slice`, crates/core/src/transparent/multilinear_extension.rs:87-99. -/
def tryPackSlice (c k : Nat) (xs : List Nat) : Option (List Nat) :=
  if xs.all fun x => x < 2 ^ 2 ^ k then some (packSlice c k xs) else none

/-- The arms of the deserializer from level `k` on, of which there are `n` before the last. -/
def deserializeFrom (c : Nat) (xs : List Nat) : Nat → Nat → Option Mle
  | 0, _ => fromValues c 7 (packSlice c 7 xs)
  | n + 1, k => match tryPackSlice c k xs with
    | some packed => fromValues c k packed
    | none => deserializeFrom c xs n (k + 1)

/-- The registered deserializer, crates/core/src/transparent/multilinear_extension.rs:57-85, after the list was read. -/
def deserialize (c : Nat) (xs : List Nat) : Option Mle := deserializeFrom c xs 7 0

end Verif.TransparentMle
