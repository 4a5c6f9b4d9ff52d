import Verif.Field.ModelTables

/-!
# The AES tower (model)

`crates/field/src/aes_field.rs`: bytes are elements of the AES field, larger scalars are built from
them with the same tower construction as the canonical binary tower. Portable arithmetic:
`packed_aes_{8,16,32,64,128}.rs` select lookup tables for bytes (`PairwiseTableStrategy`) and
`PairwiseRecursiveStrategy` above. Simplification: for the middle levels some packed types select
`PackedStrategy` for squaring and multiplication by alpha; the model uses the recursive formulas at
every level. `aesScalar n` is the scalar with `2^(3+n)` bits.
-/

namespace Verif.Field.Aes
open Table Scalar

/-- `FieldLinearTransformation::transform`, `linear_transformation.rs:53-61`, on bytes: the sum of
the bases selected by the bits. -/
def transform8 (bases : List (BitVec 8)) (x : BitVec 8) : BitVec 8 :=
  (bases.zipIdx).foldl (fun acc p => acc ^^^ (if x.getLsbD p.2 then p.1 else 0#8)) 0#8

/-- `AES_TO_BINARY_LINEAR_TRANSFORMATION`, `aes_field.rs:112-122`. -/
def aesToBinaryBases : List (BitVec 8) := [0x01, 0x3c, 0x8c, 0x8a, 0x59, 0x7a, 0x53, 0x27]

/-- `BINARY_TO_AES_LINEAR_TRANSFORMATION`, `aes_field.rs:130-140`. -/
def binaryToAesBases : List (BitVec 8) := [0x01, 0xbc, 0xb0, 0xec, 0xd3, 0x8d, 0x2e, 0x58]

/-- `convert_as_packed_8b` from the AES tower to the binary tower, `aes_field.rs:258-272` with
`From<AESTowerField8b> for BinaryField8b`, `aes_field.rs:124-128`. -/
def toBinary {n : Nat} (x : U (3 + n)) : U (3 + n) :=
  Packed.fromFn 3 fun i => transform8 aesToBinaryBases (Packed.getSub 3 i x)

/-- The other direction, `aes_field.rs:142-146`, `258-272`. -/
def ofBinary {n : Nat} (x : U (3 + n)) : U (3 + n) :=
  Packed.fromFn 3 fun i => transform8 binaryToAesBases (Packed.getSub 3 i x)

/-- Multiplication by alpha: bytes `aesMulAlphaMap`; above
`pairwise_recursive_arithmetic.rs:54-61`. -/
def mulAlpha : (n : Nat) → U (3 + n) → Option (U (3 + n))
  | 0, a => unaryOp aesMulAlphaMap a
  | n + 1, a => do
    let (a0, a1) := split a
    let z1 ← mulAlpha n a1
    some (join a1 (a0 ^^^ z1))

/-- `multiply`: bytes by log tables, `pairwise_table_arithmetic.rs:108-165`; above
`pairwise_recursive_arithmetic.rs:18-29`. -/
def mul : (n : Nat) → U (3 + n) → U (3 + n) → Option (U (3 + n))
  | 0, a, b => multiply8bUsingLogTable a b aesLogTable aesExpTable
  | n + 1, a, b => do
    let (a0, a1) := split a
    let (b0, b1) := split b
    let z0 ← mul n a0 b0
    let z2 ← mul n a1 b1
    let z0z2 := z0 ^^^ z2
    let m ← mul n (a0 ^^^ a1) (b0 ^^^ b1)
    let z1 := m ^^^ z0z2
    let z2a ← mulAlpha n z2
    some (join z0z2 (z1 ^^^ z2a))

/-- `square`: bytes `aesSquareMap`; above `pairwise_recursive_arithmetic.rs:38-45`. -/
def square : (n : Nat) → U (3 + n) → Option (U (3 + n))
  | 0, a => unaryOp aesSquareMap a
  | n + 1, a => do
    let (a0, a1) := split a
    let z0 ← square n a0
    let z2 ← square n a1
    let z2a ← mulAlpha n z2
    some (join (z0 ^^^ z2) z2a)

/-- `invert_or_zero`: bytes `aesInvertMap`; above `pairwise_recursive_arithmetic.rs:70-80`. -/
def invertOrZero : (n : Nat) → U (3 + n) → Option (U (3 + n))
  | 0, a => unaryOp aesInvertMap a
  | n + 1, a => do
    let (a0, a1) := split a
    let t ← mulAlpha n a1
    let a0z1 := a0 ^^^ t
    let p ← mul n a0 a0z1
    let q ← square n a1
    let delta := p ^^^ q
    let deltaInv ← invertOrZero n delta
    let inv0 ← mul n deltaInv a0z1
    let inv1 ← mul n deltaInv a1
    some (join inv0 inv1)

/-- `MULTIPLICATIVE_GENERATOR` of the AES tower fields, `aes_field.rs:46-50`. -/
def multiplicativeGenerator : (n : Fin 5) → U (3 + n)
  | 0 => 0xD0#8
  | 1 => 0x4745#16
  | 2 => 0xBD478FAB#32
  | 3 => 0x0DE1555D2BD78EB4#64
  | 4 => 0x6DB54066349EDB96C33A87244A742678#128

/-- `is_aes_tower`, `aes_field.rs:104-110`: the first comparison is between `F` and itself. Types
are represented by their `TypeId`. -/
def isAesTower (typeId aes16 aes32 aes64 aes128 : Nat) : Bool :=
  typeId == typeId || typeId == aes16 || typeId == aes32 || typeId == aes64 || typeId == aes128

end Verif.Field.Aes
