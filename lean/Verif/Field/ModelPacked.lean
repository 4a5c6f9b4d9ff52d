import Verif.Field.Tower

/-!
# Packed arithmetic on underliers (model)

`crates/field/src/arch/portable/packed_arithmetic.rs`, the `PackedStrategy` implementation of
multiplication, squaring, multiplication by alpha and inversion. An underlier with `LOG_BITS = L`
is a `BitVec (2^L)`; `usize`, `u8 .. u128` and the small `U1, U2, U4` underliers are all instances.
SIMD underliers are not modelled.
-/

namespace Verif.Field

/-- Read a level-`k` tower element from a bit sequence, low half first:
`binary_field.rs:681-690` (splitting into halves) applied recursively. -/
def T.ofBits : (k : Nat) → (Nat → Bool) → T k
  | 0, f => f 0
  | k + 1, f => (T.ofBits k f, T.ofBits k (fun j => f (2 ^ k + j)))

/-- The bit sequence of a level-`k` element (false beyond bit `2^k`). -/
def T.bit : (k : Nat) → T k → Nat → Bool
  | 0, a, j => if j = 0 then a else false
  | k + 1, (a0, a1), j => if j < 2 ^ k then T.bit k a0 j else T.bit k a1 (j - 2 ^ k)

/-- Underlier with `LOG_BITS = L`. -/
abbrev U (L : Nat) := BitVec (2 ^ L)

/-- `PackedField::get(i)` for a packed field whose scalars are at tower level `k`:
`UnderlierWithBitOps::get_subvalue`, `underlier_with_bit_ops.rs:74-90`
(`num_cast_from(self >> (i * BITS))` keeps the low `2^k` bits). -/
def lane {L : Nat} (k i : Nat) (u : U L) : T k :=
  T.ofBits k (fun j => (u >>> (i * 2 ^ k)).getLsbD j)

namespace Packed
variable {L : Nat}

/-- The loop `while i < log_width { mask |= mask << (scalar_bits << i); i += 1 }` of the
`interleave_mask_even!` macro started at `i = 1`, after `m` iterations. -/
def maskLoop (L k : Nat) : Nat → U L
  | 0 => (1#(2 ^ L) <<< (2 ^ k)) - 1#(2 ^ L)
  | m + 1 => maskLoop L k m ||| (maskLoop L k m <<< (2 ^ k * 2 ^ (m + 1)))

/-- `interleave_mask_even!($underlier, $tower_level)`, `packed_arithmetic.rs:194-208`;
the loop runs `log_width - 1` times with `log_width = LOG_BITS - tower_level`. -/
def evenMask (L k : Nat) : U L := maskLoop L k (L - k - 1)

/-- `interleave_mask_odd!`, `packed_arithmetic.rs:213-217`. -/
def oddMask (L k : Nat) : U L := evenMask L k <<< (2 ^ k)

/-- The loop of the `alphas!` macro, `packed_arithmetic.rs:172-189`, after `m` iterations. -/
def alphasLoop (L k : Nat) : Nat → U L
  | 0 => if k = 0 then 1#(2 ^ L) else 1#(2 ^ L) <<< (2 ^ (k - 1))
  | m + 1 => alphasLoop L k m ||| (alphasLoop L k m <<< (2 ^ (k + (m + 1))))

/-- `alphas!($underlier, $tower_level)`, `packed_arithmetic.rs:172-189`. -/
def alphas (L k : Nat) : U L := alphasLoop L k (L - k - 1)

/-- `interleave`, `packed_arithmetic.rs:224-233` and `UnderlierWithBitConstants::interleave`,
`packed_arithmetic.rs:24-37` (the same formula; its bound assertion is `k < L`). -/
def interleave (k : Nat) (a b : U L) : U L × U L :=
  let t := ((a >>> (2 ^ k)) ^^^ b) &&& evenMask L k
  let c := a ^^^ (t <<< (2 ^ k))
  let d := b ^^^ t
  (c, d)

/-- `xor_adjacent`, `packed_arithmetic.rs:237-244`. -/
def xorAdjacent (k : Nat) (a : U L) : U L :=
  let t := ((a >>> (2 ^ k)) ^^^ a) &&& evenMask L k
  t ^^^ (t <<< (2 ^ k))

/-- `TaggedMul<PackedStrategy>::mul`, `packed_arithmetic.rs:115-168`; at level 0 the packed
product is the bitwise and (`packed_arithmetic` of 1-bit fields is `PackedPrimitiveType` `Mul` via
`BitAnd`, `crates/field/src/arch/portable/packed.rs` / `binary_field_arithmetic.rs:83-85`). -/
def mul : Nat → U L → U L → U L
  | 0, a, b => a &&& b
  | k + 1, a, b =>
    let z0z2 := mul k a b
    let (lo, hi) := interleave k a b
    let loPlusHi := lo ^^^ hi
    let oddM := oddMask L k
    let alphaZ2 := alphas L k ^^^ (z0z2 &&& oddM)
    let (aLoHiAlpha, bLoHiZ2) := interleave k loPlusHi alphaZ2
    let p := mul k aLoHiAlpha bLoHiZ2
    let zeroEven := (p ^^^ (p <<< (2 ^ k))) &&& oddM
    let z0PlusZ2Dup := xorAdjacent k z0z2
    z0PlusZ2Dup ^^^ zeroEven

/-- `TaggedMulAlpha<PackedStrategy>::mul_alpha`, `packed_arithmetic.rs:253-268`. -/
def mulAlpha : Nat → U L → U L
  | 0, a => a
  | k + 1, a =>
    let a0 := a &&& evenMask L k
    let a1 := a &&& oddMask L k
    let z1 := mulAlpha k a1
    (a1 >>> (2 ^ k)) ||| ((a0 <<< (2 ^ k)) ^^^ z1)

/-- `TaggedSquare<PackedStrategy>::square`, `packed_arithmetic.rs:278-291`. -/
def square : Nat → U L → U L
  | 0, a => a
  | k + 1, a =>
    let z02 := square k a
    let z2a := mulAlpha k z02 &&& oddMask L k
    let z0XorZ2 := (z02 ^^^ (z02 >>> (2 ^ k))) &&& evenMask L k
    z0XorZ2 ||| z2a

/-- `TaggedInvertOrZero<PackedStrategy>::invert_or_zero`, `packed_arithmetic.rs:301-324`. -/
def invertOrZero : Nat → U L → U L
  | 0, a => a
  | k + 1, a =>
    let a1Even := a >>> (2 ^ k)
    let intermediate := a ^^^ mulAlpha k a1Even
    let delta := mul k a intermediate ^^^ square k a1Even
    let deltaInv := invertOrZero k delta
    let d := deltaInv &&& evenMask L k
    let dd := d ||| (d <<< (2 ^ k))
    let intermediateA1 := (a &&& oddMask L k) ||| (intermediate &&& evenMask L k)
    mul k dd intermediateA1

end Packed
end Verif.Field
