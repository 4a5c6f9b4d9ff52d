import Verif.Field.ModelScalar
import Verif.Util.PairLoop

/-!
# Lane access and data movement on packed fields (model)

`underlier/underlier_with_bit_ops.rs`, `arch/portable/packed.rs`, `packed.rs`, `transpose.rs`.
A packed field over underlier `U L` with scalars of level `k` has `2^(L-k)` lanes.
-/

namespace Verif.Field.Packed
open Verif
variable {L : Nat}

/-- `get_subvalue`, `underlier_with_bit_ops.rs:74-90` (unchecked). -/
def getSub (k i : Nat) (u : U L) : U k := (u >>> (i * 2 ^ k)).setWidth _

/-- `PackedField::get_checked`, `packed.rs:83-91`; `get` (`packed.rs:105-107`) panics where this is
`none`. -/
def getChecked (k i : Nat) (u : U L) : Option (U k) :=
  if i < 2 ^ (L - k) then some (getSub k i u) else none

/-- `set_subvalue`, `underlier_with_bit_ops.rs:98-109`; the mask is all ones of the scalar's
underlier (`single_element_mask`, `underlier_with_bit_ops.rs:222-227`, `390-401`). -/
def setSub (k i : Nat) (u : U L) (v : U k) : U L :=
  let mask : U L := (BitVec.allOnes (2 ^ k)).setWidth _
  (u &&& ~~~(mask <<< (i * 2 ^ k))) ||| (v.setWidth _ <<< (i * 2 ^ k))

/-- `PackedField::set_checked`, `packed.rs:94-102`. -/
def setChecked (k i : Nat) (u : U L) (v : U k) : Option (U L) :=
  if i < 2 ^ (L - k) then some (setSub k i u v) else none

/-- `from_fn`, `underlier_with_bit_ops.rs:38-52`. -/
def fromFn (k : Nat) (f : Nat → U k) : U L :=
  (List.range (2 ^ (L - k))).foldl (fun r i => r ||| ((f i).setWidth _ <<< (i * 2 ^ k))) 0#_

/-- `broadcast_subvalue`, `underlier_with_bit_ops.rs:57-70`. -/
def broadcast (k : Nat) (v : U k) : U L :=
  (List.range (L - k)).foldl (fun r i => r ||| (r <<< (2 ^ i * 2 ^ k))) (v.setWidth _)

/-- `from_scalars`, `packed.rs:178-184`: at most `WIDTH` values are set, the rest stay zero. -/
def fromScalars (k : Nat) (vs : List (U k)) : U L :=
  ((vs.take (2 ^ (L - k))).zipIdx).foldl (fun r p => setSub k p.2 r p.1) 0#_

/-- `spread_fallback`, `underlier_with_bit_ops.rs:303-335`. -/
def spread (k logBlockLen blockIdx : Nat) (value : U L) : U L :=
  let blockOffset := blockIdx * 2 ^ logBlockLen
  let logRepeat := L - k - logBlockLen
  let result := (List.range (2 ^ logBlockLen)).foldl
    (fun r i => setSub k (i * 2 ^ logRepeat) r (getSub k (blockOffset + i) value)) (0#_ : U L)
  (List.range logRepeat).foldl (fun r i => r ||| (r <<< (2 ^ (k + i)))) result

/-- `PackedField::interleave`, `arch/portable/packed.rs:334-339`; `none` is the failed assertion. -/
def interleaveBlocks (k logBlockLen : Nat) (a b : U L) : Option (U L × U L) :=
  if logBlockLen < L - k then some (interleave (logBlockLen + k) a b) else none

/-- `UnderlierWithBitConstants::transpose`, `packed_arithmetic.rs:40-49`:
`for l in (log_block_len..LOG_BITS).rev() { interleave l }`. The argument counts the iterations;
iteration order is from the highest block size down. -/
def transposeLoop (lo : Nat) : Nat → U L × U L → U L × U L
  | 0, p => p
  | n + 1, p => transposeLoop lo n (interleave (lo + n) p.1 p.2)

/-- `PackedField::unzip`, `arch/portable/packed.rs:342-347`. -/
def unzip (k logBlockLen : Nat) (a b : U L) : Option (U L × U L) :=
  if logBlockLen < L - k then
    some (transposeLoop (logBlockLen + k) (L - (logBlockLen + k)) (a, b))
  else none

/-- `PackedField::pow`, `packed.rs:190-199`: 64 rounds from the most significant exponent bit. -/
def pow (k : Nat) (a : U L) (exp : Nat) : U L :=
  (List.range 64).foldl (fun res r =>
    let i := 63 - r
    let res := square k res
    if (exp >>> i) &&& 1 = 1 then mul k res a else res) (broadcast k 1#_)

/-- One limb of `Field::pow`, `field.rs:95-102`: the product is always computed, then selected. -/
def powLimb {k : Nat} (a : U k) (res : U k) (e : Nat) : U k :=
  (List.range 64).foldl (fun res r =>
    let i := 63 - r
    let res := Scalar.square res
    let tmp := Scalar.mul res a
    if (e >>> i) &&& 1 ≠ 0 then tmp else res) res

/-- `Field::pow`, `field.rs:92-105`: limbs little-endian, processed from the last to the first. -/
def powLimbs {k : Nat} (a : U k) (exp : List Nat) : U k := exp.reverse.foldl (powLimb a) 1#_

/-- One limb of `Field::pow_vartime`, `field.rs:118-124`. -/
def powLimbVartime {k : Nat} (a : U k) (res : U k) (e : Nat) : U k :=
  (List.range 64).foldl (fun res r =>
    let i := 63 - r
    let res := Scalar.square res
    if (e >>> i) &&& 1 = 1 then Scalar.mul res a else res) res

/-- `Field::pow_vartime`, `field.rs:115-128`. -/
def powLimbsVartime {k : Nat} (a : U k) (exp : List Nat) : U k :=
  exp.reverse.foldl (powLimbVartime a) 1#_

/-- `TaggedMul<PairwiseStrategy>`, `arch/portable/pairwise_arithmetic.rs:13-23` for a width above
one, with the scalar product. -/
def mulPairwise (k : Nat) (a b : U L) : U L :=
  fromFn k fun i => Scalar.mul (getSub k i a) (getSub k i b)

/-- `mul_as_bigger_type`, `arch/portable/packed.rs:390-404`. -/
def mulAsBigger (M k : Nat) (a b : U L) : U L :=
  (mul (L := M) k (a.setWidth _) (b.setWidth _)).setWidth _

/-- `broadcast_lowest_bit`, `packed_arithmetic.rs:357-363`. -/
def broadcastLowestBit (logBits : Nat) (u : U L) : U L :=
  (List.range logBits).foldl (fun d i => d ||| (d <<< (2 ^ i))) u

/-- The loop of `PackedTransformation::transform`, `packed_arithmetic.rs:378-384`. -/
def transformLoop (k : Nat) : List (U k) → (result input : U L) → U L
  | [], result, _ => result
  | base :: bases, result, input =>
    let baseComponent := input &&& broadcast k 1#_
    let mask := broadcastLowestBit k baseComponent
    transformLoop k bases (result ^^^ (mask &&& broadcast k base)) (input >>> 1)

/-- `PackedTransformation::new` and `transform`, `packed_arithmetic.rs:340-354`, `373-387`. -/
def transform (k : Nat) (bases : List (U k)) (input : U L) : U L := transformLoop k bases 0#_ input

/-- One round of `square_transpose`, `transpose.rs:51-63`, the body of `for i in 0..log_n`; the
slice is a function on indices and `k` is the scalar level. -/
def transposeRound (k logN logW i : Nat) (elems : Nat → U L) : Nat → U L :=
  pairLoop (fun _ v0 v1 => interleave (i + k) v0 v1)
    (fun p : Nat × Nat => (p.1 <<< (logW + i + 1)) ||| p.2)
    (fun p => ((p.1 <<< (logW + i + 1)) ||| p.2) ||| (1 <<< (logW + i)))
    (nest (1 <<< (logN - i - 1)) (1 <<< (logW + i))) elems

/-- `square_transpose`, `transpose.rs:29-66`, for a slice of length `2^logSize` (other lengths are
the `InvalidBufferSize` error); `none` for the two error returns. -/
def squareTranspose (k logN logSize : Nat) (elems : Nat → U L) : Option (Nat → U L) :=
  if L - k < logN then none
  else if logSize < logN then none
  else some ((List.range logN).foldl
    (fun m i => transposeRound k logN (logSize - logN) i m) elems)

end Verif.Field.Packed
