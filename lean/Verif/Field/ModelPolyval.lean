import Verif.Field.ModelPolyvalTables
import Verif.Util.Loop

/-!
# The POLYVAL field (model)

`crates/field/src/polyval.rs` with the portable arithmetic of
`crates/field/src/arch/portable/packed_polyval_128.rs` (the x86 and ARM versions with carry-less
multiplication instructions are not modelled). An element is stored in a `u128`, in Montgomery form.
-/

namespace Verif.Field.Polyval

/-- `rev64`, `packed_polyval_128.rs:161-168`. -/
def rev64 (x : BitVec 64) : BitVec 64 :=
  let x := ((x &&& 0x5555555555555555#64) <<< 1) ||| ((x >>> 1) &&& 0x5555555555555555#64)
  let x := ((x &&& 0x3333333333333333#64) <<< 2) ||| ((x >>> 2) &&& 0x3333333333333333#64)
  let x := ((x &&& 0x0f0f0f0f0f0f0f0f#64) <<< 4) ||| ((x >>> 4) &&& 0x0f0f0f0f0f0f0f0f#64)
  let x := ((x &&& 0x00ff00ff00ff00ff#64) <<< 8) ||| ((x >>> 8) &&& 0x00ff00ff00ff00ff#64)
  let x := ((x &&& 0x0000ffff0000ffff#64) <<< 16) ||| ((x >>> 16) &&& 0x0000ffff0000ffff#64)
  x.rotateRight 32

/-- `bmul64`, `packed_polyval_128.rs:137-158`: sixteen wrapping integer products of masked words. -/
def bmul64 (x y : BitVec 64) : BitVec 64 :=
  let x0 := x &&& 0x1111111111111111#64
  let x1 := x &&& 0x2222222222222222#64
  let x2 := x &&& 0x4444444444444444#64
  let x3 := x &&& 0x8888888888888888#64
  let y0 := y &&& 0x1111111111111111#64
  let y1 := y &&& 0x2222222222222222#64
  let y2 := y &&& 0x4444444444444444#64
  let y3 := y &&& 0x8888888888888888#64
  let z0 := (x0 * y0) ^^^ (x1 * y3) ^^^ (x2 * y2) ^^^ (x3 * y1)
  let z1 := (x0 * y1) ^^^ (x1 * y0) ^^^ (x2 * y3) ^^^ (x3 * y2)
  let z2 := (x0 * y2) ^^^ (x1 * y1) ^^^ (x2 * y0) ^^^ (x3 * y3)
  let z3 := (x0 * y3) ^^^ (x1 * y2) ^^^ (x2 * y1) ^^^ (x3 * y0)
  (z0 &&& 0x1111111111111111#64) ||| (z1 &&& 0x2222222222222222#64) |||
    (z2 &&& 0x4444444444444444#64) ||| (z3 &&& 0x8888888888888888#64)

/-- The last lines of `montgomery_multiply`, `packed_polyval_128.rs:121-130`: reduction of the
256-bit product `v3 v2 v1 v0`. -/
def reduce (v0 v1 v2 v3 : BitVec 64) : BitVec 128 :=
  let v2 := v2 ^^^ (v0 ^^^ (v0 >>> 1) ^^^ (v0 >>> 2) ^^^ (v0 >>> 7))
  let v1 := v1 ^^^ ((v0 <<< 63) ^^^ (v0 <<< 62) ^^^ (v0 <<< 57))
  let v3 := v3 ^^^ (v1 ^^^ (v1 >>> 1) ^^^ (v1 >>> 2) ^^^ (v1 >>> 7))
  let v2 := v2 ^^^ ((v1 <<< 63) ^^^ (v1 <<< 62) ^^^ (v1 <<< 57))
  v2.setWidth 128 ||| (v3.setWidth 128) <<< 64

/-- `montgomery_multiply`, `packed_polyval_128.rs:91-130`, which is `Mul`, `polyval.rs:147-154` with
`packed_polyval_128.rs:30-38`. -/
def mul (a b : BitVec 128) : BitVec 128 :=
  let h0 := a.setWidth 64
  let h1 := (a >>> 64).setWidth 64
  let h0r := rev64 h0
  let h1r := rev64 h1
  let h2 := h0 ^^^ h1
  let h2r := h0r ^^^ h1r
  let y0 := b.setWidth 64
  let y1 := (b >>> 64).setWidth 64
  let y0r := rev64 y0
  let y1r := rev64 y1
  let y2 := y0 ^^^ y1
  let y2r := y0r ^^^ y1r
  let z0 := bmul64 y0 h0
  let z1 := bmul64 y1 h1
  let z2 := bmul64 y2 h2
  let z0h := bmul64 y0r h0r
  let z1h := bmul64 y1r h1r
  let z2h := bmul64 y2r h2r
  let z2 := z2 ^^^ (z0 ^^^ z1)
  let z2h := z2h ^^^ (z0h ^^^ z1h)
  let z0h := rev64 z0h >>> 1
  let z1h := rev64 z1h >>> 1
  let z2h := rev64 z2h >>> 1
  reduce z0 (z0h ^^^ z2) (z1 ^^^ z2h) z1h

/-- `Add` and `Sub`, `polyval.rs:111-145`. -/
def add (a b : BitVec 128) : BitVec 128 := a ^^^ b

/-- `ONE`, `polyval.rs:262`. -/
def one : BitVec 128 := 0xc2000000000000000000000000000001#128

/-- `square`, `reuse_multiply_arithmetic.rs:10-17`. -/
def square (a : BitVec 128) : BitVec 128 := mul a a

/-- `to_montgomery`, `polyval.rs:308-311`, which is `BinaryField128bPolyval::new`,
`polyval.rs:55-59`. -/
def new (v : BitVec 128) : BitVec 128 := mul v 0x1e563df92ea7081b4563df92ea7081b5#128

/-- `from_montgomery`, `polyval.rs:313-318`; `Display` prints it, `polyval.rs:295-299`. -/
def fromMontgomery (a : BitVec 128) : BitVec 128 := mul a 1#128

/-- `pow_2_2_n`, `packed_polyval_128.rs:171-192`; `none` is an index out of the table. -/
def pow22n (value : BitVec 128) (n : Nat) : Option (BitVec 128) :=
  if n = 0 then some (square value)
  else if n ≤ 6 then
    let basesForm := fromMontgomery value
    nibblePowTable[n - 1]?.bind fun table =>
      forRange 32 (fun k acc =>
        let nibble := ((basesForm >>> (k * 4)) &&& 0x0F#128).toNat
        table[k]?.bind fun row => row[nibble]?.bind fun v => some (acc ^^^ BitVec.ofNat 128 v)) 0#128
  else some value

/-- The body of the loop of `invert_or_zero`, `packed_polyval_128.rs:66-75`: the state is
`self_pow_2_pow_k1s`, `self_pow_2_pow_k1s_to_k0s` and `res`. -/
def invertStep (k : Nat) (s : BitVec 128 × BitVec 128 × BitVec 128) :
    Option (BitVec 128 × BitVec 128 × BitVec 128) :=
  let ones := mul s.1 s.2.1
  (pow22n ones (k + 1)).bind fun onesZeros => some (ones, onesZeros, mul s.2.2 onesZeros)

/-- `invert_or_zero`, `packed_polyval_128.rs:44-79`, called by `polyval.rs:274-279`. -/
def invertOrZero (a : BitVec 128) : Option (BitVec 128) :=
  (pow22n a 0).bind fun res =>
    (forRange 6 invertStep (a, res, res)).bind fun s => some s.2.2

/-- `FieldLinearTransformation::transform`, `linear_transformation.rs:53-61`, on 128 bits: the sum
of the bases selected by the bits. -/
def transform (bases : List Nat) (x : BitVec 128) : BitVec 128 :=
  (bases.zipIdx).foldl
    (fun acc p => acc ^^^ (if x.getLsbD p.2 then BitVec.ofNat 128 p.1 else 0#128)) 0#128

/-- `From<BinaryField128b> for BinaryField128bPolyval`, `polyval.rs:648-652`. -/
def ofBinary (x : BitVec 128) : BitVec 128 := transform binaryToPolyvalBases x

/-- `From<BinaryField128bPolyval> for BinaryField128b`, `polyval.rs:786-790`. -/
def toBinary (x : BitVec 128) : BitVec 128 := transform polyvalToBinaryBases x

/-- `From<AESTowerField128b> for BinaryField128bPolyval`, `polyval.rs:924-928`. -/
def ofAes (x : BitVec 128) : BitVec 128 := transform aesToPolyvalBases x

/-- `From<BinaryField128bPolyval> for AESTowerField128b`, `polyval.rs:1062-1066`. -/
def toAes (x : BitVec 128) : BitVec 128 := transform polyvalToAesBases x

/-- `MULTIPLICATIVE_GENERATOR`, `polyval.rs:495-497`. -/
def multiplicativeGenerator : BitVec 128 := 0x072bdf2504ce49c03105433c1c25a4a7#128

/-- `From<BinaryField1b>`, `polyval.rs:334-341`. -/
def ofBit (b : Bool) : BitVec 128 := one &&& (if b then BitVec.allOnes 128 else 0#128)

/-- `TryInto<BinaryField1b>`, `polyval.rs:323-332`. -/
def toBit (x : BitVec 128) : Option Bool :=
  if x = 0#128 then some false else if x = one then some true else none

/-- `Mul<BinaryField1b>`, `polyval.rs:361-371`. -/
def mulBit (x : BitVec 128) (b : Bool) : BitVec 128 :=
  x &&& (if b then BitVec.allOnes 128 else 0#128)

/-- `ExtensionField::<BinaryField1b>::basis_checked`, `polyval.rs:424-430`; `none` is
`Err(ExtensionDegreeMismatch)`. -/
def basisChecked (i : Nat) : Option (BitVec 128) :=
  if i ≥ 128 then none else some (new (1#128 <<< i))

/-- `from_bases_sparse`, `polyval.rs:432-446`; `none` is `Err(ExtensionDegreeMismatch)` (the shift
overflow beyond 128 elements is not modelled: the list has at most 128). -/
def fromBasesSparse (es : List Bool) (logStride : Nat) : Option (BitVec 128) :=
  if logStride ≠ 7 then none
  else some (new ((es.zipIdx).foldl (fun v p => v ||| ((BitVec.ofBool p.1).setWidth 128 <<< p.2)) 0#128))

/-- `from_bases`, `extension.rs:53-56`. -/
def fromBases (es : List Bool) : Option (BitVec 128) := fromBasesSparse es 0

/-- `iter_bases`, `polyval.rs:448-458`: the bits of the stored integer. -/
def iterBases (x : BitVec 128) : List Bool := (List.range 128).map fun i => x.getLsbD i

end Verif.Field.Polyval
