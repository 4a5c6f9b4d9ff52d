import Verif.Field.ModelPacked

/-!
# Scalars of the tower in their integer representation (model)

A scalar of `BinaryField{2^k}b` is stored in a `2^k`-bit unsigned integer (`binary_field.rs:113-118`
wrapping `$typ`); the model uses `U k = BitVec (2^k)`. All definitions below work on the integers,
as the code does.
-/

namespace Verif.Field

/-- The abstract tower element denoted by an integer scalar. -/
def toT {k : Nat} (x : U k) : T k := lane k 0 x

namespace Scalar

/-- `Add`/`Sub`, `binary_field.rs:183-208`: xor of the underliers. -/
def add {k : Nat} (a b : U k) : U k := a ^^^ b

/-- `Mul`, `binary_field_arithmetic.rs:98-110` (`multiple_using_packed` with a packed field of the
same underlier and width 1 on portable targets): packed product, lane 0. -/
def mul {k : Nat} (a b : U k) : U k := Packed.mul k a b

/-- `square`, `binary_field_arithmetic.rs:112-115`. -/
def square {k : Nat} (a : U k) : U k := Packed.square k a

/-- `invert_or_zero`, `binary_field_arithmetic.rs:117-120`. -/
def invertOrZero {k : Nat} (a : U k) : U k := Packed.invertOrZero k a

/-- `From<$subfield_name> for $name`, `binary_field.rs:522-527`: zero extension of the integer. -/
def embed {k : Nat} (d : Nat) (x : U k) : U (k + d) := x.setWidth _

/-- `TryFrom<$name> for $subfield_name`, `binary_field.rs:505-520`. -/
def tryFrom {k d : Nat} (x : U (k + d)) : Option (U k) :=
  if x >>> (2 ^ k) = 0#_ then some (x.setWidth _) else none

/-- `From<$name> for (sub, sub)`, `binary_field.rs:681-690`. -/
def split {k : Nat} (x : U (k + 1)) : U k × U k :=
  (x.setWidth _, (x >>> (2 ^ k)).setWidth _)

/-- `From<(sub, sub)> for $name`, `binary_field.rs:692-697`. -/
def join {k : Nat} (a b : U k) : U (k + 1) :=
  (a.setWidth _) ||| ((b.setWidth _) <<< (2 ^ k))

/-- `ExtensionField::basis_checked`, `binary_field.rs:599-607`; `none` is
`Err(ExtensionDegreeMismatch)`. -/
def basisChecked (k d i : Nat) : Option (U (k + d)) :=
  if i ≥ 2 ^ d then none else some (1#_ <<< (i * 2 ^ k))

/-- The errors of `TowerField::basis`, `binary_field.rs:60-72` and `599-607`. -/
inductive BasisError where
  | extensionDegreeTooHigh
  | indexOutOfRange
  | extensionDegreeMismatch
  deriving DecidableEq

/-- `TowerField::basis`, `binary_field.rs:60-72`, for a field of tower level `n`. -/
def towerBasis (n iota i : Nat) : Except BasisError (U (0 + n)) :=
  if iota > n then .error .extensionDegreeTooHigh
  else if i ≥ 2 ^ (n - iota) then .error .indexOutOfRange
  else match basisChecked 0 n (i * 2 ^ iota) with
    | some b => .ok b
    | none => .error .extensionDegreeMismatch

/-- The loop of `from_bases_sparse`, `binary_field.rs:619-627`. -/
def fromBasesLoop {k d : Nat} (step : Nat) :
    List (U k) → (value : U (k + d)) → (shift : Nat) → Option (U (k + d))
  | [], value, _ => some value
  | e :: es, value, shift =>
    if shift ≥ 2 ^ (k + d) then none
    else fromBasesLoop step es (value ||| (e.setWidth _ <<< shift)) (shift + step)

/-- `from_bases_sparse`, `binary_field.rs:610-630`; `&` with `N_BITS - 1` is kept as a mask. -/
def fromBasesSparse {k d : Nat} (es : List (U k)) (logStride : Nat) : Option (U (k + d)) :=
  fromBasesLoop ((2 ^ k * 2 ^ logStride) &&& (2 ^ (k + d) - 1)) es 0#_ 0

/-- `from_bases` is `from_bases_sparse` with stride one, `crates/field/src/extension.rs:53-56`. -/
def fromBases {k d : Nat} (es : List (U k)) : Option (U (k + d)) := fromBasesSparse es 0

/-- `get_base_unchecked`, `binary_field.rs:650-655` (`get_subvalue`, shift then truncate). -/
def getBase {k d : Nat} (x : U (k + d)) (i : Nat) : U k := (x >>> (i * 2 ^ k)).setWidth _

/-- `iter_bases`, `binary_field.rs:633-648`: the `2^d` subvalues in order. -/
def iterBases {k d : Nat} (x : U (k + d)) : List (U k) := (List.range (2 ^ d)).map (getBase x)

/-- Multiplication by a 1-bit scalar, `binary_field.rs:398-414`: mask with the bit repeated. -/
def mulBit {k : Nat} (x : U k) (b : Bool) : U k := x &&& (if b then BitVec.allOnes _ else 0#_)

/-- Multiplication by a subfield scalar, `binary_field.rs:487-498`: recurse on the halves. -/
def mulSub {k : Nat} : (d : Nat) → U (k + d) → U k → U (k + d)
  | 0, x, r => mul x r
  | d + 1, x, r => let p := split (k := k + d) x; join (mulSub d p.1 r) (mulSub d p.2 r)

/-- `MulPrimitive::mul_primitive(iota)`, `binary_field_arithmetic.rs:128-205`, for a field of level
`k + 1 + d` and `iota = k`: reinterpret as a packed field of level `iota + 1` and `mul_alpha`. -/
def mulPrimitive {k d : Nat} (x : U (k + 1 + d)) : U (k + 1 + d) := Packed.mulAlpha (k + 1) x

/-- `min_tower_level`, `binary_field.rs:704-712`: the first level `l < n` with
`value >> 2^l == 0`, else the field's own level. -/
def minTowerLevel {n : Nat} (x : U n) : Nat :=
  ((List.range n).find? (fun l => decide (x >>> (2 ^ l) = 0#_))).getD n

end Scalar
end Verif.Field
