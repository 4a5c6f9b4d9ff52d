import Verif.Math.ModelUnivariate
import Verif.Field.ModelScalar

/-! Model of crates/math/src/binary_subspace.rs and of the evaluation domain factories.

A subspace is its list of basis elements.  `usize` is 64 bits wide. -/

namespace Verif.Subspace

open Verif.Univariate (Error Domain)

/-- `BinarySubspace`, crates/math/src/binary_subspace.rs:13-15.  `new_unchecked` (21-23), `dim` (67-69) and
`basis` (72-74) are the constructor, the length and the field. -/
structure BinarySubspace (F : Type*) where
  basis : List F
  deriving DecidableEq

/-- `BinarySubspace::with_dim`, crates/math/src/binary_subspace.rs:33-38; `basisChecked` is the field's
`basis_checked` over the two-element field. -/
def withDim {F : Type*} (basisChecked : Nat → Option F) (dim : Nat) : Except Error (BinarySubspace F) :=
  match (List.range dim).mapM basisChecked with
  | some basis => .ok ⟨basis⟩
  | none => .error .domainSizeTooLarge

/-- `BinarySubspace::reduce_dim`, crates/math/src/binary_subspace.rs:47-54. -/
def BinarySubspace.reduceDim {F : Type*} (s : BinarySubspace F) (dim : Nat) : Except Error (BinarySubspace F) :=
  if dim > s.basis.length then .error .domainSizeTooLarge else .ok ⟨s.basis.take dim⟩

/-- `BinarySubspace::isomorphic`, crates/math/src/binary_subspace.rs:57-64. -/
def BinarySubspace.isomorphic {F G : Type*} (emb : F → G) (s : BinarySubspace F) : BinarySubspace G :=
  ⟨s.basis.map emb⟩

variable {F : Type*} [AddCommGroup F]

/-- `BinarySubspace::get`, crates/math/src/binary_subspace.rs:76-88. -/
def BinarySubspace.get (s : BinarySubspace F) (index : Nat) : F :=
  (s.basis.take 64).zipIdx.foldl (fun acc p => if (index >>> p.2) &&& 1 ≠ 0 then acc + p.1 else acc) 0

/-- `1 << n` on `usize`: with overflow checks a shift by 64 or more panics (`none`), without them the
shift amount is taken modulo 64. -/
def shl1 (chk : Bool) (n : Nat) : Option Nat :=
  if n < 64 then some (2 ^ n) else if chk then none else some (2 ^ (n % 64))

/-- `BinarySubspace::get_checked`, crates/math/src/binary_subspace.rs:90-98: the outer `none` is a panic,
the inner one `ArgumentRangeError`. -/
def BinarySubspace.getChecked (chk : Bool) (s : BinarySubspace F) (index : Nat) : Option (Option F) :=
  (shl1 chk s.basis.length).map fun bound => if index ≥ bound then none else some (s.get index)

/-- The index of the last element the iterator yields, crates/math/src/binary_subspace.rs:104-108. -/
def BinarySubspace.last {F : Type*} (s : BinarySubspace F) : Nat :=
  if s.basis.length < 64 then 2 ^ s.basis.length - 1 else 2 ^ 64 - 1

/-- `BinarySubspace::iter`, crates/math/src/binary_subspace.rs:103-110, as the sequence of all its items. -/
def BinarySubspace.iter (s : BinarySubspace F) : List F :=
  (List.range (s.last + 1)).map s.get

/-- `make_evaluation_points`, crates/math/src/univariate.rs:88-98.  `iter().take(size)` is written as the
first `size` indices of the iterator. -/
def makeEvaluationPoints (s : BinarySubspace F) (size : Nat) : Except Error (List F) :=
  let points := (List.range (min size (s.last + 1))).map s.get
  if points.length ≠ size then .error .domainSizeTooLarge else .ok points

end Verif.Subspace

namespace Verif.Subspace

open Verif.Univariate (Error Domain)

variable {F G : Type*} [AddCommGroup F] [Field G] [DecidableEq G]

/-- `IsomorphicEvaluationDomainFactory::create`, crates/math/src/univariate.rs:77-86.
`DefaultEvaluationDomainFactory::create` (68-74) is the case where `emb` is the identity. -/
def createDomain (emb : F → G) (s : BinarySubspace F) (size : Nat) : Except Error (Domain G) :=
  let inf := decide (size ≥ 3)
  match makeEvaluationPoints s (size - if inf then 1 else 0) with
  | .error e => .error e
  | .ok points => Domain.fromPoints (points.map emb) inf

/-- `F::basis_checked` of the canonical tower field of `2^n` bits over the two-element field
(crates/field/src/binary_field.rs:599-607), with elements read as tower elements. -/
def towerBasisChecked (n i : Nat) : Option (Verif.Field.T (0 + n)) :=
  (Verif.Field.Scalar.basisChecked 0 n i).map Verif.Field.toT

end Verif.Subspace
