import Mathlib.Algebra.BigOperators.Ring.Finset

/-! Model of crates/core/src/tensor_algebra.rs and crates/core/src/ring_switch/tower_tensor_algebra.rs.

The top field is `BinaryField128b` (the only type with the bounds of `TowerTop`, crates/math/src/tower.rs:16-23), so
`F::TOWER_LEVEL` is 7.  The model is over any field `F` with, for each subfield of the list, a function that gives the
coordinates of an element (`iter_bases`) and the basis (`ExtensionField::basis`); coordinates are given as elements of
`F`, by the embedding of the subfield.  The instance for the tower of the code is in `SpecRingSwitch`. -/

set_option linter.dupNamespace false

namespace Verif.RingSwitch

open Finset

/-- The errors of crates/core/src/ring_switch/error.rs:7-49; a panic is one more error. -/
inductive RsError where
  | oracleTowerLevelTooHigh (id : Nat)
  | packingDegreeNotSupported (kappa : Nat)
  | towerLevelMismatch
  | invalidArgs
  | invalidWitness
  | evalcheckClaimForDerivedPoly (id : Nat)
  | oracleToCommitIndexMissingEntry (id : Nat)
  | math
  | polynomial
  | compute
  | incorrectEvaluation
  | incorrectRowBatchedSum
  | panic
  deriving DecidableEq

/-- The variants of `TowerTensorAlgebra`, ring_switch/tower_tensor_algebra.rs:9-16. -/
inductive Level where
  | b1 | b8 | b16 | b32 | b64 | b128
  deriving DecidableEq

/-- `TowerField::TOWER_LEVEL` of the subfields `B1` to `B128`, crates/math/src/tower.rs:5-8. -/
def Level.towerLevel : Level → Nat
  | .b1 => 0
  | .b8 => 3
  | .b16 => 4
  | .b32 => 5
  | .b64 => 6
  | .b128 => 7

/-- `TensorAlgebra::kappa`, core/src/tensor_algebra.rs:65-67: `FE::LOG_DEGREE`. -/
def Level.kappa (l : Level) : Nat := 7 - l.towerLevel

/-- `TowerTensorAlgebra::kappa`, ring_switch/tower_tensor_algebra.rs:50-60. -/
def Level.reportedKappa : Level → Nat
  | .b1 => 7 - 7
  | .b8 => 7 - 4
  | .b16 => 7 - 3
  | .b32 => 7 - 2
  | .b64 => 7 - 1
  | .b128 => 7 - 0

/-- The match of `TowerTensorAlgebra::new`, ring_switch/tower_tensor_algebra.rs:25-33 (and of `zero`, 38-46, and of
`make_ring_switch_eq_ind`, ring_switch/verify.rs:197-233 and prove.rs:338-380): the subtraction panics. -/
def levelOf (kappa : Nat) : Except RsError Level :=
  if 7 < kappa then .error .panic
  else match 7 - kappa with
    | 0 => .ok .b1
    | 3 => .ok .b8
    | 4 => .ok .b16
    | 5 => .ok .b32
    | 6 => .ok .b64
    | 7 => .ok .b128
    | _ => .error (.packingDegreeNotSupported kappa)

/-- The coordinates of an element over a subfield, `ExtensionField::iter_bases`, and the basis, `ExtensionField::basis`,
crates/field/src/extension.rs:35-72. -/
structure Coords (F : Type) where
  coord : F → Nat → F
  basis : Nat → F

/-- The coordinates over each of the subfields. -/
abbrev Tower (F : Type) := Level → Coords F

/-- `TowerTensorAlgebra`, ring_switch/tower_tensor_algebra.rs:9-16, with `TensorAlgebra`, core/src/tensor_algebra.rs:24-31:
the `2^kappa` elements of the vector as a function of the index. -/
structure TElem (F : Type) where
  level : Level
  elem : Nat → F

section
variable {F : Type} [CommRing F]

/-- `TowerTensorAlgebra::new`, ring_switch/tower_tensor_algebra.rs:24-34, and `TensorAlgebra::new`,
core/src/tensor_algebra.rs:56-62: the vector is padded with zeros or truncated. -/
def TElem.new (kappa : Nat) (elems : List F) : Except RsError (TElem F) :=
  match levelOf kappa with
  | .error e => .error e
  | .ok l => .ok ⟨l, fun w => if w < 2 ^ l.kappa then elems[w]?.getD 0 else 0⟩

/-- `TowerTensorAlgebra::zero`, ring_switch/tower_tensor_algebra.rs:37-47. -/
def TElem.zero (kappa : Nat) : Except RsError (TElem F) :=
  match levelOf kappa with
  | .error e => .error e
  | .ok l => .ok ⟨l, fun _ => 0⟩

/-- `vertical_elems`, core/src/tensor_algebra.rs:82-84. -/
def TElem.verticalElems (t : TElem F) : List F := (List.range (2 ^ t.level.kappa)).map t.elem

/-- `from_vertical`, core/src/tensor_algebra.rs:99-106. -/
def fromVertical (x : F) : Nat → F := fun w => if w = 0 then x else 0

/-- `scale_vertical`, core/src/tensor_algebra.rs:118-123. -/
def scaleVertical (t : Nat → F) (x : F) : Nat → F := fun w => t w * x

/-- `transpose`, core/src/tensor_algebra.rs:139-143: `square_transpose` swaps rows and columns of the matrix of
coordinates (C11), so element `v` has coordinate `v` of element `w` as its coordinate `w`. -/
def transpose (c : Coords F) (kappa : Nat) (t : Nat → F) : Nat → F :=
  fun v => ∑ w ∈ range (2 ^ kappa), c.coord (t w) v * c.basis w

/-- `scale_horizontal`, core/src/tensor_algebra.rs:132-134. -/
def scaleHorizontal (c : Coords F) (kappa : Nat) (t : Nat → F) (x : F) : Nat → F :=
  transpose c kappa (scaleVertical (transpose c kappa t) x)

/-- `fold_vertical`, core/src/tensor_algebra.rs:150-152: `inner_product_unchecked` stops at the shorter of the two. -/
def foldVertical (c : Coords F) (kappa : Nat) (t : Nat → F) (coeffs : List F) : F :=
  (List.zipWith (· * ·) ((List.range (2 ^ kappa)).map (transpose c kappa t)) coeffs).sum

/-- `add_assign`, core/src/tensor_algebra.rs:186-190. -/
def addElems (t u : Nat → F) : Nat → F := fun w => t w + u w

/-- `TowerTensorAlgebra::add_assign`, ring_switch/tower_tensor_algebra.rs:91-102. -/
def TElem.addAssign (t u : TElem F) : Except RsError (TElem F) :=
  if t.level = u.level then .ok ⟨t.level, addElems t.elem u.elem⟩ else .error .towerLevelMismatch

/-- `TowerTensorAlgebra::scale_vertical`, ring_switch/tower_tensor_algebra.rs:75-84. -/
def TElem.scale (t : TElem F) (x : F) : TElem F := ⟨t.level, scaleVertical t.elem x⟩

/-- `TowerTensorAlgebra::fold_vertical`, ring_switch/tower_tensor_algebra.rs:111-120. -/
def TElem.fold (tw : Tower F) (t : TElem F) (coeffs : List F) : F :=
  foldVertical (tw t.level) t.level.kappa t.elem coeffs

end

end Verif.RingSwitch
