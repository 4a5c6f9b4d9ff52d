import Verif.Transparent.ModelTransparent
import Verif.Transparent.ModelShift
import Verif.Math.ModelArith

/-! Model of crates/core/src/oracle/multilinear.rs: the set of multilinear oracles and the functions that add one.

Oracle identifiers are the indices of the vector.  Names and labels are left out.  `usize` arithmetic is exact except
that a subtraction below zero panics.  A transparent polynomial is given by its number of variables, its tower level
and its evaluation function (`dyn MultivariatePoly`). -/

set_option linter.dupNamespace false

namespace Verif.Oracle

open Verif.Transparent (Poly ShiftVariant)

/-- The errors, oracle/error.rs:8-37 and polynomial/error.rs, without their payloads. -/
inductive Error where
  | invalidOracleId
  | invalidBlockSize
  | invalidShiftOffset
  | notEnoughVarsForPacking
  | invalidProjection
  | incorrectNumberOfVariables
  | compositionMismatch
  | invalidStartIndex
  | invalidNonzeroIndex
  | towerLevelTooHigh
  deriving DecidableEq

/-- `MultilinearPolyVariant` with the structures `Projected`, `Shifted`, `Packed`, `LinearCombination`, `ZeroPadded` and
`CompositeMLE`, oracle/multilinear.rs:585-606, 706-713, 737-746, 786-795, 828-839, 848-854, 896-906.  The composition
of a composite oracle is kept as given: `ArithCircuitPoly::with_n_vars` only optimizes it. -/
inductive Variant (F : Type) where
  | committed
  | transparent (p : Poly F) (level : Nat)
  | structured (c : Arith.Circuit F)
  | repeating (id logCount : Nat)
  | projected (id : Nat) (values : List F) (startIndex : Nat)
  | shifted (id offset blockSize : Nat) (v : ShiftVariant)
  | packed (id logDegree : Nat)
  | linearCombination (offset : F) (inner : List (Nat × F))
  | zeroPadded (id nPadVars nonzeroIndex startIndex : Nat)
  | composite (inner : List Nat) (c : Arith.Circuit F)

/-- `MultilinearPolyOracle`, oracle/multilinear.rs:576-582. -/
structure Oracle (F : Type) where
  nVars : Nat
  towerLevel : Nat
  variant : Variant F

/-- `MultilinearOracleSet`, oracle/multilinear.rs:355-363: `none` is a skipped oracle. -/
structure OracleSet (F : Type) where
  oracles : List (Option (Oracle F))
  size : Nat

/-- What the code takes from the field: `F::TOWER_LEVEL` and `min_tower_level`, crates/field/src/binary_field.rs:44-56. -/
structure TowerOps (F : Type) where
  level : Nat
  minLevel : F → Nat

/-- A result: a panic, an error or a value. -/
abbrev Res (A : Type) := Option (Except Error A)

section
variable {F : Type}

/-- `MultilinearOracleSet::new`, oracle/multilinear.rs:366-371. -/
def OracleSet.new : OracleSet F := ⟨[], 0⟩

/-- `Index<OracleId>`, oracle/multilinear.rs:544-552: past the end or on a skipped oracle it panics. -/
def OracleSet.get (os : OracleSet F) (id : Nat) : Option (Oracle F) := os.oracles[id]?.bind fun o => o

/-- `is_valid_oracle_id`, oracle/multilinear.rs:409-411. -/
def OracleSet.isValid (os : OracleSet F) (id : Nat) : Bool := id < os.oracles.length

/-- `add_to_set`, oracle/multilinear.rs:413-421. -/
def OracleSet.addToSet (os : OracleSet F) (o : Oracle F) : OracleSet F × Nat :=
  (⟨os.oracles ++ [some o], os.size + 1⟩, os.oracles.length)

/-- `add_skip`, oracle/multilinear.rs:425-428. -/
def OracleSet.addSkip (os : OracleSet F) : OracleSet F := ⟨os.oracles ++ [none], os.size⟩

/-- `add_to_set` as a successful result. -/
def OracleSet.put (os : OracleSet F) (o : Oracle F) : Res (OracleSet F × Nat) := some (.ok (os.addToSet o))

/-- `transparent`, oracle/multilinear.rs:27-45. -/
def addTransparent (ops : TowerOps F) (os : OracleSet F) (p : Poly F) (level : Nat) : Res (OracleSet F × Nat) :=
  if level > ops.level then some (.error .towerLevelTooHigh)
  else os.put ⟨p.nVars, level, .transparent p level⟩

/-- `ArithCircuit::binary_tower_level`, crates/math/src/arith_expr.rs:296-311. -/
def circuitLevel (ops : TowerOps F) (c : Arith.Circuit F) : Nat :=
  (c.map fun s => match s with
    | .const v => ops.minLevel v
    | _ => 0).foldl max 0

/-- `structured`, oracle/multilinear.rs:47-63. -/
def addStructured (ops : TowerOps F) (os : OracleSet F) (nVars : Nat) (c : Arith.Circuit F) :
    Res (OracleSet F × Nat) :=
  if circuitLevel ops c > ops.level then some (.error .towerLevelTooHigh)
  else os.put ⟨nVars, circuitLevel ops c, .structured c⟩

/-- `committed`, oracle/multilinear.rs:65-68, 327-342. -/
def addCommitted (os : OracleSet F) (nVars towerLevel : Nat) : Res (OracleSet F × Nat) :=
  os.put ⟨nVars, towerLevel, .committed⟩

/-- `committed_multiple`, oracle/multilinear.rs:70-84: the identifiers in order. -/
def addCommittedMultiple (os : OracleSet F) (nVars towerLevel : Nat) : Nat → OracleSet F × List Nat
  | 0 => (os, [])
  | n + 1 =>
    let (os', ids) := addCommittedMultiple os nVars towerLevel n
    let (os'', id) := os'.addToSet ⟨nVars, towerLevel, .committed⟩
    (os'', ids ++ [id])

/-- `repeating`, oracle/multilinear.rs:86-105. -/
def addRepeating (os : OracleSet F) (id logCount : Nat) : Res (OracleSet F × Nat) :=
  if ¬ os.isValid id then some (.error .invalidOracleId)
  else (os.get id).bind fun inner => os.put ⟨inner.nVars + logCount, inner.towerLevel, .repeating id logCount⟩

/-- `shifted` and `Shifted::new`, oracle/multilinear.rs:107-141, 797-823. -/
def addShifted (os : OracleSet F) (id offset blockBits : Nat) (v : ShiftVariant) : Res (OracleSet F × Nat) :=
  if ¬ os.isValid id then some (.error .invalidOracleId)
  else (os.get id).bind fun inner =>
    if blockBits > inner.nVars then some (.error .invalidBlockSize)
    else if offset = 0 ∨ offset ≥ 2 ^ blockBits then some (.error .invalidShiftOffset)
    else os.put ⟨inner.nVars, inner.towerLevel, .shifted id offset blockBits v⟩

/-- `packed`, oracle/multilinear.rs:143-170. -/
def addPacked (os : OracleSet F) (id logDegree : Nat) : Res (OracleSet F × Nat) :=
  if ¬ os.isValid id then some (.error .invalidOracleId)
  else (os.get id).bind fun inner =>
    if logDegree > inner.nVars then some (.error .notEnoughVarsForPacking)
    else os.put ⟨inner.nVars - logDegree, inner.towerLevel + logDegree, .packed id logDegree⟩

/-- `projected` and `Projected::new`, oracle/multilinear.rs:172-202, 715-734. -/
def addProjected (os : OracleSet F) (id : Nat) (values : List F) (startIndex : Nat) : Res (OracleSet F × Nat) :=
  if ¬ os.isValid id then some (.error .invalidOracleId)
  else (os.get id).bind fun inner =>
    if values.length > inner.nVars then some (.error .invalidProjection)
    else if values.length + startIndex > inner.nVars then some (.error .invalidProjection)
    else os.put ⟨inner.nVars - values.length, inner.towerLevel, .projected id values startIndex⟩

/-- `projected_last_vars`, oracle/multilinear.rs:204-234: the start index is computed before the length is checked, and
the subtraction panics below zero. -/
def addProjectedLastVars (os : OracleSet F) (id : Nat) (values : List F) : Res (OracleSet F × Nat) :=
  if ¬ os.isValid id then some (.error .invalidOracleId)
  else (os.get id).bind fun inner =>
    if inner.nVars < values.length then none
    else
      let startIndex := inner.nVars - values.length
      if values.length > inner.nVars then some (.error .invalidProjection)
      else if values.length + startIndex > inner.nVars then some (.error .invalidProjection)
      else os.put ⟨inner.nVars - values.length, inner.towerLevel, .projected id values startIndex⟩

/-- The oracles of a list of identifiers, or a panic. -/
def OracleSet.getAll (os : OracleSet F) : List Nat → Option (List (Oracle F))
  | [] => some []
  | id :: ids => (os.get id).bind fun o => (os.getAll ids).map fun l => o :: l

/-- `linear_combination_with_offset` and `LinearCombination::new`, oracle/multilinear.rs:236-272, 856-875. -/
def addLinearCombination (ops : TowerOps F) (os : OracleSet F) (nVars : Nat) (offset : F) (inner : List (Nat × F)) :
    Res (OracleSet F × Nat) :=
  (os.getAll (inner.map (·.1))).bind fun polys =>
    let level := max (((polys.zip inner).map fun p => max p.1.towerLevel (ops.minLevel p.2.2)).foldl max 0)
      (ops.minLevel offset)
    if polys.any fun p => p.nVars ≠ nVars then some (.error .incorrectNumberOfVariables)
    else os.put ⟨nVars, level, .linearCombination offset inner⟩

/-- `composite_mle` and `CompositeMLE::new`, oracle/multilinear.rs:274-297, 908-924. -/
def addComposite [CommRing F] (os : OracleSet F) (nVars : Nat) (inner : List Nat) (c : Arith.Circuit F) :
    Res (OracleSet F × Nat) :=
  (os.getAll inner).bind fun polys =>
    let level := (polys.map (·.towerLevel)).foldl max 0
    if polys.any fun p => p.nVars ≠ nVars then some (.error .incorrectNumberOfVariables)
    else if inner.length < Arith.nVars c then some (.error .compositionMismatch)
    else os.put ⟨nVars, level, .composite inner c⟩

/-- `zero_padded` and `ZeroPadded::new`, oracle/multilinear.rs:299-325, 748-775. -/
def addZeroPadded (os : OracleSet F) (id nPadVars nonzeroIndex startIndex : Nat) : Res (OracleSet F × Nat) :=
  (os.get id).bind fun inner =>
    if startIndex > inner.nVars then some (.error .invalidStartIndex)
    else if nonzeroIndex > 2 ^ nPadVars then some (.error .invalidNonzeroIndex)
    else os.put ⟨inner.nVars + nPadVars, inner.towerLevel, .zeroPadded id nPadVars nonzeroIndex startIndex⟩

end
end Verif.Oracle
