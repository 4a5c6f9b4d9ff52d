import Mathlib.Algebra.BigOperators.Group.Finset.Basic
import Mathlib.Algebra.Ring.Defs

/-! What the operations of a compute layer should do, after the "Mathematical Definition" parts of
crates/compute/src/layer.rs:241-585. -/

namespace Verif.Compute.Ops

/-- The tower levels of the subfields that slices may have: 1, 8, 16, 32, 64 and 128 bits. -/
def IsLevel (level : Nat) : Prop := level = 0 ∨ 3 ≤ level ∧ level ≤ 7

variable {F : Type} [CommRing F]

/-- How a call ends: a panic, an error, or a value. -/
inductive Res (α : Type) where
  | panic
  | err
  | ok (a : α)
deriving DecidableEq

/-- Entry `i` of a vector. -/
def at' (v : List F) (i : Nat) : F := v.getD i 0

/-- `out` is the vector of `n` entries `f i`. -/
def IsVec (out : List F) (n : Nat) (f : Nat → F) : Prop := out.length = n ∧ ∀ i < n, at' out i = f i

/-- A compiled expression: its number of variables and its value at a point, `none` if evaluation panics. -/
structure Comp (F : Type) where
  nVars : Nat
  eval : List F → Option F

/-- Position `i` of all rows. -/
def column (rows : List (List F)) (i : Nat) : List F := rows.map fun r => at' r i

/-- The value of the expression at position `i` of the rows. -/
def Comp.valueAt (C : Comp F) (rows : List (List F)) (i : Nat) : F := (C.eval (column rows i)).getD 0

/-- The expression has a value at every point with as many coordinates as it has variables. -/
def Comp.Total (C : Comp F) : Prop := ∀ q : List F, q.length = C.nVars → ∃ v, C.eval q = some v

end Verif.Compute.Ops
