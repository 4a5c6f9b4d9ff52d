import Mathlib.Algebra.Field.Basic
import Mathlib.Algebra.BigOperators.Group.Finset.Basic
import Mathlib.Data.Fintype.Basic

/-! Model of crates/math/src/matrix.rs.

The elements are a function of row and column instead of the row-major array (`elements[i * n + j]`,
matrix.rs:203-219); operations on whole rows are written as updates of the function. -/

namespace Verif.Matrix

open Finset

/-- The errors of `Matrix`, crates/math/src/error.rs. -/
inductive Error where
  | matrixNotSquare
  | matrixIsSingular
  deriving DecidableEq

/-- `Matrix`, crates/math/src/matrix.rs:15-26. -/
structure Mat (F : Type*) where
  m : Nat
  n : Nat
  at' : Nat → Nat → F

variable {F : Type*} [Field F] [DecidableEq F]

/-- `Matrix::zeros`, crates/math/src/matrix.rs:43-49. -/
def Mat.zeros (m n : Nat) : Mat F := ⟨m, n, fun _ _ => 0⟩

/-- `Matrix::identity` / `fill_identity`, crates/math/src/matrix.rs:51-65. -/
def Mat.identity (n : Nat) : Mat F := ⟨n, n, fun i j => if i = j then 1 else 0⟩

/-- `Matrix::mul_into` (panics on incompatible dimensions), crates/math/src/matrix.rs:88-98. -/
def Mat.mulInto (a b : Mat F) : Option (Mat F) :=
  if a.n = b.m then some ⟨a.m, b.n, fun i j => ∑ k ∈ range a.n, a.at' i k * b.at' k j⟩ else none

/-- `Matrix::mul_vec_into` into a vector of length `ylen`, with the entries of `x` in an extension,
crates/math/src/matrix.rs:100-107. -/
def Mat.mulVecInto {E : Type*} [Field E] (emb : F → E) (a : Mat F) (x : List E) (ylen : Nat) :
    Option (List E) :=
  if a.n = x.length ∧ a.m = ylen then
    some ((List.range ylen).map fun i =>
      ∑ j : Fin x.length, x[j] * emb (a.at' i j))
  else none

/-- `swap_rows`, crates/math/src/matrix.rs:172-185. -/
def Mat.swapRows (a : Mat F) (i0 i1 : Nat) : Mat F :=
  { a with at' := fun i j => if i = i0 then a.at' i1 j else if i = i1 then a.at' i0 j else a.at' i j }

/-- `scale_row`, crates/math/src/matrix.rs:187-191. -/
def Mat.scaleRow (a : Mat F) (i0 : Nat) (s : F) : Mat F :=
  { a with at' := fun i j => if i = i0 then a.at' i j * s else a.at' i j }

/-- `sub_pivot_row`, crates/math/src/matrix.rs:193-201. -/
def Mat.subPivotRow (a : Mat F) (i0 i1 : Nat) (s : F) : Mat F :=
  { a with at' := fun i j => if i = i0 then a.at' i0 j - a.at' i1 j * s else a.at' i j }

/-- The pivot row, crates/math/src/matrix.rs:136-138. -/
def findPivot (n i : Nat) (tmp : Mat F) : Option Nat :=
  (List.range' i (n - i)).find? fun p => tmp.at' p i ≠ 0

/-- Clearing row `j` in the pivot column, crates/math/src/matrix.rs:153-155. -/
def clearRow (i : Nat) (s : Mat F × Mat F) (j : Nat) : Mat F × Mat F :=
  let scalar := s.1.at' j i
  (s.1.subPivotRow j i scalar, s.2.subPivotRow j i scalar)

/-- One iteration of the elimination, crates/math/src/matrix.rs:134-157, the state being `(tmp, out)`. -/
def elimStep (n i : Nat) (s : Mat F × Mat F) : Except Error (Mat F × Mat F) :=
  match findPivot n i s.1 with
  | none => .error .matrixIsSingular
  | some pivot =>
    let s := if pivot ≠ i then (s.1.swapRows i pivot, s.2.swapRows i pivot) else s
    let scalar := (s.1.at' i i)⁻¹
    let s := (s.1.scaleRow i scalar, s.2.scaleRow i scalar)
    .ok ((List.range i ++ List.range' (i + 1) (n - (i + 1))).foldl (clearRow i) s)

/-- The first `k` iterations. -/
def elimLoop (n : Nat) : Nat → Mat F × Mat F → Except Error (Mat F × Mat F)
  | 0, s => .ok s
  | k + 1, s =>
    match elimLoop n k s with
    | .error e => .error e
    | .ok s => elimStep n k s

/-- `Matrix::inverse_into`, crates/math/src/matrix.rs:120-162: panics (`none`) when `out` has other
dimensions. -/
def Mat.inverseInto (a out : Mat F) : Option (Except Error (Mat F)) :=
  if ¬ (a.m = out.m ∧ a.n = out.n) then none
  else if a.m ≠ a.n then some (.error .matrixNotSquare)
  else
    match elimLoop a.n a.n (a, Mat.identity a.n) with
    | .error e => some (.error e)
    | .ok s => some (.ok s.2)

end Verif.Matrix
