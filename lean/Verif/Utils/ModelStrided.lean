/-!
# Strided 2D array views (model)

`crates/utils/src/strided_array.rs`. A view is described by the length of the slice it holds, and by
the index computations it performs; the elements themselves do not matter. `usize` arithmetic of the
dimension check is modelled both with overflow checks (a panic, `none`) and without (wrapping), the
default of Rust's debug and release profiles.
-/

namespace Verif.Strided

/-- `StridedArray2DViewMut`, `strided_array.rs:17-22`; `cols = colStart..colEnd`. -/
structure View where
  dataLen : Nat
  dataWidth : Nat
  height : Nat
  colStart : Nat
  colEnd : Nat
  deriving DecidableEq

/-- `usize` multiplication: `overflowChecks` panics, otherwise the product is taken modulo `2^64`. -/
def mulUsize (overflowChecks : Bool) (a b : Nat) : Option Nat :=
  if a * b < 2 ^ 64 then some (a * b) else if overflowChecks then none else some (a * b % 2 ^ 64)

/-- `without_stride`, `strided_array.rs:26-40`; `some (Except.error ())` is `DimensionMismatch`. -/
def withoutStride (overflowChecks : Bool) (dataLen height width : Nat) :
    Option (Except Unit View) := do
  let p ← mulUsize overflowChecks width height
  if p ≠ dataLen then some (.error ())
  else some (.ok ⟨dataLen, width, height, 0, width⟩)

/-- `width`, `strided_array.rs:70-72`. -/
def View.width (v : View) : Nat := v.colEnd - v.colStart

/-- The element accessed by `Index`/`IndexMut`, `strided_array.rs:45-64`, `136-152`: `none` is the
bounds panic. -/
def View.cell (v : View) (i j : Nat) : Option Nat :=
  if i < v.height ∧ j < v.width then some (i * v.dataWidth + j + v.colStart) else none

/-- `iter_column_mut`, `strided_array.rs:75-85`: the elements of column `col`, `none` if `col` is out
of range. -/
def View.column (v : View) (col : Nat) : Option (List Nat) :=
  if col < v.width then
    some ((List.range v.height).map fun i => i * v.dataWidth + (col + v.colStart))
  else none

/-- `(start..end).step_by(stride)`. -/
def stepBy (start stop stride : Nat) : List Nat :=
  (List.range ((stop - start + stride - 1) / stride)).map fun k => start + k * stride

/-- `into_strides` and `into_par_strides`, `strided_array.rs:89-133`; `step_by(0)` panics. -/
def View.intoStrides (v : View) (stride : Nat) : Option (List View) :=
  if stride = 0 then none
  else some ((stepBy v.colStart v.colEnd stride).map fun start =>
    { v with colStart := start, colEnd := min (start + stride) v.colEnd })

end Verif.Strided
