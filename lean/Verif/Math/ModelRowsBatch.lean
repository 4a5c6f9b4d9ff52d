import Mathlib.Data.List.Basic

/-! Model of batches of rows, crates/math/src/rows_batch.rs, and of the evaluation of compositions on them,
crates/math/src/composition_poly.rs and crates/core/src/composition/index.rs.  An error or a panic is `none`. -/

namespace Verif.RowsBatch

variable {T : Type}

/-- `RowsBatchRef`, crates/math/src/rows_batch.rs:45-56; `RowsBatch`, 5-9, is one with offset zero (`get_ref`, 36-42). -/
structure Batch (T : Type) where
  rows : List (List T)
  rowLen : Nat
  offset : Nat

/-- `new_with_offset`, crates/math/src/rows_batch.rs:73-83, of which `new`, 64-66, is the case of offset zero. -/
def Batch.newWithOffset (rows : List (List T)) (offset rowLen : Nat) : Option (Batch T) :=
  if ∀ row ∈ rows, offset + rowLen ≤ row.length then some ⟨rows, rowLen, offset⟩ else none

/-- `RowsBatch::new`, crates/math/src/rows_batch.rs:17-23, and `new_from_iter`, 30-33. -/
def Batch.new (rows : List (List T)) (rowLen : Nat) : Option (Batch T) :=
  if ∀ row ∈ rows, row.length = rowLen then some ⟨rows, rowLen, 0⟩ else none
def Batch.newFromIter (rows : List (List T)) (rowLen : Nat) : Option (Batch T) :=
  if ∀ row ∈ rows, rowLen ≤ row.length then some ⟨rows.map (List.take rowLen), rowLen, 0⟩ else none

/-- `iter`, crates/math/src/rows_batch.rs:113-116. -/
def Batch.iter (b : Batch T) : List (List T) := b.rows

/-- `row`, crates/math/src/rows_batch.rs:118-121. -/
def Batch.row (b : Batch T) (index : Nat) : Option (List T) :=
  b.rows[index]?.bind fun row =>
    if b.offset + b.rowLen ≤ row.length then some ((row.drop b.offset).take b.rowLen) else none

/-- `map`, crates/math/src/rows_batch.rs:139-146, with `get_ref`. -/
def Batch.map (b : Batch T) (indices : List Nat) : Option (Batch T) :=
  (indices.mapM fun i => b.rows[i]?).map fun rows => ⟨rows, b.rowLen, 0⟩

/-- `columns_subrange`, crates/math/src/rows_batch.rs:149-169, of the range from `start` to `stop`, which is not in it. -/
def Batch.columnsSubrange (b : Batch T) (start stop : Nat) : Option (Batch T) :=
  if start ≤ stop ∧ stop ≤ b.rowLen then some ⟨b.rows, stop - start, b.offset + start⟩ else none

/-- What is used of `CompositionPoly`: evaluation at a point and on a batch with a number of evaluations to fill. -/
structure Composition (T : Type) where
  evaluate : List T → Option T
  batchEvaluate : Batch T → Nat → Option (List T)

/-- `batch_evaluate` by default, crates/math/src/composition_poly.rs:49-69. -/
def defaultBatch (evaluate : List T → Option T) (b : Batch T) (evalsLen : Nat) : Option (List T) :=
  if b.rowLen ≠ evalsLen then none
  else (List.range evalsLen).mapM fun column => (b.iter.mapM fun row => row[column]?).bind evaluate

/-- `IndexComposition`, crates/core/src/composition/index.rs:15-23, with `evaluate`, 56-66, and `batch_evaluate`, 72-81. -/
def indexComposition (nVars : Nat) (indices : List Nat) (inner : Composition T) : Composition T where
  evaluate query :=
    if query.length ≠ nVars then none else (indices.mapM fun i => query[i]?).bind inner.evaluate
  batchEvaluate b evalsLen := (b.map indices).bind fun b => inner.batchEvaluate b evalsLen

/-- `IndexComposition::new`, crates/core/src/composition/index.rs:26-36. -/
def indexCompositionNew (nVars : Nat) (indices : List Nat) (inner : Composition T) : Option (Composition T) :=
  if indices.any fun index => nVars ≤ index then none else some (indexComposition nVars indices inner)

/-- `index_composition`, crates/core/src/composition/index.rs:90-122. -/
def indexCompositionOf {E : Type} [DecidableEq E] (superset subset : List E) (inner : Composition T) :
    Option (Composition T) :=
  if subset.all fun item => superset.any fun s => s == item then
    some (indexComposition superset.length (subset.map fun item => superset.findIdx fun s => s == item) inner)
  else none

end Verif.RowsBatch
