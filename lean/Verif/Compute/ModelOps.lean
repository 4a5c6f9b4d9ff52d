import Verif.Compute.ModelKernel
import Verif.Compute.SpecOps

/-! Model of the operations of the compute layers: crates/compute/src/cpu/layer.rs:205-548, 568-675, and
`compute_composite`, `map` and `sum_composition_evals` of crates/fast_compute/src/layer.rs.

`F` is any commutative ring.  A slice of subfield elements is a slice of `F`, each element of which stands for its
coordinates over the subfield (`bases level`, `ExtensionField::iter_bases`).  Output slices are given by their length.
Writes happen to slices of their own, so that operations return the new contents. -/

namespace Verif.Compute.Ops

variable {F : Type} [CommRing F]

/-- The arms of `each_tower_subfield!`, crates/compute/src/cpu/tower_macro.rs:4-30. -/
def supported (level : Nat) : Bool := level ∈ [0, 3, 4, 5, 6, 7]

/-- `inner_product`, crates/compute/src/cpu/layer.rs:205-235; `top` is `F::TOWER_LEVEL`. -/
def innerProduct (top : Nat) (bases : Nat → F → List F) (level : Nat) (a b : List F) : Res F :=
  if top < level ∨ a.length * 2 ^ (top - level) ≠ b.length then .err
  else if supported level then .ok ((List.zipWith (· * ·) b (a.flatMap (bases level))).foldl (· + ·) 0)
  else .err

/-- The checks of `compute_left_fold` and `compute_right_fold` and of their callers,
crates/compute/src/cpu/layer.rs:237-280, 573-610, 633-667: the logarithms of the lengths of the query and of the output,
and the coordinates of the matrix.  `ilog2` of zero and the subtraction of the logarithms panic. -/
def foldChecks (top : Nat) (bases : Nat → F → List F) (level : Nat) (mat vec : List F) (outLen : Nat) :
    Res (Nat × Nat × List F) :=
  if top < level then .err
  else if mat.length = 0 then .panic
  else if ¬ supported level then .err
  else
    let evals := mat.flatMap (bases level)
    if vec.length = 0 then .panic
    else
      let logEvals := Nat.log2 mat.length + (top - level)
      let logQuery := Nat.log2 vec.length
      if logEvals < logQuery then .panic
      else if evals.length ≠ 2 ^ logQuery * 2 ^ (logEvals - logQuery) then .err
      else if vec.length ≠ 2 ^ logQuery then .err
      else if outLen ≠ 2 ^ (logEvals - logQuery) then .err
      else .ok (2 ^ logQuery, 2 ^ (logEvals - logQuery), evals)

/-- `fold_left`, crates/compute/src/cpu/layer.rs:237-258, with `compute_left_fold`, 573-626. -/
def foldLeft (top : Nat) (bases : Nat → F → List F) (level : Nat) (mat vec : List F) (outLen : Nat) : Res (List F) :=
  match foldChecks top bases level mat vec outLen with
  | .panic => .panic
  | .err => .err
  | .ok (numCols, numRows, evals) =>
    .ok ((List.range numRows).map fun i =>
      (List.range numCols).foldl (fun acc j => acc + vec.getD j 0 * evals.getD (j * numRows + i) 0) 0)

/-- `fold_right`, crates/compute/src/cpu/layer.rs:260-280, with `compute_right_fold`, 633-675. -/
def foldRight (top : Nat) (bases : Nat → F → List F) (level : Nat) (mat vec : List F) (outLen : Nat) : Res (List F) :=
  match foldChecks top bases level mat vec outLen with
  | .panic => .panic
  | .err => .err
  | .ok (numRows, numCols, evals) =>
    .ok ((List.range numCols).map fun i =>
      (List.range numRows).foldl (fun acc j => acc + vec.getD j 0 * evals.getD (i * numRows + j) 0) 0)

/-- `extrapolate_line`, crates/compute/src/cpu/layer.rs:386-401. -/
def extrapolateLine (evals0 evals1 : List F) (z : F) : Res (List F) :=
  if evals0.length ≠ evals1.length then .err
  else .ok (List.zipWith (fun x0 x1 => x0 + (x1 - x0) * z) evals0 evals1)

/-- `compute_composite`, crates/compute/src/cpu/layer.rs:403-429; `rows` have length `rowLen` (`SlicesBatch::new`). -/
def computeComposite (rows : List (List F)) (rowLen outLen : Nat) (C : Comp F) : Res (List F) :=
  if rowLen ≠ outLen then .err
  else if C.nVars ≠ rows.length then .err
  else match (List.range outLen).mapM fun i => C.eval (rows.map fun r => r.getD i 0) with
    | none => .panic
    | some out => .ok out

/-- One round of `pairwise_product_reduce`, crates/compute/src/cpu/layer.rs:468-473; indexing panics. -/
def productRound (len : Nat) (src : List F) : Option (List F) :=
  (List.range len).mapM fun i => src[i * 2]?.bind fun a => src[i * 2 + 1]?.map fun b => a * b

/-- The rounds, crates/compute/src/cpu/layer.rs:466-475. -/
def productRounds : List Nat → List F → Option (List (List F))
  | [], _ => some []
  | len :: lens, src => (productRound len src).bind fun out => (productRounds lens out).map fun outs => out :: outs

/-- `pairwise_product_reduce`, crates/compute/src/cpu/layer.rs:431-478; `lens` are the lengths of `round_outputs`. -/
def pairwiseProductReduce (input : List F) (lens : List Nat) : Res (List (List F)) :=
  match strictLog2 input.length with
  | none => .err
  | some 0 => .err
  | some n =>
    if lens.length ≠ n then .err
    else if lens ≠ (List.range n).map (fun r => 2 ^ (n - r - 1)) then .err
    else match productRounds lens input with
      | none => .panic
      | some outs => .ok outs

/-- `KernelExecutor::sum_composition_evals` of the CPU layer, crates/compute/src/cpu/layer.rs:492-508: the new value of the
accumulator. -/
def sumComposition (rows : List (List F)) (rowLen : Nat) (C : Comp F) (coeff acc : F) : Res F :=
  match (List.range rowLen).mapM fun i => C.eval (rows.map fun r => r.getD i 0) with
  | none => .panic
  | some vs => .ok (acc + vs.foldl (· + ·) 0 * coeff)

/-- `KernelExecutor::add`, crates/compute/src/cpu/layer.rs:510-526. -/
def add (logLen : Nat) (src1 src2 dst : List F) : Res (List F) :=
  if src1.length ≠ 2 ^ logLen ∨ src2.length ≠ 2 ^ logLen ∨ dst.length ≠ 2 ^ logLen then .panic
  else .ok (List.zipWith (· + ·) src1 src2)

/-- `KernelExecutor::add_assign`, crates/compute/src/cpu/layer.rs:528-543. -/
def addAssign (logLen : Nat) (src dst : List F) : Res (List F) :=
  if src.length ≠ 2 ^ logLen ∨ dst.length ≠ 2 ^ logLen then .panic
  else .ok (List.zipWith (fun d s => d + s) dst src)

/-! ### The fast layer -/

/-- `ArithCircuitPoly::batch_evaluate` at a packed element: one value for each of the `2 ^ w` lanes, as C65 proves.  The
rows are given by their scalars; lanes beyond the end of the rows have whatever is in memory, `junk`. -/
def evalPacked (w : Nat) (rows : List (List F)) (junk : Nat → F) (C : Comp F) (p : Nat) : Option (List F) :=
  (List.range (2 ^ w)).mapM fun l => C.eval (rows.map fun r => r.getD (p * 2 ^ w + l) (junk (p * 2 ^ w + l)))

/-- Sum of two packed elements. -/
def addLanes (a b : List F) : List F := List.zipWith (· + ·) a b

/-- One turn of the loop over batches, crates/fast_compute/src/layer.rs:822-830; `columns_subrange` is in range. -/
def sumBatch (w : Nat) (rows : List (List F)) (C : Comp F) (packedLen : Nat) (result : List F) (offset : Nat) :
    Option (List F) :=
  let batch := min (packedLen - offset) 64
  ((List.range batch).mapM fun j => evalPacked w rows (fun _ => 0) C (offset + j)).map fun out =>
    addLanes result (out.foldl addLanes (List.replicate (2 ^ w) 0))

/-- `FastKernelExecutor::sum_composition_evals`, crates/fast_compute/src/layer.rs:797-846; `batch_evaluate` returns an
error, and `expect` panics, unless the number of rows is that of the variables. -/
def fastSumComposition (w : Nat) (rows : List (List F)) (rowLen : Nat) (junk : Nat → F) (C : Comp F) (coeff acc : F) :
    Res F :=
  if rows.length ≠ C.nVars then .panic
  else if 2 ^ w ≤ rowLen then
    if rowLen % 2 ^ w ≠ 0 then .panic
    else
      let packedLen := rowLen / 2 ^ w
      match ((List.range ((packedLen + 63) / 64)).map (· * 64)).foldlM (sumBatch w rows C packedLen)
          (List.replicate (2 ^ w) 0) with
      | none => .panic
      | some lanes => .ok (acc + coeff * lanes.foldl (· + ·) 0)
  else match evalPacked w rows junk C 0 with
    | none => .panic
    | some lanes => .ok (acc + coeff * (lanes.take rowLen).foldl (· + ·) 0)

/-- One chunk of `compute_composite`, crates/fast_compute/src/layer.rs:582-591: `len` packed elements of the output from
`offset`; `columns_subrange` panics beyond the end of the rows, and `batch_evaluate` wants as many outputs as columns. -/
def compositeChunk (w : Nat) (rows : List (List F)) (C : Comp F) (packedLen chunkSize offset len : Nat) :
    Option (List F) :=
  if packedLen < offset + chunkSize ∨ len ≠ chunkSize then none
  else ((List.range len).mapM fun j => evalPacked w rows (fun _ => 0) C (offset + j)).map List.flatten

/-- `FastCpuExecutor::compute_composite`, crates/fast_compute/src/layer.rs:552-594; the chunks write to parts of their own,
so that their order does not matter. -/
def fastComputeComposite (w logThreads : Nat) (rows : List (List F)) (rowLen outLen : Nat) (C : Comp F) : Res (List F) :=
  if rowLen ≠ outLen then .err
  else if C.nVars ≠ rows.length then .err
  else
    let chunkSize := max (outLen / 2 ^ (logThreads + 1)) 1
    let packedLen := rowLen / 2 ^ w
    if 2 ^ w * packedLen ≠ rowLen then .panic
    else match (List.range ((packedLen + chunkSize - 1) / chunkSize)).mapM fun i =>
        compositeChunk w rows C packedLen chunkSize (i * chunkSize) (min chunkSize (packedLen - i * chunkSize)) with
      | none => .panic
      | some out => .ok out.flatten

/-- `FastCpuExecutor::map`, crates/fast_compute/src/layer.rs:607-623: `done` are the indexed results in the order in which
the threads finished; they are sorted by index and collected, where the first error wins. -/
def collectMap {E α : Type} (done : List (Nat × Except E α)) : Except E (List α) :=
  ((done.mergeSort fun a b => decide (a.1 ≤ b.1)).map Prod.snd).mapM id

/-! ### A kernel of the sumcheck provers -/

/-- A kernel that sums compositions over its read-only buffers, each scaled by a coefficient, as in
crates/core/src/protocols/sumcheck/v3/bivariate_product.rs: `decl_value(0)` and `sum_composition_evals` for each.  Buffers
of different lengths and expressions that cannot be evaluated, which panic, are an error here. -/
def sumKernel (cs : List (Comp F × F)) : Kernel.Kernel F Unit (List F) := fun _ bufs =>
  let rows := bufs.map Kernel.Buf.data
  let n := (rows.head?.map List.length).getD 0
  if rows.all fun r => r.length = n then
    match cs.mapM fun p => match sumComposition rows n p.1 p.2 0 with
      | .ok v => some v
      | _ => none with
    | some vs => (bufs, .ok vs)
    | none => (bufs, .error ())
  else (bufs, .error ())

end Verif.Compute.Ops
