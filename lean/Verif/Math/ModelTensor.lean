import Verif.Util.Loop
import Mathlib.Algebra.Ring.Basic

/-! Model of tensor expansion and multilinear evaluation (crates/math).

A slice of packed elements `&[P]` is a `Slice F`: the flat sequence of its scalars, `w` being
`P::LOG_WIDTH`.  Packed operations are lane-wise (crates/field/src/packed.rs), so an operation on whole
packed elements is a loop over lanes.  `none` is a panic, `Except` carries the returned error. -/

namespace Verif.Tensor

/-- The errors of crates/math/src/error.rs:5-64 that the modelled functions return. -/
inductive Error where
  | invalidPackedValuesLength
  | multilinearQueryFull
  | incorrectArgumentLength
  | incorrectQuerySize
  | powerOfTwoLengthRequired
  | incorrectNumberOfVariables
  | hypercubeIndexOutOfRange
  | incorrectStartIndex
  | incorrectOutputPolynomialSize
  | incorrectStartIndexZeroPad
  | incorrectNonZeroIndex
  | incorrectNonzeroScalarPrefix
  deriving DecidableEq

/-- The number of packed elements of a slice. -/
def packedLen {F : Type*} (w : Nat) (s : Slice F) : Nat := s.size / 2 ^ w

variable {F : Type*} [CommRing F]

/-- The body of the scalar loop, crates/math/src/tensor_prod_eq_ind.rs:50-53. -/
def scalarBody (prev : Nat) (r : F) (h : Nat) (q : Slice F) : Option (Slice F) := do
  let x ← q.get? h
  let prod := x * r
  let q ← q.set? h (x - prod)
  q.set? (prev ||| h) prod

/-- One lane of the packed loop body, crates/math/src/tensor_prod_eq_ind.rs:70-72: `x` is element `k` of
the first `pp` packed elements and `y` element `k` of the rest. -/
def laneBody (w pp : Nat) (r : F) (k l : Nat) (q : Slice F) : Option (Slice F) := do
  let x ← q.get? (k * 2 ^ w + l)
  let prod := x * r
  let q ← q.set? (k * 2 ^ w + l) (x - prod)
  q.set? ((pp + k) * 2 ^ w + l) prod

/-- One iteration of the loop over coordinates, crates/math/src/tensor_prod_eq_ind.rs:46-74.  In the
first branch only `packed_values[0]` is accessed (`q.get`/`q.set` check the lane against the width);
`prev < 2 ^ w` and the slice being non-empty are what makes the accesses legal.  The packed loop runs
in parallel over disjoint elements in the code (`par_iter_mut`); it is sequential here. -/
def coordStep (w prev : Nat) (r : F) (q : Slice F) : Option (Slice F) :=
  if prev < 2 ^ w then
    forRange prev (scalarBody prev r) q
  else
    let pp := prev / 2 ^ w
    if pp ≤ packedLen w q ∧ pp ≤ packedLen w q - pp then
      forRange pp (fun k q => forRange (2 ^ w) (laneBody w pp r k) q) q
    else none

/-- The loop over `extra_query_coordinates`, crates/math/src/tensor_prod_eq_ind.rs:45-75. -/
def coordLoop (w logN : Nat) (rs : List F) (q : Slice F) : Option (Slice F) :=
  match rs with
  | [] => some q
  | r :: rs => (coordStep w (2 ^ logN) r q).bind (coordLoop w (logN + 1) rs)

/-- `tensor_prod_eq_ind`, crates/math/src/tensor_prod_eq_ind.rs:35-77. -/
def tensorProdEqInd (w logN : Nat) (q : Slice F) (rs : List F) : Option (Except Error (Slice F)) :=
  if packedLen w q ≠ max 1 (2 ^ (logN + rs.length) / 2 ^ w) then
    some (.error .invalidPackedValuesLength)
  else (coordLoop w logN rs q).map .ok

/-- A zeroed buffer of `len` packed elements with lane 0 of element 0 set to one (panics when empty),
crates/math/src/tensor_prod_eq_ind.rs:97-98 and crates/math/src/multilinear_query.rs:68-69. -/
def unitBuffer (w len : Nat) : Option (Slice F) := Slice.set? ⟨len * 2 ^ w, fun _ => 0⟩ 0 1

/-- `eq_ind_partial_eval`, crates/math/src/tensor_prod_eq_ind.rs:94-101 (the `expect` is the panic). -/
def eqIndPartialEval (w : Nat) (point : List F) : Option (Slice F) := do
  let buffer ← unitBuffer w (2 ^ (point.length - w))
  match ← tensorProdEqInd w 0 buffer point with
  | .ok b => some b
  | .error _ => none

/-- `MultilinearQuery`, crates/math/src/multilinear_query.rs:19-26. -/
structure Query (F : Type*) where
  nVars : Nat
  expanded : Slice F

/-- `MultilinearQuery::with_capacity`, crates/math/src/multilinear_query.rs:66-74. -/
def Query.withCapacity (w maxVars : Nat) : Option (Query F) := do
  let b ← unitBuffer w (2 ^ (maxVars - w))
  some ⟨0, b⟩

/-- `MultilinearQuery::expand`, crates/math/src/multilinear_query.rs:76-82. -/
def Query.expand (w : Nat) (point : List F) : Option (Query F) := do
  let b ← eqIndPartialEval w point
  some ⟨point.length, b⟩

/-- `MultilinearQuery::with_expansion`, crates/math/src/multilinear_query.rs:86-98. -/
def Query.withExpansion (w nVars : Nat) (b : Slice F) : Except Error (Query F) :=
  if packedLen w b < 2 ^ (nVars - w) then .error .incorrectArgumentLength else .ok ⟨nVars, b⟩

/-- `MultilinearQuery::expansion`: the prefix slice, panics when the buffer is too short,
crates/math/src/multilinear_query.rs:108-111. -/
def Query.expansion (w : Nat) (q : Query F) : Option (Slice F) :=
  if 2 ^ (q.nVars - w) ≤ packedLen w q.expanded then
    some ⟨2 ^ (q.nVars - w) * 2 ^ w, q.expanded.val⟩
  else none

/-- `MultilinearQuery::update`, crates/math/src/multilinear_query.rs:125-144: the expansion runs on the
prefix of `new_length` packed elements, the rest of the buffer is unchanged. -/
def Query.update (w : Nat) (q : Query F) (extra : List F) : Option (Except Error (Query F)) :=
  let newVars := q.nVars + extra.length
  let newLength := max (2 ^ newVars / 2 ^ w) 1
  if newLength > packedLen w q.expanded then some (.error .multilinearQueryFull)
  else do
    match ← tensorProdEqInd w q.nVars ⟨newLength * 2 ^ w, q.expanded.val⟩ extra with
    | .error e => some (.error e)
    | .ok b =>
      some (.ok ⟨newVars, ⟨q.expanded.size,
        fun i => if i < newLength * 2 ^ w then b.val i else q.expanded.val i⟩⟩)

/-- `MultilinearExtension`, crates/math/src/multilinear_extension.rs:25-36. -/
structure Mlx (F : Type*) where
  mu : Nat
  evals : Slice F

/-- `MultilinearExtension::new`, crates/math/src/multilinear_extension.rs:66-89. -/
def Mlx.new (w nVars : Nat) (v : Slice F) : Except Error (Mlx F) :=
  if ¬ (packedLen w v).isPowerOfTwo then .error .powerOfTwoLengthRequired
  else if nVars < w then
    if packedLen w v ≠ 1 then .error .incorrectNumberOfVariables else .ok ⟨nVars, v⟩
  else if w + (packedLen w v).log2 ≠ nVars then .error .incorrectNumberOfVariables
  else .ok ⟨nVars, v⟩

/-- `MultilinearExtension::evaluate_on_hypercube`, crates/math/src/multilinear_extension.rs:141-155. -/
def Mlx.evaluateOnHypercube (w : Nat) (m : Mlx F) (index : Nat) : Except Error F :=
  if 2 ^ m.mu ≤ index then .error .hypercubeIndexOutOfRange
  else if index / 2 ^ w < packedLen w m.evals then
    .ok (m.evals.val (index / 2 ^ w * 2 ^ w + index % 2 ^ w))
  else .error .hypercubeIndexOutOfRange

variable {F' : Type*}

/-- The term `xs[i] * ys[i]`; the unchecked accesses are undefined behaviour out of bounds, a panic
here.  crates/field/src/util.rs:19,46. -/
def prodTerm (emb : F' → F) (xs : Slice F) (ys : Slice F') (ox oy i : Nat) : Option F :=
  (xs.get? (ox + i)).bind fun a => (ys.get? (oy + i)).bind fun b => some (a * emb b)

/-- `inner_product_par`, crates/field/src/util.rs:24-70, for packings `wx`, `wy`.  The chunks are summed
in parallel in the code. -/
def innerProductPar (emb : F' → F) (wx wy : Nat) (xs : Slice F) (ys : Slice F') : Option F :=
  if xs.size > ys.size then none
  else if xs.size < ys.size then sumRange (min xs.size ys.size) (prodTerm emb xs ys 0 0)
  else if packedLen wy ys < 16 * 64 then sumRange (packedLen wy ys * 2 ^ wy) (prodTerm emb xs ys 0 0)
  else if (64 * 2 ^ wy) % 2 ^ wx ≠ 0 then none
  else
    sumRange ((packedLen wy ys + 63) / 64) fun c =>
      let offset := c * (64 * 2 ^ wy / 2 ^ wx)
      if packedLen wx xs < offset then none
      else
        sumRange (min 64 (packedLen wy ys - 64 * c) * 2 ^ wy)
          (prodTerm emb xs ys (offset * 2 ^ wx) (64 * c * 2 ^ wy))

/-- `PackedField::iter_slice(s).take(n).collect()`: the first scalars, as a slice of width one,
crates/math/src/multilinear_extension.rs:180-185. -/
def Slice.takeScalars {F : Type*} (s : Slice F) (n : Nat) : Slice F := ⟨min n s.size, s.val⟩

/-- `MultilinearExtension::evaluate`, crates/math/src/multilinear_extension.rs:163-190.  `w` is the
packing of the table over `F'`, `w'` that of the query over the extension `F`, and `emb` the embedding
`F' → F`. -/
def Mlx.evaluate (emb : F' → F) (w w' : Nat) (m : Mlx F') (q : Query F) :
    Option (Except Error F) :=
  if m.mu ≠ q.nVars then some (.error .incorrectQuerySize)
  else
    (q.expansion w').bind fun e =>
      if m.mu < w ∨ q.nVars < w' then
        (innerProductPar emb 0 0 (Slice.takeScalars e (2 ^ q.nVars))
          (Slice.takeScalars m.evals (2 ^ m.mu))).map .ok
      else (innerProductPar emb w' w e m.evals).map .ok

end Verif.Tensor
