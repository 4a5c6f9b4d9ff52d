import Verif.Math.ModelTensor
import Verif.Field.ModelScalar
import Verif.Field.Tower

/-! Model of the transparent polynomials (crates/core/src/transparent).

`none` is a panic, `Except` carries the returned error.  A vector of packed elements is a `Slice`, `w` being
`P::LOG_WIDTH`.  Simplification: `1 << n` is `2 ^ n`, so `n_vars` is assumed to be below 64. -/

namespace Verif.Transparent

open Verif.Tensor

/-- The errors of crates/core/src/polynomial/error.rs:8-57 that the modelled functions return. -/
inductive Error where
  | incorrectQuerySize
  | invalidShiftOffset
  | argumentRange
  | packedFieldNotFilled
  | field
  | math (e : Tensor.Error)
  deriving DecidableEq

variable {F : Type*} [CommRing F]

/-- `Ok(MultilinearExtension::new(n_vars, values)?)`: the error is wrapped (`#[from]`). -/
def liftMlx (r : Except Tensor.Error (Mlx F)) : Except Error (Mlx F) :=
  match r with
  | .ok m => .ok m
  | .error e => .error (.math e)

/-- `MultilinearExtension::from_values`, crates/math/src/multilinear_extension.rs:47-64. -/
def mlxFromValues (w : Nat) (v : Slice F) : Except Tensor.Error (Mlx F) :=
  if ¬ (packedLen w v).isPowerOfTwo then .error .powerOfTwoLengthRequired
  else .ok ⟨(packedLen w v).log2 + w, v⟩

/-- The two members of the trait `MultivariatePoly` used here, crates/core/src/polynomial/multivariate.rs:32-51. -/
structure Poly (F : Type*) where
  nVars : Nat
  evaluate : List F → Except Error F

/-- `Constant`, crates/core/src/transparent/constant.rs:24-34; `evaluate` is 47-55. -/
def constant (nVars : Nat) (value : F) : Poly F where
  nVars := nVars
  evaluate query := if query.length ≠ nVars then .error .incorrectQuerySize else .ok value

/-- `DisjointProduct`, crates/core/src/transparent/disjoint_product.rs:11-40. -/
def disjointProduct (p0 p1 : Poly F) : Poly F where
  nVars := p0.nVars + p1.nVars
  evaluate query :=
    if query.length ≠ p0.nVars + p1.nVars then .error .incorrectQuerySize
    else
      match p0.evaluate (query.take p0.nVars) with
      | .error e => .error e
      | .ok eval0 =>
        match p1.evaluate (query.drop p0.nVars) with
        | .error e => .error e
        | .ok eval1 => .ok (eval0 * eval1)

/-- The loop of `EqIndPartialEval::evaluate`, crates/core/src/transparent/eq_ind.rs:70-76. -/
def eqIndLoop (result : F) : List F → List F → F
  | q :: qs, r :: rs => eqIndLoop (result * (q * r + (1 - q) * (1 - r))) qs rs
  | _, _ => result

/-- `EqIndPartialEval`, crates/core/src/transparent/eq_ind.rs:34-37; `evaluate` is 61-78. -/
def eqInd (r : List F) : Poly F where
  nVars := r.length
  evaluate query :=
    if query.length ≠ r.length then .error .incorrectQuerySize else .ok (eqIndLoop 1 query r)

/-- `EqIndPartialEval::multilinear_extension`, crates/core/src/transparent/eq_ind.rs:43-49.  The CPU backend's
`tensor_product_full_query` is `eq_ind_partial_eval` (crates/hal/src/cpu.rs:33-38), modelled in C17. -/
def eqIndMlx (w : Nat) (r : List F) : Option (Except Error (Mlx F)) :=
  (eqIndPartialEval w r).map fun v => liftMlx (Mlx.new w r.length v)

/-- `successors(Some(x), |&power| Some(power * base))`, its element number `n`,
crates/core/src/transparent/powers.rs:46-48. -/
def nthSuccessor (base x : F) : Nat → F
  | 0 => x
  | n + 1 => nthSuccessor base x n * base

/-- Scalar number `off` of chunk `c` of the table of `Powers`, crates/core/src/transparent/powers.rs:44-53: the powers
of the chunk start at `base^(c << 10)` (`pow_vartime`, C12); at most `2^n` of them are taken, the destination being
zero beyond. -/
def powersChunk (base : F) (nVars c off : Nat) : F :=
  if off < 2 ^ nVars then nthSuccessor base (base ^ (c * 2 ^ 10)) off else 0

/-- `Powers::multilinear_extension`, crates/core/src/transparent/powers.rs:35-57.  Chunks are `2^10` packed elements. -/
def powersMlx (w nVars : Nat) (base : F) : Except Error (Mlx F) :=
  liftMlx (Mlx.new w nVars ⟨2 ^ (nVars - w) * 2 ^ w, fun i =>
    powersChunk base nVars (i / 2 ^ w / 2 ^ 10) (i / 2 ^ w % 2 ^ 10 * 2 ^ w + i % 2 ^ w)⟩)

/-- The loop of `Powers::evaluate`, crates/core/src/transparent/powers.rs:78-86. -/
def powersLoop (result basePower : F) : List F → F
  | [] => result
  | q :: qs => powersLoop (result * (1 - q + q * basePower)) (basePower * basePower) qs

/-- `Powers`, crates/core/src/transparent/powers.rs:31-33; `evaluate` is 70-87. -/
def powers (nVars : Nat) (base : F) : Poly F where
  nVars := nVars
  evaluate query :=
    if query.length ≠ nVars then .error .incorrectQuerySize else .ok (powersLoop 1 base query)

/-- `SelectRow::new`, crates/core/src/transparent/select_row.rs:36-44: the index it accepts. -/
def selectRowNew (nVars index : Nat) : Except Error Nat :=
  if 2 ^ nVars ≤ index then .error .argumentRange else .ok index

/-- `SelectRow::multilinear_extension`, crates/core/src/transparent/select_row.rs:46-58. -/
def selectRowMlx (w nVars index : Nat) : Option (Except Error (Mlx F)) :=
  if nVars < w then some (.error .packedFieldNotFilled)
  else (Slice.set? ⟨2 ^ (nVars - w) * 2 ^ w, fun _ => (0 : F)⟩ index 1).map fun v => liftMlx (mlxFromValues w v)

/-- The loop of `SelectRow::evaluate`, crates/core/src/transparent/select_row.rs:79-91. -/
def selectRowLoop (k : Nat) (result : F) : List F → F
  | [] => result
  | q :: qs => selectRowLoop (k / 2) (if k % 2 = 1 then result * q else result * (1 - q)) qs

/-- `SelectRow::evaluate`, crates/core/src/transparent/select_row.rs:71-92. -/
def selectRow (nVars index : Nat) : Poly F where
  nVars := nVars
  evaluate query :=
    if query.length ≠ nVars then .error .incorrectQuerySize else .ok (selectRowLoop index 1 query)

/-- `StepDown::new` and `StepUp::new`, crates/core/src/transparent/step_down.rs:38-46 and step_up.rs:38-46: the index
they accept. -/
def stepNew (nVars index : Nat) : Except Error Nat :=
  if 2 ^ nVars < index then .error .argumentRange else .ok index

/-- `populate` of `StepDown` (`lo = 1`, `hi = 0`) and of `StepUp` (`lo = 0`, `hi = 1`),
crates/core/src/transparent/step_down.rs:63-70 and step_up.rs:59-66: whole packed elements below the index are filled
with `lo`, the others with `hi`, and the first lanes of the element the index falls into are set to `lo`.  Slicing and
indexing past the end panic. -/
def stepPopulate (w index : Nat) (lo hi : F) (data : Slice F) : Option (Slice F) :=
  let packedIndex := index / 2 ^ w
  if packedLen w data < packedIndex then none
  else
    forRange (index % 2 ^ w) (fun i d => d.set? (packedIndex * 2 ^ w + i) lo)
      ⟨data.size, fun j => if j / 2 ^ w < packedIndex then lo else hi⟩

/-- `StepDown::multilinear_extension`, crates/core/src/transparent/step_down.rs:56-61. -/
def stepDownMlx (w nVars index : Nat) : Option (Except Error (Mlx F)) :=
  (stepPopulate w index (1 : F) 0 ⟨2 ^ (nVars - w) * 2 ^ w, fun _ => 0⟩).map fun v => liftMlx (Mlx.new w nVars v)

/-- The loop of `StepDown::evaluate`, crates/core/src/transparent/step_down.rs:97-107. -/
def stepDownLoop (k : Nat) (result : F) : List F → F
  | [] => result
  | q :: qs => stepDownLoop (k / 2) (if k % 2 = 1 then (1 - q) + result * q else result * (1 - q)) qs

/-- `StepDown::evaluate`, crates/core/src/transparent/step_down.rs:83-110. -/
def stepDown (nVars index : Nat) : Poly F where
  nVars := nVars
  evaluate query :=
    if query.length ≠ nVars then .error .incorrectQuerySize
    else if index = 2 ^ nVars then .ok 1
    else .ok (stepDownLoop index 0 query)

/-- `StepUp::multilinear_extension`, crates/core/src/transparent/step_up.rs:52-57. -/
def stepUpMlx (w nVars index : Nat) : Option (Except Error (Mlx F)) :=
  (stepPopulate w index (0 : F) 1 ⟨2 ^ (nVars - w) * 2 ^ w, fun _ => 1⟩).map fun v => liftMlx (Mlx.new w nVars v)

/-- The loop of `StepUp::evaluate`, crates/core/src/transparent/step_up.rs:93-103. -/
def stepUpLoop (k : Nat) (result : F) : List F → F
  | [] => result
  | q :: qs => stepUpLoop (k / 2) (if k % 2 = 1 then result * q else result * (1 - q) + q) qs

/-- `StepUp::evaluate`, crates/core/src/transparent/step_up.rs:79-106. -/
def stepUp (nVars index : Nat) : Poly F where
  nVars := nVars
  evaluate query :=
    if query.length ≠ nVars then .error .incorrectQuerySize
    else if index = 2 ^ nVars then .ok 0
    else .ok (stepUpLoop index 1 query)

/-! ### The tower basis -/

/-- `<F as TowerField>::basis(iota, i)` for the field of tower level `n`, read as an element of the abstract tower;
its errors are wrapped. -/
def basisT (n iota i : Nat) : Except Error (Field.T (0 + n)) :=
  match Field.Scalar.towerBasis n iota i with
  | .ok b => .ok (Field.toT b)
  | .error _ => .error .field

/-- `TowerBasis::new`, crates/core/src/transparent/tower_basis.rs:40-52, for the field of tower level `n`: the
parameters `(k, iota)` it accepts. -/
def towerBasisNew (n k iota : Nat) : Except Error (Nat × Nat) :=
  if iota + k > n then .error .argumentRange else .ok (k, iota)

/-- The `map` and `collect` over the scalars of the table, crates/core/src/transparent/tower_basis.rs:58-68: the first
error ends it. -/
def towerBasisValues (n iota : Nat) : Nat → Except Error (List (Field.T (0 + n)))
  | 0 => .ok []
  | m + 1 =>
    match towerBasisValues n iota m with
    | .error e => .error e
    | .ok l =>
      match basisT n iota m with
      | .error e => .error e
      | .ok b => .ok (l ++ [b])

/-- `TowerBasis::multilinear_extension`, crates/core/src/transparent/tower_basis.rs:54-71. -/
def towerBasisMlx (n w k iota : Nat) : Except Error (Mlx (Field.T (0 + n))) :=
  match towerBasisValues n iota (2 ^ k / 2 ^ w * 2 ^ w) with
  | .error e => .error e
  | .ok l => liftMlx (mlxFromValues w (Slice.ofList l))

/-- The loop of `TowerBasis::evaluate`, crates/core/src/transparent/tower_basis.rs:95-100. -/
def towerBasisLoop (n iota : Nat) (i : Nat) (result : Field.T (0 + n)) :
    List (Field.T (0 + n)) → Except Error (Field.T (0 + n))
  | [] => .ok result
  | q :: qs =>
    match basisT n (iota + i) 1 with
    | .error e => .error e
    | .ok b => towerBasisLoop n iota (i + 1) (result * ((1 - q) + q * b)) qs

/-- `TowerBasis::evaluate`, crates/core/src/transparent/tower_basis.rs:87-102. -/
def towerBasisPoly (n k iota : Nat) : Poly (Field.T (0 + n)) where
  nVars := k
  evaluate query :=
    if query.length ≠ k then .error .incorrectQuerySize else towerBasisLoop n iota 0 1 query

end Verif.Transparent
