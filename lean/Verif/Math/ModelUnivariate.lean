import Verif.Math.ModelMatrix

/-! Model of crates/math/src/univariate.rs.

`F` is the domain field, `E` the field of the values, `emb` the embedding.  Vectors are lists. -/

namespace Verif.Univariate

open Verif.Matrix Finset

/-- The errors of crates/math/src/error.rs returned here. -/
inductive Error where
  | duplicateDomainPoint
  | extrapolateNumberOfEvaluations
  | domainSizeTooLarge
  deriving DecidableEq

/-- `EvaluationDomain`, crates/math/src/univariate.rs:25-30. -/
structure Domain (F : Type*) where
  finitePoints : List F
  weights : List F
  withInfinity : Bool

variable {F : Type*} [Field F] [DecidableEq F]

/-- The product over `j ≠ i` of `points[i] - points[j]`, crates/math/src/univariate.rs:279-282. -/
def diffProduct (points : List F) (i : Fin points.length) : F :=
  ((List.finRange points.length).filter (· ≠ i)).foldl (fun acc j => acc * (points[i] - points[j])) 1

/-- `compute_barycentric_weights`, crates/math/src/univariate.rs:275-286 (`collect` into a `Result` stops
at the first error). -/
def barycentricWeights (points : List F) : Except Error (List F) :=
  (List.finRange points.length).mapM fun i =>
    if diffProduct points i = 0 then .error .duplicateDomainPoint else .ok (diffProduct points i)⁻¹

/-- `EvaluationDomain::from_points`, crates/math/src/univariate.rs:123-131. -/
def Domain.fromPoints (points : List F) (inf : Bool) : Except Error (Domain F) :=
  match barycentricWeights points with
  | .error e => .error e
  | .ok ws => .ok ⟨points, ws, inf⟩

/-- `EvaluationDomain::size`, crates/math/src/univariate.rs:133-135. -/
def Domain.size (d : Domain F) : Nat := d.finitePoints.length + if d.withInfinity then 1 else 0

variable {E : Type*} [Field E]

/-- The first loop of `lagrange_evals`, from the last entry down: entry `i` is entry `i+1` times
`x - points[i+1]`, crates/math/src/univariate.rs:153-158. -/
def suffixProducts (emb : F → E) (x : E) : List F → List E
  | [] => []
  | [_] => [1]
  | _ :: p' :: ps =>
    match suffixProducts emb x (p' :: ps) with
    | [] => []
    | r :: rs => (r * (x - emb p')) :: r :: rs

/-- The second loop of `lagrange_evals`, crates/math/src/univariate.rs:160-170. -/
def prefixLoop (emb : F → E) (x : E) : E → List E → List F → List F → List E
  | pre, r :: rs, p :: ps, w :: ws => (r * (pre * emb w)) :: prefixLoop emb x (pre * (x - emb p)) rs ps ws
  | _, rs, _, _ => rs

/-- `EvaluationDomain::lagrange_evals`, crates/math/src/univariate.rs:150-173. -/
def Domain.lagrangeEvals (emb : F → E) (d : Domain F) (x : E) : List E :=
  prefixLoop emb x 1 (suffixProducts emb x d.finitePoints) d.finitePoints d.weights

/-- The sum over `izip!(lagrange_evals, values)`, crates/math/src/univariate.rs:199-201. -/
def zipDot (ls vs : List E) : E := (List.zipWith (fun l v => v * l) ls vs).foldl (· + ·) 0

/-- `EvaluationDomain::extrapolate`, crates/math/src/univariate.rs:177-205; packed values are lane-wise, a
lane is modelled. -/
def Domain.extrapolate (emb : F → E) (d : Domain F) (values : List E) (x : E) : Except Error E :=
  if values.length ≠ d.size then .error .extrapolateNumberOfEvaluations
  else if d.withInfinity then
    let atInf := values.getLastD 0
    let finite := values.dropLast
    .ok (zipDot (d.lagrangeEvals emb x)
        (List.zipWith (fun p v => v - atInf * emb p ^ finite.length) d.finitePoints finite)
      + atInf * x ^ finite.length)
  else .ok (zipDot (d.lagrangeEvals emb x) values + 0)

/-- `vandermonde`, crates/math/src/univariate.rs:288-307: `acc` after `j` multiplications is `x_i^j`. -/
def vandermonde (xs : List F) (inf : Bool) : Mat F :=
  let n := xs.length + if inf then 1 else 0
  ⟨n, n, fun i j =>
    match xs[i]? with
    | some x => x ^ j
    | none => if inf ∧ i = n - 1 ∧ j = n - 1 then 1 else 0⟩

/-- `InterpolationDomain`, crates/math/src/univariate.rs:35-38. -/
structure IDomain (F : Type*) where
  domain : Domain F
  matrix : Mat F

/-- `InterpolationDomain::from`, crates/math/src/univariate.rs:100-119 (`expect` is a panic). -/
def IDomain.from (d : Domain F) : Option (IDomain F) :=
  match (vandermonde d.finitePoints d.withInfinity).inverseInto (Mat.zeros d.size d.size) with
  | some (.ok m) => some ⟨d, m⟩
  | _ => none

/-- `InterpolationDomain::interpolate`, crates/math/src/univariate.rs:229-238. -/
def IDomain.interpolate (emb : F → E) (d : IDomain F) (values : List E) : Option (Except Error (List E)) :=
  if values.length ≠ d.domain.size then some (.error .extrapolateNumberOfEvaluations)
  else (d.matrix.mulVecInto emb values values.length).map .ok

/-- `extrapolate_line` / `extrapolate_line_scalar`, crates/math/src/univariate.rs:241-263. -/
def extrapolateLine (emb : F → E) (x0 x1 : E) (z : F) : E := x0 + (x1 - x0) * emb z

/-- `evaluate_univariate`, crates/math/src/univariate.rs:266-272. -/
def evaluateUnivariate (coeffs : List F) (x : F) : F := coeffs.foldr (fun c acc => acc * x + c) 0

end Verif.Univariate
