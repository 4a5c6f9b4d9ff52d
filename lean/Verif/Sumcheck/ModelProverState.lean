import Verif.Sumcheck.ModelSumcheck
import Verif.Math.ModelFold
import Verif.Math.ModelArith

/-!
# The sumcheck provers over multilinear tables (model)

`crates/core/src/protocols/sumcheck/prove/{prover_state.rs, regular_sumcheck.rs}` and the computations
of `crates/hal/src/{sumcheck_folding.rs, sumcheck_round_calculation.rs}` they use.

`w` is `P::LOG_WIDTH` and `bits` the logarithm of the number of bits of a scalar.  A slice of packed
elements is the flat sequence of its scalars.  The destination slices have the lengths that the callers
allocate for them, so the checks of those lengths are left out.  The loops over subcubes, multilinears
and evaluators run in parallel in the code and are sums and lists here; if several of them fail, the
error returned may be another one.
-/

set_option linter.dupNamespace false

namespace Verif.Sumcheck

open Verif.Univariate Verif.Tensor Verif.Fold
open Verif.Arith (Circuit)

variable {F D : Type} [Field F] [DecidableEq F] [Field D] [DecidableEq D]

/-- `SumcheckMultilinear`, hal/src/sumcheck_multilinear.rs:8-26.  A multilinear is its number of variables
and its table; `suffix` is a value and how often it stands at the end of the table. -/
inductive SumMultilin (F : Type) where
  | transparent (nVars : Nat) (evals : Nat → F) (switchover : Nat) (suffix : F × Nat)
  | folded (evals : Slice F) (suffix : F)

/-- A result of `binius_math` as a result of the sumcheck: `none` is a panic. -/
def ofMath {A : Type} : Option (Except Tensor.Error A) → Except Error A
  | none => .error .panic
  | some (.error _) => .error .math
  | some (.ok a) => .ok a

/-- `subcube_vars_for_bits` with `MAX_SRC_SUBCUBE_LOG_BITS`, hal/src/common.rs:9-41. -/
def subcubeVars (w bits maxSrcVars innerVars maxTotalVars : Nat) : Nat :=
  min (max (min maxSrcVars (13 - bits) - innerVars) w) maxTotalVars

/-- `log2_ceil_usize`, utils/src/checked_arithmetics.rs:36-42: zero for zero and one. -/
def log2Ceil (x : Nat) : Nat := if x ≤ 1 then 0 else Nat.log2 (x - 1) + 1

/-! ## Reading a multilinear -/

/-- `subcube_evals` with embedding degree zero, math/src/mle_adapters.rs:513-567. -/
def subcubeEvals (N : Nat) (t : Nat → F) (s idx : Nat) : Except Error (Nat → F) :=
  if s > N then .error .argumentRange
  else if idx ≥ 2 ^ (N - s) then .error .argumentRange
  else .ok fun v => t (idx <<< s + v)

/-- `validate_subcube_partial_evals_params`, math/src/mle_adapters.rs:576-609, and the expansion of the
query. -/
def partialParams (w N : Nat) (q : Query F) (s idx : Nat) : Except Error (Slice F) :=
  if q.nVars + s > N then .error .argumentRange
  else if idx ≥ 2 ^ (N - q.nVars - s) then .error .argumentRange
  else match q.expansion w with
    | none => .error .panic
    | some e => .ok e

/-- `subcube_partial_low_evals`, math/src/mle_adapters.rs:431-464 (131-163 for the embedding adapter). -/
def subcubePartialLow (w N : Nat) (t : Nat → F) (q : Query F) (s idx : Nat) : Except Error (Nat → F) :=
  (partialParams w N q s idx).bind fun e => .ok fun v =>
    if v < 2 ^ s then
      ((List.range (2 ^ q.nVars)).map fun i => e.val i * t (idx <<< (q.nVars + s) + v <<< q.nVars + i)).sum
    else 0

/-- `subcube_partial_high_evals`, math/src/mle_adapters.rs:466-511 (165-208 for the embedding adapter). -/
def subcubePartialHigh (w N : Nat) (t : Nat → F) (q : Query F) (s idx : Nat) : Except Error (Nat → F) :=
  (partialParams w N q s idx).bind fun e => .ok fun v =>
    if v < 2 ^ s then
      ((List.range (2 ^ q.nVars)).map fun i =>
        e.val i * t (idx <<< s ||| i <<< (N - q.nVars) ||| v)).sum
    else 0

/-- `evaluate_partial_low(query)?.into_evals()`: what C18 proves of it.  The lanes past the end of a table
smaller than a packed element are zero here; they are not read. -/
def partialLow (w N : Nat) (t : Nat → F) (q : Query F) : Except Error (Slice F) :=
  if N < q.nVars then .error .math
  else match q.expansion w with
    | none => .error .panic
    | some e => .ok ⟨2 ^ (N - q.nVars - w) * 2 ^ w, fun x => if x < 2 ^ (N - q.nVars) then
        ((List.range (2 ^ q.nVars)).map fun i => e.val i * t (i + 2 ^ q.nVars * x)).sum else 0⟩

/-- `evaluate_partial_high(query)?.into_evals()`: what C18 proves of it. -/
def partialHigh (w N : Nat) (t : Nat → F) (q : Query F) : Except Error (Slice F) :=
  if N < q.nVars then .error .math
  else match q.expansion w with
    | none => .error .panic
    | some e => .ok ⟨2 ^ (N - q.nVars - w) * 2 ^ w, fun x => if x < 2 ^ (N - q.nVars) then
        ((List.range (2 ^ q.nVars)).map fun i => e.val i * t (x + 2 ^ (N - q.nVars) * i)).sum else 0⟩

/-- `evaluate(query)`: what C18 proves of it. -/
def evaluateQuery (w N : Nat) (t : Nat → F) (q : Query F) : Except Error F :=
  if N ≠ q.nVars then .error .math
  else match q.expansion w with
    | none => .error .panic
    | some e => .ok ((List.range (2 ^ q.nVars)).map fun i => e.val i * t i).sum

/-! ## Folding -/

/-- The partial evaluation of the subcubes before the constant suffix, hal/src/sumcheck_folding.rs:66-91 and
171-197: `count` chunks of `2^s` scalars in packed elements of their own, cut off after `scalars` scalars
rounded up to packed elements. -/
def foldSubcubes (w s scalars : Nat) (chunk : Nat → Except Error (Nat → F)) : Except Error (Slice F) :=
  let packedLen := 2 ^ (s - w)
  let count := divCeil scalars (2 ^ s)
  (collect ((List.range count).map chunk)).bind fun cs => .ok
    ⟨min (count * packedLen) (divCeil scalars (2 ^ w)) * 2 ^ w, fun x =>
      match cs[x / (packedLen * 2 ^ w)]? with
      | some c => c (x % (packedLen * 2 ^ w))
      | none => 0⟩

/-- The closure of `fold_multilinears_low_to_high`, hal/src/sumcheck_folding.rs:48-142; the flag tells whether
the multilinear is still transparent. -/
def foldLow (w bits n : Nat) (challenge : F) (query : Option (Query F)) :
    SumMultilin F → Except Error (SumMultilin F × Bool)
  | .transparent N t switchover (sv, sl) =>
    if switchover = 0 then
      match query with
      | none => .error .panic
      | some q =>
        if q.nVars = 0 then .error .panic
        else
          let nonConst := 2 ^ N - sl
          (if nonConst < 2 ^ n then
            let s := subcubeVars w bits (log2Ceil nonConst) q.nVars (n - 1)
            foldSubcubes w s (divCeil nonConst (2 ^ q.nVars)) (subcubePartialLow w N t q s)
          else partialLow w N t q).bind fun evals => .ok (.folded evals sv, false)
    else .ok (.transparent N t (switchover - 1) (sv, sl), true)
  | .folded evals sv =>
    let len := packedLen w evals
    (ofMath (foldRightLerp id w evals (len * 2 ^ w) challenge sv ⟨divCeil len 2 * 2 ^ w, fun _ => 0⟩)).bind
      fun o =>
        .ok (.folded (if len ≠ 0 ∧ len % 2 = 1 ∧ w > 0 then
          ⟨o.size, fun x => if o.size - 2 ^ w + 2 ^ w / 2 ≤ x ∧ x < o.size then sv else o.val x⟩ else o) sv, false)

/-- The closure of `fold_multilinears_high_to_low`, hal/src/sumcheck_folding.rs:155-229. -/
def foldHigh (w bits n : Nat) (challenge : F) (query : Option (Query F)) :
    SumMultilin F → Except Error (SumMultilin F × Bool)
  | .transparent N t switchover (sv, sl) =>
    if switchover = 0 then
      match query with
      | none => .error .panic
      | some q =>
        let nonConst := 2 ^ N - sl
        (if nonConst < 2 ^ n then
          let s := subcubeVars w bits (log2Ceil nonConst) q.nVars (n - 1)
          foldSubcubes w s (min nonConst (2 ^ (N - q.nVars))) (subcubePartialHigh w N t q s)
        else partialHigh w N t q).bind fun evals => .ok (.folded evals sv, false)
    else .ok (.transparent N t (switchover - 1) (sv, sl), true)
  | .folded evals sv =>
    (ofMath (foldLeftLerpInplace w evals (min (packedLen w evals * 2 ^ w) (2 ^ n)) sv n challenge)).bind
      fun o => .ok (.folded o sv, false)

/-- The case distinction of `fold_multilinears`, hal/src/sumcheck_folding.rs:26-35. -/
def foldMultilin (w bits : Nat) (order : EvaluationOrder) (n : Nat) (challenge : F) (query : Option (Query F))
    (m : SumMultilin F) : Except Error (SumMultilin F × Bool) :=
  match order with
  | .lowToHigh => foldLow w bits n challenge query m
  | .highToLow => foldHigh w bits n challenge query m

/-- `fold_multilinears`, hal/src/sumcheck_folding.rs:16-36, with `parallel_map` (231-252): the new
multilinears and whether any is still transparent. -/
def foldMultilins (w bits : Nat) (order : EvaluationOrder) (n : Nat) (ms : List (SumMultilin F))
    (challenge : F) (query : Option (Query F)) : Except Error (List (SumMultilin F) × Bool) :=
  (collect (ms.map (foldMultilin w bits order n challenge query))).bind fun rs =>
    .ok (rs.map Prod.fst, rs.any Prod.snd)

/-! ## Round evaluations -/

/-- What `calculate_round_evals` uses of a `SumcheckEvaluator`, hal/src/sumcheck_evaluator.rs:20-80: the
range of evaluation points, the variables of the composition used, `process_subcube_at_eval_point` at one
position (the composition, at infinity or not, and the factor of the position), and the constant suffix. -/
structure Evaluator (F : Type) where
  start : Nat
  stop : Nat
  uses : List Bool
  compose : Bool → List F → Option F
  weight : Nat → Option F
  suffix : Nat
  constant : Nat → Bool → Except Error F

/-- The union of the ranges, hal/src/sumcheck_round_calculation.rs:146-151. -/
def unionRange : List (Evaluator F) → Nat × Nat
  | [] => (0, 0)
  | [e] => (e.start, e.stop)
  | e :: es => (min e.start (unionRange es).1, max e.stop (unionRange es).2)

/-- `subcube_count_by_evaluator`, hal/src/sumcheck_round_calculation.rs:168-173. -/
def evaluatorCount (n s : Nat) (e : Evaluator F) : Nat := divCeil (2 ^ (n - 1) - e.suffix) (2 ^ s)

/-- `subcube_count_by_multilinear`, hal/src/sumcheck_round_calculation.rs:175-188. -/
def multilinCount (n s : Nat) (es : List (Evaluator F)) (m : Nat) : Nat :=
  es.foldl (fun acc e => if e.uses[m]? = some true then max acc (evaluatorCount n s e) else acc) 0

/-- The lanes of a folded multilinear that `subcube_evaluations` copies: `s` variables from the subcube
`idx`, hal/src/sumcheck_round_calculation.rs:437-459 and 540-582. -/
def foldedRow (w : Nat) (evals : Slice F) (sv : F) (s idx : Nat) : Nat → F := fun v =>
  if s ≥ w then
    let offset := idx <<< (s - w)
    let len := min (2 ^ (s - w)) (packedLen w evals - offset)
    if v / 2 ^ w < len then evals.val (offset * 2 ^ w + v) else sv
  else
    let index := idx <<< s ||| v
    if index < packedLen w evals * 2 ^ w then evals.val index else sv

/-- `subcube_evaluations` of `LowToHighAccess`, hal/src/sumcheck_round_calculation.rs:398-486: the
deinterleaved halves (`unzip` with block length one puts the even scalars first). -/
def accessLow (w : Nat) (m : SumMultilin F) (s idx : Nat) (q : Query F) :
    Except Error ((Nat → F) × (Nat → F)) :=
  (match m with
    | .transparent N t _ _ =>
      if q.nVars = 0 then subcubeEvals N t (s + 1) idx else subcubePartialLow w N t q (s + 1) idx
    | .folded evals sv => .ok (foldedRow w evals sv (s + 1) idx)).bind fun row =>
      .ok (fun v => row (2 * v), fun v => row (2 * v + 1))

/-- `subcube_evaluations` of `HighToLowAccess`, hal/src/sumcheck_round_calculation.rs:497-588; the second
half starts `1 << (index_vars + subcube_vars)` scalars after the first. -/
def accessHigh (w : Nat) (m : SumMultilin F) (s idx indexVars : Nat) (q : Query F) :
    Except Error ((Nat → F) × (Nat → F)) :=
  match m with
  | .transparent N t _ _ =>
    let read := if q.nVars = 0 then subcubeEvals N t s else subcubePartialHigh w N t q s
    (read idx).bind fun a => (read (idx ||| 1 <<< indexVars)).bind fun b => .ok (a, b)
  | .folded evals sv =>
    .ok (foldedRow w evals sv s idx, foldedRow w evals sv s (idx ||| 1 <<< indexVars))

/-- The case distinction of `calculate_round_evals`, hal/src/sumcheck_round_calculation.rs:106-123. -/
def accessSubcube (w : Nat) (order : EvaluationOrder) (m : SumMultilin F) (s idx indexVars : Nat) (q : Query F) :
    Except Error ((Nat → F) × (Nat → F)) :=
  match order with
  | .lowToHigh => accessLow w m s idx q
  | .highToLow => accessHigh w m s idx indexVars q

/-- The value of a multilinear at an evaluation point, hal/src/sumcheck_round_calculation.rs:236-272. -/
def zValue (emb : D → F) (points : List D) (j : Nat) (e0 e1 : F) : Except Error F :=
  match j with
  | 0 => .ok e0
  | 1 => .ok e1
  | 2 => .ok (e1 - e0)
  | j + 3 => match points[j]? with
    | none => .error .panic
    | some z => .ok (extrapolateLine emb e0 e1 z)

/-- A sum of terms that may fail. -/
def sumE (n : Nat) (f : Nat → Except Error F) : Except Error F :=
  match n with
  | 0 => .ok 0
  | n + 1 => (sumE n f).bind fun a => (f n).bind fun b => .ok (a + b)

/-- The contribution of a subcube to the sum of an evaluator at an evaluation point,
hal/src/sumcheck_round_calculation.rs:203-303.  A multilinear that is not accessed has the values `stale`,
left over from other subcubes.  The packed sums are truncated to the subcube (327). -/
def subcubeSum (emb : D → F) (w : Nat) (order : EvaluationOrder) (ms : List (SumMultilin F)) (q : Query F)
    (points : List D) (s indexVars : Nat) (counts : Nat → Nat) (stale : Nat → Nat → Nat → F)
    (e : Evaluator F) (j idx : Nat) : Except Error F :=
  (collect (ms.zipIdx.map fun m =>
    if idx < counts m.2 then accessSubcube w order m.1 s idx indexVars q
    else .ok (stale idx m.2, stale idx m.2))).bind fun rows =>
  sumE (2 ^ s) fun v =>
    (collect (rows.map fun r => zValue emb points j (r.1 v) (r.2 v))).bind fun vals =>
      match e.compose (j == 2) vals, e.weight ((idx <<< (s - w)) * 2 ^ w + v) with
      | some a, some b => .ok (a * b)
      | _, _ => .error .panic

/-- The evaluations of one evaluator, hal/src/sumcheck_round_calculation.rs:191-343; `first` is the start of
the union of the ranges. -/
def evaluatorEvals (emb : D → F) (w : Nat) (order : EvaluationOrder) (n : Nat) (ms : List (SumMultilin F))
    (q : Query F) (points : List D) (s : Nat) (counts : Nat → Nat) (stale : Nat → Nat → Nat → F)
    (first : Nat) (e : Evaluator F) : Except Error (List F) :=
  if e.suffix > 2 ^ (n - 1) then .error .panic
  else
    let count := evaluatorCount n s e
    collect ((List.range' e.start (e.stop - e.start)).map fun j =>
      (sumE (2 ^ (n - 1 - s)) fun idx =>
        if idx < count then subcubeSum emb w order ms q points s (n - 1 - s) counts stale e j idx
        else .ok 0).bind fun a =>
      (e.constant (2 ^ n - count <<< s) (first + (j - e.start) == 2)).bind fun b => .ok (a + b))

/-- `calculate_round_evals`, hal/src/sumcheck_round_calculation.rs:86-343.  Without a query an empty one is
used. -/
def calcRoundEvals (emb : D → F) (w bits : Nat) (order : EvaluationOrder) (n : Nat)
    (query : Option (Query F)) (ms : List (SumMultilin F)) (es : List (Evaluator F)) (points : List D)
    (stale : Nat → Nat → Nat → F) : Except Error (List (List F)) :=
  if n = 0 then .error .panic
  else
    match query.or (Query.withCapacity w 0) with
    | none => .error .panic
    | some q =>
      if points.length ≠ (unionRange es).2 - 3 then .error .incorrectNontrivialEvalPointsLength
      else
        let s := subcubeVars w bits (n - 1) q.nVars (n - 1)
        collect (es.map (evaluatorEvals emb w order n ms q points s (multilinCount n s es) stale
          (unionRange es).1))

/-! ## The prover state -/

/-- `ProverStateCoeffsOrSums`, prover_state.rs:32-36. -/
inductive CoeffsOrSums (F : Type) where
  | coeffs (cs : List (List F))
  | sums (ss : List F)

/-- `ProverState`, prover_state.rs:43-62. -/
structure ProverState (D F : Type) where
  nVars : Nat
  order : EvaluationOrder
  multilins : List (SumMultilin F)
  points : List D
  challenges : List F
  query : Option (Query F)
  last : CoeffsOrSums F

/-- The check of a multilinear in `ProverState::new`, prover_state.rs:82-107. -/
def checkMultilin (w n : Nat) : SumMultilin F → Except Error Unit
  | .transparent N _ _ (_, sl) =>
    if N ≠ n then .error .numberOfVariablesMismatch
    else if sl > 2 ^ n then .error .incorrectConstSuffixes
    else .ok ()
  | .folded evals _ => if packedLen w evals > 2 ^ (n - w) then .error .incorrectConstSuffixes else .ok ()

/-- The switchover round of a multilinear that has one. -/
def SumMultilin.switchover? : SumMultilin F → Option Nat
  | .transparent _ _ s _ => some s
  | .folded _ _ => none

/-- `ProverState::new`, prover_state.rs:73-134. -/
def ProverState.new (w : Nat) (order : EvaluationOrder) (n : Nat) (ms : List (SumMultilin F)) (sums : List F)
    (points : List D) : Except Error (ProverState D F) :=
  (collect (ms.map (checkMultilin w n))).bind fun _ =>
    match (ms.filterMap SumMultilin.switchover?).max? with
    | none => .ok ⟨n, order, ms, points, [], none, .sums sums⟩
    | some m => match Query.withCapacity w (min m n + 1) with
      | none => .error .panic
      | some q => .ok ⟨n, order, ms, points, [], some q, .sums sums⟩

/-- The update of the tensor query in `ProverState::fold`, prover_state.rs:164-172; `challenges` are those
after the update. -/
def updateQuery (w : Nat) (order : EvaluationOrder) (query : Option (Query F)) (challenges : List F)
    (challenge : F) : Except Error (Option (Query F)) :=
  match query with
  | none => .ok none
  | some q => match order with
    | .lowToHigh => (ofMath (q.update w [challenge])).bind fun q => .ok (some q)
    | .highToLow => match Query.expand w challenges with
      | none => .error .panic
      | some q => .ok (some q)

/-- The update of the challenges in `ProverState::fold`, prover_state.rs:158-162. -/
def pushChallenge (order : EvaluationOrder) (challenges : List F) (challenge : F) : List F :=
  match order with
  | .lowToHigh => challenges ++ [challenge]
  | .highToLow => challenge :: challenges

/-- `ProverState::fold`, prover_state.rs:140-192. -/
def ProverState.fold (w bits : Nat) (s : ProverState D F) (challenge : F) : Except Error (ProverState D F) :=
  if s.nVars = 0 then .error .expectedFinish
  else match s.last with
    | .sums _ => .error .expectedExecution
    | .coeffs cs =>
      let challenges := pushChallenge s.order s.challenges challenge
      (updateQuery w s.order s.query challenges challenge).bind fun query =>
      (foldMultilins w bits s.order s.nVars s.multilins challenge query).bind fun r =>
        .ok { s with
          nVars := s.nVars - 1
          multilins := r.1
          challenges := challenges
          query := if r.2 then query else none
          last := .sums (cs.map fun c => evaluateUnivariate c challenge) }

/-- The evaluation of a multilinear in `ProverState::finish`, prover_state.rs:205-228. -/
def finishMultilin (w : Nat) (query : Option (Query F)) : SumMultilin F → Except Error F
  | .transparent N t _ _ => match query with
    | none => .error .panic
    | some q => evaluateQuery w N t q
  | .folded evals sv => .ok (if packedLen w evals = 0 then sv else evals.val 0)

/-- `ProverState::finish`, prover_state.rs:194-231. -/
def ProverState.finish (w : Nat) (s : ProverState D F) : Except Error (List F) :=
  match s.last with
  | .coeffs _ => .error .expectedFold
  | .sums _ =>
    if s.nVars ≠ 0 then .error .expectedExecution
    else collect (s.multilins.map (finishMultilin w s.query))

/-- The sum of the coefficients with the powers of the batching coefficient, prover_state.rs:307-311. -/
def batchCoeffs (α : F) : (p : F) → (acc : List F) → List (List F) → List F
  | _, acc, [] => acc
  | p, acc, c :: cs => batchCoeffs α (p * α) (addCoeffs acc (scaleCoeffs c p)) cs

/-- `calculate_round_coeffs_from_evals`, prover_state.rs:277-314; an interpolator is its
`round_evals_to_coeffs`. -/
def ProverState.roundCoeffs (s : ProverState D F) (interpolators : List (F → List F → Except Error (List F)))
    (α : F) (evals : List (List F)) : Except Error (List F × ProverState D F) :=
  match s.last with
  | .coeffs _ => .error .expectedFold
  | .sums sums =>
    if interpolators.length ≠ sums.length then .error .incorrectNumberOfEvaluators
    else
      (collect (List.zipWith (fun f (p : F × List F) => f p.1 p.2) interpolators (sums.zip evals))).bind fun cs =>
        .ok (batchCoeffs α 1 [] cs, { s with last := .coeffs cs })

/-! ## The regular sumcheck prover -/

/-- The methods of `CompositionPoly` the provers use, math/src/composition_poly.rs:13-45: `evaluate` is a lane
of `batch_evaluate`, whose `expect` panics. -/
structure Comp (F : Type) where
  nVars : Nat
  degree : Nat
  expr : Circuit F
  evaluate : List F → Option F

/-- `RegularSumcheckProver`, regular_sumcheck.rs:71-83. -/
structure Regular (D F : Type) where
  nVars : Nat
  state : ProverState D F
  comps : List (Comp F)
  domains : List (IDomain D)

/-- `equal_n_vars_check`, common.rs:246-264. -/
def equalNVars : List Nat → Except Error Nat
  | [] => .ok 0
  | n :: ns => if ns.any (· ≠ n) then .error .numberOfVariablesMismatch else .ok n

/-- `interpolation_domains_for_composition_degrees`, common.rs:293-304; the conversion panics if the matrix is
singular. -/
def domainsFor (create : Nat → Except Univariate.Error (Domain D)) (degrees : List Nat) :
    Except Error (List (IDomain D)) :=
  collect (degrees.map fun d => match create (d + 1) with
    | .error .domainSizeTooLarge => .error .domainSizeTooLarge
    | .error _ => .error .duplicateDomainPoint
    | .ok d => match IDomain.from d with
      | none => .error .panic
      | some i => .ok i)

/-- The last of the largest domains (`max_by_key`). -/
def largestDomain : List (IDomain D) → Option (IDomain D)
  | [] => none
  | d :: ds => match largestDomain ds with
    | none => some d
    | some e => if e.domain.size ≥ d.domain.size then some e else some d

/-- `get_nontrivial_evaluation_points`, common.rs:310-342. -/
def nontrivialPoints (domains : List (IDomain D)) : Except Error (List D) :=
  match largestDomain domains with
  | none => .ok []
  | some l =>
    if ¬ domains.all (fun d => (d.domain.size ≤ 2 ∨ d.domain.withInfinity = true) ∧
        d.domain.finitePoints[0]?.getD 0 = 0 ∧ d.domain.finitePoints[1]?.getD 1 = 1) then
      .error .incorrectSumcheckEvaluationDomain
    else if domains.any (fun d => ¬ d.domain.finitePoints <+: l.domain.finitePoints) then
      .error .nonProperPrefixEvaluationDomain
    else .ok (l.domain.finitePoints.drop (min 2 l.domain.finitePoints.length))

/-- `RegularSumcheckProver::new`, regular_sumcheck.rs:95-170.  A multilinear comes with its number of variables
and the switchover round that `switchover_fn` gives for it. -/
def Regular.new (w : Nat) (create : Nat → Except Univariate.Error (Domain D)) (order : EvaluationOrder)
    (multilins : List (Nat × (Nat → F) × Nat)) (claims : List (Comp F × F)) : Except Error (Regular D F) :=
  (equalNVars (multilins.map Prod.fst)).bind fun n =>
  match claims.find? fun c => c.1.nVars != multilins.length with
  | some c => .error (.invalidComposition c.1.nVars multilins.length)
  | none =>
    (domainsFor create (claims.map fun c => c.1.degree)).bind fun domains =>
    (nontrivialPoints domains).bind fun points =>
    (ProverState.new w order n (multilins.map fun m => .transparent m.1 m.2.1 m.2.2 (0, 0))
      (claims.map Prod.snd) points).bind fun state =>
      .ok ⟨n, state, claims.map Prod.fst, domains⟩

/-- The reordering of the evaluations in `round_evals_to_coeffs`, regular_sumcheck.rs:289-299: the third one,
at infinity, goes to the end if there are more than three. -/
def reorderEvals : List F → List F
  | a :: b :: c :: d :: l => a :: b :: (d :: l ++ [c])
  | l => l

/-- `round_evals_to_coeffs` of the regular evaluator, regular_sumcheck.rs:279-304; `round_evals[0]` panics
without evaluations. -/
def regularCoeffs (emb : D → F) (dom : IDomain D) (sum : F) : List F → Except Error (List F)
  | [] => .error .panic
  | y :: ys => match dom.interpolate emb (reorderEvals ((sum - y) :: y :: ys)) with
    | none => .error .panic
    | some (.error _) => .error .math
    | some (.ok cs) => .ok cs

/-- `RegularSumcheckEvaluator`, regular_sumcheck.rs:216-271: the composition at infinity is its leading term,
which panics for an ill-formed expression; the code compiles it (C65), here it is evaluated directly.  `const_eval_suffix` and `process_constant_eval_suffix` are the
default ones of hal/src/sumcheck_evaluator.rs:52-80. -/
def regularEvaluator (c : Comp F) : Evaluator F where
  start := 1
  stop := c.degree + 1
  uses := Arith.varsUsage c.expr
  compose := fun inf vals =>
    if inf then (Arith.leadingTerm c.expr).bind fun lt => Arith.evaluate lt vals else c.evaluate vals
  weight := fun _ => some 1
  suffix := 0
  constant := fun _ _ => .ok 0

/-- `execute`, regular_sumcheck.rs:187-208. -/
def Regular.execute (emb : D → F) (w bits : Nat) (stale : Nat → Nat → Nat → F) (s : Regular D F) (α : F) :
    Except Error (List F × Regular D F) :=
  let pairs := s.comps.zip s.domains
  (calcRoundEvals emb w bits s.state.order s.state.nVars s.state.query s.state.multilins
    (pairs.map fun p => regularEvaluator p.1) s.state.points stale).bind fun evals =>
  (s.state.roundCoeffs (pairs.map fun p => regularCoeffs emb p.2) α evals).bind fun r =>
    .ok (r.1, { s with state := r.2 })

/-- `fold`, regular_sumcheck.rs:181-185. -/
def Regular.fold (w bits : Nat) (s : Regular D F) (challenge : F) : Except Error (Regular D F) :=
  (s.state.fold w bits challenge).bind fun st => .ok { s with state := st }

/-- The calls that a batch prover makes: `execute` and `fold` in turn, with the same batching coefficient. -/
def Regular.rounds (emb : D → F) (w bits : Nat) (stale : Nat → Nat → Nat → F) (α : F) :
    Regular D F → (challenges : List F) → Except Error (Regular D F)
  | s, [] => .ok s
  | s, r :: rs => (s.execute emb w bits stale α).bind fun p => (p.2.fold w bits r).bind fun s =>
      Regular.rounds emb w bits stale α s rs

/-- The prover as the batch provers see it: what `execute` and `finish` give after the rounds with these
challenges.  What `finish` gives does not depend on the batching coefficient of the rounds (C66). -/
def Regular.toProver (emb : D → F) (w bits : Nat) (stale : Nat → Nat → Nat → F) (s : Regular D F) :
    SumcheckProver F where
  nVars := s.nVars
  evaluationOrder := s.state.order
  execute := fun folded α => (s.rounds emb w bits stale α folded).bind fun s =>
    (s.execute emb w bits stale α).bind fun p => .ok p.1
  finish := fun folded => (s.rounds emb w bits stale 0 folded).bind fun s => s.state.finish w

end Verif.Sumcheck
