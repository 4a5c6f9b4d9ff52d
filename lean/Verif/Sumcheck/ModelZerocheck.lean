import Verif.Sumcheck.ModelEqInd
import Verif.Gkr.ModelGpa
import Verif.Math.ModelSubspace
import Verif.Math.ModelTensor

/-!
# The zerocheck verifier and the batch zerocheck prover (model)

`crates/core/src/protocols/sumcheck/{zerocheck.rs, verify_zerocheck.rs, prove/batch_zerocheck.rs}` and
`make_zerocheck_eval_claims` of `crates/core/src/protocols/sumcheck/oracles.rs`.

`basisChecked` is `basis_checked` of the canonical field `K` of `F` over the two-element field and
`emb` the conversion of `K` to `F`. Sizes are natural numbers; the theorems assume that they fit into
`usize` where that matters.
-/

namespace Verif.Sumcheck

open Verif.Protocol Verif.Univariate

variable {F : Type}

/-- `ZerocheckClaim`, `zerocheck.rs:26-34`. -/
structure ZerocheckClaim (F : Type) where
  nVars : Nat
  nMultilinears : Nat
  zeros : List (Composition F)

/-- `ZerocheckClaim::new`, `zerocheck.rs:40-59`. -/
def ZerocheckClaim.new (nVars nMultilinears : Nat) (zeros : List (Composition F)) :
    Except Error (ZerocheckClaim F) :=
  match zeros.find? fun c => c.nVars != nMultilinears with
  | some c => .error (.invalidComposition c.nVars nMultilinears)
  | none => .ok ⟨nVars, nMultilinears, zeros⟩

/-- `ZerocheckClaim::max_individual_degree`, `zerocheck.rs:62-68`. -/
def ZerocheckClaim.maxIndividualDegree (c : ZerocheckClaim F) : Nat :=
  ((c.zeros.map fun s => s.degree).max?).getD 0

/-- `domain_size`, `verify_zerocheck.rs:26-28`. -/
def zeroDomainSize (compositionDegree skipRounds : Nat) : Nat := compositionDegree <<< skipRounds

/-- The size of the domain of the univariate round, `verify_zerocheck.rs:78-82`. -/
def maxDomainSize (skipRounds : Nat) (claims : List (ZerocheckClaim F)) : Nat :=
  ((claims.map fun c => zeroDomainSize c.maxIndividualDegree skipRounds).max?).getD 0

/-- `log2_ceil_usize` with `min_bits`, crates/utils/src/checked_arithmetics.rs:40-50. -/
def log2CeilUsize (n : Nat) : Nat := Nat.size (n - 1)

/-- One claim of `reduce_to_eq_ind_sumchecks`, `zerocheck.rs:166-186`. -/
def ZerocheckClaim.toEqInd [Zero F] (skipRounds : Nat) (c : ZerocheckClaim F) : Except Error (EqIndClaim F) :=
  EqIndClaim.new (c.nVars - skipRounds) c.nMultilinears (c.zeros.map fun s => ⟨s, 0⟩)

/-- `BatchZerocheckOutput`, `zerocheck.rs:139-148`. -/
structure ZerocheckOutput (F : Type) where
  skippedChallenges : List F
  unskippedChallenges : List F
  concatMultilinearEvals : List F
  deriving DecidableEq

/-- The errors of `binius_math` as errors of this protocol. -/
def ofMathError : Verif.Univariate.Error → Error
  | .duplicateDomainPoint => .duplicateDomainPoint
  | .extrapolateNumberOfEvaluations => .panic
  | .domainSizeTooLarge => .domainSizeTooLarge

section

variable [Field F] [DecidableEq F]

/-- `reduce_to_eq_ind_sumchecks`, `zerocheck.rs:155-188`. -/
def reduceToEqInd (skipRounds : Nat) (claims : List (ZerocheckClaim F)) :
    Except Error (List (EqIndClaim F)) :=
  if Verif.Sorting.isSortedAscending (claims.map fun c => c.nVars) = false then .error .claimsOutOfOrder
  else collect (claims.map fun c => c.toEqInd skipRounds)

/-- The composite sums of `univariatizing_reduction_claim`, `zerocheck.rs:210-224` (the `expect` is a
panic). -/
def reductionSums (nMultilinears : Nat) (evals : List F) : Except Error (List (CompositeSum F)) :=
  collect (evals.zipIdx.map fun p =>
    match Verif.Gkr.indexComposition (nMultilinears + 1) [p.2, nMultilinears] (Verif.Gkr.productOf 2) with
    | .ok c => .ok ⟨c, p.1⟩
    | .error _ => .error .panic)

/-- `univariatizing_reduction_claim`, `zerocheck.rs:199-227`. `BivariateProduct` is the product of two
arguments. -/
def univariatizingReductionClaim (skipRounds : Nat) (evals : List (List F)) : Except Error (Claim F) :=
  let nMultilinears := (evals.map List.length).sum
  match reductionSums nMultilinears evals.flatten with
  | .error e => .error e
  | .ok sums => Claim.new skipRounds (nMultilinears + 1) sums

variable {K : Type} [AddCommGroup K]

/-- `BinarySubspace::<F::Canonical>::with_dim(dim)?.isomorphic::<F>().iter()`,
`verify_zerocheck.rs:103-107`, `zerocheck.rs:260-262`. -/
def subspacePoints (basisChecked : Nat → Option K) (emb : K → F) (dim : Nat) : Except Error (List F) :=
  match Verif.Subspace.withDim basisChecked dim with
  | .ok s => .ok (s.isomorphic emb).iter
  | .error e => .error (ofMathError e)

/-- `EvaluationDomain::from_points(points, false)?`, `verify_zerocheck.rs:104-107`. -/
def zeroDomain (points : List F) : Except Error (Domain F) :=
  match Domain.fromPoints points false with
  | .ok d => .ok d
  | .error e => .error (ofMathError e)

/-- `lagrange_evals_multilinear_extension`, `zerocheck.rs:291-313`, for scalars packed one by one:
`log2_strict_usize` panics when the number of points is not a power of two. -/
def lagrangeMle (domain : Domain F) (univariateChallenge : F) : Except Error (Verif.Tensor.Mlx F) :=
  let ls := domain.lagrangeEvals id univariateChallenge
  if ls.length ≠ 2 ^ ls.length.log2 then .error .panic
  else match Verif.Tensor.Mlx.new 0 ls.length.log2 ⟨ls.length, fun i => ls.getD i 0⟩ with
    | .ok m => .ok m
    | .error _ => .error .panic

/-- `lagrange_mle.evaluate(multilinear_query(challenges))`, `zerocheck.rs:267-268`. -/
def evaluateMle (m : Verif.Tensor.Mlx F) (challenges : List F) : Except Error F :=
  match Verif.Tensor.Query.expand 0 challenges with
  | none => .error .panic
  | some q => match m.evaluate id 0 0 q with
    | some (.ok v) => .ok v
    | _ => .error .panic

/-- `verify_reduction_sumcheck_output`, `zerocheck.rs:235-290`. -/
def verifyReductionOutput (basisChecked : Nat → Option K) (emb : K → F) (claim : Claim F)
    (skipRounds : Nat) (univariateChallenge : F) (out : Output F) : Except Error (Output F) :=
  if claim.nVars ≠ skipRounds then .error .incorrectUnivariatizingReductionClaims
  else if out.challenges.length ≠ skipRounds ∨ out.multilinearEvals.length ≠ 1 then
    .error .incorrectUnivariatizingReductionSumcheck
  else match subspacePoints basisChecked emb skipRounds with
    | .error e => .error e
    | .ok points => match zeroDomain points with
      | .error e => .error e
      | .ok domain => match lagrangeMle domain univariateChallenge with
        | .error e => .error e
        | .ok m => match evaluateMle m out.challenges with
          | .error e => .error e
          | .ok expected => match out.multilinearEvals with
            | [] => .error .panic
            | first :: rest => match first.getLast? with
              | none => .error .numberOfFinalEvaluations
              | some last =>
                  if last ≠ expected then .error .incorrectLagrangeMultilinearEvaluation
                  else .ok ⟨out.challenges, first.dropLast :: rest⟩

/-- `inner_product_unchecked`, crates/field/src/util.rs:14-22: the shorter list counts. -/
def innerProduct (a b : List F) : F := (List.zipWith (· * ·) a b).sum

/-- The value of the round polynomial at the challenge, `verify_zerocheck.rs:101-113`. The slice
panics when there are fewer coefficients. -/
def univariateSum (basisChecked : Nat → Option K) (emb : K → F) (domainSize prefixLen : Nat)
    (roundEvals : List F) (univariateChallenge : F) : Except Error F :=
  match subspacePoints basisChecked emb (log2CeilUsize domainSize) with
  | .error e => .error e
  | .ok points => match zeroDomain (points.take domainSize) with
    | .error e => .error e
    | .ok domain =>
        let coeffs := domain.lagrangeEvals id univariateChallenge
        if coeffs.length < prefixLen then .error .panic
        else .ok (innerProduct roundEvals (coeffs.drop prefixLen))

/-- The univariatizing reduction, `verify_zerocheck.rs:135-165`. -/
def verifyReduction (basisChecked : Nat → Option K) (emb : K → F) (skipRounds : Nat)
    (univariateChallenge : F) (eqOut : Output F) : P F (ZerocheckOutput F) :=
  (Prog.ofExcept (univariatizingReductionClaim skipRounds eqOut.multilinearEvals)).bind fun claim =>
    ((newBatchVerifier [claim]).bind fun v => v.run).bind fun out =>
      (Prog.ofExcept (verifyReductionOutput basisChecked emb claim skipRounds univariateChallenge
        (reverseFor .highToLow out))).bind fun out =>
          match out.multilinearEvals.getLast? with
          | none => .fail .panic
          | some evals => .ret ⟨out.challenges, eqOut.challenges, evals⟩

/-- The rounds after the univariate one, `verify_zerocheck.rs:115-133`. -/
def verifyUnskipped (skipRounds : Nat) (claims : List (ZerocheckClaim F))
    (eqIndChallenges batchCoeffs : List F) (sum : F) : P F (Output F) :=
  (Prog.ofExcept (reduceToEqInd skipRounds claims)).bind fun eqClaims =>
    (Prog.ofExcept (reduceToRegularSumchecks eqClaims)).bind fun regular =>
      ((Prog.ofExcept (newPrebatched batchCoeffs sum regular)).bind fun v => v.run).bind fun out =>
        .ofExcept (verifySumcheckOutputs .ascendingVars eqClaims eqIndChallenges
          (reverseFor .highToLow out))

/-- `batch_verify`, `verify_zerocheck.rs:53-173`. -/
def zerocheckVerify (basisChecked : Nat → Option K) (emb : K → F) (claims : List (ZerocheckClaim F))
    (skipRounds : Nat) : P F (ZerocheckOutput F) :=
  if Verif.Sorting.isSortedAscending (claims.map fun c => c.nVars) = false then .fail .claimsOutOfOrder
  else
    let maxNVars := match claims.getLast? with | some c => c.nVars | none => 0
    if maxNVars < skipRounds then .fail .incorrectSkippedRoundsCount
    else
      (sampleVec (maxNVars - skipRounds)).bind fun eqIndChallenges =>
        let domainSize := maxDomainSize skipRounds claims
        let prefixLen := min (2 ^ skipRounds) domainSize
        (sampleVec claims.length).bind fun batchCoeffs =>
          .read (domainSize - prefixLen) fun roundEvals =>
            .sample fun univariateChallenge =>
              (Prog.ofExcept (univariateSum basisChecked emb domainSize prefixLen roundEvals
                univariateChallenge)).bind fun sum =>
                  (verifyUnskipped skipRounds claims eqIndChallenges batchCoeffs sum).bind fun eqOut =>
                    verifyReduction basisChecked emb skipRounds univariateChallenge eqOut

end

/-! ## The batch prover -/

/-- `ZerocheckProver`, `prove/batch_zerocheck.rs:43-76`: what its methods return when called in the
order described there. `execute` is given the arguments of `execute_univariate_round`; `fold` and
`project` those of the calls made before as well. Projected multilinears are given by their tables. -/
structure ZerocheckProver (F : Type) where
  nVars : Nat
  domainSize : (skipRounds : Nat) → Nat
  execute : (skipRounds maxDomainSize : Nat) → (batchCoeff : F) → Except Error (List F)
  fold : (skipRounds maxDomainSize : Nat) → (batchCoeff challenge : F) → Except Error (SumcheckProver F)
  project : (skipRounds : Nat) → (challenges : List F) → Except Error (List (Nat → F))

/-- `RegularSumcheckProver::new` for multilinears in `n` variables given by their tables. -/
abbrev RegularBuilder (F : Type) :=
  (n : Nat) → (multilinears : List (Nat → F)) → List (CompositeSum F) → Except Error (SumcheckProver F)

section

variable [Field F] [DecidableEq F]

/-- `ZerocheckRoundEvals::add_assign_lagrange`, `zerocheck.rs:93-105`. -/
def addAssignLagrange (lhs rhs : List F) : Except Error (List F) :=
  if lhs.length ≠ rhs.length then .error .lagrangeRoundEvalsSizeMismatch
  else .ok (List.zipWith (· + ·) lhs rhs)

/-- The univariate round of every prover, `prove/batch_zerocheck.rs:195-208`: the coefficients and the
batched evaluations. -/
def pUnivariateRound (skipRounds maxDomainSize : Nat) : List (ZerocheckProver F) → (coeffs evals : List F) →
    PP F (List F × List F)
  | [], coeffs, evals => .ret (coeffs, evals)
  | p :: ps, coeffs, evals => .sample fun coeff =>
      (PProg.ofExcept (p.execute skipRounds maxDomainSize coeff)).bind fun roundEvals =>
        (PProg.ofExcept (addAssignLagrange evals (roundEvals.map fun e => e * coeff))).bind fun evals =>
          pUnivariateRound skipRounds maxDomainSize ps (coeffs ++ [coeff]) evals

variable {K : Type} [AddCommGroup K]

/-- `univariatizing_reduction_prover`, `prove/batch_zerocheck.rs:113-155`. -/
def univariatizingReductionProver (basisChecked : Nat → Option K) (emb : K → F) (build : RegularBuilder F)
    (projected : List (Nat → F)) (skipRounds : Nat) (evals : List (List F)) (univariateChallenge : F) :
    Except Error (SumcheckProver F) :=
  match univariatizingReductionClaim skipRounds evals with
  | .error e => .error e
  | .ok claim => match subspacePoints basisChecked emb skipRounds with
    | .error e => .error e
    | .ok points => match zeroDomain points with
      | .error e => .error e
      | .ok domain => match lagrangeMle domain univariateChallenge with
        | .error e => .error e
        | .ok m => build skipRounds (projected ++ [m.evals.val]) claim.sums

/-- `batch_prove`, `prove/batch_zerocheck.rs:168-293`. -/
def zerocheckProve (basisChecked : Nat → Option K) (emb : K → F) (build : RegularBuilder F)
    (provers : List (ZerocheckProver F)) (skipRounds : Nat) : PP F (ZerocheckOutput F) :=
  if Verif.Sorting.isSortedAscending (provers.map fun p => p.nVars) = false then .fail .claimsOutOfOrder
  else
    let maxDomainSize := ((provers.map fun p => p.domainSize skipRounds).max?).getD 0
    (pUnivariateRound skipRounds maxDomainSize provers []
        (List.replicate (maxDomainSize - 2 ^ skipRounds) 0)).bind fun q =>
      .write q.2 <| .sample fun univariateChallenge =>
        (PProg.ofExcept (collect (List.zipWith (fun (p : ZerocheckProver F) coeff =>
            p.fold skipRounds maxDomainSize coeff univariateChallenge) provers q.1))).bind fun sumcheckProvers =>
          (provePrebatched q.1 sumcheckProvers).bind fun out =>
            let unskipped := out.challenges.reverse
            if out.multilinearEvals.any List.isEmpty then .fail .panic
            else
              let evals := out.multilinearEvals.map List.dropLast
              (PProg.ofExcept (collect (provers.map fun p => p.project skipRounds unskipped))).bind
                fun projected =>
                  (PProg.ofExcept (univariatizingReductionProver basisChecked emb build projected.flatten
                      skipRounds evals univariateChallenge)).bind fun reductionProver =>
                    (proveFrontLoaded [reductionProver]).bind fun out =>
                      match out.multilinearEvals.getLast? with
                      | none => .fail .panic
                      | some concat => match concat.getLast? with
                        | none => .fail .panic
                        | some _ => .ret ⟨out.challenges.reverse, unskipped, concat.dropLast⟩

/-- The zerocheck of `constraint_system/prove.rs:449-502`: the challenges of the equality indicator are
sampled, the provers built from them, and the batch proved. -/
def sampleAndProve (basisChecked : Nat → Option K) (emb : K → F) (build : RegularBuilder F)
    (maxNVars skipRounds : Nat) (provers : (zerocheckChallenges : List F) → List (ZerocheckProver F)) :
    PP F (ZerocheckOutput F) :=
  (pSampleVec (maxNVars - skipRounds)).bind fun challenges =>
    zerocheckProve basisChecked emb build (provers challenges) skipRounds

end

/-! ## The evaluation claims -/

/-- `OracleClaimMeta`, `oracles.rs:26-29`. -/
structure OracleClaimMeta where
  nVars : Nat
  oracleIds : List Nat

/-- `EvalcheckMultilinearClaim`, crates/core/src/protocols/evalcheck/evalcheck.rs:18-26. -/
structure EvalClaim (F : Type) where
  id : Nat
  evalPoint : List F
  eval : F
  deriving DecidableEq

/-- The evaluation point of a multilinear in `n_vars` variables, `oracles.rs:215-220`. The slice
indices are in range: `n_vars ≤ max_n_vars` for ascending claims. -/
def zeroEvalPoint (maxNVars : Nat) (skipped unskipped : List F) (nVars : Nat) : List F :=
  skipped.take (min nVars skipped.length) ++
    unskipped.drop (min (maxNVars - nVars) unskipped.length)

/-- `make_zerocheck_eval_claims`, `oracles.rs:175-234`. -/
def makeZerocheckEvalClaims (metas : List OracleClaimMeta) (out : ZerocheckOutput F) :
    Except Error (List (EvalClaim F)) :=
  if Verif.Sorting.isSortedAscending (metas.map fun m => m.nVars) = false then .error .claimsOutOfOrder
  else
    let maxNVars := (metas.getLast?.map fun m => m.nVars).getD 0
    if (metas.map fun m => m.oracleIds.length).sum ≠ out.concatMultilinearEvals.length then
      .error .claimProofMismatch
    else if maxNVars ≠ out.skippedChallenges.length + out.unskippedChallenges.length then
      .error .claimProofMismatch
    else
      .ok (List.zipWith (fun (p : Nat × Nat) eval =>
        ⟨p.1, zeroEvalPoint maxNVars out.skippedChallenges out.unskippedChallenges p.2, eval⟩)
        (metas.flatMap fun m => m.oracleIds.map fun id => (id, m.nVars)) out.concatMultilinearEvals)

end Verif.Sumcheck
