import Verif.Protocol.ModelProg
import Verif.Math.ModelUnivariate
import Verif.Utils.ModelSorting

/-!
# The sumcheck verifier (model)

`crates/core/src/protocols/sumcheck/{common.rs, verify_sumcheck.rs}`. Claims are over a field `F`;
the transcript operations are those of `Verif.Protocol.Prog`.
-/

namespace Verif.Sumcheck

open Verif.Protocol Verif.Univariate

/-- `sumcheck::Error` and `VerificationError`, `protocols/sumcheck/error.rs`: the cases the modelled
functions return. -/
inductive Error where
  | invalidComposition (actual expected : Nat)
  | claimsOutOfOrder
  | inconsistentEvaluationOrder
  | incorrectBatchEvaluation
  | incorrectQuerySize (expected actual : Nat)
  | expectedFinishRound
  | expectedFinishClaim
  | expectedReceiveCoeffs
  | incorrectNumberOfBatchCoeffs
  | numberOfFinalEvaluations
  | numberOfRounds
  | numberOfMultilinearEvals
  | incorrectEqIndEvaluation
  | eqIndChallengeLength
  | expectedClaimsZero
  | expectedFold
  | expectedExecution
  | expectedFinish
  /-- the cases of `gkr_gpa/error.rs` and `polynomial/error.rs` used by the grand product argument -/
  | mismatchedEvalPointLength
  | mismatchedWitnessClaimLength
  | proverClaimWitnessMismatch
  | prematureFinalize
  | indexCompositionIndicesOutOfBounds
  /-- the cases of `sumcheck/error.rs` and `math/src/error.rs` used by the zerocheck -/
  | incorrectSkippedRoundsCount
  | incorrectUnivariatizingReductionClaims
  | incorrectUnivariatizingReductionSumcheck
  | incorrectLagrangeMultilinearEvaluation
  | lagrangeRoundEvalsSizeMismatch
  | claimProofMismatch
  | duplicateDomainPoint
  | domainSizeTooLarge
  /-- the cases of `piop/error.rs` and `math/src/error.rs` used by the opening of commitments -/
  | transparentsNotSorted
  | sumcheckClaimVariablesMismatch (index : Nat)
  | incorrectTransparentEvaluation (index : Nat)
  | incorrectSumcheckEvaluation
  | piecewiseMultilinearTooLong
  | piecewiseMultilinearIncompatibleEvals
  | numberOfVariablesMismatch
  /-- the cases of `sumcheck/error.rs`, `hal/src/error.rs` and `math/src/error.rs` used by the provers; `math` stands for
  any other error of `math` -/
  | incorrectConstSuffixes
  | incorrectNumberOfEvaluators
  | incorrectSumcheckEvaluationDomain
  | nonProperPrefixEvaluationDomain
  | incorrectNontrivialEvalPointsLength
  | incorrectEqIndChallenges
  | incorrectEqIndPartialEvalsSize
  | incorrectFirstRoundEvalOnesLength
  | argumentRange
  | math
  | panic
  deriving DecidableEq, Repr

/-- `EvaluationOrder`, `crates/math/src/fold.rs` / `math/src/lib.rs`. -/
inductive EvaluationOrder where
  | lowToHigh
  | highToLow
  deriving DecidableEq, Repr

variable {F : Type}

/-- The methods of `CompositionPoly` the verifier uses, `crates/math/src/composition_poly.rs:13-29`:
`n_vars`, `degree` and `evaluate`. -/
structure Composition (F : Type) where
  nVars : Nat
  degree : Nat
  evaluate : List F → Except Error F

/-- `CompositeSumClaim`, `common.rs:23-26`. -/
structure CompositeSum (F : Type) where
  composition : Composition F
  sum : F

/-- `SumcheckClaim`, `common.rs:37-43`. -/
structure Claim (F : Type) where
  nVars : Nat
  nMultilinears : Nat
  sums : List (CompositeSum F)

/-- `SumcheckClaim::new`, `common.rs:55-73`: the first composition with the wrong number of
variables is reported. -/
def Claim.new (nVars nMultilinears : Nat) (sums : List (CompositeSum F)) :
    Except Error (Claim F) :=
  match sums.find? fun s => s.composition.nVars != nMultilinears with
  | some s => .error (.invalidComposition s.composition.nVars nMultilinears)
  | none => .ok ⟨nVars, nMultilinears, sums⟩

/-- `SumcheckClaim::max_individual_degree`, `common.rs:76-82`. -/
def Claim.maxIndividualDegree (c : Claim F) : Nat :=
  ((c.sums.map fun s => s.composition.degree).max?).getD 0

section Coeffs

variable [Field F]

/-- `RoundCoeffs::truncate`, `common.rs:102-105`. -/
def truncate (coeffs : List F) : List F := coeffs.dropLast

/-- `RoundCoeffs::add_assign`, `common.rs:117-127`: the shorter left operand is extended with zeros,
then the zipped prefix is added. -/
def addCoeffs : List F → List F → List F
  | a, [] => a
  | [], b :: bs => (0 + b) :: addCoeffs [] bs
  | a :: as, b :: bs => (a + b) :: addCoeffs as bs

/-- `RoundCoeffs::mul_assign`, `common.rs:138-144`. -/
def scaleCoeffs (coeffs : List F) (c : F) : List F := coeffs.map (· * c)

/-- `RoundProof::recover`, `common.rs:176-182`. -/
def recover (coeffs : List F) (sum : F) : List F :=
  let firstCoeff := match coeffs with | [] => 0 | c :: _ => c
  let lastCoeff := sum - firstCoeff - coeffs.sum
  coeffs ++ [lastCoeff]

/-- `inner_product_unchecked(powers(a), values)` with the running power explicit: `powers` yields
`1, a, a^2, …`, `crates/field/src/util.rs:14-53`. -/
def innerPowers (a : F) : F → List F → F
  | _, [] => 0
  | p, v :: vs => p * v + innerPowers a (p * a) vs

/-- `batch_weighted_value`, `common.rs:287-290`. -/
def batchWeightedValue (coeff : F) (values : List F) : F := coeff * innerPowers coeff 1 values

/-- `interpolate_round_proof`, `verify_sumcheck.rs:166-169`. -/
def interpolateRoundProof (roundProof : List F) (sum challenge : F) : F :=
  evaluateUnivariate (recover roundProof sum) challenge

end Coeffs

/-- `BatchSumcheckOutput`, `common.rs:211-217`. -/
structure Output (F : Type) where
  challenges : List F
  multilinearEvals : List (List F)

/-- The local variables of `batch_verify`, `verify_sumcheck.rs:49-53`. The index `active_index` is
represented by the list of claims not yet batched in, which is passed along. -/
structure St (F : Type) where
  batchCoeffs : List F
  challenges : List F
  sum : F
  maxDegree : Nat

/-- A verifier over the transcript operations, with this protocol's errors. -/
abbrev P (F : Type) (A : Type) := Prog F Error A

section Verify

variable [Field F] [DecidableEq F]

/-- The inner `while` loop of `batch_verify`, `verify_sumcheck.rs:57-75`: batch in the claims with
`nVars` variables at the front of the list. -/
def activate (nVars : Nat) : List (Claim F) → St F → P F (List (Claim F) × St F)
  | [], s => .ret ([], s)
  | c :: cs, s =>
      if c.nVars ≠ nVars then .ret (c :: cs, s)
      else .sample fun coeff => activate nVars cs
        { s with
          batchCoeffs := s.batchCoeffs ++ [coeff]
          sum := s.sum + batchWeightedValue coeff (c.sums.map fun i => i.sum)
          maxDegree := max s.maxDegree c.maxIndividualDegree }

/-- The `for round_no in 0..n_rounds` loop of `batch_verify`, `verify_sumcheck.rs:54-84`, by the
number of rounds left, which is the `n_vars` of the iteration. -/
def rounds : Nat → List (Claim F) → St F → P F (List (Claim F) × St F)
  | 0, cs, s => .ret (cs, s)
  | n + 1, cs, s =>
      (activate (n + 1) cs s).bind fun q =>
        .read q.2.maxDegree fun coeffs =>
          .sample fun challenge =>
            rounds n q.1
              { q.2 with
                challenges := q.2.challenges ++ [challenge]
                sum := interpolateRoundProof coeffs q.2.sum challenge }

/-- The second `while` loop of `batch_verify`, `verify_sumcheck.rs:87-102`. The `debug_assert_eq!`
on the number of variables is a panic here. -/
def activateRest : List (Claim F) → St F → P F (St F)
  | [], s => .ret s
  | c :: cs, s =>
      if c.nVars ≠ 0 then .fail .panic
      else .sample fun coeff => activateRest cs
        { s with
          batchCoeffs := s.batchCoeffs ++ [coeff]
          sum := s.sum + batchWeightedValue coeff (c.sums.map fun i => i.sum) }

/-- The loop reading the multilinear evaluations, `verify_sumcheck.rs:104-109`. -/
def readEvals : List (Claim F) → P F (List (List F))
  | [] => .ret []
  | c :: cs => .read c.nMultilinears fun evals => (readEvals cs).bind fun rest => .ret (evals :: rest)

/-- Collecting a `Result<Vec<_>, _>`: the first error wins. -/
def collect {A : Type} : List (Except Error A) → Except Error (List A)
  | [] => .ok []
  | .error e :: _ => .error e
  | .ok a :: l => match collect l with | .ok as => .ok (a :: as) | .error e => .error e

/-- `compute_expected_batch_composite_evaluation_single_claim`, `verify_sumcheck.rs:131-145`. -/
def expectedSingle (coeff : F) (c : Claim F) (evals : List F) : Except Error F :=
  match collect (c.sums.map fun s => s.composition.evaluate evals) with
  | .ok vs => .ok (batchWeightedValue coeff vs)
  | .error e => .error e

/-- `compute_expected_batch_composite_evaluation_multi_claim`, `verify_sumcheck.rs:147-164`
(`izip!` stops at the shortest list, `try_fold` at the first error). -/
def expectedMulti : F → List F → List (Claim F) → List (List F) → Except Error F
  | acc, a :: as, c :: cs, e :: es =>
      match expectedSingle a c e with
      | .ok v => expectedMulti (acc + v) as cs es
      | .error x => .error x
  | acc, _, _, _ => .ok acc

/-- The challenges are reversed for high-to-low evaluation, `verify_sumcheck.rs:121-123`. -/
def orderChallenges (order : EvaluationOrder) (challenges : List F) : List F :=
  match order with
  | .highToLow => challenges.reverse
  | .lowToHigh => challenges

/-- The part of `batch_verify` after the rounds, `verify_sumcheck.rs:86-128`. -/
def finish (order : EvaluationOrder) (claims : List (Claim F)) (left : List (Claim F)) (s : St F) :
    P F (Output F) :=
  (activateRest left s).bind fun s =>
    (readEvals claims).bind fun evals =>
      (Prog.ofExcept (expectedMulti 0 s.batchCoeffs claims evals)).bind fun expected =>
        if s.sum ≠ expected then .fail .incorrectBatchEvaluation
        else .ret ⟨orderChallenges order s.challenges, evals⟩

/-- `batch_verify`, `verify_sumcheck.rs:30-129`. -/
def batchVerify (order : EvaluationOrder) (claims : List (Claim F)) : P F (Output F) :=
  if Verif.Sorting.isSortedAscending (claims.map fun c => c.nVars).reverse = false then
    .fail .claimsOutOfOrder
  else
    let nRounds := ((claims.map fun c => c.nVars).max?).getD 0
    (rounds nRounds claims ⟨[], [], 0, 0⟩).bind fun q => finish order claims q.1 q.2

end Verify

/-! ## The prover -/

/-- `SumcheckProver`, `prove/batch_sumcheck.rs:38-68`. The state of a prover is represented by the
challenges it has been folded with; `fold` is assumed not to fail. -/
structure SumcheckProver (F : Type) where
  nVars : Nat
  evaluationOrder : EvaluationOrder
  execute : (folded : List F) → (batchCoeff : F) → Except Error (List F)
  finish : (folded : List F) → Except Error (List F)

/-- A prover that has been batched in: its coefficient, itself, and what it was folded with. -/
structure Active (F : Type) where
  coeff : F
  prover : SumcheckProver F
  folded : List F

/-- A prover over the transcript operations, with this protocol's errors. -/
abbrev PP (F : Type) (A : Type) := PProg F Error A

section Prove

variable [Field F]

/-- Activating new provers, `prove/batch_sumcheck.rs:143-151`. -/
def pActivate (nVars : Nat) :
    List (SumcheckProver F) → List (Active F) → PP F (List (SumcheckProver F) × List (Active F))
  | [], act => .ret ([], act)
  | p :: ps, act =>
      if p.nVars ≠ nVars then .ret (p :: ps, act)
      else .sample fun coeff => pActivate nVars ps (act ++ [⟨coeff, p, []⟩])

/-- Summing the round polynomials of the active provers, `prove/batch_sumcheck.rs:153-158`. -/
def roundCoeffs : List F → List (Active F) → Except Error (List F)
  | acc, [] => .ok acc
  | acc, a :: as =>
      match a.prover.execute a.folded a.coeff with
      | .ok cs => roundCoeffs (addCoeffs acc (scaleCoeffs cs a.coeff)) as
      | .error e => .error e

/-- The rounds, `prove/batch_sumcheck.rs:140-171`. -/
def pRounds : Nat → List (SumcheckProver F) → List (Active F) → (challenges : List F) →
    PP F (List (SumcheckProver F) × List (Active F) × List F)
  | 0, ps, act, chs => .ret (ps, act, chs)
  | n + 1, ps, act, chs =>
      (pActivate (n + 1) ps act).bind fun q =>
        (PProg.ofExcept (roundCoeffs [] q.2)).bind fun coeffs =>
          .write (truncate coeffs) <| .sample fun challenge =>
            pRounds n q.1 (q.2.map fun a => { a with folded := a.folded ++ [challenge] })
              (chs ++ [challenge])

/-- Sampling for the 0-variate provers, `prove/batch_sumcheck.rs:173-177`. -/
def pRest : List (SumcheckProver F) → List (Active F) → PP F (List (Active F))
  | [], act => .ret act
  | p :: ps, act =>
      if p.nVars ≠ 0 then .fail .panic
      else .sample fun coeff => pRest ps (act ++ [⟨coeff, p, []⟩])

/-- Writing the evaluations, `prove/batch_sumcheck.rs:184-187`. -/
def pWrite {A : Type} : List (List F) → PP F A → PP F A
  | [], next => next
  | m :: ms, next => .write m (pWrite ms next)

/-- `batch_prove`, `prove/batch_sumcheck.rs:102-199`. -/
def batchProve (provers : List (SumcheckProver F)) : PP F (Output F) :=
  match provers with
  | [] => .ret ⟨[], []⟩
  | first :: _ =>
      if provers.any fun p => decide (p.evaluationOrder ≠ first.evaluationOrder) then
        .fail .inconsistentEvaluationOrder
      else if Verif.Sorting.isSortedAscending (provers.map fun p => p.nVars).reverse = false then
        .fail .claimsOutOfOrder
      else
        let nRounds := ((provers.map fun p => p.nVars).max?).getD 0
        (pRounds nRounds provers [] []).bind fun q =>
          (pRest q.1 q.2.1).bind fun act =>
            (PProg.ofExcept (collect (act.map fun a => a.prover.finish a.folded))).bind fun evals =>
              pWrite evals (.ret ⟨orderChallenges first.evaluationOrder q.2.2, evals⟩)

end Prove

end Verif.Sumcheck
