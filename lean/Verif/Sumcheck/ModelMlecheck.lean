import Verif.Sumcheck.ModelBivariate
import Verif.Sumcheck.ModelEqIndProver

/-! Model of `BivariateMLEcheckProver`, crates/core/src/protocols/sumcheck/v3/bivariate_mlecheck.rs: the prover for sums of
products of two multilinears times the equality indicator of a point.

As in the model of `BivariateSumcheckProver`, a multilinear is the function of its evaluations, the `Hal` is represented by what
its operations compute, and memory, allocators and the partition into chunks are not modelled. -/

set_option linter.dupNamespace false

namespace Verif.Sumcheck

open Verif.Univariate

variable {F : Type} [Field F] [DecidableEq F]

/-- `BivariateMLEcheckProver`, bivariate_mlecheck.rs:31-54; the buffer of the equality indicator holds
`1 << (n_vars_remaining - 1)` values. -/
structure Mlecheck (F : Type) where
  nVarsInitial : Nat
  nVarsRemaining : Nat
  multilins : List (Nat → F)
  compositions : List (Nat × Nat)
  last : PhaseState F
  prefixEval : F
  partialEvals : Nat → F
  challenges : List F
  /-- whether the multilinears and the indicator are still the caller's (`SumcheckMultilinear::PreFold`): the first fold replaces
  all of them -/
  preFold : Bool
  /-- the total of the scalars of device memory allocated so far -/
  allocated : Nat

/-- `BivariateMLEcheckProver::new`, bivariate_mlecheck.rs:64-119; `nMultilinears` is the number in the claim, the multilinears
come with their number of variables, and the expanded indicator with its length. -/
def Mlecheck.new (nVars nMultilinears : Nat) (sums : List ((Nat × Nat) × F)) (multilins : List (Nat × (Nat → F)))
    (partialEvals : Nat × (Nat → F)) (challenges : List F) : Except Error (Mlecheck F) :=
  if nMultilinears ≠ multilins.length then .error .panic
  else if multilins.any fun m => m.1 ≠ nVars then .error .numberOfVariablesMismatch
  else if partialEvals.1 ≠ 2 ^ (nVars - 1) then .error .incorrectEqIndPartialEvalsSize
  else .ok ⟨nVars, nVars, multilins.map Prod.snd, sums.map Prod.fst, .initialSums (sums.map Prod.snd), 1, partialEvals.2, challenges,
    true, 0⟩

/-- `sum_composition_evals`, crates/compute/src/cpu/layer.rs:495-520, for the product of two of the rows and the last row, which is
the indicator (bivariate_mlecheck.rs:393-401). -/
def sumEqProducts (n : Nat) (rows : List (Nat → F)) (eq : Nat → F) (c : Nat × Nat) (coeff acc : F) : Except Error F :=
  match rows[c.1]?, rows[c.2]? with
  | some a, some b => .ok (acc + coeff * ((List.range (2 ^ n)).map fun v => a v * b v * eq v).sum)
  | _, _ => .error .panic

/-- The loops over the batching coefficients and the compositions, bivariate_mlecheck.rs:459-466 and 499-506; `p` is the current
power of the batching coefficient. -/
def accumulateEqProducts (n : Nat) (rows : List (Nat → F)) (eq : Nat → F) (batchCoeff : F) :
    List (Nat × Nat) → (p acc : F) → Except Error F
  | [], _, acc => .ok acc
  | c :: cs, p, acc => match sumEqProducts n rows eq c p acc with
    | .error e => .error e
    | .ok acc => accumulateEqProducts n rows eq batchCoeff cs (p * batchCoeff) acc

/-- `calculate_round_evals`, bivariate_mlecheck.rs:385-517: the batched sums at one and at infinity.  `n_vars - 1` and the split
of a slice of one element panic. -/
def calculateEqRoundEvals (nVars : Nat) (batchCoeff : F) (multilins : List (Nat → F)) (eq : Nat → F)
    (compositions : List (Nat × Nat)) : Except Error (F × F) :=
  if nVars = 0 then .error .panic
  else
    let hi := multilins.map fun t i => t (i + 2 ^ (nVars - 1))
    let inf := multilins.map fun t i => t i + t (i + 2 ^ (nVars - 1))
    match accumulateEqProducts (nVars - 1) hi eq batchCoeff compositions 1 0 with
    | .error e => .error e
    | .ok y1 => match accumulateEqProducts (nVars - 1) inf eq batchCoeff compositions 1 0 with
      | .error e => .error e
      | .ok yInf => .ok (y1, yInf)

/-- `calculate_round_coeffs_from_evals`, bivariate_mlecheck.rs:368-383; `invert_or_zero` is the inverse of Lean's fields. -/
def eqRoundCoeffsFromEvals (sum : F) (evals : F × F) (α : F) : List F :=
  let y0 := (sum - evals.1 * α) * (1 - α)⁻¹
  let c0 := y0
  let c2 := evals.2
  let c1 := evals.1 - c0 - c2
  [c0, c1, c2]

/-- The product with the equality indicator, bivariate_mlecheck.rs:302-312. -/
def timesEqLine (α pre : F) (cs : List F) : List F :=
  scaleCoeffs (addCoeffs (scaleCoeffs cs (1 - α)) (0 :: scaleCoeffs cs (α + α - 1))) pre

/-- `execute`, bivariate_mlecheck.rs:268-314. -/
def Mlecheck.execute (s : Mlecheck F) (batchCoeff : F) : Except Error (List F × Mlecheck F) :=
  match calculateEqRoundEvals s.nVarsRemaining batchCoeff s.multilins s.partialEvals s.compositions with
  | .error e => .error e
  | .ok evals =>
    let step := fun sum => match s.challenges[s.nVarsRemaining - 1]? with
      | none => Except.error Error.panic
      | some α =>
        let prime := eqRoundCoeffsFromEvals sum evals α
        .ok (timesEqLine α s.prefixEval prime, { s with last := .coeffs prime })
    match s.last with
    | .coeffs _ => .error .expectedFold
    | .initialSums sums => step (evaluateUnivariate sums batchCoeff)
    | .batchedSum sum => step sum

/-- `fold_eq_ind`, bivariate_mlecheck.rs:189-251: the two halves of the buffer of `1 << (n_vars_remaining - 1)` values are
added. -/
def foldEqInd (nVarsRemaining : Nat) (e : Nat → F) : Nat → F := fun i => e i + e (i + 2 ^ (nVarsRemaining - 2))

/-- The device memory that a fold allocates: a new buffer for every multilinear that is still the caller's, and for the indicator
if it is still the caller's and is folded (`SumcheckMultilinear::PreFold`, bivariate_mlecheck.rs:160-168 and 195-203). -/
def foldAllocates (nVarsRemaining nMultilinears : Nat) (preFold : Bool) : Nat :=
  if preFold then nMultilinears * 2 ^ (nVarsRemaining - 1) + (if nVarsRemaining - 1 ≠ 0 then 2 ^ (nVarsRemaining - 2) else 0) else 0

/-- `fold`, bivariate_mlecheck.rs:316-345, with `update_eq_ind_prefix_eval` (121-124), `fold_multilinears` (147-187) and
`extrapolate_line`, crates/compute/src/cpu/layer.rs:393-408. -/
def Mlecheck.fold (s : Mlecheck F) (challenge : F) : Except Error (Mlecheck F) :=
  if s.nVarsRemaining = 0 then .error .expectedFinish
  else match s.last with
    | .coeffs coeffs => match s.challenges[s.nVarsRemaining - 1]? with
      | none => .error .panic
      | some α => .ok { s with
          last := .batchedSum (evaluateUnivariate coeffs challenge)
          prefixEval := s.prefixEval * eqFn α challenge
          multilins := s.multilins.map fun t i => t i + (t (i + 2 ^ (s.nVarsRemaining - 1)) - t i) * challenge
          partialEvals := if s.nVarsRemaining - 1 ≠ 0 then foldEqInd s.nVarsRemaining s.partialEvals else s.partialEvals
          nVarsRemaining := s.nVarsRemaining - 1
          preFold := false
          allocated := s.allocated + foldAllocates s.nVarsRemaining s.multilins.length s.preFold }
    | _ => .error .expectedExecution

/-- `finish`, bivariate_mlecheck.rs:347-365. -/
def Mlecheck.finish (s : Mlecheck F) : Except Error (List F) :=
  match s.last with
  | .coeffs _ => .error .expectedFold
  | _ => if s.nVarsRemaining = 0 then .ok ((s.multilins.map fun t => t 0) ++ [s.prefixEval]) else .error .expectedExecution

/-- The calls that a batch prover makes: `execute` and `fold` in turn, with the same batching coefficient. -/
def Mlecheck.rounds (batchCoeff : F) : Mlecheck F → (challenges : List F) → Except Error (Mlecheck F)
  | s, [] => .ok s
  | s, r :: rs => (s.execute batchCoeff).bind fun p => (p.2.fold r).bind fun s => Mlecheck.rounds batchCoeff s rs

/-- The prover as the batch provers see it: what `execute` and `finish` give after the rounds with these challenges. -/
def Mlecheck.toProver (s : Mlecheck F) : SumcheckProver F where
  nVars := s.nVarsInitial
  evaluationOrder := .highToLow
  execute := fun folded coeff => (s.rounds coeff folded).bind fun s => (s.execute coeff).bind fun p => .ok p.1
  finish := fun folded => (s.rounds 0 folded).bind fun s => s.finish

/-- `required_host_memory`, bivariate_mlecheck.rs:126-133, in scalars. -/
def Mlecheck.requiredHostMemory (nMultilinears : Nat) : Nat := nMultilinears + 1

/-- `required_device_memory`, bivariate_mlecheck.rs:135-145, in scalars; the subtraction underflows without variables. -/
def Mlecheck.requiredDeviceMemory (nVars nMultilinears : Nat) (withPartialEvals : Bool) : Option Nat :=
  if nVars = 0 then none else some ((nMultilinears + if withPartialEvals then 0 else 1) * 2 ^ (nVars - 1))

end Verif.Sumcheck
