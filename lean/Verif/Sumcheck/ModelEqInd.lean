import Verif.Sumcheck.ModelFrontLoaded

/-!
# Sumchecks with an equality indicator (model)

`crates/core/src/protocols/sumcheck/eq_ind.rs`, and the reduction its users run:
`crates/core/src/protocols/greedy_evalcheck/verify.rs`, `crates/core/src/constraint_system/verify.rs`,
`crates/core/src/protocols/gkr_gpa/verify.rs`.
-/

namespace Verif.Sumcheck

open Verif.Protocol

variable {F : Type}

/-- `EqIndSumcheckClaim`, `eq_ind.rs:20-27`. -/
structure EqIndClaim (F : Type) where
  nVars : Nat
  nMultilinears : Nat
  sums : List (CompositeSum F)

/-- `EqIndSumcheckClaim::new`, `eq_ind.rs:39-57`. -/
def EqIndClaim.new (nVars nMultilinears : Nat) (sums : List (CompositeSum F)) :
    Except Error (EqIndClaim F) :=
  match sums.find? fun s => s.composition.nVars != nMultilinears with
  | some s => .error (.invalidComposition s.composition.nVars nMultilinears)
  | none => .ok ⟨nVars, nMultilinears, sums⟩

section

variable [Field F] [DecidableEq F]

/-- `ExtraProduct`, `eq_ind.rs:183-222`. An index out of range is a panic. -/
def extraProduct (c : Composition F) : Composition F where
  nVars := c.nVars + 1
  degree := c.degree + 1
  evaluate := fun q =>
    if q.length ≠ c.nVars + 1 then .error (.incorrectQuerySize (c.nVars + 1) q.length)
    else match c.evaluate (q.take c.nVars) with
      | .error e => .error e
      | .ok v => match q[c.nVars]? with
        | some x => .ok (v * x)
        | none => .error .panic

/-- One claim of `reduce_to_regular_sumchecks`, `eq_ind.rs:83-103`. -/
def EqIndClaim.toRegular (c : EqIndClaim F) : Except Error (Claim F) :=
  Claim.new c.nVars (c.nMultilinears + 1)
    (c.sums.map fun s => ⟨extraProduct s.composition, s.sum⟩)

/-- `reduce_to_regular_sumchecks`, `eq_ind.rs:78-105`. -/
def reduceToRegularSumchecks (claims : List (EqIndClaim F)) : Except Error (List (Claim F)) :=
  collect (claims.map EqIndClaim.toRegular)

/-- `ClaimsSortingOrder`, `eq_ind.rs:108-111`. -/
inductive SortingOrder where
  | ascendingVars
  | descendingVars
  deriving DecidableEq, Repr

/-- `eq`, `crates/field/src/util.rs:74-81`: one formula in characteristic two, another one elsewhere. -/
def eqFn (x y : F) : F := if (1 + 1 : F) = 0 then x + y + 1 else x * y + (1 - x) * (1 - y)

/-- The `while` loop of `verify_sumcheck_outputs`, `eq_ind.rs:161-168`, by the number of iterations
left. An index out of range is a panic. -/
def advanceEq (sumcheckChallenges eqIndChallenges : List F) :
    (count last : Nat) → (eval : F) → Except Error F
  | 0, _, eval => .ok eval
  | count + 1, last, eval =>
      match sumcheckChallenges[sumcheckChallenges.length - 1 - last]?,
        eqIndChallenges[eqIndChallenges.length - 1 - last]? with
      | some s, some e => advanceEq sumcheckChallenges eqIndChallenges count (last + 1) (eval * eqFn s e)
      | _, _ => .error .panic

/-- The `for` loop of `verify_sumcheck_outputs`, `eq_ind.rs:151-176`: the evaluations without their
last entries, in the order in which the claims are visited. -/
def scanOutputs (sumcheckChallenges eqIndChallenges : List F) :
    List (EqIndClaim F × List F) → (last : Nat) → (eval : F) → Except Error (List (List F))
  | [], _, _ => .ok []
  | (claim, evals) :: rest, last, eval =>
      if claim.nMultilinears + 1 ≠ evals.length then .error .numberOfMultilinearEvals
      else if claim.nVars < last then .error .claimsOutOfOrder
      else
        let upto := min claim.nVars sumcheckChallenges.length
        match advanceEq sumcheckChallenges eqIndChallenges (upto - last) last eval with
        | .error e => .error e
        | .ok eval =>
            match evals.getLast? with
            | none => .error .panic
            | some x =>
                if eval ≠ x then .error .incorrectEqIndEvaluation
                else match scanOutputs sumcheckChallenges eqIndChallenges rest (max last upto) eval with
                  | .ok l => .ok (evals.dropLast :: l)
                  | .error e => .error e

/-- `verify_sumcheck_outputs`, `eq_ind.rs:121-181`. The claims are visited in the order of increasing
number of variables, the evaluations stay where they are. -/
def verifySumcheckOutputs (sorting : SortingOrder) (claims : List (EqIndClaim F))
    (eqIndChallenges : List F) (out : Output F) : Except Error (Output F) :=
  if out.multilinearEvals.length ≠ claims.length then .error .numberOfFinalEvaluations
  else if eqIndChallenges.length ≠ out.challenges.length then .error .numberOfRounds
  else match sorting with
    | .ascendingVars =>
        match scanOutputs out.challenges eqIndChallenges (claims.zip out.multilinearEvals) 0 1 with
        | .ok l => .ok ⟨out.challenges, l⟩
        | .error e => .error e
    | .descendingVars =>
        match scanOutputs out.challenges eqIndChallenges
            (claims.zip out.multilinearEvals).reverse 0 1 with
        | .ok l => .ok ⟨out.challenges, l.reverse⟩
        | .error e => .error e

/-- The reversal of the challenges after a sumcheck that binds the last variable first,
`gkr_gpa/verify.rs:158-160`, `greedy_evalcheck/verify.rs:86`, `constraint_system/verify.rs:651`. -/
def reverseFor (order : EvaluationOrder) (out : Output F) : Output F :=
  match order with
  | .highToLow => { out with challenges := out.challenges.reverse }
  | .lowToHigh => out

/-- The reduction of claims with an equality indicator: a front-loaded sumcheck of the regular claims,
then the check of its outputs, `gkr_gpa/verify.rs:148-167`, `greedy_evalcheck/verify.rs:79-93`,
`constraint_system/verify.rs:644-658` (the last two high-to-low, for one claim). -/
def eqIndVerify (order : EvaluationOrder) (sorting : SortingOrder) (claims : List (EqIndClaim F))
    (eqIndChallenges : List F) : P F (Output F) :=
  (Prog.ofExcept (reduceToRegularSumchecks claims)).bind fun regular =>
    ((newBatchVerifier regular).bind fun v => v.run).bind fun out =>
      .ofExcept (verifySumcheckOutputs sorting claims eqIndChallenges (reverseFor order out))

/-- The prover's side of it: a front-loaded batch prover and the reversal of the challenges,
`gkr_gpa/prove.rs:104-113`, `sumcheck/prove/front_loaded.rs:175-197`. The evaluations still end with
that of the equality indicator. -/
def eqIndProve (order : EvaluationOrder) (provers : List (SumcheckProver F)) : PP F (Output F) :=
  (proveFrontLoaded provers).bind fun out => .ret (reverseFor order out)

end

end Verif.Sumcheck
