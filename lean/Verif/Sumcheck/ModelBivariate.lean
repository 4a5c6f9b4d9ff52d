import Verif.Sumcheck.ModelSumcheck

/-! Model of `BivariateSumcheckProver`, crates/core/src/protocols/sumcheck/v3/bivariate_product.rs: the sumcheck prover for sums
of products of two multilinears, used by the PIOP.

A multilinear is the function of its evaluations; its length is `1 << n_vars_remaining` throughout (`new` checks it, and `fold`
halves it).  The `Hal` is represented by what its operations compute (crates/compute/src/cpu/layer.rs); its memory and its
allocators are not modelled here. -/

set_option linter.dupNamespace false

namespace Verif.Sumcheck

open Verif.Univariate

variable {F : Type} [Field F] [DecidableEq F]

/-- `PhaseState`, bivariate_product.rs:427-431. -/
inductive PhaseState (F : Type) where
  | coeffs (c : List F)
  | initialSums (s : List F)
  | batchedSum (s : F)

/-- `BivariateSumcheckProver`, bivariate_product.rs:27-46; a composition is the pair of indices of its `IndexComposition`. -/
structure Bivariate (F : Type) where
  nVarsInitial : Nat
  nVarsRemaining : Nat
  multilins : List (Nat → F)
  compositions : List (Nat × Nat)
  last : PhaseState F

/-- `BivariateSumcheckProver::new`, bivariate_product.rs:57-96, for a claim on as many multilinears as are given (which the
`assert_eq!` demands); each multilinear comes with its number of variables. -/
def Bivariate.new (nVars : Nat) (sums : List ((Nat × Nat) × F)) (multilins : List (Nat × (Nat → F))) :
    Except Error (Bivariate F) :=
  if multilins.any fun m => m.1 ≠ nVars then .error .numberOfVariablesMismatch
  else .ok ⟨nVars, nVars, multilins.map Prod.snd, sums.map Prod.fst, .initialSums (sums.map Prod.snd)⟩

/-- `sum_composition_evals`, crates/compute/src/cpu/layer.rs:495-520, for the product of two of the rows: the batching coefficient
times the sum over the first `2 ^ n` positions is added to the accumulator. -/
def sumProducts (n : Nat) (rows : List (Nat → F)) (c : Nat × Nat) (coeff acc : F) : Except Error F :=
  match rows[c.1]?, rows[c.2]? with
  | some a, some b => .ok (acc + coeff * ((List.range (2 ^ n)).map fun v => a v * b v).sum)
  | _, _ => .error .panic

/-- The loops over the batching coefficients and the compositions in `calculate_round_evals`, bivariate_product.rs:355-362 and
390-397; `p` is the current power of the batching coefficient. -/
def accumulateProducts (n : Nat) (rows : List (Nat → F)) (batchCoeff : F) : List (Nat × Nat) → (p acc : F) → Except Error F
  | [], _, acc => .ok acc
  | c :: cs, p, acc => match sumProducts n rows c p acc with
    | .error e => .error e
    | .ok acc => accumulateProducts n rows batchCoeff cs (p * batchCoeff) acc

/-- `calculate_round_evals`, bivariate_product.rs:307-405: the batched sums at one and at infinity.  `n_vars - 1` and the split
of a slice of one element panic. -/
def calculateRoundEvals (nVars : Nat) (batchCoeff : F) (multilins : List (Nat → F)) (compositions : List (Nat × Nat)) :
    Except Error (F × F) :=
  if nVars = 0 then .error .panic
  else
    let hi := multilins.map fun t i => t (i + 2 ^ (nVars - 1))
    let inf := multilins.map fun t i => t i + t (i + 2 ^ (nVars - 1))
    match accumulateProducts (nVars - 1) hi batchCoeff compositions 1 0 with
    | .error e => .error e
    | .ok y1 => match accumulateProducts (nVars - 1) inf batchCoeff compositions 1 0 with
      | .error e => .error e
      | .ok yInf => .ok (y1, yInf)

/-- `calculate_round_coeffs_from_evals`, bivariate_product.rs:407-424. -/
def roundCoeffsFromEvals (sum : F) (evals : F × F) : List F :=
  let c0 := sum - evals.1
  let c2 := evals.2
  let c1 := evals.1 - c0 - c2
  [c0, c1, c2]

/-- `execute`, bivariate_product.rs:134-167. -/
def Bivariate.execute (s : Bivariate F) (batchCoeff : F) : Except Error (List F × Bivariate F) :=
  match calculateRoundEvals s.nVarsRemaining batchCoeff s.multilins s.compositions with
  | .error e => .error e
  | .ok evals =>
    let step := fun sum =>
      let coeffs := roundCoeffsFromEvals sum evals
      Except.ok (if s.compositions.isEmpty then [] else coeffs, { s with last := .coeffs coeffs })
    match s.last with
    | .coeffs _ => .error .expectedFold
    | .initialSums sums => step (evaluateUnivariate sums batchCoeff)
    | .batchedSum sum => step sum

/-- `fold`, bivariate_product.rs:169-228, with `extrapolate_line`, crates/compute/src/cpu/layer.rs:393-408. -/
def Bivariate.fold (s : Bivariate F) (challenge : F) : Except Error (Bivariate F) :=
  if s.nVarsRemaining = 0 then .error .expectedFinish
  else match s.last with
    | .coeffs coeffs => .ok { s with
        last := .batchedSum (evaluateUnivariate coeffs challenge)
        multilins := s.multilins.map fun t i => t i + (t (i + 2 ^ (s.nVarsRemaining - 1)) - t i) * challenge
        nVarsRemaining := s.nVarsRemaining - 1 }
    | _ => .error .expectedExecution

/-- `finish`, bivariate_product.rs:230-250. -/
def Bivariate.finish (s : Bivariate F) : Except Error (List F) :=
  match s.last with
  | .coeffs _ => .error .expectedFold
  | _ => if s.nVarsRemaining = 0 then .ok (s.multilins.map fun t => t 0) else .error .expectedExecution

/-- The calls that a batch prover makes: `execute` and `fold` in turn, with the same batching coefficient. -/
def Bivariate.rounds (batchCoeff : F) : Bivariate F → (challenges : List F) → Except Error (Bivariate F)
  | s, [] => .ok s
  | s, r :: rs => match s.execute batchCoeff with
    | .error e => .error e
    | .ok p => match p.2.fold r with
      | .error e => .error e
      | .ok s => Bivariate.rounds batchCoeff s rs

/-- The prover as the batch provers see it: what `execute` and `finish` give after the rounds with these challenges.  What
`finish` gives does not depend on the batching coefficient of the rounds (C63). -/
def Bivariate.toProver (s : Bivariate F) : SumcheckProver F where
  nVars := s.nVarsInitial
  evaluationOrder := .highToLow
  execute := fun folded batchCoeff => match s.rounds batchCoeff folded with
    | .error e => .error e
    | .ok s => match s.execute batchCoeff with
      | .error e => .error e
      | .ok p => .ok p.1
  finish := fun folded => match s.rounds 0 folded with
    | .error e => .error e
    | .ok s => s.finish

end Verif.Sumcheck
