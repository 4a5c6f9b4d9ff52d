import Verif.Sumcheck.ModelSumcheck

/-!
# The front-loaded batched sumcheck verifier (model)

`crates/core/src/protocols/sumcheck/front_loaded.rs`.
-/

namespace Verif.Sumcheck

open Verif.Protocol Verif.Univariate

variable {F : Type}

/-- `SumcheckClaimWithContext`, `front_loaded.rs:313-318`. -/
structure ClaimWithContext (F : Type) where
  claim : Claim F
  batchCoeff : F
  maxDegreeRemaining : Nat

/-- `CoeffsOrSums`, `front_loaded.rs:23-26`. -/
inductive CoeffsOrSum (F : Type) where
  | coeffs (cs : List F)
  | sum (s : F)

/-- `BatchVerifier`, `front_loaded.rs:56-60`. -/
structure BatchVerifier (F : Type) where
  claims : List (ClaimWithContext F)
  round : Nat
  last : CoeffsOrSum F

/-- The loop `for i in (0..claims.len()).rev().skip(1)`, `front_loaded.rs:136-139`: from the last
claim but one down, each claim takes the maximum of its degree and the one after it. -/
def spreadMaxDegree : List (ClaimWithContext F) → List (ClaimWithContext F)
  | [] => []
  | c :: cs =>
      match spreadMaxDegree cs with
      | [] => [c]
      | d :: ds => { c with maxDegreeRemaining := max c.maxDegreeRemaining d.maxDegreeRemaining } :: d :: ds

/-- `BatchVerifier::new_prebatched`, `front_loaded.rs:106-146`. -/
def newPrebatched (batchCoeffs : List F) (sum : F) (claims : List (Claim F)) :
    Except Error (BatchVerifier F) :=
  if Verif.Sorting.isSortedAscending (claims.map fun c => c.nVars) = false then
    .error .claimsOutOfOrder
  else if batchCoeffs.length ≠ claims.length then .error .incorrectNumberOfBatchCoeffs
  else
    .ok ⟨spreadMaxDegree (List.zipWith
        (fun claim coeff => ⟨claim, coeff, claim.maxIndividualDegree⟩) claims batchCoeffs),
      0, .sum sum⟩

/-- `sample_vec`, `fiat_shamir/mod.rs:14-16`. -/
def sampleVec : Nat → P F (List F)
  | 0 => .ret []
  | n + 1 => .sample fun x => (sampleVec n).bind fun xs => .ret (x :: xs)

section

variable [Field F] [DecidableEq F]

/-- `BatchVerifier::new`, `front_loaded.rs:74-98`. -/
def newBatchVerifier (claims : List (Claim F)) : P F (BatchVerifier F) :=
  (sampleVec claims.length).bind fun batchCoeffs =>
    let sum := (List.zipWith (fun (claim : Claim F) coeff =>
      batchWeightedValue coeff (claim.sums.map fun s => s.sum)) claims batchCoeffs).sum
    .ofExcept (newPrebatched batchCoeffs sum claims)

/-- `BatchVerifier::total_rounds`, `front_loaded.rs:149-154`. -/
def BatchVerifier.totalRounds (v : BatchVerifier F) : Nat :=
  match v.claims.getLast? with
  | some c => c.claim.nVars
  | none => 0

/-- `BatchVerifier::try_finish_claim`, `front_loaded.rs:162-207`. -/
def BatchVerifier.tryFinishClaim (v : BatchVerifier F) :
    P F (Option (List F) × BatchVerifier F) :=
  match v.claims with
  | [] => .ret (none, v)
  | c :: cs =>
      if c.claim.nVars = v.round then
        .read c.claim.nMultilinears fun evals =>
          match v.last with
          | .coeffs _ => .fail .expectedFinishRound
          | .sum sum =>
              match expectedSingle c.batchCoeff c.claim evals with
              | .ok e => .ret (some evals, { v with claims := cs, last := .sum (sum - e) })
              | .error e => .fail e
      else if c.claim.nVars < v.round then .fail .panic
      else .ret (none, v)

/-- `BatchVerifier::receive_round_proof`, `front_loaded.rs:210-242`. -/
def BatchVerifier.receiveRoundProof (v : BatchVerifier F) : P F (BatchVerifier F) :=
  match v.last with
  | .coeffs _ => .fail .expectedFinishRound
  | .sum sum =>
      match v.claims with
      | [] => .read 0 fun vals => .ret { v with last := .coeffs (recover vals sum) }
      | c :: _ =>
          if c.claim.nVars = v.round then .fail .expectedFinishClaim
          else .read c.maxDegreeRemaining fun vals => .ret { v with last := .coeffs (recover vals sum) }

/-- `BatchVerifier::finish_round`, `front_loaded.rs:245-255`. -/
def BatchVerifier.finishRound (v : BatchVerifier F) (challenge : F) : Except Error (BatchVerifier F) :=
  match v.last with
  | .coeffs cs =>
      .ok { v with last := .sum (evaluateUnivariate cs challenge), round := v.round + 1 }
  | .sum _ => .error .expectedReceiveCoeffs

/-- `BatchVerifier::finish`, `front_loaded.rs:258-272`. -/
def BatchVerifier.finish (v : BatchVerifier F) : Except Error Unit :=
  if v.claims.isEmpty = false then .error .expectedFinishRound
  else match v.last with
    | .coeffs _ => .error .expectedFinishRound
    | .sum sum => if sum ≠ 0 then .error .incorrectBatchEvaluation else .ok ()

/-- The loop `while let Some(evals) = self.try_finish_claim(&mut reader)?`,
`front_loaded.rs:289-291, 300-302`. Each iteration that continues removes a claim, so the number of
claims bounds the number of iterations; running out of it is a panic here. -/
def finishReady : Nat → BatchVerifier F → P F (List (List F) × BatchVerifier F)
  | 0, _ => .fail .panic
  | fuel + 1, v =>
      v.tryFinishClaim.bind fun r =>
        match r.1 with
        | none => .ret ([], r.2)
        | some evals => (finishReady fuel r.2).bind fun q => .ret (evals :: q.1, q.2)

/-- The loop over the rounds in `run`, `front_loaded.rs:287-298`. -/
def runRounds : Nat → BatchVerifier F → (evals : List (List F)) → (challenges : List F) →
    P F (BatchVerifier F × List (List F) × List F)
  | 0, v, evals, chs => .ret (v, evals, chs)
  | n + 1, v, evals, chs =>
      (finishReady (v.claims.length + 1) v).bind fun q =>
        q.2.receiveRoundProof.bind fun v =>
          .sample fun challenge =>
            (Prog.ofExcept (v.finishRound challenge)).bind fun v =>
              runRounds n v (evals ++ q.1) (chs ++ [challenge])

/-- `BatchVerifier::run`, `front_loaded.rs:275-309`. -/
def BatchVerifier.run (v : BatchVerifier F) : P F (Output F) :=
  (runRounds v.totalRounds v [] []).bind fun q =>
    (finishReady (q.1.claims.length + 1) q.1).bind fun r =>
      (Prog.ofExcept r.2.finish).bind fun _ =>
        .ret ⟨q.2.2, q.2.1 ++ r.1⟩

/-! ## The prover -/

/-- `finish_claim_provers`, `prove/front_loaded.rs:105-119`. All provers have been folded with the
same challenges, since all of them start in the first round. -/
def pFinishReady (round : Nat) (folded : List F) : List (SumcheckProver F × F) →
    PP F (List (List F) × List (SumcheckProver F × F))
  | [] => .ret ([], [])
  | p :: ps =>
      if p.1.nVars ≠ round then .ret ([], p :: ps)
      else
        (PProg.ofExcept (p.1.finish folded)).bind fun evals =>
          .write evals ((pFinishReady round folded ps).bind fun q => .ret (evals :: q.1, q.2))

/-- The rounds of `BatchProver::run`, `prove/front_loaded.rs:181-189`, with `send_round_proof`
(122-137) and `receive_challenge` (140-154). -/
def pFrontRounds : Nat → List (SumcheckProver F × F) → (round : Nat) → (evals : List (List F)) →
    (challenges : List F) → PP F (List (SumcheckProver F × F) × Nat × List (List F) × List F)
  | 0, ps, round, evals, chs => .ret (ps, round, evals, chs)
  | n + 1, ps, round, evals, chs =>
      (pFinishReady round chs ps).bind fun q =>
        (PProg.ofExcept (roundCoeffs [] (q.2.map fun p => ⟨p.2, p.1, chs⟩))).bind fun coeffs =>
          .write (truncate coeffs) <| .sample fun challenge =>
            pFrontRounds n q.2 (round + 1) (evals ++ q.1) (chs ++ [challenge])

/-- The check of the evaluation orders, `prove/front_loaded.rs:87-94`. -/
def mixedOrders (provers : List (SumcheckProver F)) : Bool :=
  match provers.head? with
  | some first => provers.any fun p => decide (p.evaluationOrder ≠ first.evaluationOrder)
  | none => false

/-- `BatchProver::total_rounds`, `prove/front_loaded.rs:62-70`. -/
def proverRounds (provers : List (SumcheckProver F)) : Nat :=
  match provers.getLast? with
  | some p => p.nVars
  | none => 0

/-- `BatchProver::new_prebatched` followed by `BatchProver::run`,
`prove/front_loaded.rs:78-103, 175-197` (with `finish`, 157-167). -/
def provePrebatched (batchCoeffs : List F) (provers : List (SumcheckProver F)) : PP F (Output F) :=
  if Verif.Sorting.isSortedAscending (provers.map fun p => p.nVars) = false then
    .fail .claimsOutOfOrder
  else if batchCoeffs.length ≠ provers.length then .fail .incorrectNumberOfBatchCoeffs
  else if mixedOrders provers then .fail .inconsistentEvaluationOrder
  else
    (pFrontRounds (proverRounds provers) (provers.zip batchCoeffs) 0 [] []).bind fun q =>
      (pFinishReady q.2.1 q.2.2.2 q.1).bind fun r =>
        if r.2.isEmpty = false then .fail .expectedFold
        else .ret ⟨q.2.2.2, q.2.2.1 ++ r.1⟩

/-- `sample_vec` on the prover's side, `fiat_shamir/mod.rs:14-16`. -/
def pSampleVec : Nat → PP F (List F)
  | 0 => .ret []
  | n + 1 => .sample fun x => (pSampleVec n).bind fun xs => .ret (x :: xs)

/-- `BatchProver::new` followed by `BatchProver::run`, `prove/front_loaded.rs:51-59, 175-197`. -/
def proveFrontLoaded (provers : List (SumcheckProver F)) : PP F (Output F) :=
  (pSampleVec provers.length).bind fun batchCoeffs => provePrebatched batchCoeffs provers

end

end Verif.Sumcheck
