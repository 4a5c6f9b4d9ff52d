import Verif.Piop.ModelCommit
import Verif.Sumcheck.ModelFrontLoaded
import Verif.Sumcheck.ModelBivariate
import Verif.Gkr.ModelGpa
import Verif.Math.ModelPiecewise

/-! Model of `verify` and `prove`, crates/core/src/piop/{verify.rs, prove.rs}: the sumchecks that reduce claims on products of
committed and transparent polynomials to one evaluation of the committed message, interleaved with the rounds of FRI.

FRI (crates/core/src/protocols/fri, modelled in `Verif.Fri`) is a parameter here: what the verifier does with the commitments
it has read and the challenges, ending in a value (`FRIVerifier::new` and `verify`), and on the prover's side what is committed
to after a challenge (`FRIFolder::execute_fold_round`) and what is written at the end (`finish_proof`).  A commitment is read as
`digest` scalars.  The `Hal` and its memory are not modelled here. -/

set_option linter.dupNamespace false

namespace Verif.Piop

open Verif.Sumcheck Verif.Protocol

variable {F : Type} [Field F] [DecidableEq F]

/-- What the verifier uses of a `MultivariatePoly`, crates/core/src/polynomial/multivariate.rs: `n_vars` and `evaluate`. -/
structure Transparent (F : Type) where
  nVars : Nat
  evaluate : List F → Except Error F

/-- The errors of `make_sumcheck_claim_descs` as errors of `verify`. -/
def PiopError.toError : PiopError → Error
  | .transparentsNotSorted => .transparentsNotSorted
  | .sumcheckClaimVariablesMismatch i => .sumcheckClaimVariablesMismatch i

/-- The number of multilinears of a description, `n_committed` and `n_transparent`, piop/verify.rs:183-190. -/
def ClaimDesc.nCommitted (d : ClaimDesc F) : Nat := d.committed.2 - d.committed.1

/-- `n_transparent`, piop/verify.rs:183-190. -/
def ClaimDesc.nTransparent (d : ClaimDesc F) : Nat := d.transparent.2 - d.transparent.1

/-- The composite sum over the two multilinears that `make_sumcheck_claim_descs` made, piop/verify.rs:256-267: an
`IndexComposition` of `BivariateProduct`. -/
def bivariateSum (nMultilinears : Nat) (s : (Nat × Nat) × F) : Except Error (CompositeSum F) :=
  match Gkr.indexComposition nMultilinears [s.1.1, s.1.2] (Gkr.productOf 2) with
  | .ok c => .ok ⟨c, s.2⟩
  | .error e => .error e

/-- The descriptions with a committed polynomial, with their numbers of variables, piop/verify.rs:308-315. -/
def nonEmptyDescs (descs : List (ClaimDesc F)) : List (Nat × ClaimDesc F) :=
  (descs.zipIdx.map fun p => (p.2, p.1)).filter fun p => p.2.committed.1 < p.2.committed.2

/-- The sumcheck claim of a description, piop/verify.rs:318-327. -/
def descClaim (p : Nat × ClaimDesc F) : Except Error (Claim F) :=
  match collect (p.2.sums.map (bivariateSum (p.2.nCommitted + p.2.nTransparent))) with
  | .ok sums => Claim.new p.1 (p.2.nCommitted + p.2.nTransparent) sums
  | .error e => .error e

/-- `arities_iter.next()`, with the round it stands for, piop/verify.rs:435-437, 464. -/
def nextCommit (round : Nat) : List Nat → Option Nat × List Nat
  | [] => (none, [])
  | a :: as => (some (round + a), as)

/-- The loop over the rounds of `verify_interleaved_fri_sumcheck`, piop/verify.rs:442-466. -/
def piopRounds (digest : Nat) : Nat → (round : Nat) → (next : Option Nat × List Nat) → BatchVerifier F →
    (evals : List (List F)) → (challenges : List F) → (commitments : List (List F)) →
    P F (BatchVerifier F × List (List F) × List F × List (List F))
  | 0, _, _, v, evals, chs, comms => .ret (v, evals, chs, comms)
  | n + 1, round, next, v, evals, chs, comms =>
      (finishReady (v.claims.length + 1) v).bind fun q =>
        q.2.receiveRoundProof.bind fun v =>
          .sample fun challenge =>
            (Prog.ofExcept (v.finishRound challenge)).bind fun v =>
              if next.1 = some (round + 1) then
                .read digest fun comm =>
                  piopRounds digest n (round + 1) (nextCommit (round + 1) next.2) v (evals ++ q.1) (chs ++ [challenge])
                    (comms ++ [comm])
              else piopRounds digest n (round + 1) next v (evals ++ q.1) (chs ++ [challenge]) comms

/-- `BatchInterleavedSumcheckFRIOutput`, piop/verify.rs:405-409. -/
structure FriOutput (F : Type) where
  challenges : List F
  multilinearEvals : List (List F)
  friFinal : F

/-- `verify_interleaved_fri_sumcheck`, piop/verify.rs:420-487. -/
def verifyInterleaved (nRounds digest : Nat) (arities : List Nat) (fri : List (List F) → List F → P F F)
    (claims : List (Claim F)) : P F (FriOutput F) :=
  (newBatchVerifier claims).bind fun v =>
    (piopRounds digest nRounds 0 (nextCommit 0 arities) v [] [] []).bind fun q =>
      (finishReady (q.1.claims.length + 1) q.1).bind fun r =>
        (Prog.ofExcept r.2.finish).bind fun _ =>
          (fri q.2.2.2 q.2.2.1).bind fun friFinal =>
            .ret ⟨q.2.2.1, q.2.1 ++ r.1, friFinal⟩

/-- The inner loop of `verify_transparent_evals`, piop/verify.rs:387-401; `i` is the position of the next transparent. -/
def checkTransparents (chs : List F) (nVars : Nat) : Nat → List F → List (Transparent F) → Except Error Unit
  | _, [], _ => .ok ()
  | _, _ :: _, [] => .ok ()
  | i, e :: es, t :: ts =>
    if chs.length < nVars then .error .panic
    else match t.evaluate (chs.reverse.drop (chs.length - nVars)) with
      | .error x => .error x
      | .ok y => if e ≠ y then .error (.incorrectTransparentEvaluation i) else checkTransparents chs nVars (i + 1) es ts

/-- `verify_transparent_evals`, piop/verify.rs:367-402: the evaluations of the committed polynomials.  `split_at` and the slice
of `transparents` panic out of bounds, as does the `assert_eq!`. -/
def verifyTransparentEvals (transparents : List (Transparent F)) (chs : List F) :
    List (Nat × ClaimDesc F) → List (List F) → Except Error (List F)
  | [], _ => .ok []
  | _ :: _, [] => .ok []
  | p :: ps, ev :: evs =>
    if ev.length < p.2.nCommitted then .error .panic
    else if ev.length - p.2.nCommitted ≠ p.2.nTransparent then .error .panic
    else if transparents.length < p.2.transparent.2 then .error .panic
    else match checkTransparents chs p.1 p.2.transparent.1 (ev.drop p.2.nCommitted)
        ((transparents.drop p.2.transparent.1).take p.2.nTransparent) with
      | .error e => .error e
      | .ok () => match verifyTransparentEvals transparents chs ps evs with
        | .error e => .error e
        | .ok l => .ok (ev.take p.2.nCommitted ++ l)

/-- The call of `evaluate_piecewise_multilinear` and the comparison, piop/verify.rs:351-361; `evals` are already reversed. -/
def checkPiecewise (counts : List Nat) (chs evals : List F) (friFinal : F) : Except Error Unit :=
  match Piecewise.evaluate chs counts (Slice.ofList evals) with
  | none => .error .panic
  | some (.error .tooLong) => .error .piecewiseMultilinearTooLong
  | some (.error .incompatibleEvals) => .error .piecewiseMultilinearIncompatibleEvals
  | some (.ok y) => if y ≠ friFinal then .error .incorrectSumcheckEvaluation else .ok ()

/-- What `verify` establishes: at these challenges, FRI gave this value.  (The Rust function returns nothing; the result is
kept for the statement of the properties.) -/
structure PiopOutput (F : Type) where
  challenges : List F
  friFinal : F

/-- `verify`, piop/verify.rs:286-363. -/
def verify (m : CommitMeta) (digest : Nat) (arities : List Nat) (fri : List (List F) → List F → P F F)
    (transparents : List (Transparent F)) (claims : List (PiopClaim F)) : P F (PiopOutput F) :=
  match makeSumcheckClaimDescs m (transparents.map fun t => t.nVars) claims with
  | none => .fail .panic
  | some (.error e) => .fail e.toError
  | some (.ok descs) =>
    (Prog.ofExcept (collect ((nonEmptyDescs descs).map descClaim))).bind fun sumcheckClaims =>
      (verifyInterleaved m.totalVars digest arities fri sumcheckClaims).bind fun out =>
        (Prog.ofExcept (verifyTransparentEvals transparents out.challenges (nonEmptyDescs descs) out.multilinearEvals)).bind
          fun evals =>
            (Prog.ofExcept (checkPiecewise (descs.map ClaimDesc.nCommitted) out.challenges evals.reverse out.friFinal)).bind
              fun _ => .ret ⟨out.challenges, out.friFinal⟩

/-! ## The prover -/

/-- The loop over the rounds of `prove_interleaved_fri_sumcheck`, piop/prove.rs:330-388; `commitAt` is what
`execute_fold_round` returns after the last of the challenges. -/
def pPiopRounds (commitAt : List F → Option (List F)) : Nat → List (SumcheckProver F × F) → (round : Nat) →
    (challenges : List F) → PP F (List (SumcheckProver F × F) × Nat × List F)
  | 0, ps, round, chs => .ret (ps, round, chs)
  | n + 1, ps, round, chs =>
      (pFinishReady round chs ps).bind fun q =>
        (PProg.ofExcept (roundCoeffs [] (q.2.map fun p => ⟨p.2, p.1, chs⟩))).bind fun coeffs =>
          .write (truncate coeffs) <| .sample fun challenge =>
            match commitAt (chs ++ [challenge]) with
            | none => pPiopRounds commitAt n q.2 (round + 1) (chs ++ [challenge])
            | some comm => .write comm (pPiopRounds commitAt n q.2 (round + 1) (chs ++ [challenge]))

/-- `prove_interleaved_fri_sumcheck`, piop/prove.rs:300-392, with `BatchProver::new`,
protocols/sumcheck/prove/front_loaded.rs:51-103, and `finish`, 157-167. -/
def proveInterleaved (nRounds : Nat) (commitAt : List F → Option (List F)) (finishProof : List F → PP F Unit)
    (provers : List (SumcheckProver F)) : PP F Unit :=
  (pSampleVec provers.length).bind fun batchCoeffs =>
    if Verif.Sorting.isSortedAscending (provers.map fun p => p.nVars) = false then .fail .claimsOutOfOrder
    else if batchCoeffs.length ≠ provers.length then .fail .incorrectNumberOfBatchCoeffs
    else if mixedOrders provers then .fail .inconsistentEvaluationOrder
    else
      (pPiopRounds commitAt nRounds (provers.zip batchCoeffs) 0 []).bind fun q =>
        (pFinishReady q.2.1 q.2.2 q.1).bind fun r =>
          if r.2.isEmpty = false then .fail .expectedFold
          else finishProof q.2.2

/-- The prover of a description, piop/prove.rs:262-279: the slices panic out of bounds. -/
def descProver (committed transparents : List (Nat × (Nat → F))) (p : Nat × ClaimDesc F) : Except Error (SumcheckProver F) :=
  if committed.length < p.2.committed.2 ∨ transparents.length < p.2.transparent.2 then .error .panic
  else match descClaim p with
    | .error e => .error e
    | .ok _ => match Bivariate.new p.1 p.2.sums ((committed.drop p.2.committed.1).take p.2.nCommitted ++
        (transparents.drop p.2.transparent.1).take p.2.nTransparent) with
      | .error e => .error e
      | .ok s => .ok s.toProver

/-- `prove`, piop/prove.rs:172-297; the committed polynomials are the packed ones (`packed_committed`, 461-485, is modelled in
`Verif.RingSwitch`), and each polynomial comes with its number of variables. -/
def prove (m : CommitMeta) (commitAt : List F → Option (List F)) (finishProof : List F → PP F Unit)
    (committed transparents : List (Nat × (Nat → F))) (claims : List (PiopClaim F)) : PP F Unit :=
  match makeSumcheckClaimDescs m (transparents.map fun t => t.1) claims with
  | none => .fail .panic
  | some (.error e) => .fail e.toError
  | some (.ok descs) =>
    (PProg.ofExcept (collect ((nonEmptyDescs descs).map (descProver committed transparents)))).bind fun provers =>
      proveInterleaved m.totalVars commitAt finishProof provers

end Verif.Piop
