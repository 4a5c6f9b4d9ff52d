import Verif.Sumcheck.SpecSumcheck
import Verif.Sumcheck.ModelFrontLoaded

/-! What the front-loaded batched sumcheck should establish. -/

namespace Verif.Sumcheck

open Verif.Mle Finset

variable {F : Type} [Field F]

/-- In the front-loaded protocol a claim in `n` variables ends after `n` rounds; its multilinears are
evaluated at the first `n` challenges, in the order in which the coordinates were bound. -/
def FrontCorrectEvals (order : EvaluationOrder) (instances : List (Instance F)) (out : Output F) :
    Prop :=
  List.Forall₂ (fun (I : Instance F) evals =>
      evals = I.tables.map fun t => mle t (arrange order (out.challenges.take I.claim.nVars)))
    instances out.multilinearEvals

/-- The batched sum of the true values: `∑_j ∑_k α_j^(k+1) * s_{j,k}`. -/
noncomputable def batchedTruth (pairs : List (F × Instance F)) : F :=
  (pairs.map fun a => ∑ k : Fin a.2.polys.length,
    a.1 ^ ((k : Nat) + 1) * cubeSum a.2.claim.nVars a.2.tables a.2.polys[k]).sum

end Verif.Sumcheck
