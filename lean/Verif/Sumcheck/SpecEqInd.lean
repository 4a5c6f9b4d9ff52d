import Verif.Sumcheck.SpecFrontLoaded
import Verif.Sumcheck.ModelEqInd
import Mathlib.Algebra.MvPolynomial.Variables

/-! What a claim with an equality indicator says, and what its verification should establish. -/

namespace Verif.Sumcheck

open Verif.Mle Finset

variable {F : Type} [Field F]

/-- The equality indicator: the product of `x_i y_i + (1 - x_i) (1 - y_i)`. On vertices of the
hypercube it is one if they are equal and zero otherwise. -/
def eqInd (x y : List F) : F := (List.zipWith (fun a b => a * b + (1 - a) * (1 - b)) x y).prod

/-- The last `n` entries of a list. -/
def suffix {A : Type} (n : Nat) (l : List A) : List A := l.drop (l.length - n)

/-- A claim with the polynomials its compositions compute and the tables of its multilinears. -/
structure EqInstance (F : Type) [Field F] where
  claim : EqIndClaim F
  polys : List (MvPolynomial ℕ F)
  tables : List (Nat → F)

/-- The pieces fit together: `EqIndSumcheckClaim::new` has checked the compositions, and the
polynomials are polynomials in the multilinears of the claim. -/
structure EqInstance.WellFormed (I : EqInstance F) : Prop where
  nMultilinears : I.tables.length = I.claim.nMultilinears
  compositions : List.Forall₂
    (fun (s : CompositeSum F) p => Represents s.composition p ∧ p.vars ⊆ range I.claim.nMultilinears
      ∧ s.composition.nVars = I.claim.nMultilinears) I.claim.sums I.polys

/-- Every sum claimed is the evaluation, at the point given by the last `n_vars` of the challenges, of
the multilinear extension of the composite: `∑_b eq(r, b) p(t_1(b), …, t_m(b))`. -/
def EqInstance.Holds (challenges : List F) (I : EqInstance F) : Prop :=
  List.Forall₂ (fun (s : CompositeSum F) p => s.sum =
      mle (fun b => evalAt p (I.tables.map fun t => t b)) (suffix I.claim.nVars challenges))
    I.claim.sums I.polys

/-- The evaluations in an output are those of the multilinears at the last `n_vars` of the challenges
in it. -/
def EqCorrectEvals (instances : List (EqInstance F)) (out : Output F) : Prop :=
  List.Forall₂ (fun (I : EqInstance F) evals =>
      evals = I.tables.map fun t => mle t (suffix I.claim.nVars out.challenges))
    instances out.multilinearEvals

/-- The check of one claim: its evaluations end with the equality indicator. -/
def EqIndOk (challenges eqIndChallenges : List F) (claim : EqIndClaim F) (evals shorter : List F) : Prop :=
  shorter.length = claim.nMultilinears ∧
    evals = shorter ++ [eqInd (suffix claim.nVars challenges) (suffix claim.nVars eqIndChallenges)]

end Verif.Sumcheck
