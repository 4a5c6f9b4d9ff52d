import Verif.Sumcheck.ModelSumcheck
import Verif.Math.SpecMle
import Mathlib.Algebra.MvPolynomial.Eval
import Mathlib.Algebra.MvPolynomial.Degrees

/-!
# What a sumcheck claim means

Independent of how the protocol works: a claim is about multilinear polynomials, given by their
tables of values on the hypercube, and about polynomials that combine them.
-/

namespace Verif.Sumcheck

open Verif.Mle Finset

variable {F : Type} [Field F]

/-- The polynomial `p` at the point whose coordinates are `q`. -/
noncomputable def evalAt (p : MvPolynomial ℕ F) (q : List F) : F :=
  MvPolynomial.eval (fun i => q.getD i 0) p

/-- `c` computes the polynomial `p`, and its `degree` is an upper bound for the degree of `p`. -/
structure Represents (c : Composition F) (p : MvPolynomial ℕ F) : Prop where
  evaluate : ∀ q : List F, q.length = c.nVars → c.evaluate q = .ok (evalAt p q)
  degree : p.totalDegree ≤ c.degree

/-- The sum over the `n`-dimensional hypercube of the polynomial `p` of the multilinears with the
given tables. -/
noncomputable def cubeSum (n : Nat) (tables : List (Nat → F)) (p : MvPolynomial ℕ F) : F :=
  ∑ b ∈ range (2 ^ n), evalAt p (tables.map fun t => t b)

/-- A claim together with the polynomials its compositions compute and the tables of the multilinears
it is about. -/
structure Instance (F : Type) [Field F] where
  claim : Claim F
  polys : List (MvPolynomial ℕ F)
  tables : List (Nat → F)

/-- The pieces of an instance fit together (`SumcheckClaim::new` checks the number of variables of
the compositions). -/
structure Instance.WellFormed (I : Instance F) : Prop where
  nMultilinears : I.tables.length = I.claim.nMultilinears
  compositions : List.Forall₂
    (fun (s : CompositeSum F) p => Represents s.composition p
      ∧ s.composition.nVars = I.claim.nMultilinears) I.claim.sums I.polys

/-- Every sum claimed is the true sum. -/
def Instance.Holds (I : Instance F) : Prop :=
  List.Forall₂ (fun (s : CompositeSum F) p => s.sum = cubeSum I.claim.nVars I.tables p)
    I.claim.sums I.polys

/-- Where the multilinears of a claim in `n` variables are evaluated: at the last `n` challenges in
low-to-high order, and at the first `n` of the reversed challenges in high-to-low order. -/
def claimPoint (order : EvaluationOrder) (challenges : List F) (n : Nat) : List F :=
  match order with
  | .lowToHigh => challenges.drop (challenges.length - n)
  | .highToLow => challenges.take n

/-- The evaluations output by the verifier are those of the multilinears at the challenge point. -/
def CorrectEvals (order : EvaluationOrder) (instances : List (Instance F)) (out : Output F) : Prop :=
  List.Forall₂ (fun (I : Instance F) evals =>
      evals = I.tables.map fun t => mle t (claimPoint order out.challenges I.claim.nVars))
    instances out.multilinearEvals

/-- The coordinates of a point, listed in the order in which the rounds bind them. -/
def arrange (order : EvaluationOrder) (v : List F) : List F :=
  match order with
  | .lowToHigh => v
  | .highToLow => v.reverse

/-- The prover follows the documentation of `SumcheckProver`: after folding with `folded`, `execute`
returns one coefficient more than the degree, of the polynomial
`∑_v ∑_i α^i C_i(folded, X, v)`, and `finish` returns the evaluations of the multilinears at the
challenges. -/
structure Honest (pr : SumcheckProver F) (I : Instance F) : Prop where
  nVars : pr.nVars = I.claim.nVars
  execute : ∀ (folded : List F) (α : F), folded.length < I.claim.nVars →
    ∃ cs, pr.execute folded α = .ok cs ∧ cs.length = I.claim.maxIndividualDegree + 1 ∧
      ∀ x, ∑ i : Fin cs.length, cs[i] * x ^ (i : Nat)
        = ∑ b ∈ range (2 ^ (I.claim.nVars - folded.length - 1)), ∑ i : Fin I.polys.length,
            α ^ (i : Nat) * evalAt I.polys[i] (I.tables.map fun t =>
              mle t (arrange pr.evaluationOrder (folded ++ x :: vertex (I.claim.nVars - folded.length - 1) b)))
  finish : ∀ folded : List F, folded.length = I.claim.nVars →
    pr.finish folded = .ok (I.tables.map fun t => mle t (arrange pr.evaluationOrder folded))

end Verif.Sumcheck
