import Verif.Sumcheck.ModelBivariate
import Verif.Sumcheck.SpecSumcheck

/-! Specification of a sumcheck prover that may send nothing for a claim without sums. -/

namespace Verif.Sumcheck

open Verif.Mle Finset

variable {F : Type} [Field F]

/-- The prover follows the documentation of `SumcheckProver`, as in `Honest`, but if the degree is zero `execute` may also return
no coefficients at all. -/
structure HonestOrEmpty (pr : SumcheckProver F) (I : Instance F) : Prop where
  nVars : pr.nVars = I.claim.nVars
  execute : ∀ (folded : List F) (α : F), folded.length < I.claim.nVars →
    ∃ cs, pr.execute folded α = .ok cs ∧
      (cs.length = I.claim.maxIndividualDegree + 1 ∨ I.claim.maxIndividualDegree = 0 ∧ cs = []) ∧
      ∀ x, ∑ i : Fin cs.length, cs[i] * x ^ (i : Nat)
        = ∑ b ∈ range (2 ^ (I.claim.nVars - folded.length - 1)), ∑ i : Fin I.polys.length,
            α ^ (i : Nat) * evalAt I.polys[i] (I.tables.map fun t =>
              mle t (arrange pr.evaluationOrder (folded ++ x :: vertex (I.claim.nVars - folded.length - 1) b)))
  finish : ∀ folded : List F, folded.length = I.claim.nVars →
    pr.finish folded = .ok (I.tables.map fun t => mle t (arrange pr.evaluationOrder folded))

/-- The sums are those of the products of two of the tables over the `n`-dimensional cube. -/
def ProductSums (n : Nat) (tables : List (Nat → F)) (sums : List ((Nat × Nat) × F)) : Prop :=
  ∀ s ∈ sums, ∃ a b, tables[s.1.1]? = some a ∧ tables[s.1.2]? = some b ∧ s.2 = ∑ v ∈ range (2 ^ n), a v * b v

/-- The sumcheck instance for sums of products of two of the tables: any claim in `n` variables of degree two, or of degree zero
if there are no sums. -/
structure IsProductInstance (n : Nat) (tables : List (Nat → F)) (sums : List ((Nat × Nat) × F)) (I : Instance F) : Prop where
  nVars : I.claim.nVars = n
  degree : I.claim.maxIndividualDegree = if sums = [] then 0 else 2
  polys : I.polys = sums.map fun s => MvPolynomial.X s.1.1 * MvPolynomial.X s.1.2
  tables : I.tables = tables

end Verif.Sumcheck
