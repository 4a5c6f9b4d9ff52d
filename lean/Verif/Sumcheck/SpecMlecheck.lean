import Verif.Sumcheck.ModelMlecheck
import Verif.Sumcheck.SpecEqInd
import Verif.Sumcheck.SpecBivariate

/-! Specification for C71: claims on products of two multilinears with an equality indicator. -/

namespace Verif.Sumcheck

open Verif.Mle Finset

variable {F : Type} [Field F]

/-- The claims are true: each is the sum over the cube of the product of two of the tables times the equality indicator of `r`,
which is the evaluation at `r` of the multilinear extension of the product. -/
def ProductEqSums (r : List F) (tables : List (Nat → F)) (sums : List ((Nat × Nat) × F)) : Prop :=
  ∀ s ∈ sums, ∃ a b, tables[s.1.1]? = some a ∧ tables[s.1.2]? = some b ∧ s.2 = mle (fun v => a v * b v) r

/-- The claim that the verifier has: any in `n` variables with these products. -/
structure IsProductEqInstance (n : Nat) (tables : List (Nat → F)) (sums : List ((Nat × Nat) × F)) (I : EqInstance F) : Prop where
  nVars : I.claim.nVars = n
  nMultilinears : I.claim.nMultilinears = tables.length
  degrees : (I.claim.sums.map fun s => s.composition.degree) = sums.map fun _ => 2
  polys : I.polys = sums.map fun s => MvPolynomial.X s.1.1 * MvPolynomial.X s.1.2
  tables : I.tables = tables

end Verif.Sumcheck
