import Verif.Gkr.ModelGpa
import Verif.Gkr.SpecGrandProduct
import Verif.Sumcheck.SpecEqInd

/-! What the grand product argument should establish. -/

set_option linter.dupNamespace false

namespace Verif.Gkr

open Verif.Mle Verif.Sumcheck Finset

variable {F : Type} [Field F]

/-- The claim is true of the multilinear with the table `t`: the product of its `2 ^ n_vars` values on
the hypercube. -/
def GrandProductClaim.Holds (c : GrandProductClaim F) (t : Nat → F) : Prop :=
  c.product = ∏ b ∈ range (2 ^ c.nVars), t b

/-- A final claim is true of the multilinear with the table `t` in `n` variables. -/
def LayerClaim.Holds (n : Nat) (t : Nat → F) (l : LayerClaim F) : Prop :=
  l.evalPoint.length = n ∧ l.eval = mle t l.evalPoint

/-- All final claims, in the order of the original claims, are true. -/
def FinalClaimsHold (all : List (GrandProductClaim F × (Nat → F))) (final : List (LayerClaim F)) : Prop :=
  List.Forall₂ (fun p l => LayerClaim.Holds p.1.nVars p.2 l) all final

/-- A builder of honest provers: given multilinears and the lengths of the constant suffixes, the
prover follows the documentation of `SumcheckProver` for the composites of the multilinears, absent
values counting as one, times the equality indicator of the challenges. -/
def BuildsHonest (w : Nat) (order : EvaluationOrder) (build : ProverBuilder F) : Prop :=
  ∀ (n : Nat) (ms : List (List (Packed F) × Nat)) (r : List F) (sums : List (CompositeSum F))
    (polys : List (MvPolynomial ℕ F)), r.length = n →
    (∀ m ∈ ms, m.2 = 2 ^ n - m.1.length * 2 ^ w) →
    List.Forall₂ (fun (s : CompositeSum F) p => Represents s.composition p ∧
      p.vars ⊆ range ms.length ∧ s.composition.nVars = ms.length) sums polys →
    ∃ pr, build n ms r sums = .ok pr ∧ pr.evaluationOrder = order ∧
      ∀ J : Instance F, J.claim.nVars = n → J.claim.nMultilinears = ms.length + 1 →
        List.Forall₂ (fun (s' s : CompositeSum F) => s'.sum = s.sum ∧
          s'.composition.degree = s.composition.degree + 1) J.claim.sums sums →
        J.polys = polys.map (fun p => p * MvPolynomial.X ms.length) →
        J.tables = (ms.map fun m => value w m.1) ++ [eqWeight r] → Honest pr J

end Verif.Gkr
