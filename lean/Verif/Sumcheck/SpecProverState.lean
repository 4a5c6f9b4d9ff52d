import Verif.Sumcheck.ModelProverState
import Verif.Sumcheck.SpecBivariate
import Verif.Math.PropsArith

/-! Specification for C66: what the compositions and claims given to the sumcheck prover are about. -/

namespace Verif.Sumcheck

open Verif.Mle Finset

variable {F : Type} [Field F] [DecidableEq F]

/-- The composition computes the polynomial `p`, both when it is evaluated and by its expression, and its degree is the one that
the expression has. -/
structure Computes (c : Comp F) (p : MvPolynomial ℕ F) : Prop where
  built : Arith.Built c.expr
  nVars : Arith.nVars c.expr ≤ c.nVars
  degree : Arith.degree c.expr = some c.degree
  evaluate : ∀ q : List F, q.length = c.nVars → c.evaluate q = some (evalAt p q)
  expression : ∀ q : List F, q.length = c.nVars → Arith.evaluate c.expr q = some (evalAt p q)

/-- The claims are true of the tables: composition by composition, the sum over the `n`-dimensional cube of the polynomial
computed. -/
def TrueSums (n : Nat) (tables : List (Nat → F)) (claims : List (Comp F × F)) (polys : List (MvPolynomial ℕ F)) : Prop :=
  List.Forall₂ (fun c p => Computes c.1 p ∧ c.1.nVars = tables.length ∧ c.2 = cubeSum n tables p) claims polys

/-- The instance of the sumcheck protocol that the claims are: any claim with these data. -/
structure IsSumInstance (n : Nat) (tables : List (Nat → F)) (claims : List (Comp F × F)) (polys : List (MvPolynomial ℕ F))
    (I : Instance F) : Prop where
  nVars : I.claim.nVars = n
  degree : I.claim.maxIndividualDegree = ((claims.map fun c => c.1.degree).max?).getD 0
  polys : I.polys = polys
  tables : I.tables = tables

end Verif.Sumcheck
