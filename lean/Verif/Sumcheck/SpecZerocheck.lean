import Verif.Sumcheck.SpecEqInd
import Verif.Sumcheck.ModelZerocheck
import Verif.Sumcheck.LemmasEqInd
import Mathlib.LinearAlgebra.Lagrange

/-! What a zerocheck claim says, and what its verification should establish. -/

namespace Verif.Sumcheck

open Verif.Mle Finset

variable {F : Type} [Field F]

/-- A zerocheck claim with the polynomials its compositions compute and the tables of its
multilinears. -/
structure ZeroInstance (F : Type) [Field F] where
  claim : ZerocheckClaim F
  polys : List (MvPolynomial ℕ F)
  tables : List (Nat → F)

/-- The pieces fit together: `ZerocheckClaim::new` has checked the compositions, and the polynomials
are polynomials in the multilinears of the claim. -/
structure ZeroInstance.WellFormed (I : ZeroInstance F) : Prop where
  nMultilinears : I.tables.length = I.claim.nMultilinears
  compositions : List.Forall₂
    (fun (c : Composition F) p => Represents c p ∧ p.vars ⊆ range I.claim.nMultilinears
      ∧ c.nVars = I.claim.nMultilinears) I.claim.zeros I.polys

/-- Every composite vanishes on every vertex of the hypercube. -/
def ZeroInstance.Holds (I : ZeroInstance F) : Prop :=
  ∀ p ∈ I.polys, ∀ b < 2 ^ I.claim.nVars, evalAt p (I.tables.map fun t => t b) = 0

/-- Where the multilinears of a claim in `n` variables are evaluated: the low variables at the skipped
challenges, as many of them as there are, and the others at the last of the unskipped challenges. -/
def zeroPoint (out : ZerocheckOutput F) (n : Nat) : List F :=
  out.skippedChallenges.take n ++ suffix (n - out.skippedChallenges.length) out.unskippedChallenges

/-- The evaluations in the output, claim by claim, are those of the multilinears. -/
def ZeroCorrectEvals (all : List (ZeroInstance F)) (out : ZerocheckOutput F) : Prop :=
  out.concatMultilinearEvals =
    all.flatMap fun I => I.tables.map fun t => mle t (zeroPoint out I.claim.nVars)

/-- The Lagrange basis polynomial of point `u` at `z`. -/
noncomputable def lagW (ps : List F) (z : F) (u : Nat) : F :=
  if h : u < ps.length then
    (Lagrange.basis univ (fun j : Fin ps.length => ps[j]) ⟨u, h⟩).eval z
  else 0

/-- A claim after the univariate round, with the Lagrange weights `w`. -/
def ZeroInstance.fold (skip : Nat) (w : Nat → F) (I : ZeroInstance F) : EqInstance F :=
  ⟨⟨I.claim.nVars - skip, I.claim.nMultilinears, I.claim.zeros.map fun c => ⟨c, 0⟩⟩, I.polys,
    I.tables.map fun t v => ∑ u ∈ range (2 ^ skip), w u * t ((u + 2 ^ skip * v) % 2 ^ I.claim.nVars)⟩

/-- The multilinears of a claim with the high variables at the last challenges. -/
def ZeroInstance.projected (skip : Nat) (y : List F) (I : ZeroInstance F) : List (Nat → F) :=
  I.tables.map fun t u => mle (fun v => t ((u + 2 ^ skip * v) % 2 ^ I.claim.nVars))
    (suffix (I.claim.nVars - skip) y)

/-- The round polynomial of one composite at `z`: the multilinears are replaced, in their low
variables, by the univariate polynomials that interpolate them on the points `ps`, and the equality
indicator of the last challenges sums over the others. -/
noncomputable def ZeroInstance.roundValue (skip : Nat) (ps : List F) (r : List F) (I : ZeroInstance F)
    (p : MvPolynomial ℕ F) (z : F) : F :=
  mle (fun v => evalAt p (I.tables.map fun t =>
    ∑ u ∈ range (2 ^ skip), lagW ps z u * t ((u + 2 ^ skip * v) % 2 ^ I.claim.nVars)))
    (suffix (I.claim.nVars - skip) r)

/-- A prover that does what the documentation of `ZerocheckProver` says, after the challenges `r` of the
equality indicator: the evaluations of the batched round polynomial on the points of the larger domain
after those of the smaller one, an honest prover for the remaining rounds, and the multilinears with
their high variables at the challenges. -/
structure HonestZero {K : Type} [AddCommGroup K] (basisChecked : Nat → Option K) (emb : K → F)
    (skip : Nat) (r : List F) (pr : ZerocheckProver F) (I : ZeroInstance F) : Prop where
  nVars : pr.nVars = I.claim.nVars
  domainSize : pr.domainSize skip = I.claim.maxIndividualDegree * 2 ^ skip
  execute : ∀ (size : Nat) (α : F) (ps qs : List F), 2 ^ skip ≤ size →
    I.claim.maxIndividualDegree * 2 ^ skip ≤ size →
    subspacePoints basisChecked emb skip = .ok ps →
    subspacePoints basisChecked emb (log2CeilUsize size) = .ok qs →
    pr.execute skip size α = .ok ((List.range (size - 2 ^ skip)).map fun i =>
      (List.ofFn fun k : Fin I.polys.length =>
        α ^ (k : Nat) * I.roundValue skip ps r I.polys[k] (qs.getD (2 ^ skip + i) 0)).sum)
  fold : ∀ (size : Nat) (α z : F) (ps : List F), subspacePoints basisChecked emb skip = .ok ps →
    ∃ sp, pr.fold skip size α z = .ok sp ∧ sp.evaluationOrder = .highToLow ∧
      Honest sp ((I.fold skip (lagW ps z)).regular r)
  project : ∀ y : List F, y.length = r.length → pr.project skip y = .ok (I.projected skip y)

/-- A builder of honest provers for sums of composites of multilinears. -/
def BuildsRegular (build : RegularBuilder F) : Prop :=
  ∀ I : Instance F, I.WellFormed → ∃ pr, build I.claim.nVars I.tables I.claim.sums = .ok pr ∧
    pr.evaluationOrder = .highToLow ∧ Honest pr I

end Verif.Sumcheck
