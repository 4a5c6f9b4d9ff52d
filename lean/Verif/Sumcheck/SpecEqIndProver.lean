import Verif.Sumcheck.ModelEqIndProver
import Verif.Sumcheck.SpecProverState
import Verif.Sumcheck.SpecEqInd

/-! Specification for C67: what is given to the sumcheck prover with an equality indicator, and when it is true. -/

namespace Verif.Sumcheck

open Verif.Mle Finset

variable {F : Type} [Field F] [DecidableEq F]

/-- The sumcheck multilinear has the table `t` in `n` variables: a table given in full ends with the suffix said of it, a folded
one goes on with its suffix value where it ends. -/
def IsTable (w n : Nat) (t : Nat → F) : SumMultilin F → Prop
  | .transparent N t' _ (sv, sl) => N = n ∧ (∀ x < 2 ^ n, t' x = t x) ∧ sl ≤ 2 ^ n ∧
      ∀ x, 2 ^ n - sl ≤ x → x < 2 ^ n → t x = sv
  | .folded evals sv => (∃ p, evals.size = p * 2 ^ w ∧ p ≤ 2 ^ (n - w)) ∧
      ∀ x < 2 ^ n, t x = if x < evals.size then evals.val x else sv

/-- The coordinates of the variables that the first round does not bind. -/
def others (order : EvaluationOrder) (r : List F) : List F :=
  match order with
  | .lowToHigh => r.drop 1
  | .highToLow => r.take (r.length - 1)

/-- The vertex of the `n`-dimensional cube whose variable of the first round is one and whose other variables are `x`. -/
def atOne (order : EvaluationOrder) (n x : Nat) : Nat :=
  match order with
  | .lowToHigh => 2 * x + 1
  | .highToLow => x + 2 ^ (n - 1)

/-- What has been given to the builder is true: the tables with their constant suffixes, the expanded equality indicator, and the
values at one for the first round. -/
structure Truthful (w : Nat) (order : EvaluationOrder) (r : List F) (tables : List (Nat → F)) (polys : List (MvPolynomial ℕ F))
    (b : EqBuilder F) : Prop where
  multilins : List.Forall₂ (IsTable w b.nVars) tables b.multilins
  partialEvals : ∀ e, b.partialEvals = some e → e.size = 2 ^ (b.nVars - (w + 1)) * 2 ^ w ∧
    ∀ x < 2 ^ (b.nVars - 1), e.val x = eqWeight (others order r) x
  ones : ∀ l, b.ones = some l → l = polys.map fun p =>
    mle (fun x => evalAt p (tables.map fun t => t (atOne order b.nVars x))) (others order r)

/-- The claims are true: composition by composition, the sum over the cube of the polynomial computed times the equality
indicator of the point `r`. -/
def TrueEqSums (r : List F) (tables : List (Nat → F)) (claims : List (Comp F × F)) (polys : List (MvPolynomial ℕ F)) : Prop :=
  List.Forall₂ (fun c p => Computes c.1 p ∧ c.1.nVars = tables.length ∧ p.vars ⊆ range tables.length ∧
    c.2 = mle (fun b => evalAt p (tables.map fun t => t b)) r) claims polys

/-- The claim with an equality indicator that the verifier has: any with these data. -/
structure IsEqInstance (n : Nat) (tables : List (Nat → F)) (claims : List (Comp F × F)) (polys : List (MvPolynomial ℕ F))
    (I : EqInstance F) : Prop where
  nVars : I.claim.nVars = n
  nMultilinears : I.claim.nMultilinears = tables.length
  degrees : (I.claim.sums.map fun s => s.composition.degree) = claims.map fun c => c.1.degree
  polys : I.polys = polys
  tables : I.tables = tables

/-- The weight of a step is at least those of the steps it refers to, and of a power at least the exponent times that. -/
def WeightOk (wt : Nat → Nat) (i : Nat) : Arith.Step F → Prop
  | .pow b e => max 1 e * wt b ≤ wt i
  | .add l r => wt l ≤ wt i ∧ wt r ≤ wt i
  | .mul l r => wt l ≤ wt i ∧ wt r ≤ wt i
  | _ => True

/-- The exponents of nested powers have products below 2^64. -/
def SmallExponents (c : Arith.Circuit F) : Prop :=
  ∃ wt : Nat → Nat, (∀ i, 1 ≤ wt i ∧ wt i < 2 ^ 64) ∧ ∀ i s, c[i]? = some s → WeightOk wt i s

/-- The exponents in an expression and in its leading term. -/
def SmallPowers (c : Arith.Circuit F) : Prop :=
  SmallExponents c ∧ ∀ lt, Arith.leadingTerm c = some lt → SmallExponents lt

/-- A suffix that can be said of a multilinear: a folded one that is already cut short has values for all entries before the new
suffix, or the same suffix value. -/
def SuffixFits (n : Nat) (s : F × Nat) : SumMultilin F → Prop
  | .transparent .. => True
  | .folded evals sv => sv = s.1 ∨ 2 ^ n - s.2 ≤ evals.size

/-- The suffixes are true of the tables. -/
def TrueSuffixes (n : Nat) (tables : List (Nat → F)) (suffixes : List (F × Nat)) : Prop :=
  List.Forall₂ (fun t s => s.2 ≤ 2 ^ n ∧ ∀ x, 2 ^ n - s.2 ≤ x → x < 2 ^ n → t x = s.1) tables suffixes

end Verif.Sumcheck
