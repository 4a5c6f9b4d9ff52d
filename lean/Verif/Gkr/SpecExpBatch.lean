import Verif.Gkr.SpecExp
import Verif.Gkr.ModelExpBatch
import Verif.Gkr.SpecGpa

/-! Specification of the batched exponentiation. -/

set_option linter.dupNamespace false

namespace Verif.Gkr

open Verif.Mle Verif.Sumcheck

variable {F : Type} [Field F] [DecidableEq F]

/-- A claim on an exponentiation with what it is about: the columns of exponent bits, the least significant first, and the
base at every row. -/
structure ExpItem (F : Type) where
  claim : ExpClaim F
  cols : List (Column F)
  base : Nat → F

/-- The claim fits the columns and the base: there is at least one column, the columns hold bits, and the point has as many
coordinates as the columns have variables.  A static base is the same at every row, is not one, and comes with at most 64
columns. -/
structure ExpItem.WellFormed (it : ExpItem F) : Prop where
  width : it.claim.exponentBitWidth = it.cols.length
  nonempty : it.cols ≠ []
  bits : AreBits it.claim.nVars it.cols
  point : it.claim.evalPoint.length = it.claim.nVars
  static : ∀ g, it.claim.staticBase = some g → (∀ v, it.base v = g) ∧ g ≠ 1 ∧ it.cols.length ≤ 64

/-- The claim is true: its value is the evaluation of the multilinear extension of the powers of the base. -/
def ExpItem.Holds (it : ExpItem F) : Prop :=
  it.claim.eval = mle (fun v => it.base v ^ expNat it.cols v) it.claim.evalPoint

/-- The exponent bits that layer `k` is about: from the highest down for a static base, from the lowest up for a dynamic
one. -/
def ExpItem.bit (it : ExpItem F) (k : Nat) : Nat → F :=
  match it.cols[bitIndex it.claim.staticBase.isNone it.cols.length k]? with
  | some c => c.val
  | none => fun _ => 0

/-- The tables that the claims of layer `k` are about: one exponent bit, and a dynamic base. -/
def ExpItem.outTables (k : Nat) (it : ExpItem F) : List (Nat → F) :=
  if k < it.cols.length then
    match it.claim.staticBase with
    | some _ => [it.bit k]
    | none => [it.bit k, it.base]
  else []

/-- The claims that the verification leads to are true. -/
def ExpOutputHolds (items : List (ExpItem F)) (out : List (List (ExpLayerClaim F))) : Prop :=
  ∀ k layer, out[k]? = some layer → List.Forall₂ TableTrue (items.flatMap (ExpItem.outTables k)) layer

/-- The exponentiation whose bits are the oracles `ids` and whose base is the oracle `base` or static; `table` are the values
of the oracles. -/
structure ExpItem.Over (table : Nat → Nat → F) (it : ExpItem F) (ids : List Nat) (base : Option Nat) : Prop where
  cols : (it.cols.map fun c => c.val) = ids.map table
  static : base = none → it.claim.staticBase ≠ none
  dynamic : ∀ b, base = some b → it.claim.staticBase = none ∧ it.base = table b

/-- The witness of an exponentiation: its columns, its base, and for every layer the powers of the base with the bits taken
up so far, from the lowest on for a static base and from the highest on for a dynamic one. -/
structure ExpWitness.Fits (w : ExpWitness F) (it : ExpItem F) : Prop where
  exponent : w.exponent = it.cols
  static : ∀ g, it.claim.staticBase = some g → w.base = none ∧ w.staticBase = g
  dynamic : it.claim.staticBase = none → ∃ b, w.base = some b ∧ b.nVars = it.claim.nVars ∧
    ∀ v < 2 ^ it.claim.nVars, b.val v = it.base v
  length : w.layers.length = it.cols.length
  layers : ∀ k layer, w.layers[k]? = some layer → layer.nVars = it.claim.nVars ∧
    ∀ v < 2 ^ it.claim.nVars, layer.val v = it.base v ^ expNat (match it.claim.staticBase with
      | some _ => it.cols.take (k + 1)
      | none => it.cols.drop (it.cols.length - 1 - k)) v

/-- A builder of honest sumcheck provers: for multilinears with as many variables as the point, and composites of them, the
prover follows the documentation of `SumcheckProver` for the composites times the equality indicator of the point. -/
def ExpBuildsHonest (order : EvaluationOrder) (build : ExpProverBuilder F) : Prop :=
  ∀ (ms : List (Column F)) (r : List F) (sums : List (CompositeSum F)) (polys : List (MvPolynomial ℕ F)),
    (∀ m ∈ ms, m.nVars = r.length) →
    List.Forall₂ (fun (s : CompositeSum F) p => Represents s.composition p ∧
      p.vars ⊆ Finset.range ms.length ∧ s.composition.nVars = ms.length) sums polys →
    ∃ pr, build ms r sums = .ok pr ∧ pr.evaluationOrder = order ∧
      ∀ J : Instance F, J.claim.nVars = r.length → J.claim.nMultilinears = ms.length + 1 →
        List.Forall₂ (fun (s' s : CompositeSum F) => s'.sum = s.sum ∧
          s'.composition.degree = s.composition.degree + 1) J.claim.sums sums →
        J.polys = polys.map (fun p => p * MvPolynomial.X ms.length) →
        J.tables = (ms.map fun m => m.val) ++ [eqWeight r] → Honest pr J

end Verif.Gkr
