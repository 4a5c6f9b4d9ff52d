import Verif.Gkr.ModelExp
import Verif.Gkr.SpecGrandProduct
import Verif.Math.SpecMle

/-! Specification of the exponentiation. -/

set_option linter.dupNamespace false

namespace Verif.Gkr

variable {F : Type} [Field F] [DecidableEq F]

/-- The number whose binary digits at row `v` are the columns, the first the least significant. -/
def expNat : List (Column F) → Nat → Nat
  | [], _ => 0
  | c :: cs, v => (if c.val v = 1 then 1 else 0) + 2 * expNat cs v

/-- The columns have `n` variables and hold bits. -/
def AreBits (n : Nat) (cols : List (Column F)) : Prop :=
  ∀ c ∈ cols, c.nVars = n ∧ ∀ v < 2 ^ n, c.val v = 0 ∨ c.val v = 1

/-- The claim that the static verifier holds before layer `layerNo` is true: the evaluation of the power of the base with
all but the `layerNo` highest bits of the exponent. -/
def StaticTrue (g : F) (cols : List (Column F)) (layerNo : Nat) (c : ExpLayerClaim F) : Prop :=
  c.eval = Mle.mle (fun v => g ^ expNat (cols.take (cols.length - layerNo)) v) c.evalPoint

/-- The claim that the dynamic verifier holds before layer `layerNo` is true: the evaluation of the power of the base with
the exponent that has lost its `layerNo` lowest bits. -/
def DynamicTrue (b : Nat → F) (cols : List (Column F)) (layerNo : Nat) (c : ExpLayerClaim F) : Prop :=
  c.eval = Mle.mle (fun v => b v ^ expNat (cols.drop layerNo) v) c.evalPoint

/-- A claim on a table is true. -/
def TableTrue (t : Nat → F) (c : ExpLayerClaim F) : Prop := c.eval = Mle.mle t c.evalPoint

end Verif.Gkr
