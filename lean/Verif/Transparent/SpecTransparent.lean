import Verif.Transparent.ModelTransparent
import Verif.Math.SpecMle

/-! Specification of the transparent polynomials, in terms of the table of values on the hypercube. -/

namespace Verif.Transparent

open Verif.Mle Verif.Tensor

variable {F : Type*} [CommRing F]

/-- The polynomial `p` is the multilinear extension of the table `t` of `2^n` values: it says so of its number of
variables, evaluates accordingly at every point with `n` coordinates, and refuses other points. -/
def IsExtensionOf (p : Poly F) (n : Nat) (t : Nat → F) : Prop :=
  p.nVars = n ∧ (∀ q, q.length = n → p.evaluate q = .ok (mle t q)) ∧
    ∀ q, q.length ≠ n → p.evaluate q = .error .incorrectQuerySize

/-- The result `r` of a table constructor is the table `t` of `2^n` values, stored in packed elements of width
`2^w`. -/
def HasTable (w n : Nat) (r : Option (Except Error (Mlx F))) (t : Nat → F) : Prop :=
  ∃ m, r = some (.ok m) ∧ m.mu = n ∧ m.evals.size = 2 ^ (n - w) * 2 ^ w ∧ ∀ i < 2 ^ n, m.evals.val i = t i

end Verif.Transparent
