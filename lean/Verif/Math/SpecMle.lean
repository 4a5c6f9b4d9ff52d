import Mathlib.Algebra.BigOperators.Ring.Finset
import Mathlib.Data.Nat.Bitwise
import Mathlib.Tactic.Ring

/-! Specification of multilinear extensions, independent of how the repository computes them. -/

namespace Verif.Mle

open Finset

variable {F : Type*} [CommRing F]

/-- The Lagrange basis polynomial of hypercube vertex `b` (bit `i` of `b` is coordinate `i`) at the
point `r`: `∏_i (r_i or 1 - r_i)` according to bit `i` of `b`. -/
def eqWeight (r : List F) (b : Nat) : F :=
  ∏ i : Fin r.length, if b.testBit i then r[i] else 1 - r[i]

/-- The multilinear extension of the table `v` (`2 ^ r.length` values, indexed by vertices) at `r`. -/
def mle (v : Nat → F) (r : List F) : F :=
  ∑ b ∈ range (2 ^ r.length), eqWeight r b * v b

/-- The point of the hypercube whose coordinates are the `n` low bits of `b`. -/
def vertex (n b : Nat) : List F := (List.range n).map fun i => if b.testBit i then 1 else 0

/-- A function of `n` coordinates that is affine in each coordinate separately. -/
def IsMultilinear (n : Nat) (g : List F → F) : Prop :=
  ∀ (l s : List F) (x : F), l.length + 1 + s.length = n →
    g (l ++ x :: s) = (1 - x) * g (l ++ 0 :: s) + x * g (l ++ 1 :: s)

end Verif.Mle
