import Mathlib.Algebra.BigOperators.Group.Finset.Basic
import Mathlib.Algebra.Field.Basic

/-! What the additive NTT computes, independently of the algorithm: subspace polynomials, the novel
polynomial basis and the evaluation points. -/

namespace Verif.NTT.Spec

open Finset

variable {F : Type*} [Field F]

/-- The linear combination of the basis selected by the bits of an index. -/
def point (β : List F) (index : Nat) : F :=
  ∑ b ∈ range β.length, if index.testBit b then β.getD b 0 else 0

/-- The subspace polynomial: the product of `x - u` over the span of the first `i` basis elements. -/
def subspacePoly (β : List F) (i : Nat) (x : F) : F :=
  ∏ u ∈ range (2 ^ i), (x - point (β.take i) u)

/-- The normalized subspace polynomial, with the value one at the `i`-th basis element. -/
def normPoly (β : List F) (i : Nat) (x : F) : F :=
  subspacePoly β i x / subspacePoly β i (β.getD i 0)

/-- The `j`-th element of the novel polynomial basis: the product of the normalized subspace polynomials
selected by the bits of `j`. -/
def novel (β : List F) (j : Nat) (x : F) : F :=
  ∏ i ∈ range β.length, if j.testBit i then normPoly β i x else 1

/-- The value at `x` of the polynomial with the given coefficients in the novel basis. -/
def novelEval (β : List F) (n : Nat) (m : Nat → F) (x : F) : F :=
  ∑ j ∈ range n, m j * novel β j x

/-- The basis of the evaluation domain of dimension `d` of an NTT with basis `β`: the images of the last `d`
basis elements under the normalized subspace polynomial vanishing on the others. -/
def domainBasis (β : List F) (d : Nat) : List F :=
  (β.drop (β.length - d)).map (normPoly β (β.length - d))

/-- No nonempty subset of the basis sums to zero. -/
def Independent (β : List F) : Prop :=
  ∀ i, 0 < i → i < 2 ^ β.length → point β i ≠ 0

/-- The number of packed elements (with `2^w` lanes each) holds the shape exactly, except that one or two packed
elements may be larger than the shape. -/
def SizeOk (w lx ly lz size : Nat) : Prop :=
  size * 2 ^ w = 2 ^ (lx + ly + lz) ∨ ((size = 1 ∨ size = 2) ∧ 2 ^ (lx + ly + lz) ≤ size * 2 ^ w)

/-- Where the tensor entry `(x, y, z)` is in the sequence of scalars: X is the fastest axis. -/
def position (lx ly x y z : Nat) : Nat := z * 2 ^ (lx + ly) + y * 2 ^ lx + x

end Verif.NTT.Spec
