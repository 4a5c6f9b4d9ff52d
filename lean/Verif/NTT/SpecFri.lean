import Verif.NTT.SpecNtt
import Verif.Math.SpecMle
import Mathlib.Algebra.Algebra.Defs

/-! What FRI folding should compute, independently of the algorithm. -/

namespace Verif.NTT.Spec

open Finset Verif.Mle

variable {F E : Type*} [Field F] [Field E] [Algebra F E]

/-- Symbol `i` of the Reed–Solomon codeword over the domain with basis `γ`: the value at the `i`-th domain point of
the polynomial with coefficients `m 0, …, m (n-1)` in the novel basis. -/
def codeword (γ : List F) (n : Nat) (m : Nat → E) (i : Nat) : E :=
  ∑ j ∈ range n, novel γ j (point γ i) • m j

/-- The folded message: every block of `2^n` consecutive coefficients is replaced by the multilinear extension of
the block at the `n` challenges. -/
def foldedMessage (challenges : List E) (m : Nat → E) (j : Nat) : E :=
  mle (fun k => m (j * 2 ^ challenges.length + k)) challenges

end Verif.NTT.Spec
