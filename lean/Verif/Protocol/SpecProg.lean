import Verif.Protocol.ModelProg
import Mathlib.Data.Fintype.Pi

/-! Counting the challenge vectors for which a verifier accepts. -/

namespace Verif.Protocol

variable {F E A : Type}

/-- A vector of `N` challenges as the stream a verifier samples from (zeros after the `N`-th; they
play no role for a verifier that samples at most `N` times). -/
def extend [Zero F] {N : Nat} (r : Fin N → F) : Nat → F :=
  fun i => if h : i < N then r ⟨i, h⟩ else 0

open Classical in
/-- The number of vectors of `N` challenges for which the verifier `p`, run against the prover `msg`,
accepts with a `good` result. -/
noncomputable def accepting [Zero F] [Fintype F] (good : A → Prop) (msg : List F → Nat → List F)
    (p : Prog F E A) (hist : List F) (reads N : Nat) : Nat :=
  (Finset.univ.filter fun r : Fin N → F =>
    ∃ a, p.run msg hist reads (extend r) = .ok a ∧ good a).card

end Verif.Protocol
