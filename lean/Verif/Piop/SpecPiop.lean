import Verif.Piop.ModelPiop
import Verif.Piop.SpecCommit
import Verif.Math.PropsPiecewise
import Verif.Protocol.LemmasSeq

/-! Specification of the reduction of claims on committed polynomials to one evaluation of the committed message. -/

set_option linter.dupNamespace false

namespace Verif.Piop

open Verif.Mle Verif.Sumcheck Verif.Protocol Finset

variable {F : Type} [Field F]

/-- The `n` low bits of `x`, in reverse order. -/
def bitRev : Nat → Nat → Nat
  | 0, _ => 0
  | n + 1, x => x % 2 * 2 ^ n + bitRev n (x / 2)

/-- The message that is committed to: the tables of the committed polynomials, the largest first, one after the other and
each in bit-reversed order, and zeros after them.  The polynomials are given from the smallest to the largest, each with its
number of variables. -/
def message (committed : List (Nat × (Nat → F))) : Nat → F :=
  Piecewise.concat (committed.reverse.map fun p => (p.1, fun x => p.2 (bitRev p.1 x)))

/-- The claim is true: its sum is the sum over the cube of the product of the committed and the transparent polynomial. -/
def ClaimHolds (committed transparents : List (Nat × (Nat → F))) (c : PiopClaim F) : Prop :=
  ∃ p q, committed[c.committed]? = some p ∧ transparents[c.transparent]? = some q ∧
    c.sum = ∑ x ∈ range (2 ^ c.nVars), p.2 x * q.2 x

/-- The tables fit the description of the commitment and the claims: there is a committed polynomial, the committed ones,
`C`, have the sizes of the description, and the transparent ones, `T`, are
sorted by size and none is larger than the largest committed one. -/
structure WellFormed (m : CommitMeta) (C T : List (Nat × (Nat → F))) (claims : List (PiopClaim F)) :
    Prop where
  new : m = CommitMeta.new m.nMultilinsByVars
  committed : C.map Prod.fst = sizes 0 m.nMultilinsByVars
  nonempty : C ≠ []
  sorted : (T.map Prod.fst).Pairwise (· ≤ ·)
  bound : ∀ q ∈ T, q.1 ≤ m.maxNVars
  claims : ∀ c ∈ claims, c.nVars ≤ m.maxNVars ∧ Fits m.nMultilinsByVars (T.map Prod.fst) c

/-- The transparent polynomials evaluate to the multilinear extensions of the tables. -/
def Transparent.Are (ts : List (Transparent F)) (tables : List (Nat × (Nat → F))) : Prop :=
  List.Forall₂ (fun (t : Transparent F) q => t.nVars = q.1 ∧
    ∀ r : List F, r.length = q.1 → t.evaluate r = .ok (mle q.2 r)) ts tables

/-- The value that FRI ends with is the evaluation of the committed message at the challenges. -/
def FriTrue (committed : List (Nat × (Nat → F))) (out : PiopOutput F) : Prop :=
  out.friFinal = mle (message committed) out.challenges

/-- The rounds after which FRI commits to a folded codeword: the sums of the first so many arities. -/
def commitRounds : Nat → List Nat → List Nat
  | _, [] => []
  | start, a :: as => (start + a) :: commitRounds (start + a) as

/-- The commitments that the prover of FRI makes for these challenges. -/
def commitmentsFor (commitAt : List F → Option (List F)) (challenges : List F) : List (List F) :=
  (List.range challenges.length).filterMap fun i => commitAt (challenges.take (i + 1))

/-- Prover and verifier of FRI fit together: the prover commits, with digests of the right length, exactly in the rounds that the
arities give, and after `n` challenges its messages are accepted and lead to the evaluation of the committed message. -/
structure FriComplete (n digest : Nat) (arities : List Nat) (committed : List (Nat × (Nat → F)))
    (commitAt : List F → Option (List F)) (finishProof : List F → PP F Unit) (fri : List (List F) → List F → P F F) : Prop where
  positive : ∀ a ∈ arities, 0 < a
  rounds : ∀ chs : List F, (commitAt chs).isSome ↔ chs.length ∈ commitRounds 0 arities
  digest : ∀ chs comm, commitAt chs = some comm → comm.length = digest
  accepts : ∀ chs : List F, chs.length = n →
    Agree (fun _ y => y = mle (message committed) chs) (finishProof chs) (fri (commitmentsFor commitAt chs) chs)

end Verif.Piop
