import Verif.NTT.SpecFri
import Verif.Merkle.SpecMerkle
import Verif.Fri.ModelFri

/-! What the FRI protocol should do, independently of the algorithms: folding of arbitrary words. -/

namespace Verif.Fri.Spec

open Verif.NTT.Spec Verif.Mle

variable {F E : Type*} [Field F] [Field E] [Algebra F E]

/-- One fold of a word over the domain with basis `γ` (whose first element is one).  The line through the values of
the word at the points `x` and `x + 1` is `a + b·X`; the folded symbol is `(1-r)·a + r·b`. -/
def foldOnce (γ : List F) (r : E) (u : Nat → E) (i : Nat) : E :=
  let b := u (2 * i + 1) - u (2 * i)
  let a := u (2 * i) - point γ (2 * i) • b
  (1 - r) * a + r * b

/-- Folding with several challenges a word over the domain of dimension `L` of an NTT with basis `β`. -/
def foldMany (β : List F) : Nat → List E → (Nat → E) → Nat → E
  | _, [], u => u
  | L, r :: rs, u => foldMany β (L - 1) rs (foldOnce (domainBasis β L) r u)

/-- Combining the `2^b` interleaved words with `b` challenges. -/
def combine (rs : List E) (u : Nat → E) (y : Nat) : E := mle (fun x => u (y * 2 ^ rs.length + x)) rs

/-- Folding `2^b` interleaved words: combining them with the first `b` challenges and folding with the others. -/
def foldWord (β : List F) (L b : Nat) (rs : List E) (u : Nat → E) : Nat → E :=
  foldMany β L (rs.drop b) (combine (rs.take b) u)

/-- The word `w` over the domain of dimension `L` and the later words `ws` fit together at the position `q` of `w`:
with the next `a` challenges, `w` folds to the next word at the position of the coset of `q`, and so on. -/
def Consistent (β : List F) : Nat → List Nat → List E → (Nat → E) → List (Nat → E) → Nat → Prop
  | L, a :: as, ch, w, w' :: ws, q =>
    w' (q / 2 ^ a) = foldMany β L (ch.take a) w (q / 2 ^ a) ∧
      Consistent β (L - a) as (ch.drop a) w' ws (q / 2 ^ a)
  | _, _, _, _, _, _ => True

/-- The first word (`2^b` interleaved words over the domain of dimension `L`) and the later ones fit together at the
query `q`. -/
def QueryConsistent (β : List F) (L b : Nat) : List Nat → List E → (Nat → E) → List (Nat → E) → Nat → Prop
  | a :: as, ch, w, w' :: ws, q =>
    w' q = foldWord β L b (ch.take a) w q ∧ Consistent β (L - (a - b)) as (ch.drop a) w' ws q
  | _, _, _, _, _ => True

/-- A list as a function. -/
def word (l : List E) (i : Nat) : E := (l[i]?).getD 0

section Commitments
variable {D : Type*} [DecidableEq E] [DecidableEq D] [Inhabited D]
open Verif.Merkle (Scheme Tree chunk commit proveOpening)
open Verif.Merkle.Spec (Collision findDigests layerInputs extractOpening)

/-- `t` with root `r` is the tree over the word `w` of `2^L` symbols in cosets of `2^a`. -/
def IsCommitment (S : Scheme E D) (L a : Nat) (w : List E) (t : Tree D) (r : D) : Prop :=
  a ≤ L ∧ w.length = 2 ^ L ∧ ∃ junk, commit S junk w (2 ^ a) = some (.ok (⟨r, L - a⟩, t))

/-- The words, trees and roots of the oracles after the first: the first of them has `2^L` symbols and each is shorter
than the one before by the arity; the last one has cosets of `2^nFinal` symbols. -/
def AreCommitments (S : Scheme E D) (nFinal : Nat) : Nat → List Nat → List (List E × Tree D) → List D → Prop
  | L, [], [(w, t)], [r] => IsCommitment S L nFinal w t r
  | L, a :: as, (w, t) :: rounds, r :: roots =>
    IsCommitment S L a w t r ∧ AreCommitments S nFinal (L - a) as rounds roots
  | _, _, _, _ => False

/-- The oracles after the first one (of `2^L` symbols) of a proof with these arities. -/
def RoundCommitments (S : Scheme E D) (nFinal L : Nat) : List Nat → List (List E × Tree D) → List D → Prop
  | [], rounds, roots => rounds = [] ∧ roots = []
  | a :: as, rounds, roots => AreCommitments S nFinal (L - a) as rounds roots

/-- The collision `c` is found by comparing a part of the decommitment with the word `w` and its tree `t`: hashing two
cosets, computing the tree above a vector, above a layer, or climbing along two branches. -/
inductive Found (S : Scheme E D) (advice : List (Item E D)) (w : List E) (t : Tree D) (B : Nat) :
    Collision E D → Prop
  | coset (x : List E) (i : Nat) : x.map .scalar <:+: advice →
      Found S advice w t B (.values (chunk x B i) (chunk w B i))
  | vector (x : List E) (k : Nat) (c : Collision E D) : x.map .scalar <:+: advice →
      findDigests S (layerInputs S (fun i => S.hash (chunk x B i)) k)
        (layerInputs S (fun i => S.hash (chunk w B i)) k) = some c →
      Found S advice w t B c
  | layer (l l' : List D) (d : Nat) (c : Collision E D) : l.map .digest <:+: advice → t.layer d = some (.ok l') →
      findDigests S (layerInputs S (fun i => l[i]?.getD default) d)
        (layerInputs S (fun i => l'[i]?.getD default) d) = some c →
      Found S advice w t B c
  | opening (i d : Nat) (v : List E) (branch branch' : List D) (c : Collision E D) :
      v.map .scalar ++ branch.map .digest <:+: advice → proveOpening t d i [] = some (.ok branch') →
      extractOpening S i v (chunk w B i) branch branch' = some c →
      Found S advice w t B c

/-- A collision is found for one of the committed words (with their trees and coset sizes). -/
def FoundAny (S : Scheme E D) (advice : List (Item E D)) (oracles : List (List E × Tree D)) : Prop :=
  ∃ q ∈ oracles, ∃ B c, Found S advice q.1 q.2 B c ∧ c.Valid S

end Commitments

end Verif.Fri.Spec
