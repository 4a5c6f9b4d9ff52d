import Verif.RingSwitch.ModelRingSwitch
import Verif.Math.SpecMle
import Verif.Field.LemmasScalar

/-! Specification of ring switching: what the evaluation claims and the sumcheck claims say about the committed
polynomials. -/

set_option linter.dupNamespace false

namespace Verif.RingSwitch

open Finset Verif.Mle
open Verif.Oracle (OracleSet)
open Verif.Piop (SparseIndex PiopClaim)
open Verif.Evalcheck (Claim)
open Verif.Field (T)

variable {F : Type} [Field F] [DecidableEq F]

/-- The coordinates of a field over a subfield, with respect to a basis of `2^kappa` elements that begins with one. -/
structure Coords.Lawful (c : Coords F) (kappa : Nat) : Prop where
  coord_add : ∀ x y i, c.coord (x + y) i = c.coord x i + c.coord y i
  coord_mul : ∀ x y i j, c.coord (c.coord x i * y) j = c.coord x i * c.coord y j
  sum_basis : ∀ x, ∑ i ∈ range (2 ^ kappa), c.coord x i * c.basis i = x
  coord_basis : ∀ i < 2 ^ kappa, ∀ j < 2 ^ kappa, c.coord (c.basis i) j = if i = j then 1 else 0
  basis_zero : c.basis 0 = 1

/-- The coordinates over every subfield. -/
def Tower.Lawful (tw : Tower F) : Prop := ∀ l : Level, (tw l).Lawful l.kappa

/-- The coordinates of level `k + d` of the tower over level `k`, as in C02 and C12. -/
def coordsAt (k d : Nat) : Coords (T (k + d)) := ⟨fun x i => T.incl d (T.coord d x i), T.basis d⟩

/-- The tower below `BinaryField128b`. -/
def tower128 : Tower (T 7)
  | .b1 => coordsAt 0 7
  | .b8 => coordsAt 3 4
  | .b16 => coordsAt 4 3
  | .b32 => coordsAt 5 2
  | .b64 => coordsAt 6 1
  | .b128 => coordsAt 7 0

/-- An element of the subfield: a coordinate of some element. -/
def InSubfield (c : Coords F) (x : F) : Prop := ∃ y i, x = c.coord y i

/-- The table over the subfield that a packed table stands for: value `i` is coordinate `i mod 2^kappa` of packed value
`i / 2^kappa`. -/
def unpacked (c : Coords F) (kappa : Nat) (t : Nat → F) : Nat → F :=
  fun i => c.coord (t (i / 2 ^ kappa)) (i % 2 ^ kappa)

/-- The evaluation claim is true: the committed polynomial named by the claim, as a polynomial over the subfield of its
oracle, has the claimed value.  `polys` are the packed tables of the committed polynomials. -/
def ClaimTrue (tw : Tower F) (os : OracleSet F) (index : SparseIndex Nat) (polys : Nat → Nat → F) (c : Claim F) : Prop :=
  ∃ o idx l, os.get c.id = some o ∧ index c.id = some idx ∧ Level.towerLevel l = o.towerLevel ∧
    mle (unpacked (tw l) l.kappa (polys idx)) c.point = c.eval

/-- The sumcheck claim is true: the sum over the hypercube of the product of the committed polynomial and the transparent
one has the claimed value. -/
def SumTrue (tw : Tower F) (polys : Nat → Nat → F) (transparents : List (EqInd F)) (s : PiopClaim F) : Prop :=
  ∃ (p : EqInd F) (A : Nat → F), transparents[s.transparent]? = some p ∧
    (∀ u < 2 ^ s.nVars, p.evaluate tw (vertex s.nVars u) = .ok (A u)) ∧
    ∑ u ∈ range (2 ^ s.nVars), polys s.committed u * A u = s.sum

/-- `vals` is the table of the transparent polynomial `p`: its values at the vertices of the hypercube. -/
def IsTable (tw : Tower F) (vals : List F) (p : EqInd F) : Prop :=
  vals.length = 2 ^ p.z.length ∧ ∀ u v, vals[u]? = some v → p.evaluate tw (vertex p.z.length u) = .ok v

/-- What the honest prover knows about one claim: the witness of its committed polynomial, with values in the subfield of
the oracle and the claimed value at the point of the claim; the polynomial committed to is the packed witness, and
memoized partial evaluations are partial evaluations of the witness. -/
def HonestClaim (tw : Tower F) (os : OracleSet F) (index : SparseIndex Nat) (polys : Nat → Nat → F)
    (witnesses : List (Witness F)) (memo : Nat → List F → Option (Witness F)) (c : Claim F) : Prop :=
  ∃ o idx l W, os.get c.id = some o ∧ index c.id = some idx ∧ Level.towerLevel l = o.towerLevel ∧
    witnesses[idx]? = some W ∧ W.nVars = c.point.length ∧ (∀ i < 2 ^ W.nVars, InSubfield (tw l) (W.value i)) ∧
    mle W.value c.point = c.eval ∧ polys idx = packedCommitted (tw l) l.kappa W ∧
    ∀ suffix W', memo c.id suffix = some W' → W'.nVars = W.nVars - suffix.length ∧
      ∀ x < 2 ^ W'.nVars, W'.value x = mle (fun t => W.value (t * 2 ^ W'.nVars + x)) suffix

/-- The memory for the table of each claim has the right length and holds zeros from its second element on. -/
def ZeroedMemory (sys : System F) (mems : List (List F)) : Prop :=
  List.Forall₂ (fun (d : ClaimDesc F) (mem : List F) => ∀ s, sys.suffixes[d.suffixIdx]? = some s →
    mem.length = 2 ^ s.suffix.length ∧ mem.tail = List.replicate (2 ^ s.suffix.length - 1) 0) sys.claims mems

/-- The tower levels for which there is a variant of the tensor algebra. -/
def Supported (level : Nat) : Prop := ∃ l : Level, l.towerLevel = level

end Verif.RingSwitch
