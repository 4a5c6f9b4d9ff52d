import Verif.Piop.ModelCommit
import Mathlib.Data.List.Perm.Basic
import Mathlib.Data.List.Nodup

/-! Specification of the commitment order. -/

set_option linter.dupNamespace false

namespace Verif.Piop

open Verif.Oracle (OracleSet Oracle Variant)

variable {F : Type}

/-- Identifier `id` names a committed oracle with `n` packed variables. -/
def Committed (level : Nat) (os : OracleSet F) (id n : Nat) : Prop :=
  ∃ o, os.get id = some o ∧ o.variant = Variant.committed ∧ n = o.nVars + o.towerLevel - level

/-- The polynomials that a description is about, in the order of its sumcheck claim: the committed ones, then the
transparent ones, by their positions. -/
def descPolys (d : ClaimDesc F) : List (Nat ⊕ Nat) :=
  (List.range' d.committed.1 (d.committed.2 - d.committed.1)).map .inl ++
    (List.range' d.transparent.1 (d.transparent.2 - d.transparent.1)).map .inr

/-- The numbers of variables of the committed polynomials, in their order: `counts[0]` polynomials with `v` variables,
`counts[1]` with `v + 1`, and so on. -/
def sizes : Nat → List Nat → List Nat
  | _, [] => []
  | v, n :: l => List.replicate n v ++ sizes (v + 1) l

/-- A claim is about a committed and a transparent polynomial with its number of variables. -/
def Fits (counts transparents : List Nat) (c : PiopClaim F) : Prop :=
  (sizes 0 counts)[c.committed]? = some c.nVars ∧ transparents[c.transparent]? = some c.nVars

instance (counts transparents : List Nat) (c : PiopClaim F) : Decidable (Fits counts transparents c) := by
  unfold Fits; infer_instance

end Verif.Piop
