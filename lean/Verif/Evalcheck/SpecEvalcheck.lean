import Verif.Evalcheck.ModelEvalcheck
import Verif.Oracle.SpecOracle

/-! Specification of the evalcheck verifier: what it means for a claim or a constraint set to be true of the tables of
the oracles. -/

set_option linter.dupNamespace false

namespace Verif.Evalcheck

open Verif.Mle Finset
open Verif.Oracle (OracleSet)

variable {F : Type} [Field F] [DecidableEq F]

/-- The claimed evaluation is the value of the multilinear extension of the oracle's table at the point. -/
def Claim.True (tab : Nat → Nat → F) (c : Claim F) : Prop := mle (tab c.id) c.point = c.eval

/-- The claim is about an oracle of the set and its point has as many coordinates as the oracle has variables. -/
def Claim.Fits (os : OracleSet F) (c : Claim F) : Prop := ∃ o, os.get c.id = some o ∧ o.nVars = c.point.length

/-- Every constraint of a sumcheck set holds: the values of the composition over the hypercube add up to the claimed
sum. -/
def ConstraintSet.SumTrue (tab : Nat → Nat → F) (s : ConstraintSet F) : Prop :=
  ∀ c ∈ s.constraints, ∃ f : Nat → F,
    (∀ i < 2 ^ s.nVars, Arith.evaluate c.1 (s.oracleIds.map fun id => tab id i) = some (f i)) ∧
    ∑ i ∈ range (2 ^ s.nVars), f i = c.2

/-- Every constraint of a set of multilinear extension checks holds: the point has the right number of coordinates, and
the multilinear extension of the values of the composition takes the claimed value there. -/
def ConstraintSet.MleTrue (tab : Nat → Nat → F) (point : List F) (s : ConstraintSet F) : Prop :=
  point.length = s.nVars ∧ ∀ c ∈ s.constraints, ∃ f : Nat → F,
    (∀ i < 2 ^ s.nVars, Arith.evaluate c.1 (s.oracleIds.map fun id => tab id i) = some (f i)) ∧
    mle f point = c.2

/-- `TowerBasis` does what it says for the bases `β`: accepted exactly up to the level of the field, and then the
multilinear extension of the basis (`Transparent.C30_tower_basis`). -/
def BasisLawful (ops : Ops F) (β : Nat → Nat → F) : Prop :=
  ∀ k iota, (iota + k ≤ ops.level → ∃ p, ops.towerBasis k iota = .ok p ∧ Transparent.IsExtensionOf p k (β iota)) ∧
    (ops.level < iota + k → ops.towerBasis k iota = .error .argumentRange)

/-- The set is well formed and its unchecked parameters are lawful. -/
def Sound (os : OracleSet F) : Prop := Oracle.WellFormed os ∧ ∀ id o, os.get id = some o → Oracle.Lawful o

/-- `os'` has the oracles of `os`, and maybe more. -/
def Extends (os os' : OracleSet F) : Prop :=
  os.oracles.length ≤ os'.oracles.length ∧ ∀ j < os.oracles.length, os'.get j = os.get j

end Verif.Evalcheck
