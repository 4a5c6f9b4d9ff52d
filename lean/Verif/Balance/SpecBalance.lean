import Verif.Balance.ModelBalance
import Verif.Channel.SpecChannel
import Verif.Evalcheck.SpecEvalcheck
import Mathlib.Data.Nat.Log

/-! Specification of the channel check of the verifier.  The tuples that are sent, their counts and balance are those of
`Verif.Channel.SpecChannel`. -/

set_option linter.dupNamespace false

namespace Verif.Balance

open Verif.Channel (Flush Boundary Direction OracleOrConst Event)
open Verif.Oracle (OracleSet TowerOps IsTables)
open Finset

/-- The size meets the specification. -/
def Meets (size : Nat) : SizeSpec → Prop
  | .arbitrary => True
  | .powerOfTwo => ∃ k < 64, size = 2 ^ k
  | .fixed k => size = 2 ^ k

variable {F : Type} [Field F] [DecidableEq F]

/-- The fingerprint of a tuple: `r + t_0 + t_1 s + t_2 s² + …`. -/
def fingerprint (s r : F) (t : List F) : F := r + (t.zipIdx.map fun p => p.1 * s ^ p.2).sum

/-- The product of the fingerprints of all tuples sent to the channel `c` in the direction `d`. -/
def fingerprintProduct (es : List (Event F)) (d : Direction) (c : Nat) (s r : F) : F :=
  ((es.filter fun e => e.direction = d ∧ e.channel = c).map fun e => fingerprint s r e.tuple ^ e.multiplicity).prod

/-- The witness that the tables of the oracles are. -/
def witnessOf (os : OracleSet F) (tab : Nat → Nat → F) : Channel.Witness F :=
  fun id => (os.get id).map fun o => ⟨o.nVars, tab id⟩

/-- The size of a flush's table. -/
def rows (tableSizes : List Nat) (f : Flush F) : Nat := tableSizes.getD f.tableId 0

/-- What holds of an instantiated constraint system: the sizes meet their specifications, every flush is on one of the
tables, and on a table that is not empty it has an oracle, its oracles and selectors have the size of the table rounded up
to a power of two, and its selectors are bits. -/
structure Shaped (os : OracleSet F) (tab : Nat → Nat → F) (flushes : List (Flush F)) (specs : List SizeSpec)
    (tableSizes : List Nat) : Prop where
  sizes : checkTableSizes tableSizes specs = .ok ()
  table : ∀ f ∈ flushes, f.tableId < tableSizes.length
  oracles : ∀ f ∈ flushes, rows tableSizes f ≠ 0 → ∀ id, .oracle id ∈ f.oracles ∨ id ∈ f.selectors →
    ∃ o, os.get id = some o ∧ o.nVars = Nat.clog 2 (rows tableSizes f) + f.logValuesPerRow
  some_oracle : ∀ f ∈ flushes, rows tableSizes f ≠ 0 → ∃ id, .oracle id ∈ f.oracles
  selectors : ∀ f ∈ flushes, rows tableSizes f ≠ 0 → ∀ id ∈ f.selectors, ∀ o, os.get id = some o →
    o.towerLevel = 0 ∧ ∀ i < 2 ^ o.nVars, tab id i = 0 ∨ tab id i = 1

/-- The product of all values of an oracle. -/
def grandProduct (os : OracleSet F) (tab : Nat → Nat → F) (id : Nat) : F :=
  ∏ i ∈ range (2 ^ ((os.get id).map (·.nVars)).getD 0), tab id i

/-- The verifier's channel check passes with the true grand products, for the mixing challenge `s` and the channel
challenges `rs`: `tab` gives the values of the oracles of the system, and `tab'` those together with the oracles that the
check adds. -/
def Accepts (β : Nat → Nat → F) (ops : TowerOps F) (os : OracleSet F) (tab : Nat → Nat → F)
    (flushes : List (Flush F)) (boundaries : List (Boundary F)) (specs : List SizeSpec) (tableSizes : List Nat)
    (s : F) (rs : List F) : Prop :=
  ∃ fl os₁ fl₁ os₂ ids tab', prepare tableSizes flushes = some fl ∧
    augment ops os fl specs tableSizes = some (.ok (os₁, fl₁)) ∧
    makeFlushOracles ops os₁ fl₁ s rs = some (.ok (os₂, ids)) ∧
    IsTables β os₂ tab' ∧ (∀ id o, os.get id = some o → ∀ i < 2 ^ o.nVars, tab' id i = tab id i) ∧
    verifyChannelsBalance fl₁ (ids.map (grandProduct os₂ tab')) boundaries s rs = some (.ok ())

/-- The number of values sent to a channel in a direction. -/
def volume (es : List (Event F)) (d : Direction) (c : Nat) : Nat :=
  ((es.filter fun e => e.direction = d ∧ e.channel = c).map (·.multiplicity)).sum

end Verif.Balance
