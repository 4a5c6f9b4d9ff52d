import Verif.Oracle.ModelOracle
import Verif.Transparent.SpecTransparent
import Verif.Transparent.SpecShift
import Verif.Math.PropsArith

/-! Specification of the oracles: the table of values on the hypercube that each kind of oracle stands for, in terms of
the tables of the oracles it refers to (docs of crates/core/src/oracle/multilinear.rs and the checks of
crates/core/src/constraint_system/validate.rs:116-290). -/

set_option linter.dupNamespace false

namespace Verif.Oracle

open Verif.Mle Finset

variable {F : Type} [CommRing F] [DecidableEq F]

/-- The table `t` of `2^n` values is what the oracle `o` stands for, when `tab id` is the table of oracle `id` and
`β iota` the basis of the field over its subfield of level `iota`. -/
def IsTable (β : Nat → Nat → F) (os : OracleSet F) (tab : Nat → Nat → F) (o : Oracle F) (t : Nat → F) : Prop :=
  match o.variant with
  | .committed => True
  | .transparent p _ => ∀ i < 2 ^ o.nVars, p.evaluate (vertex o.nVars i) = .ok (t i)
  | .structured c => ∀ i < 2 ^ o.nVars,
      Arith.evaluate c (vertex o.nVars i ++ List.replicate (Arith.nVars c - o.nVars) 0) = some (t i)
  | .repeating id logCount => ∀ i < 2 ^ o.nVars, t i = tab id (i % 2 ^ (o.nVars - logCount))
  | .projected id values s => ∀ i < 2 ^ o.nVars,
      t i = mle (fun j => tab id (i % 2 ^ s + 2 ^ s * (j + 2 ^ values.length * (i / 2 ^ s)))) values
  | .shifted id offset b v => ∀ i < 2 ^ o.nVars,
      t i = Transparent.shifted v b offset (fun x => tab id (x + 2 ^ b * (i / 2 ^ b))) (i % 2 ^ b)
  | .packed id k => ∀ inner, os.get id = some inner → ∀ i < 2 ^ o.nVars,
      t i = ∑ e ∈ range (2 ^ k), tab id (e + 2 ^ k * i) * β inner.towerLevel e
  | .linearCombination offset inner => ∀ i < 2 ^ o.nVars, t i = offset + (inner.map fun p => p.2 * tab p.1 i).sum
  | .zeroPadded id k nz s => ∀ i < 2 ^ o.nVars,
      t i = if i / 2 ^ s % 2 ^ k = nz then tab id (i % 2 ^ s + 2 ^ s * (i / 2 ^ s / 2 ^ k)) else 0
  | .composite inner c => ∀ i < 2 ^ o.nVars, Arith.evaluate c (inner.map fun id => tab id i) = some (t i)

/-- `tab` gives every oracle of the set the table it stands for. -/
def IsTables (β : Nat → Nat → F) (os : OracleSet F) (tab : Nat → Nat → F) : Prop :=
  ∀ id o, os.get id = some o → IsTable β os tab o (tab id)

/-- The oracle `id` refers to oracles of the set that come before it, and its parameters fit their sizes. -/
def WellFormedOracle (os : OracleSet F) (id : Nat) (o : Oracle F) : Prop :=
  match o.variant with
  | .committed => True
  | .transparent p _ => p.nVars = o.nVars
  | .structured _ => True
  | .repeating j logCount => j < id ∧ ∃ inner, os.get j = some inner ∧ o.nVars = inner.nVars + logCount
  | .projected j values s => j < id ∧ ∃ inner, os.get j = some inner ∧ o.nVars + values.length = inner.nVars ∧
      s ≤ o.nVars
  | .shifted j offset b _ => j < id ∧ ∃ inner, os.get j = some inner ∧ o.nVars = inner.nVars ∧ b ≤ o.nVars ∧
      0 < offset ∧ offset < 2 ^ b
  | .packed j k => j < id ∧ ∃ inner, os.get j = some inner ∧ o.nVars + k = inner.nVars ∧
      o.towerLevel = inner.towerLevel + k
  | .linearCombination _ inner => ∀ p ∈ inner, p.1 < id ∧ ∃ i, os.get p.1 = some i ∧ i.nVars = o.nVars
  | .zeroPadded j k nz s => j < id ∧ ∃ inner, os.get j = some inner ∧ o.nVars = inner.nVars + k ∧ s ≤ inner.nVars ∧
      nz ≤ 2 ^ k
  | .composite inner c => (∀ j ∈ inner, j < id ∧ ∃ i, os.get j = some i ∧ i.nVars = o.nVars) ∧
      Arith.nVars c ≤ inner.length

/-- Every oracle of the set is well formed. -/
def WellFormed (os : OracleSet F) : Prop := ∀ id o, os.get id = some o → WellFormedOracle os id o

/-- The set `os'` is `os` with the oracle `o` added at the end, with identifier `id`. -/
def Adds (os : OracleSet F) (o : Oracle F) (r : OracleSet F × Nat) : Prop :=
  r.2 = os.oracles.length ∧ r.1.get r.2 = some o ∧ r.1.oracles.length = os.oracles.length + 1 ∧
    (∀ j < os.oracles.length, r.1.get j = os.get j) ∧ r.1.size = os.size + 1

/-- What the code requires of the parameters of an oracle without checking it: a transparent or structured polynomial is
multilinear, and a circuit is one that the constructors of circuits can build. -/
def Lawful (o : Oracle F) : Prop :=
  match o.variant with
  | .transparent p _ => ∃ t, Transparent.IsExtensionOf p o.nVars t
  | .structured c => ∃ g : List F → F, IsMultilinear o.nVars g ∧ ∀ q, q.length = o.nVars →
      Arith.evaluate c (q ++ List.replicate (Arith.nVars c - o.nVars) 0) = some (g q)
  | .composite _ c => Arith.Built c
  | _ => True

end Verif.Oracle
