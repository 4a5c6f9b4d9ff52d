import Verif.Piop.ModelMerge
import Verif.Piop.SpecPiop

/-! Specification of the committed message. -/

namespace Verif.Piop

open Verif

variable {F : Type} [Field F]

/-- The polynomial that is committed to in place of `m`: its packed evaluations, in `κ` variables less, or, if it has fewer than
`κ` variables, the one element it is padded to. -/
def Multilin.poly (m : Multilin F) : Nat × (Nat → F) :=
  if m.nVars < m.kappa then (0, fun _ => m.padded)
  else (m.nVars - m.kappa, fun x => (m.packedEvals.map fun e => e.val x).getD 0)

/-- The polynomial has its packed evaluations, as many as its size says, or one packed element of `2 ^ w` scalars if they are
fewer; or it has too few variables to have any. -/
def Multilin.Valid (w : Nat) (m : Multilin F) : Prop :=
  m.nVars < m.kappa ∨ ∃ e, m.packedEvals = some e ∧ e.size = max (2 ^ (m.nVars - m.kappa)) (2 ^ w)

/-- The number of scalars in the tables of the polynomials. -/
def totalSize (ps : List (Nat × (Nat → F))) : Nat := (ps.map fun p => 2 ^ p.1).sum

/-- From the smallest to the largest. -/
def SortedBySize (ps : List (Nat × (Nat → F))) : Prop := (ps.map Prod.fst).Pairwise (· ≤ ·)

end Verif.Piop
