import Verif.Gkr.ModelGrandProduct
import Mathlib.Algebra.BigOperators.Group.Finset.Basic

/-! Specification of the grand product circuit. -/

set_option linter.dupNamespace false

namespace Verif.Gkr

open Finset

variable {F : Type} [Field F]

/-- The scalar `i` of a slice of packed elements of width `2^w`; absent ones are one. -/
def value (w : Nat) (v : List (Packed F)) (i : Nat) : F :=
  match v[i / 2 ^ w]? with
  | some p => p (i % 2 ^ w)
  | none => 1

end Verif.Gkr
