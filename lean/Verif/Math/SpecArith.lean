import Verif.Math.ModelArith

/-! Reference semantics for C21: the value of an expression tree, and what it means that the addresses in
an expression are those of a memory. -/

namespace Verif.Arith

variable {F : Type*} [CommRing F]

/-- The value of an expression at an assignment; `none` if a variable has no value. -/
def Expr.value (q : List F) : Expr F → Option F
  | .const c => some c
  | .var i => q[i]?
  | .add _ l _ r => (l.value q).bind fun a => (r.value q).bind fun b => some (a + b)
  | .mul _ l _ r => (l.value q).bind fun a => (r.value q).bind fun b => some (a * b)
  | .pow _ b e => (b.value q).bind fun a => some (a ^ e)

/-- Every child of the expression is the node that memory `H` holds at the child's address. -/
def Expr.InMemory (H : Nat → Option (Expr F)) : Expr F → Prop
  | .const _ => True
  | .var _ => True
  | .add pl l pr r => H pl = some l ∧ H pr = some r ∧ l.InMemory H ∧ r.InMemory H
  | .mul pl l pr r => H pl = some l ∧ H pr = some r ∧ l.InMemory H ∧ r.InMemory H
  | .pow pb b _ => H pb = some b ∧ b.InMemory H

end Verif.Arith
