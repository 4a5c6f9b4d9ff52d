import Verif.Math.LemmasArith

/-! When a circuit is compiled correctly: the steps the compiler asks for, and which of them it may ask
for once only. -/

namespace Verif.Arith

variable {F : Type*}

/-- The step computes something: it is not a constant or a variable. -/
def Step.isOp : Step F → Bool
  | .const _ => false
  | .var _ => false
  | _ => true

/-- Step `i` of the circuit exists and computes something. -/
def isOp (c : Circuit F) (i : Nat) : Bool := (c[i]?.map Step.isOp).getD false

/-- The steps whose values are asked for to compute a step.  A product added to a computed value is not
asked for: it is expanded into its two factors. -/
def operands (c : Circuit F) : Step F → List Nat
  | .add l r =>
    match c[r]? with
    | some (.mul x y) => if isOp c l then [l, x, y] else [l, r]
    | _ => [l, r]
  | .mul l r => [l, r]
  | .pow b _ => [b]
  | _ => []

/-- The steps whose values are asked for to compute the result. -/
inductive Asked (c : Circuit F) : Nat → Prop
  | root : Asked c (c.length - 1)
  | operand {i : Nat} {s : Step F} {j : Nat} : Asked c i → c[i]? = some s → j ∈ operands c s → Asked c j

/-- The step is a power with an odd exponent. -/
def OddPow (c : Circuit F) (i : Nat) : Prop := ∃ b e, c[i]? = some (.pow b e) ∧ e % 2 = 1

/-- The step is a computed value to which a product is added. -/
def Accumulator (c : Circuit F) (p : Nat) : Prop :=
  isOp c p = true ∧ ∃ i r x y : Nat, c[i]? = some (.add p r) ∧ c[r]? = some (.mul x y)

/-- No exponent is 0 or 1, and each odd power and each computed value to which a product is added is used
in one place only. -/
structure Safe (c : Circuit F) : Prop where
  exponent : ∀ i b e : Nat, c[i]? = some (.pow b e) → 2 ≤ e
  once : ∀ p, OddPow c p ∨ Accumulator c p → ∀ (i j : Nat) (s t : Step F), Asked c i → Asked c j →
    c[i]? = some s → c[j]? = some t → p ∈ operands c s → p ∈ operands c t →
    i = j ∧ (operands c s).count p = 1

/-- No computed value is used twice. -/
def NoSharing (c : Circuit F) : Prop :=
  ∀ p, isOp c p = true → ∀ (i j : Nat) (s t : Step F), c[i]? = some s → c[j]? = some t →
    p ∈ s.refs → p ∈ t.refs → i = j ∧ s.refs.count p = 1

/-- No product of two constants. -/
def NoConstProduct (c : Circuit F) : Prop :=
  ∀ (r x y : Nat) (a b : F), c[r]? = some (.mul x y) → ¬(c[x]? = some (.const a) ∧ c[y]? = some (.const b))

end Verif.Arith
