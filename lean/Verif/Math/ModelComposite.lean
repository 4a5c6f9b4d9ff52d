import Verif.Math.SpecMle

/-! Model of composites of multilinear polynomials, crates/core/src/polynomial/multivariate.rs.

Simplified: the operations on single multilinears are what C17 and C18 prove of them, under their side conditions; a packed
value is the function that gives its lanes. -/

namespace Verif.Composite

variable {F : Type} [CommRing F]

/-- An error, or a panic. -/
inductive Error where
  | validation
  | query
  | panic
  deriving DecidableEq

/-- A packed field element by its lanes. -/
abbrev Packed (F : Type) := Nat → F

/-- `P::set_single`. -/
def setSingle (x : F) : Packed F := fun i => if i = 0 then x else 0

/-- `CompositionPoly<P>`: what is used of it. -/
structure Composition (F : Type) where
  nVars : Nat
  degree : Nat
  evaluate : List (Packed F) → Except Error (Packed F)

/-- A `MultilinearPoly<P>`: the number of variables and the values on the hypercube. -/
structure Multilinear (F : Type) where
  nVars : Nat
  value : Nat → F

/-- `evaluate` at a query, C17. -/
def Multilinear.evaluate (m : Multilinear F) (point : List F) : Except Error F :=
  if point.length ≠ m.nVars then .error .query else .ok (Mle.mle m.value point)

/-- `evaluate_on_hypercube`, C17. -/
def Multilinear.evaluateOnHypercube (m : Multilinear F) (index : Nat) : Except Error F :=
  if 2 ^ m.nVars ≤ index then .error .query else .ok (m.value index)

/-- `evaluate_partial_low`, C18. -/
def Multilinear.evaluatePartialLow (m : Multilinear F) (point : List F) : Except Error (Multilinear F) :=
  if m.nVars < point.length then .error .query
  else .ok ⟨m.nVars - point.length, fun j => Mle.mle (fun i => m.value (i + 2 ^ point.length * j)) point⟩

/-- `CompositionScalarAdapter::evaluate`, crates/core/src/polynomial/multivariate.rs:147-151. -/
def adapterEvaluate (c : Composition F) (query : List F) : Except Error F :=
  (c.evaluate (query.map setSingle)).map fun r => r 0

/-- `MultilinearComposite`, crates/core/src/polynomial/multivariate.rs:173-183. -/
structure MultilinearComposite (F : Type) where
  composition : Composition F
  nVars : Nat
  multilinears : List (Multilinear F)

/-- `new`, crates/core/src/polynomial/multivariate.rs:191-216. -/
def MultilinearComposite.new (nVars : Nat) (composition : Composition F) (multilinears : List (Multilinear F)) :
    Except Error (MultilinearComposite F) :=
  if composition.nVars ≠ multilinears.length then .error .validation
  else if multilinears.any fun m => m.nVars != nVars then .error .validation
  else .ok ⟨composition, nVars, multilinears⟩

/-- `evaluate`, crates/core/src/polynomial/multivariate.rs:218-229. -/
def MultilinearComposite.evaluate (c : MultilinearComposite F) (point : List F) : Except Error F := do
  let evals ← c.multilinears.mapM fun m => (m.evaluate point).map setSingle
  (c.composition.evaluate evals).map fun r => r 0

/-- `evaluate_on_hypercube`, crates/core/src/polynomial/multivariate.rs:231-239. -/
def MultilinearComposite.evaluateOnHypercube (c : MultilinearComposite F) (index : Nat) : Except Error F := do
  let evals ← c.multilinears.mapM fun m => (m.evaluateOnHypercube index).map setSingle
  (c.composition.evaluate evals).map fun r => r 0

/-- `evaluate_partial_low`, crates/core/src/polynomial/multivariate.rs:283-302; the subtraction panics if it underflows. -/
def MultilinearComposite.evaluatePartialLow (c : MultilinearComposite F) (point : List F) :
    Except Error (MultilinearComposite F) := do
  let multilinears ← c.multilinears.mapM fun m => m.evaluatePartialLow point
  if c.nVars < point.length then .error .panic
  else .ok ⟨c.composition, c.nVars - point.length, multilinears⟩

end Verif.Composite
