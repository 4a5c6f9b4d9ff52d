import Mathlib.Order.Basic

/-! Specification of the sparse index: a partial map from identifiers to values. -/

namespace Verif.Containers

/-- What a caller does with an index: `set`, `entry(id).or_insert(v)`, and a write of `f` of the value through `get_mut`. -/
inductive Op (T : Type) where
  | set (id : Nat) (v : T)
  | orInsert (id : Nat) (v : T)
  | modify (id : Nat) (f : T → T)

/-- What it does to the map. -/
def Op.apply {T : Type} : Op T → (Nat → Option T) → Nat → Option T
  | .set id v, m => fun i => if i = id then some v else m i
  | .orInsert id v, m => fun i => if i = id then some ((m id).getD v) else m i
  | .modify id f, m => fun i => if i = id then (m id).map f else m i

end Verif.Containers
