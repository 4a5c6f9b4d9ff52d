import Verif.Utils.ModelSerialization

/-! Model of the serialization of transparent polynomials of any type, crates/core/src/transparent/serialization.rs.

`α` stands for the boxed polynomials. Serializers and deserializers are those of C01. -/

namespace Verif.Registry

open Verif.Ser

variable {α : Type}

/-- `SerializationError` with the variants that only occur here. -/
inductive Error where
  | ser (e : Err)
  | nameConflict (name : String)
  | notImplemented
  deriving DecidableEq

/-- `DeserializerEntry`, crates/core/src/transparent/serialization.rs:77-80. -/
structure Entry (α : Type) where
  name : String
  deserializer : R α

/-- The hash map of `REGISTRY`, as a partial map. -/
abbrev Map (α : Type) := String → Option (Option (R α))

/-- The body of `for_each`, crates/core/src/transparent/serialization.rs:57-64. -/
def insert (registry : Map α) (e : Entry α) : Map α := fun name =>
  if name = e.name then
    match registry e.name with
    | none => some (some e.deserializer)
    | some _ => some none
  else registry name

/-- `REGISTRY`, crates/core/src/transparent/serialization.rs:52-66, of the entries in the order in which `inventory` gives
them. -/
def registry (entries : List (Entry α)) : Map α := entries.foldl insert fun _ => none

/-- `erased_serialize`, crates/macros/src/lib.rs:280-289, of a type with a name whose serializer is given. -/
def erasedSerialize (name : String) (body : W) : W := (serStr name).seq body

/-- `deserialize` of `Box<dyn MultivariatePoly<BinaryField128b>>`, crates/core/src/transparent/serialization.rs:31-46. -/
def deserialize (entries : List (Entry α)) (buf : List UInt8) : Except Error (α × List UInt8) :=
  match deStr buf with
  | .error e => .error (.ser e)
  | .ok (name, rest) =>
    match registry entries name with
    | some (some d) => match d rest with
      | .error e => .error (.ser e)
      | .ok r => .ok r
    | some none => .error (.nameConflict name)
    | none => .error .notImplemented

/-- `ArithCircuitStep`, crates/math/src/arith_expr.rs:199-206, with values of 16 bytes. -/
def stepTy : Ty := .enum (.cons (.cons .usize (.cons .usize .nil)) (.cons (.cons .usize (.cons .usize .nil))
  (.cons (.cons .usize (.cons (.uint 8) .nil)) (.cons (.cons (.uint 16) .nil) (.cons (.cons .usize .nil) .nil)))))

/-- `erased_serialize` of `ArithCircuit`, crates/core/src/polynomial/multivariate.rs:97-103, of which the steps are the only
field, crates/math/src/arith_expr.rs:223-226. -/
def circuitSerialize (m : Mode) (steps : List stepTy.Val) : W := serVec (stepTy.ser m) steps

end Verif.Registry
