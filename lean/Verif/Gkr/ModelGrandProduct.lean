import Mathlib.Algebra.Field.Defs

/-! Model of the grand product witness, crates/core/src/protocols/gkr_gpa/gkr_gpa.rs.

A packed element of width `2^w` is the function giving its scalars; only positions below `2^w` are ever used.  `none` is a
panic.  `usize` arithmetic is exact. -/

set_option linter.dupNamespace false

namespace Verif.Gkr

variable {F : Type} [Field F]

/-- A packed field element. -/
abbrev Packed (F : Type) := Nat → F

/-- `get_packed_slice`, crates/field/src/packed.rs:312-316: the assertion panics. -/
def getPackedSlice (w : Nat) (v : List (Packed F)) (i : Nat) : Option F := v[i / 2 ^ w]?.map fun p => p (i % 2 ^ w)

/-- `PackedField::set`. -/
def Packed.set (p : Packed F) (i : Nat) (x : F) : Packed F := fun j => if j = i then x else p j

/-- The lanes `i, i + 1, …` of the layer with fewer scalars than a packed element, gkr_gpa.rs:78-82; `count` of them are
left. -/
def setProducts (w half : Nat) (prev : List (Packed F)) : Nat → Nat → Packed F → Option (Packed F)
  | _, 0, layer => some layer
  | i, count + 1, layer =>
    (getPackedSlice w prev i).bind fun a =>
      (getPackedSlice w prev (i ||| half)).bind fun b =>
        setProducts w half prev (i + 1) count (layer.set i (a * b))

/-- The next layer, gkr_gpa.rs:49-85.  The products are written to the first elements (the zip stops at the shortest of the
three), the others are copied. -/
def nextLayer (w layerNVars : Nat) (prev : List (Packed F)) : Option (List (Packed F)) :=
  let len := min prev.length (2 ^ (layerNVars - w))
  let layer : List (Packed F) := List.replicate len fun _ => 0
  if w ≤ layerNVars then
    let packedLen := 2 ^ (layerNVars - w)
    let pivot := prev.length - packedLen
    let hi := min packedLen prev.length
    -- `split_at` panics
    if pivot > 0 ∧ packedLen > prev.length then none
    else
      let products := if pivot > 0 then
          List.zipWith (fun a b : Packed F => fun i => a i * b i) (prev.take packedLen) (prev.drop packedLen)
        else []
      let written := products.take layer.length ++ layer.drop products.length
      -- the slices `layer[pivot..]`, `prev_layer[pivot..hi]` and `copy_from_slice` panic
      if pivot > written.length ∨ pivot > hi ∨ hi > prev.length ∨ written.length - pivot ≠ hi - pivot then none
      else some (written.take pivot ++ (prev.take hi).drop pivot)
  else if prev ≠ [] then
    match layer with
    | [] => none
    | first :: rest => (setProducts w (2 ^ layerNVars) prev 0 (2 ^ layerNVars) first).map fun p => p :: rest
  else some layer

/-- The loop of `GrandProductWitness::new`, gkr_gpa.rs:49-86: the layers after `prev`, which has `n` variables. -/
def layersFrom (w : Nat) : Nat → List (Packed F) → Option (List (List (Packed F)))
  | 0, _ => some []
  | n + 1, prev => (nextLayer w n prev).bind fun layer => (layersFrom w n layer).map fun l => layer :: l

/-- `GrandProductWitness::new`, gkr_gpa.rs:40-90: `none` is a panic, `some none` the error
`NumberOfVariablesMismatch`, and otherwise the layers. -/
def witnessNew (w nVars : Nat) (input : List (Packed F)) : Option (Option (List (List (Packed F)))) :=
  if input.length > 2 ^ (nVars - w) then some none
  else (layersFrom w nVars input).map fun l => some (input :: l)

/-- `n_vars`, gkr_gpa.rs:93-95. -/
def witnessNVars (layers : List (List (Packed F))) : Nat := layers.length - 1

/-- `grand_product_evaluation`, gkr_gpa.rs:98-102; there is always a layer. -/
def grandProductEvaluation (layers : List (List (Packed F))) : Option F :=
  layers.getLast?.map fun first => match first with
    | [] => 1
    | p :: _ => p 0

end Verif.Gkr
