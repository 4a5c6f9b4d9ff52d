import Verif.Gkr.ModelGrandProduct
import Verif.Math.ModelArith

/-! Model of the GKR exponentiation, crates/core/src/protocols/gkr_exp: the witness, the compositions and what one
verifier does in a layer.

One field `F` stands for the field of the base and its extension; the embedding is C09.  A packed element of width `2^w` is
the function giving its scalars.  `none` is a panic. -/

set_option linter.dupNamespace false

namespace Verif.Gkr

variable {F : Type} [Field F] [DecidableEq F]

/-- The errors of error.rs that these functions return. -/
inductive ExpError where
  | emptyExp
  | smallBaseField
  | numberOfVariablesMismatch
  | incorrectQuerySize
  deriving DecidableEq

/-- A column of exponent bits: its number of variables and its values on the hypercube. -/
structure Column (F : Type) where
  nVars : Nat
  val : Nat → F

/-- The bit that `PExpBase::from_fn` computes at index `i`, witness.rs:52-62 and 95-105: an index out of range gives zero. -/
def bitAt (c : Column F) (i : Nat) : F := if (if i < 2 ^ c.nVars then c.val i else 0) = 1 then 1 else 0

/-- `Base`, witness.rs:69-72. -/
inductive Base (F : Type) where
  | static (g : Packed F)
  | dynamic (evals : List (Packed F))

/-- Element `i` of the first layer, witness.rs:90-107; the index into the base panics. -/
def firstElem (w : Nat) (c : Column F) (base : Base F) (i : Nat) : Option (Packed F) :=
  match base with
  | .static g => some fun j => 1 + bitAt c (2 ^ w * i + j) * (1 + g j)
  | .dynamic evals => evals[i]?.map fun b => fun j => 1 + bitAt c (2 ^ w * i + j) * (1 + b j)

/-- `evaluate_first_layer_output_packed`, witness.rs:74-110. -/
def firstLayer (w : Nat) (c : Column F) (base : Base F) : Option (List (Packed F)) :=
  (List.range (2 ^ (c.nVars - w))).mapM (firstElem w c base)

/-- Element `i` of a later layer, witness.rs:46-65; the index into the base panics. -/
def nextElem (w : Nat) (c : Column F) (base : Base F) (p : Packed F × Nat) : Option (Packed F) :=
  match base with
  | .static g => some fun j => p.1 j * (1 + bitAt c (2 ^ w * p.2 + j) * (1 + g j))
  | .dynamic evals => evals[p.2]?.map fun b => fun j => p.1 j ^ 2 * (1 + bitAt c (2 ^ w * p.2 + j) * (1 + b j))

/-- `evaluate_single_bit_output_packed`, witness.rs:32-67. -/
def nextExpLayer (w : Nat) (c : Column F) (base : Base F) (prev : List (Packed F)) : Option (List (Packed F)) :=
  prev.zipIdx.mapM (nextElem w c base)

/-- `equal_n_vars_check`, crates/core/src/protocols/sumcheck/common.rs:246-264, of a nonempty vector. -/
def equalNVars (n : Nat) : List (Column F) → Bool
  | [] => true
  | c :: cs => if c.nVars ≠ n then false else equalNVars n cs

/-- The loop of `new_with_static_base`, witness.rs:148-156: the layers after `prev`, with `power` the last power of the
base. -/
def staticLayers (w : Nat) : List (Column F) → Packed F → List (Packed F) → Option (List (List (Packed F)))
  | [], _, _ => some []
  | c :: cs, power, prev =>
    (nextExpLayer w c (.static fun j => power j ^ 2) prev).bind fun layer =>
      (staticLayers w cs (fun j => power j ^ 2) layer).map fun l => layer :: l

/-- `new_with_static_base`, witness.rs:118-171; `nBits` is `PExpBase::Scalar::N_BITS`.  The layers have the length that
`MultilinearExtension::new` asks for. -/
def newStatic (w nBits : Nat) (exponent : List (Column F)) (base : F) :
    Option (Except ExpError (List (List (Packed F)))) :=
  match exponent with
  | [] => some (.error .emptyExp)
  | c :: cs =>
    if (c :: cs).length > nBits then some (.error .smallBaseField)
    else if ¬ equalNVars c.nVars cs then some (.error .numberOfVariablesMismatch)
    else
      (firstLayer w c (.static fun _ => base)).bind fun layer =>
        (staticLayers w cs (fun _ => base) layer).map fun l => .ok (layer :: l)

/-- The loop of `build_dynamic_single_bit_output_layers_data`, witness.rs:276-282, over the columns from the last but one
down. -/
def dynamicLayers (w : Nat) (base : Base F) : List (Column F) → List (Packed F) → Option (List (List (Packed F)))
  | [], _ => some []
  | c :: cs, prev =>
    (nextExpLayer w c base prev).bind fun layer => (dynamicLayers w base cs layer).map fun l => layer :: l

/-- `new_with_dynamic_base`, witness.rs:178-284: the base is a multilinear of `baseNVars` variables with the packed values
`evals`.  (The test `DEGREE == 0`, :206, never holds: the degree of a field over itself is 1.) -/
def newDynamic (w nBits : Nat) (exponent : List (Column F)) (baseNVars : Nat) (evals : List (Packed F)) :
    Option (Except ExpError (List (List (Packed F)))) :=
  match exponent, exponent.reverse with
  | c :: cs, last :: rest =>
    if exponent.length > nBits then some (.error .smallBaseField)
    else if ¬ equalNVars c.nVars cs then some (.error .numberOfVariablesMismatch)
    else if c.nVars ≠ baseNVars then some (.error .numberOfVariablesMismatch)
    else if evals.length ≠ 2 ^ (baseNVars - w) then some (.error .numberOfVariablesMismatch)
    else
      (firstLayer w last (.dynamic evals)).bind fun layer =>
        (dynamicLayers w (.dynamic evals) rest layer).map fun l => .ok (layer :: l)
  | _, _ => some (.error .emptyExp)

/-! Compositions. -/

/-- `ExpCompositions`, compositions.rs:11-19. -/
inductive ExpComposition (F : Type) where
  | staticBase (basePower : F)
  | dynamicBase
  | dynamicBaseLastLayer

/-- `n_vars`, compositions.rs:25-30. -/
def ExpComposition.nVars : ExpComposition F → Nat
  | .staticBase _ => 2
  | .dynamicBaseLastLayer => 2
  | .dynamicBase => 3

/-- `degree`, compositions.rs:32-37. -/
def ExpComposition.degree : ExpComposition F → Nat
  | .staticBase _ => 2
  | .dynamicBaseLastLayer => 2
  | .dynamicBase => 4

/-- `expression`, compositions.rs:43-61. -/
def ExpComposition.expression : ExpComposition F → Arith.Circuit F
  | .staticBase g => Arith.mul (Arith.var 0) (Arith.add (Arith.sub (Arith.constant 1) (Arith.var 1))
      (Arith.mul (Arith.var 1) (Arith.constant g)))
  | .dynamicBase => Arith.mul (Arith.pow (Arith.var 0) 2) (Arith.add (Arith.sub (Arith.constant 1) (Arith.var 1))
      (Arith.mul (Arith.var 1) (Arith.var 2)))
  | .dynamicBaseLastLayer => Arith.add (Arith.sub (Arith.constant 1) (Arith.var 1))
      (Arith.mul (Arith.var 1) (Arith.var 0))

/-- `evaluate`, compositions.rs:63-79. -/
def ExpComposition.evaluate (c : ExpComposition F) (query : List F) : Except ExpError F :=
  match c, query with
  | .staticBase g, [a, b] => .ok (a * ((1 - b) + b * g))
  | .dynamicBase, [a, b, g] => .ok (a ^ 2 * ((1 - b) + b * g))
  | .dynamicBaseLastLayer, [g, b] => .ok ((1 - b) + b * g)
  | _, _ => .error .incorrectQuerySize

/-! One verifier. -/

/-- `1 << shift` of a `u64`: with overflow checks a shift by 64 or more panics, without them the shift is taken modulo
64. -/
def shl64 (checks : Bool) (shift : Nat) : Option Nat :=
  if shift < 64 then some (2 ^ shift) else if checks then none else some (2 ^ (shift % 64))

/-- `first_layer_inverse`, utils.rs:5-10, with `invert_or_zero`. -/
def firstLayerInverse (input base : F) : F := (input - 1) * (base - 1)⁻¹

/-- `ExpClaim`, common.rs:46-56. -/
structure ExpClaim (F : Type) where
  evalPoint : List F
  eval : F
  exponentBitWidth : Nat
  nVars : Nat
  staticBase : Option F

/-- `LayerClaim`, common.rs:23-27. -/
structure ExpLayerClaim (F : Type) where
  evalPoint : List F
  eval : F

/-- `is_last_layer`, verifiers.rs:21-23: the subtraction panics (or wraps to a number that is not zero). -/
def isLastLayer (width layerNo : Nat) : Option Bool :=
  if layerNo + 1 ≤ width then some (width - 1 - layerNo = 0) else none

/-- The composition of `layer_composite_sum_claim` of the static verifier, verifiers.rs:122-155; the outer option is a
panic, the inner one `Ok(None)`.  `PackedField::pow` is `^` (C12). -/
def staticComposition (checks : Bool) (g : F) (width layerNo : Nat) : Option (Option (ExpComposition F)) :=
  (isLastLayer width layerNo).bind fun last =>
    if last then some none
    else (shl64 checks (width - 1 - layerNo)).map fun e => some (.staticBase (g ^ e))

/-- The composition of the dynamic verifier, verifiers.rs:244-281. -/
def dynamicComposition (width layerNo : Nat) : Option (ExpComposition F) :=
  (isLastLayer width layerNo).map fun last => if last then .dynamicBaseLastLayer else .dynamicBase

/-- `EvaluationOrder::LowToHigh` takes the last challenges, `HighToLow` the first, verifiers.rs:103-106 and 201-204: the
slices panic. -/
def sliceChallenges (lowToHigh : Bool) (n : Nat) (r : List F) : Option (List F) :=
  if n > r.length then none else some (if lowToHigh then r.drop (r.length - n) else r.take n)

/-- `finish_layer` of the static verifier, verifiers.rs:79-120: the new claim of the verifier and the claim on the exponent
bit. -/
def finishStatic (lowToHigh : Bool) (claim : ExpClaim F) (layerNo : Nat) (evals r : List F) :
    Option (ExpClaim F × ExpLayerClaim F) :=
  (isLastLayer claim.exponentBitWidth layerNo).bind fun last =>
    if last then claim.staticBase.map fun base => (claim, ⟨claim.evalPoint, firstLayerInverse claim.eval base⟩)
    else
      evals[0]?.bind fun layerEval => evals[1]?.bind fun bitEval =>
        (sliceChallenges lowToHigh claim.evalPoint.length r).map fun point =>
          ({ claim with eval := layerEval, evalPoint := point }, ⟨point, bitEval⟩)

/-- `finish_layer` of the dynamic verifier, verifiers.rs:192-242: the new claim, the claim on the exponent bit and the claim
on the base. -/
def finishDynamic (lowToHigh : Bool) (claim : ExpClaim F) (layerNo : Nat) (evals r : List F) :
    Option (ExpClaim F × ExpLayerClaim F × ExpLayerClaim F) :=
  (sliceChallenges lowToHigh claim.evalPoint.length r).bind fun point =>
    evals[1]?.bind fun bitEval =>
      (isLastLayer claim.exponentBitWidth layerNo).bind fun last =>
        if last then evals[0]?.map fun baseEval => (claim, ⟨point, bitEval⟩, ⟨point, baseEval⟩)
        else
          evals[0]?.bind fun layerEval => evals[2]?.map fun baseEval =>
            ({ claim with eval := layerEval, evalPoint := point }, ⟨point, bitEval⟩, ⟨point, baseEval⟩)

/-- The position in the list of exponent bits of the bit that the claim of a layer is about, oracles.rs:102 and 113. -/
def bitIndex (dynamic : Bool) (width layerNo : Nat) : Nat := if dynamic then layerNo else width - 1 - layerNo

end Verif.Gkr
