import Verif.Transparent.ModelShift
import Verif.Math.SpecMle

/-! Specification of the shift indicators, crates/core/src/transparent/shift_ind.rs:15-27. -/

namespace Verif.Transparent

/-- The relation between the coordinate `x` of the original block and the coordinate `y` of the shifted block, for
blocks of `2^b` values shifted by `o`. -/
def ShiftRel (v : ShiftVariant) (b o x y : Nat) : Prop :=
  match v with
  | .circularLeft => (x + o) % 2 ^ b = y
  | .logicalLeft => x + o = y
  | .logicalRight => x = y + o

instance (v : ShiftVariant) (b o x y : Nat) : Decidable (ShiftRel v b o x y) := by
  unfold ShiftRel; cases v <;> infer_instance

/-- The shift of the block `t` of `2^b` values: value `y` of the result is the value of `t` at the coordinate that `y`
comes from, or zero. -/
def shifted {F : Type*} [Zero F] (v : ShiftVariant) (b o : Nat) (t : Nat → F) (y : Nat) : F :=
  match v with
  | .circularLeft => t ((y + 2 ^ b - o) % 2 ^ b)
  | .logicalLeft => if o ≤ y then t (y - o) else 0
  | .logicalRight => if y + o < 2 ^ b then t (y + o) else 0

end Verif.Transparent
