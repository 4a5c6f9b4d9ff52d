import Verif.Utils.ModelSerialization

/-!
# Specification for serialization

`Fits` says that no `usize` and no length occurring anywhere in a value exceeds `u32::MAX`;
`Supported` says that every enum has at most 256 variants (its index is written in one byte) and
that `SmallU` has fewer than 8 bits, as the Rust type requires.
-/

namespace Verif.Ser

/-- `u32::MAX`. -/
def u32Max : Nat := 2 ^ 32 - 1

mutual
/-- Every `usize` and every length inside the value fits in a `u32`. -/
def Ty.Fits : (t : Ty) → t.Val → Prop
  | .uint _, _ => True
  | .usize, (x : Nat) => x ≤ u32Max
  | .bool, _ => True
  | .phantom, _ => True
  | .str, (x : String) => x.toUTF8.size ≤ u32Max
  | .vec t, (x : List t.Val) => x.length ≤ u32Max ∧ ∀ y ∈ x, t.Fits y
  | .opt t, (x : Option t.Val) => ∀ y, x = some y → t.Fits y
  | .pair a b, x => a.Fits x.1 ∧ b.Fits x.2
  | .bytes _, _ => True
  | .small _, _ => True
  | .aes _, _ => True
  | .struct fs, x => fs.Fits x
  | .enum vs, x => vs.Fits x

def Fields.Fits : (fs : Fields) → fs.Val → Prop
  | .nil, _ => True
  | .cons t fs, (x, y) => t.Fits x ∧ fs.Fits y

def Variants.Fits : (vs : Variants) → vs.Val → Prop
  | .nil, _ => True
  | .cons fs _, .inl x => fs.Fits x
  | .cons _ vs, .inr x => vs.Fits x
end

def Variants.count : Variants → Nat
  | .nil => 0
  | .cons _ vs => vs.count + 1

mutual
def Ty.Supported : Ty → Prop
  | .vec t => t.Supported
  | .opt t => t.Supported
  | .pair a b => a.Supported ∧ b.Supported
  | .small w => w < 8
  | .struct fs => fs.Supported
  | .enum vs => vs.Supported ∧ vs.count ≤ 256
  | _ => True

def Fields.Supported : Fields → Prop
  | .nil => True
  | .cons t fs => t.Supported ∧ fs.Supported

def Variants.Supported : Variants → Prop
  | .nil => True
  | .cons fs vs => fs.Supported ∧ vs.Supported
end

end Verif.Ser
